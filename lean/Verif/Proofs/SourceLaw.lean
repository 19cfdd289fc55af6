import Verif.Proofs.ExchangeLaw
import Verif.Proofs.LawCompare
import Verif.Spec.Sources
import Mathlib.MeasureTheory.Measure.MeasureSpace
import Mathlib.Logic.Equiv.Fin.Basic
import Mathlib.Data.Countable.Basic
import Mathlib.Data.Fintype.Pi
import Mathlib.Algebra.BigOperators.Ring.Finset
import Mathlib.Topology.Algebra.InfiniteSum.ENNReal

/-!
# The samples the shapelets come from

Lemmas for C128: the law of the sources of the shapelets, the threshold samples and the thresholds summed out, and its
invariance when samples of equal length are exchanged.
-/

set_option autoImplicit false
set_option linter.unusedSectionVars false

namespace Convst.SourceLaw
open Convst Spec MeasureTheory
open scoped ENNReal

variable {L Ω : Type} {N : Nat}

/-- Parameters, number of channels and channels of a shapelet, and its source without the sample of the threshold. -/
abbrev Key := (Nat × Nat × Bool × Nat × List Nat) × Option (Nat × Nat × List Nat)

def keyAt (c : Choices) (i : Nat) : Key :=
  ((c.par.length i, c.par.dilation i, c.par.normalize i, c.nch i, c.channels i),
    (c.src i).map fun r => (r.sample, r.index, r.channels))

def testAt (c : Choices) (i : Nat) : Nat := ((c.src i).map fun r => r.test).getD 0

def ext {β : Type} (z : β) (δ : Fin N → β) (i : Nat) : β := if h : i < N then δ ⟨i, h⟩ else z

theorem ext_fin {β : Type} (z : β) (δ : Fin N → β) (i : Fin N) : ext z δ i = δ i := by
  unfold ext
  rw [dif_pos i.2]

def zero : Key := ((0, 0, false, 0, []), none)

/-- The choices with these keys and threshold samples, all thresholds `x`. -/
def mk (δ : Fin N → Key) (τ : Fin N → Nat) (x : ℝ) : Choices where
  par := ⟨N, fun i => (ext zero δ i).1.1, fun i => (ext zero δ i).1.2.1, fun i => (ext zero δ i).1.2.2.1⟩
  nch i := (ext zero δ i).1.2.2.2.1
  channels i := (ext zero δ i).1.2.2.2.2
  src i := (ext zero δ i).2.map fun p => ⟨p.1, p.2.1, ext 0 τ i, p.2.2⟩
  thr _ := x

theorem mk_src (δ : Fin N → Key) (τ : Fin N → Nat) (x : ℝ) (i : Fin N) :
    (mk δ τ x).src i = (δ i).2.map fun p => ⟨p.1, p.2.1, τ i, p.2.2⟩ := by
  show (ext zero δ i).2.map (fun p => (⟨p.1, p.2.1, ext 0 τ i, p.2.2⟩ : Src)) = _
  rw [ext_fin, ext_fin]

theorem within_mk {c : Choices} (hn : c.par.n = N) {δ : Fin N → Key} {τ : Fin N → Nat}
    (hτ : ∀ i, (δ i).2 = none → τ i = 0) (x : ℝ) :
    c.Within (mk δ τ x) ↔ ∀ i : Fin N, keyAt c i = δ i ∧ testAt c i = τ i ∧ (c.src i ≠ none → c.thr i < x) := by
  have key : ∀ i : Fin N, (c.par.length i = (mk δ τ x).par.length i ∧ c.par.dilation i = (mk δ τ x).par.dilation i ∧
      c.par.normalize i = (mk δ τ x).par.normalize i ∧ c.nch i = (mk δ τ x).nch i ∧
      c.channels i = (mk δ τ x).channels i ∧ c.src i = (mk δ τ x).src i ∧
      ((mk δ τ x).src i ≠ none → c.thr i < (mk δ τ x).thr i)) ↔
      (keyAt c i = δ i ∧ testAt c i = τ i ∧ (c.src i ≠ none → c.thr i < x)) := by
    intro i
    have e1 : (mk δ τ x).par.length i = (δ i).1.1 := by show (ext zero δ i).1.1 = _; rw [ext_fin]
    have e2 : (mk δ τ x).par.dilation i = (δ i).1.2.1 := by show (ext zero δ i).1.2.1 = _; rw [ext_fin]
    have e3 : (mk δ τ x).par.normalize i = (δ i).1.2.2.1 := by show (ext zero δ i).1.2.2.1 = _; rw [ext_fin]
    have e4 : (mk δ τ x).nch i = (δ i).1.2.2.2.1 := by show (ext zero δ i).1.2.2.2.1 = _; rw [ext_fin]
    have e5 : (mk δ τ x).channels i = (δ i).1.2.2.2.2 := by show (ext zero δ i).1.2.2.2.2 = _; rw [ext_fin]
    have e6 : (mk δ τ x).thr i = x := rfl
    rw [e1, e2, e3, e4, e5, e6, mk_src]
    have hz := hτ i
    unfold keyAt testAt
    rcases hδ : δ i with ⟨⟨l, d, b, n, ch⟩, o⟩
    rw [hδ] at hz
    cases o with
    | none =>
      have hz := hz rfl
      rw [hz]
      cases hs : c.src i with
      | none => simp [Prod.ext_iff]
      | some r => simp [Prod.ext_iff]
    | some p =>
      cases hs : c.src i with
      | none => simp [Prod.ext_iff]
      | some r =>
        obtain ⟨rs, ri, rt, rc⟩ := r
        obtain ⟨ps, pi, pc⟩ := p
        simp [Prod.ext_iff]
        tauto
  unfold Choices.Within
  constructor
  · rintro ⟨-, h⟩ i
    exact (key i).1 (h i i.2)
  · intro h
    exact ⟨hn, fun i hi => (key ⟨i, hi⟩).2 (h ⟨i, hi⟩)⟩

/-! ## The weights -/

section weights
variable (sl : Bool) (T : Train L) (o : Opt) (multi : Bool)

/-- Weight of the channels and of the source of shapelet `i`. -/
noncomputable def srcWeight (δ : Fin N → Key) (i : Fin N) : ℝ≥0∞ := by
  classical
  exact channelWeight multi T.nf (δ i).1.2.2.2.1 (δ i).1.2.2.2.2 *
    match (δ i).2 with
    | none => if positions T (mk δ 0 0).par o multi (mk δ 0 0).src i (δ i).1.2.2.2.2 = ∅ then 1 else 0
    | some p => if p.2.2 = (δ i).1.2.2.2.2 then
        posWeight sl T (mk δ 0 0).par o multi (mk δ 0 0).src i (δ i).1.2.2.2.2 p.1 p.2.1 else 0

/-- Weight of the threshold sample. -/
noncomputable def tstWeight (k : Key) (t : Nat) : ℝ≥0∞ :=
  match k.2 with
  | none => if t = 0 then 1 else 0
  | some p => testWeight T p.1 t

/-- Weight of the bound of the threshold. -/
noncomputable def bndWeight (δ : Fin N → Key) (τ : Fin N → Nat) (x : ℝ) (i : Fin N) : ℝ≥0∞ :=
  match (mk δ τ 0).src i with
  | none => 1
  | some r => thrWeight o (distTo T (mk δ 0 0).par o i r r.test) x

theorem admissible_core {P : Par} {rec rec' : Nat → Option Src}
    (h : ∀ j, (rec j).map (fun r => (r.sample, r.index, r.channels)) =
      (rec' j).map fun r => (r.sample, r.index, r.channels)) (i : Nat) (ch : List Nat) (s t : Nat) :
    Admissible T P o multi rec i ch s t ↔ Admissible T P o multi rec' i ch s t := by
  have hb : ∀ c, Blocked T P o rec i s c t ↔ Blocked T P o rec' i s c t := by
    have aux : ∀ {rec rec' : Nat → Option Src}, (∀ j, (rec j).map (fun r => (r.sample, r.index, r.channels)) =
        (rec' j).map fun r => (r.sample, r.index, r.channels)) → ∀ c, Blocked T P o rec i s c t →
        Blocked T P o rec' i s c t := by
      rintro rec rec' h c ⟨j, m, r, h1, h2, h3, h4, h5, h6, h7, h8⟩
      have hj := h j
      rw [h4] at hj
      cases hr : rec' j with
      | none => rw [hr] at hj; simp at hj
      | some r' =>
        rw [hr] at hj
        simp only [Option.map_some, Option.some.injEq, Prod.mk.injEq] at hj
        obtain ⟨g1, g2, g3⟩ := hj
        exact ⟨j, m, r', h1, h2, h3, hr, by rw [← g1]; exact h5, by rw [← g3]; exact h6, h7, by rw [← g2]; exact h8⟩
    exact fun c => ⟨aux h c, aux (fun j => (h j).symm) c⟩
  unfold Admissible
  have : (fun c => Blocked T P o rec i s c t) = fun c => Blocked T P o rec' i s c t := funext fun c => propext (hb c)
  rw [this]

theorem posWeight_of_admissible {P : Par} {rec rec' : Nat → Option Src} {T' : Train L} {i : Nat} {ch : List Nat}
    (h : ∀ s t, Admissible T P o multi rec i ch s t ↔ Admissible T' P o multi rec' i ch s t) :
    (∀ s t, posWeight sl T P o multi rec i ch s t = posWeight sl T' P o multi rec' i ch s t) ∧
      positions T P o multi rec i ch = positions T' P o multi rec' i ch := by
  have e : (fun s t => Admissible T P o multi rec i ch s t) = fun s t => Admissible T' P o multi rec' i ch s t :=
    funext fun s => funext fun t => propext (h s t)
  have hp : positions T P o multi rec i ch = positions T' P o multi rec' i ch := by
    ext ⟨s, t⟩
    exact h s t
  refine ⟨fun s t => ?_, hp⟩
  unfold posWeight
  rw [hp]
  have e2 : {s | ∃ t, Admissible T P o multi rec i ch s t} = {s | ∃ t, Admissible T' P o multi rec' i ch s t} := by
    ext u; exact exists_congr fun t => h u t
  have e3 : {t | Admissible T P o multi rec i ch s t} = {t | Admissible T' P o multi rec' i ch s t} := by
    ext u; exact h s u
  rw [e2, e3]
  by_cases hc : Admissible T P o multi rec i ch s t
  · rw [if_pos hc, if_pos ((h s t).1 hc)]
  · rw [if_neg hc, if_neg (fun h' => hc ((h s t).2 h'))]

theorem stepWeight_mk {δ : Fin N → Key} {τ : Fin N → Nat} (hτ : ∀ i, (δ i).2 = none → τ i = 0) (x : ℝ) (i : Fin N) :
    stepWeight sl T (mk δ τ x).par o multi (mk δ τ x).nch (mk δ τ x).channels (mk δ τ x).src (mk δ τ x).thr i =
      srcWeight sl T o multi δ i * tstWeight T (δ i) (τ i) * bndWeight T o δ τ x i := by
  have hc : ∀ j, ((mk δ τ x).src j).map (fun r => (r.sample, r.index, r.channels)) =
      ((mk δ 0 0).src j).map fun r => (r.sample, r.index, r.channels) := by
    intro j
    show ((ext zero δ j).2.map _).map _ = ((ext zero δ j).2.map _).map _
    rw [Option.map_map, Option.map_map]
    rfl
  obtain ⟨q1, q2⟩ := posWeight_of_admissible sl T o multi (P := (mk δ 0 0).par) (T' := T) (i := i)
    (ch := (δ i).1.2.2.2.2) (admissible_core T o multi hc i (δ i).1.2.2.2.2)
  have e4 : (mk δ τ x).nch i = (δ i).1.2.2.2.1 := by show (ext zero δ i).1.2.2.2.1 = _; rw [ext_fin]
  have e5 : (mk δ τ x).channels i = (δ i).1.2.2.2.2 := by show (ext zero δ i).1.2.2.2.2 = _; rw [ext_fin]
  have eP : (mk δ τ x).par = (mk δ 0 0).par := rfl
  have eT : (mk δ τ x).thr i = x := rfl
  have eS : (mk δ τ 0).src = (mk δ τ x).src := rfl
  unfold stepWeight srcWeight tstWeight bndWeight
  rw [e4, e5, eP, eT, eS]
  have hz := hτ i
  have hs := mk_src δ τ x i
  generalize (mk δ 0 0).par = P at *
  generalize (mk δ τ x).src = S at *
  generalize (mk δ 0 0).src = S0 at *
  rw [mul_assoc, mul_assoc]
  congr 1
  cases ho : (δ i).2 with
  | none =>
    rw [ho] at hs
    simp only [Option.map_none] at hs
    simp only [hs, q2, hz ho, if_true, mul_one]
  | some p =>
    rw [ho] at hs
    simp only [Option.map_some] at hs
    simp only [hs, q1]
    split
    · rw [mul_assoc]
    · simp

theorem bndWeight_le (δ : Fin N → Key) (τ : Fin N → Nat) (x : ℝ) (i : Fin N) : bndWeight T o δ τ x i ≤ 1 := by
  unfold bndWeight
  split
  · exact le_refl _
  · unfold thrWeight
    split
    · unfold uniformCdf
      split
      · split <;> simp
      · exact ENNReal.ofReal_le_one.2 (min_le_left _ _)
    · simp

theorem thrWeight_eventually {D : List ℝ} (hD : D ≠ []) (h0 : 0 ≤ o.pMin) (hm : o.pMin ≤ o.pMax) (h3 : o.pMax ≤ 100) :
    ∃ m : Nat, ∀ m' : Nat, m ≤ m' → thrWeight o D m' = 1 := by
  obtain ⟨p0, e0, -⟩ := percentile_ok hD h0 (le_trans hm h3)
  obtain ⟨p1, e1, -⟩ := percentile_ok hD (le_trans h0 hm) h3
  have hle : p0 ≤ p1 := percentile_mono h0 hm h3 e0 e1 hD
  obtain ⟨m, hmm⟩ := exists_nat_gt p1
  refine ⟨m, fun m' h' => ?_⟩
  have hx : p1 < (m' : ℝ) := lt_of_lt_of_le hmm (by exact_mod_cast h')
  unfold thrWeight
  rw [e0, e1]
  simp only
  unfold uniformCdf
  by_cases h : p0 = p1
  · rw [if_pos h, if_pos (by linarith)]
  · rw [if_neg h]
    have hlt : p0 < p1 := lt_of_le_of_ne hle h
    have : 1 ≤ ((m' : ℝ) - p0) / (p1 - p0) := by
      rw [le_div_iff₀ (by linarith)]
      linarith
    rw [max_eq_right (by linarith), min_eq_left this, ENNReal.ofReal_one]

theorem testWeight_lt {s t : Nat} (hs : s < T.ns) (h : testWeight T s t ≠ 0) : t < T.ns := by
  unfold testWeight at h
  split at h
  · split at h
    · omega
    · exact absurd rfl h
  · split at h
    · rename_i ht
      exact ht.1
    · exact absurd rfl h

theorem sum_testWeight {s : Nat} (hs : s < T.ns) : ∑ t ∈ Finset.range (T.ns + 1), testWeight T s t = 1 := by
  classical
  unfold testWeight
  by_cases h : others T s = ∅
  · simp only [if_pos h]
    rw [Finset.sum_ite_eq' (Finset.range (T.ns + 1)) s, if_pos (Finset.mem_range.2 (by omega))]
  · simp only [if_neg h]
    have hfin : (others T s).Finite := (Set.finite_lt_nat T.ns).subset fun u hu => hu.1
    have hfe : (Finset.range (T.ns + 1)).filter (fun t => t ∈ others T s) = hfin.toFinset := by
      ext u
      rw [Finset.mem_filter, Set.Finite.mem_toFinset, Finset.mem_range]
      exact ⟨fun h => h.2, fun h => ⟨lt_trans h.1 (Nat.lt_succ_self _), h⟩⟩
    rw [← Finset.sum_filter, hfe, Finset.sum_const, nsmul_eq_mul, ← Set.ncard_eq_toFinset_card _ hfin]
    refine ENNReal.mul_inv_cancel ?_ (ENNReal.natCast_ne_top _)
    rw [Nat.cast_ne_zero, Ne, Set.ncard_eq_zero hfin]
    exact h

theorem srcWeight_sample {δ : Fin N → Key} {i : Fin N} {p : Nat × Nat × List Nat} (hp : (δ i).2 = some p)
    (h : srcWeight sl T o multi δ i ≠ 0) : p.1 < T.ns := by
  unfold srcWeight at h
  rw [hp] at h
  have h := right_ne_zero_of_mul h
  simp only at h
  split at h
  · unfold posWeight at h
    split at h
    · rename_i ha
      exact ha.1
    · exact absurd rfl h
  · exact absurd rfl h

end weights

/-! ## The dilated extent fits -/

theorem dilWeight_extent {n l d : Nat} {prime : Bool} (h2 : 2 ≤ l) (hl : l ≤ n) (h : dilWeight n prime l d ≠ 0) :
    (l - 1) * d < n := by
  have hm1 : 1 ≤ (n - 1) / (l - 1) := by
    rw [Nat.le_div_iff_mul_le (by omega)]; omega
  have hd : d ≤ (n - 1) / (l - 1) := by
    unfold dilWeight at h
    split at h
    · unfold primeWeight at h
      split at h
      · rename_i hc
        exact hc.2
      · exact absurd rfl h
    · unfold plainWeight at h
      split at h
      · split at h
        · omega
        · exact absurd rfl h
      · split at h
        · omega
        · exact absurd rfl h
  rw [Nat.le_div_iff_mul_le (by omega), Nat.mul_comm] at hd
  omega

theorem parWeight_extent {a : FitArgs ℝ L} {n : Nat} {P : Par} (hb : ∀ l ∈ a.sizes, 2 ≤ l ∧ l ≤ n)
    (h : parWeight a n P ≠ 0) {i : Nat} (hi : i < P.n) : (P.length i - 1) * P.dilation i < n := by
  unfold parWeight at h
  split at h
  · have h := Finset.prod_ne_zero_iff.1 h i (Finset.mem_range.2 hi)
    have h1 := left_ne_zero_of_mul h
    have h2 := right_ne_zero_of_mul h1
    have h3 := left_ne_zero_of_mul h1
    have hmem : P.length i ∈ a.sizes := by
      by_contra hc
      apply h3
      unfold lengthWeight
      rw [List.count_eq_zero_of_not_mem hc]
      simp
    exact dilWeight_extent (hb _ hmem).1 (hb _ hmem).2 h2
  · exact absurd rfl h

/-! ## The law of the keys -/

section law
variable [MeasurableSpace Ω] {ν : Measure Ω} {pick : Ω → Choices} {sl : Bool} {T : Train L} {a : FitArgs ℝ L} {n : Nat}
  {multi : Bool} {mc : Nat}

/-- What C102 says about the choices made by `fit`. -/
structure Law (ν : Measure Ω) (pick : Ω → Choices) (sl : Bool) (T : Train L) (a : FitArgs ℝ L) (n : Nat) (multi : Bool)
    (mc N : Nat) : Prop where
  law : ∀ d, MeasurableSet {ω | (pick ω).Within d} ∧ ν {ω | (pick ω).Within d} = lawOf sl T a n multi mc d
  count : ∀ ω, (pick ω).par.n = N
  perc : PercOK a
  bounds : ∀ l ∈ a.sizes, 2 ≤ l ∧ l ≤ n
  len : ∀ s, s < T.ns → n ≤ T.len s

variable (h : Law ν pick sl T a n multi mc N)
include h

theorem lawOf_mk {δ : Fin N → Key} {τ : Fin N → Nat} (hτ : ∀ i, (δ i).2 = none → τ i = 0) (x : ℝ) :
    lawOf sl T a n multi mc (mk δ τ x) = paramsLaw a n mc (mk δ 0 0) *
      ∏ i, (srcWeight sl T (optOf a) multi δ i * tstWeight T (δ i) (τ i) * bndWeight T (optOf a) δ τ x i) := by
  unfold lawOf
  have e : paramsLaw a n mc (mk δ τ x) = paramsLaw a n mc (mk δ 0 0) := rfl
  have eN : (mk δ τ x).par.n = N := rfl
  rw [e, eN, Finset.prod_range]
  congr 1
  exact Finset.prod_congr rfl fun i _ => stepWeight_mk sl T (optOf a) multi hτ x i

theorem bnd_eventually {δ : Fin N → Key} {τ : Fin N → Nat} (hP : paramsLaw a n mc (mk δ 0 0) ≠ 0) (i : Fin N)
    (hw : srcWeight sl T (optOf a) multi δ i * tstWeight T (δ i) (τ i) ≠ 0) :
    ∃ m : Nat, ∀ m' : Nat, m ≤ m' → bndWeight T (optOf a) δ τ m' i = 1 := by
  unfold bndWeight
  rw [mk_src]
  cases hp : (δ i).2 with
  | none => exact ⟨0, fun _ _ => rfl⟩
  | some p =>
    simp only [Option.map_some]
    have hs := srcWeight_sample sl T (optOf a) multi hp (left_ne_zero_of_mul hw)
    have ht := right_ne_zero_of_mul hw
    unfold tstWeight at ht
    rw [hp] at ht
    have ht := testWeight_lt T hs ht
    refine thrWeight_eventually (optOf a) ?_ h.perc.lo h.perc.le h.perc.hi
    have hex := parWeight_extent h.bounds (left_ne_zero_of_mul hP) (i := i) i.2
    have hl := h.len _ ht
    unfold distTo
    rw [Ne, List.map_eq_nil_iff, List.range_eq_nil]
    unfold nWin
    split <;> omega

/-- Probability of the keys and of the threshold samples. -/
theorem measure_test (δ : Fin N → Key) (τ : Fin N → Nat) :
    MeasurableSet {ω | ∀ i : Fin N, keyAt (pick ω) i = δ i ∧ testAt (pick ω) i = τ i} ∧
    ν {ω | ∀ i : Fin N, keyAt (pick ω) i = δ i ∧ testAt (pick ω) i = τ i} =
      paramsLaw a n mc (mk δ 0 0) * ∏ i, (srcWeight sl T (optOf a) multi δ i * tstWeight T (δ i) (τ i)) := by
  by_cases hτ : ∀ i, (δ i).2 = none → τ i = 0
  · have hU : {ω | ∀ i : Fin N, keyAt (pick ω) i = δ i ∧ testAt (pick ω) i = τ i} =
        ⋃ m : Nat, {ω | (pick ω).Within (mk δ τ m)} := by
      ext ω
      rw [Set.mem_iUnion]
      simp only [Set.mem_setOf_eq, within_mk (h.count ω) hτ]
      constructor
      · intro hω
        have : ∀ i : Fin N, ∃ m : Nat, (pick ω).thr i < m := fun i => exists_nat_gt _
        choose f hf using this
        refine ⟨Finset.univ.sup f, fun i => ⟨(hω i).1, (hω i).2, fun _ => lt_of_lt_of_le (hf i) ?_⟩⟩
        exact_mod_cast Finset.le_sup (Finset.mem_univ i)
      · rintro ⟨m, hm⟩ i
        exact ⟨(hm i).1, (hm i).2.1⟩
    have hmono : Monotone fun m : Nat => {ω | (pick ω).Within (mk δ τ m)} := by
      intro m m' hmm ω hω
      simp only [Set.mem_setOf_eq, within_mk (h.count ω) hτ] at hω ⊢
      exact fun i => ⟨(hω i).1, (hω i).2.1, fun hs => lt_of_lt_of_le ((hω i).2.2 hs) (by exact_mod_cast hmm)⟩
    rw [hU]
    refine ⟨MeasurableSet.iUnion fun m => (h.law _).1, ?_⟩
    rw [hmono.measure_iUnion]
    simp only [(h.law _).2, lawOf_mk h hτ]
    apply le_antisymm
    · refine iSup_le fun m => ?_
      refine mul_le_mul_right (Finset.prod_le_prod' fun i _ => ?_) _
      exact mul_le_of_le_one_right zero_le (bndWeight_le T (optOf a) δ τ m i)
    · by_cases hP : paramsLaw a n mc (mk δ 0 0) = 0
      · rw [hP, zero_mul]; exact zero_le
      by_cases hw : ∏ i, (srcWeight sl T (optOf a) multi δ i * tstWeight T (δ i) (τ i)) = 0
      · rw [hw, mul_zero]; exact zero_le
      have hw' := Finset.prod_ne_zero_iff.1 hw
      choose f hf using fun i => bnd_eventually h hP i (hw' i (Finset.mem_univ i))
      refine le_trans (le_of_eq ?_) (le_iSup _ (Finset.univ.sup f))
      congr 1
      refine Finset.prod_congr rfl fun i _ => ?_
      rw [hf i _ (Finset.le_sup (Finset.mem_univ i)), mul_one]
  · push Not at hτ
    obtain ⟨j, hj, hj0⟩ := hτ
    have hE : {ω | ∀ i : Fin N, keyAt (pick ω) i = δ i ∧ testAt (pick ω) i = τ i} = ∅ := by
      ext ω
      simp only [Set.mem_setOf_eq, Set.mem_empty_iff_false, iff_false]
      intro hω
      obtain ⟨h1, h2⟩ := hω j
      have h3 : ((pick ω).src j).map (fun r => (r.sample, r.index, r.channels)) = none := by
        rw [← hj, ← h1]; rfl
      rw [Option.map_eq_none_iff] at h3
      apply hj0
      rw [← h2]
      unfold testAt
      rw [h3]
      rfl
    rw [hE]
    refine ⟨MeasurableSet.empty, ?_⟩
    rw [measure_empty, Finset.prod_eq_zero (Finset.mem_univ j), mul_zero]
    unfold tstWeight
    rw [hj]
    simp only
    rw [if_neg hj0, mul_zero]

theorem sum_tst (δ : Fin N → Key) :
    ∑' τ : Fin N → Nat, ∏ i, (srcWeight sl T (optOf a) multi δ i * tstWeight T (δ i) (τ i)) =
      ∏ i, srcWeight sl T (optOf a) multi δ i := by
  classical
  rw [tsum_eq_sum (s := Fintype.piFinset fun _ : Fin N => Finset.range (T.ns + 1)),
    ← Finset.prod_univ_sum (fun _ : Fin N => Finset.range (T.ns + 1))
      (fun i t => srcWeight sl T (optOf a) multi δ i * tstWeight T (δ i) t)]
  · refine Finset.prod_congr rfl fun i _ => ?_
    rw [← Finset.mul_sum]
    by_cases hw : srcWeight sl T (optOf a) multi δ i = 0
    · rw [hw, zero_mul]
    · unfold tstWeight
      cases hp : (δ i).2 with
      | none =>
        simp only
        rw [Finset.sum_ite_eq' (Finset.range (T.ns + 1)) 0, if_pos (Finset.mem_range.2 (by omega)), mul_one]
      | some p =>
        simp only
        rw [sum_testWeight T (srcWeight_sample sl T (optOf a) multi hp hw), mul_one]
  · intro τ hτ
    rw [Fintype.mem_piFinset] at hτ
    push Not at hτ
    obtain ⟨i, hi⟩ := hτ
    rw [Finset.mem_range] at hi
    refine Finset.prod_eq_zero (Finset.mem_univ i) ?_
    by_contra hw
    unfold tstWeight at hw
    cases hp : (δ i).2 with
    | none =>
      rw [hp] at hw
      simp only at hw
      rw [if_neg (by omega), mul_zero] at hw
      exact hw rfl
    | some p =>
      rw [hp] at hw
      simp only at hw
      have hs := srcWeight_sample sl T (optOf a) multi hp (left_ne_zero_of_mul hw)
      have := testWeight_lt T hs (right_ne_zero_of_mul hw)
      omega

/-- Probability of the keys. -/
theorem measure_key (δ : Fin N → Key) :
    MeasurableSet {ω | ∀ i : Fin N, keyAt (pick ω) i = δ i} ∧
    ν {ω | ∀ i : Fin N, keyAt (pick ω) i = δ i} =
      paramsLaw a n mc (mk δ 0 0) * ∏ i, srcWeight sl T (optOf a) multi δ i := by
  have hU : {ω | ∀ i : Fin N, keyAt (pick ω) i = δ i} =
      ⋃ τ : Fin N → Nat, {ω | ∀ i : Fin N, keyAt (pick ω) i = δ i ∧ testAt (pick ω) i = τ i} := by
    ext ω
    rw [Set.mem_iUnion]
    simp only [Set.mem_setOf_eq]
    exact ⟨fun hω => ⟨fun i => testAt (pick ω) i, fun i => ⟨hω i, rfl⟩⟩, fun ⟨_, hω⟩ i => (hω i).1⟩
  rw [hU]
  refine ⟨MeasurableSet.iUnion fun τ => (measure_test h δ τ).1, ?_⟩
  rw [measure_iUnion ?_ fun τ => (measure_test h δ τ).1]
  · simp only [(measure_test h δ _).2]
    rw [ENNReal.tsum_mul_left, sum_tst h]
  · intro τ τ' hne
    rw [Function.onFun, Set.disjoint_left]
    intro ω h1 h2
    exact hne (funext fun i => (h1 i).2.symm.trans (h2 i).2)

/-- Probability of any event about the keys. -/
theorem measure_keys (Q : (Fin N → Key) → Prop) :
    MeasurableSet {ω | Q fun i => keyAt (pick ω) i} ∧
    ν {ω | Q fun i => keyAt (pick ω) i} = ∑' δ : {δ : Fin N → Key // Q δ},
      paramsLaw a n mc (mk δ.1 0 0) * ∏ i, srcWeight sl T (optOf a) multi δ.1 i := by
  have hU : {ω | Q fun i => keyAt (pick ω) i} =
      ⋃ δ : {δ : Fin N → Key // Q δ}, {ω | ∀ i : Fin N, keyAt (pick ω) i = δ.1 i} := by
    ext ω
    rw [Set.mem_iUnion]
    simp only [Set.mem_setOf_eq]
    constructor
    · exact fun hω => ⟨⟨_, hω⟩, fun i => rfl⟩
    · rintro ⟨δ, hδ⟩
      have : (fun i : Fin N => keyAt (pick ω) i) = δ.1 := funext hδ
      rw [this]
      exact δ.2
  rw [hU]
  refine ⟨MeasurableSet.iUnion fun δ => (measure_key h δ.1).1, ?_⟩
  rw [measure_iUnion ?_ fun δ : {δ : Fin N → Key // Q δ} => (measure_key h δ.1).1]
  · simp only [(measure_key h _).2]
  · intro δ δ' hne
    rw [Function.onFun, Set.disjoint_left]
    intro ω h1 h2
    exact hne (Subtype.ext (funext fun i => (h1 i).symm.trans (h2 i)))

end law

/-! ## Exchanging samples of equal length -/

/-- The key with sample `s` replaced by `σ s`. -/
def moved (σ : Equiv.Perm Nat) (k : Key) : Key := (k.1, k.2.map fun p => (σ p.1, p.2))

theorem moved_moved (σ ρ : Equiv.Perm Nat) (k : Key) (h : ∀ s, ρ (σ s) = s) : moved ρ (moved σ k) = k := by
  obtain ⟨u, v⟩ := k
  cases v with
  | none => rfl
  | some p => simp [moved, h]

def movedEquiv (σ : Equiv.Perm Nat) : (Fin N → Key) ≃ (Fin N → Key) where
  toFun δ i := moved σ (δ i)
  invFun δ i := moved σ.symm (δ i)
  left_inv δ := funext fun i => moved_moved σ σ.symm _ (by simp)
  right_inv δ := funext fun i => moved_moved σ.symm σ _ (by simp)

section swap
variable {sl : Bool} {T : Train L} {o : Opt} {multi : Bool} {σ : Equiv.Perm Nat}

theorem ext_moved (δ : Fin N → Key) (j : Nat) : ext zero (fun i => moved σ (δ i)) j = moved σ (ext zero δ j) := by
  unfold ext
  split
  · rfl
  · rfl

theorem srcWeight_moved (hns : ∀ s, σ s < T.ns ↔ s < T.ns) (hlen : ∀ s, T.len (σ s) = T.len s) (δ : Fin N → Key)
    (i : Fin N) : srcWeight sl T o multi (fun i => moved σ (δ i)) i = srcWeight sl T o multi δ i := by
  set T' : Train L := ⟨T.ns, T.nf, T.len, fun s c => T.series (σ.symm s) c, fun s => T.label (σ.symm s)⟩ with hT'
  have hR : Renamed T T' σ.symm 1 :=
    ⟨rfl, rfl, fun s => by rw [← hns]; simp, fun c => Iff.rfl, fun s => by
      show T.len s = T.len (σ.symm s)
      rw [← hlen (σ.symm s)]; simp, fun s c => rfl, fun s => rfl⟩
  have hA : ∀ (P : Par) (rec : Nat → Option Src) (i : Nat) (ch : List Nat) (s t : Nat),
      Admissible T' P o multi rec i ch s t ↔ Admissible T P o multi rec i ch s t := fun _ _ _ _ _ _ => Iff.rfl
  set P := (mk δ 0 0).par with hP
  have eP : (mk (fun i => moved σ (δ i)) 0 0).par = P := by
    rw [hP]
    show Par.mk _ _ _ _ = Par.mk _ _ _ _
    simp only [ext_moved]
    rfl
  have hc : ∀ j, ((mk (fun i => moved σ (δ i)) 0 0).src j).map (fun r => (r.sample, r.index, r.channels)) =
      (((mk δ 0 0).src j).map (Renamed.src σ.symm 1)).map fun r => (r.sample, r.index, r.channels) := by
    intro j
    show ((ext zero (fun i => moved σ (δ i)) j).2.map _).map _ = (((ext zero δ j).2.map _).map _).map _
    rw [ext_moved]
    cases he : (ext zero δ j).2 with
    | none => simp [moved, he]
    | some p =>
      have e1 : (⇑(1 : Equiv.Perm Nat).symm : Nat → Nat) = id := rfl
      simp [moved, he, Renamed.src, e1]
  obtain ⟨q1, q2⟩ := posWeight_of_admissible sl T o multi (P := P) (T' := T') (i := i) (ch := (δ i).1.2.2.2.2)
    (fun s t => (admissible_core T o multi hc i (δ i).1.2.2.2.2 s t).trans (hA _ _ _ _ _ _).symm)
  have e1 : (δ i).1.2.2.2.2.map (1 : Equiv.Perm Nat).symm = (δ i).1.2.2.2.2 := List.map_id _
  have w1 := fun s t => hR.posWeight (multi := multi) (P := P) (o := o) (rec := (mk δ 0 0).src) (i := i)
    (channels := (δ i).1.2.2.2.2) (fun _ => rfl) sl s t
  have w2 := hR.positions (multi := multi) (P := P) (o := o) (rec := (mk δ 0 0).src) (i := i)
    (channels := (δ i).1.2.2.2.2) (fun _ => rfl)
  rw [e1] at w2
  simp only [e1] at w1
  unfold srcWeight
  rw [eP]
  have em : (moved σ (δ i)).1 = (δ i).1 := rfl
  simp only [em]
  congr 1
  cases hp : (δ i).2 with
  | none =>
    have em2 : (moved σ (δ i)).2 = none := by show (δ i).2.map _ = _; rw [hp]; rfl
    simp only [em2]
    have : positions T P o multi (mk (fun i => moved σ (δ i)) 0 0).src i (δ i).1.2.2.2.2 = ∅ ↔
        positions T P o multi (mk δ 0 0).src i (δ i).1.2.2.2.2 = ∅ := by
      rw [q2, w2, Set.image_eq_empty]
    by_cases he : positions T P o multi (mk δ 0 0).src i (δ i).1.2.2.2.2 = ∅
    · rw [if_pos he, if_pos (this.2 he)]
    · rw [if_neg he, if_neg (fun h' => he (this.1 h'))]
  | some p =>
    have em2 : (moved σ (δ i)).2 = some (σ p.1, p.2) := by show (δ i).2.map _ = _; rw [hp]; rfl
    simp only [em2]
    split
    · rw [q1]
      exact w1 p.1 p.2.1
    · rfl

end swap

section sym
variable [MeasurableSpace Ω] {ν : Measure Ω} {pick : Ω → Choices} {sl : Bool} {T : Train L} {a : FitArgs ℝ L} {n : Nat}
  {multi : Bool} {mc : Nat}

/-- Every event about the keys keeps its probability when the samples are permuted within their lengths. -/
theorem measure_moved (h : Law ν pick sl T a n multi mc N) {σ : Equiv.Perm Nat} (hns : ∀ s, σ s < T.ns ↔ s < T.ns)
    (hlen : ∀ s, T.len (σ s) = T.len s) (Q : (Fin N → Key) → Prop) :
    ν {ω | Q fun i => moved σ (keyAt (pick ω) i)} = ν {ω | Q fun i => keyAt (pick ω) i} := by
  rw [(measure_keys h Q).2, (measure_keys h fun δ => Q fun i => moved σ (δ i)).2]
  set e : {δ : Fin N → Key // Q fun i => moved σ (δ i)} ≃ {δ : Fin N → Key // Q δ} :=
    (movedEquiv σ).subtypeEquiv fun _ => Iff.rfl with he
  rw [← e.tsum_eq]
  refine tsum_congr fun δ => ?_
  have e1 : (e δ).1 = fun i => moved σ (δ.1 i) := rfl
  rw [e1]
  have e2 : paramsLaw a n mc (mk (fun i => moved σ (δ.1 i)) 0 0) = paramsLaw a n mc (mk δ.1 0 0) := by
    unfold paramsLaw mk
    simp only [ext_moved]
    rfl
  rw [e2]
  congr 1
  exact Finset.prod_congr rfl fun i _ => (srcWeight_moved hns hlen δ.1 i).symm

theorem sources_key (c : Choices) (hn : c.par.n = N) :
    c.sources = List.ofFn fun i : Fin N => (keyAt c i).2.map fun p => p.1 := by
  unfold Choices.sources
  rw [hn]
  apply List.ext_getElem?
  intro k
  rw [List.getElem?_map, List.getElem?_ofFn]
  by_cases hk : k < N
  · rw [List.getElem?_range hk, dif_pos hk]
    simp only [Option.map_some, Option.some.injEq, keyAt, Option.map_map]
    rfl
  · rw [dif_neg hk, List.getElem?_eq_none (by simpa using hk)]
    rfl

theorem sources_some {c : Choices} (hn : c.par.n = N) {k s : Nat} :
    c.sources[k]? = some (some s) ↔ ∃ hk : k < N, ∃ p, (keyAt c (⟨k, hk⟩ : Fin N)).2 = some p ∧ p.1 = s := by
  rw [sources_key c hn, List.getElem?_ofFn]
  by_cases hk : k < N
  · rw [dif_pos hk, Option.some.injEq, Option.map_eq_some_iff]
    exact ⟨fun h => ⟨hk, h⟩, fun ⟨_, h⟩ => h⟩
  · rw [dif_neg hk]
    exact ⟨fun h => by simp at h, fun ⟨h, _⟩ => absurd h hk⟩

theorem measurable_sources (h : Law ν pick sl T a n multi mc N) (E : Set (List (Option Nat))) :
    MeasurableSet {ω | (pick ω).sources ∈ E} := by
  have := (measure_keys h fun δ => (List.ofFn fun i => (δ i).2.map fun p => p.1) ∈ E).1
  have e : {ω | (pick ω).sources ∈ E} =
      {ω | (List.ofFn fun i : Fin N => (keyAt (pick ω) i).2.map fun p => p.1) ∈ E} := by
    ext ω
    rw [Set.mem_setOf_eq, sources_key _ (h.count ω)]
    rfl
  rw [e]
  exact this

/-- An event about keys all of which have weight 0. -/
theorem measure_null (h : Law ν pick sl T a n multi mc N) {Q : (Fin N → Key) → Prop}
    (hQ : ∀ δ, Q δ → paramsLaw a n mc (mk δ 0 0) ≠ 0 → ∃ i, srcWeight sl T (optOf a) multi δ i = 0) :
    ν {ω | Q fun i => keyAt (pick ω) i} = 0 := by
  rw [(measure_keys h Q).2, ENNReal.tsum_eq_zero]
  rintro ⟨δ, hδ⟩
  by_cases hP : paramsLaw a n mc (mk δ 0 0) = 0
  · rw [hP, zero_mul]
  · obtain ⟨i, hi⟩ := hQ δ hδ hP
    rw [Finset.prod_eq_zero (Finset.mem_univ i) hi, mul_zero]

theorem fairSources (h : Law ν pick sl T a n multi mc N) : FairSources ν pick T := by
  have joint : ∀ σ : Equiv.Perm Nat, (∀ s, σ s < T.ns ↔ s < T.ns) → (∀ s, T.len (σ s) = T.len s) →
    ∀ E : Set (List (Option Nat)),
      ν {ω | (pick ω).sources.map (Option.map σ) ∈ E} = ν {ω | (pick ω).sources ∈ E} := by
    intro σ hns hlen E
    have hm := measure_moved h hns hlen fun δ => (List.ofFn fun i => (δ i).2.map fun p => p.1) ∈ E
    have e1 : {ω | (pick ω).sources ∈ E} =
        {ω | (List.ofFn fun i : Fin N => (keyAt (pick ω) i).2.map fun p => p.1) ∈ E} := by
      ext ω
      rw [Set.mem_setOf_eq, sources_key _ (h.count ω)]
      rfl
    have e2 : {ω | (pick ω).sources.map (Option.map σ) ∈ E} =
        {ω | (List.ofFn fun i : Fin N => (moved σ (keyAt (pick ω) i)).2.map fun p => p.1) ∈ E} := by
      ext ω
      rw [Set.mem_setOf_eq, sources_key _ (h.count ω), List.map_ofFn, Set.mem_setOf_eq]
      have : (Option.map σ ∘ fun i : Fin N => (keyAt (pick ω) i).2.map fun p => p.1) =
          fun i : Fin N => (moved σ (keyAt (pick ω) i)).2.map fun p => p.1 := by
        funext i
        show Option.map σ (Option.map _ _) = Option.map _ (Option.map _ _)
        rw [Option.map_map, Option.map_map]
        rfl
      rw [this]
    rw [e1, e2]
    exact hm
  refine ⟨measurable_sources h, joint, ?_⟩
  · intro k s s' hs hs' hl
    have hj := joint (Equiv.swap s s') ?_ ?_ {l | l[k]? = some (some s')}
    · refine Eq.trans ?_ hj
      congr 1
      ext ω
      simp only [Set.mem_setOf_eq, List.getElem?_map, Option.map_eq_some_iff]
      constructor
      · intro e
        exact ⟨some s, e, s, rfl, Equiv.swap_apply_left s s'⟩
      · rintro ⟨o, e, u, rfl, hu⟩
        rw [e]
        rw [Equiv.swap_apply_eq_iff, Equiv.swap_apply_right] at hu
        rw [hu]
    · intro u
      rw [Equiv.swap_apply_def]
      split
      · omega
      · split <;> omega
    · intro u
      rw [Equiv.swap_apply_def]
      split
      · rename_i e; rw [e, hl]
      · split
        · rename_i e; rw [e, hl]
        · rfl

theorem sources_lt (h : Law ν pick sl T a n multi mc N) {k s : Nat} (hs : T.ns ≤ s) :
    ν {ω | (pick ω).sources[k]? = some (some s)} = 0 := by
  by_cases hk : k < N
  · have := measure_null h (Q := fun δ => ∃ p, (δ ⟨k, hk⟩).2 = some p ∧ p.1 = s) (by
      rintro δ ⟨p, hp, rfl⟩ -
      refine ⟨⟨k, hk⟩, ?_⟩
      by_contra hw
      have := srcWeight_sample sl T (optOf a) multi hp hw
      omega)
    rw [← this]
    congr 1
    ext ω
    rw [Set.mem_setOf_eq, sources_some (h.count ω)]
    exact ⟨fun ⟨_, h⟩ => h, fun h => ⟨hk, h⟩⟩
  · have e : {ω | (pick ω).sources[k]? = some (some s)} = ∅ := by
      ext ω
      rw [Set.mem_setOf_eq, sources_some (h.count ω)]
      simp [hk]
    rw [e, measure_empty]

/-- The first shapelet is not discarded. -/
theorem first_kept (h : Law ν pick sl T a n multi mc N) [IsProbabilityMeasure ν] (hN : 1 ≤ N) (hns : 1 ≤ T.ns)
    (hα : multi = true → a.alpha ≤ 1) : ν {ω | ∃ s : Nat, (pick ω).sources[0]? = some (some s)} = 1 := by
  have hz := measure_null h (Q := fun δ => (δ ⟨0, hN⟩).2 = none) (by
    intro δ hδ hP
    refine ⟨⟨0, hN⟩, ?_⟩
    have hex := parWeight_extent h.bounds (left_ne_zero_of_mul hP) (i := 0) hN
    have hl := h.len 0 hns
    unfold srcWeight
    rw [hδ]
    simp only
    rw [if_neg, mul_zero]
    intro he
    have : (0, 0) ∈ positions T (mk δ 0 0).par (optOf a) multi (mk δ 0 0).src 0 (δ ⟨0, hN⟩).1.2.2.2.2 := by
      refine ⟨hns, ?_, ?_⟩
      · show 0 < nWin (optOf a).phase (T.len 0) ((mk δ 0 0).par.length 0) ((mk δ 0 0).par.dilation 0)
        unfold nWin
        split <;> omega
      · have hnb : ∀ c, ¬ Blocked T (mk δ 0 0).par (optOf a) (mk δ 0 0).src 0 0 c 0 := by
          rintro c ⟨j, m, r, hj, -⟩
          omega
        unfold EnoughFree
        split
        · rename_i hmul
          refine le_trans (mul_le_of_le_one_right (Nat.cast_nonneg _) (hα hmul)) ?_
          rw [Nat.cast_le]
          apply le_of_eq
          symm
          rw [List.countP_eq_length]
          intro c _
          exact @decide_eq_true _ (_) (hnb c)
        · exact hnb 0
    rw [he] at this
    exact this)
  have hc : {ω | ∃ s : Nat, (pick ω).sources[0]? = some (some s)} =
      {ω | (keyAt (pick ω) ((⟨0, hN⟩ : Fin N) : Nat)).2 = none}ᶜ := by
    ext ω
    simp only [Set.mem_setOf_eq, Set.mem_compl_iff, sources_some (h.count ω)]
    rw [← Ne, Option.ne_none_iff_exists']
    constructor
    · rintro ⟨s, _, p, hp, -⟩
      exact ⟨p, hp⟩
    · rintro ⟨p, hp⟩
      exact ⟨p.1, hN, p, hp, rfl⟩
  rw [hc, prob_compl_eq_one_iff]
  · exact hz
  · exact (measure_keys h fun δ => (δ ⟨0, hN⟩).2 = none).1

/-- Probability that the source belongs to a set of samples of equal length. -/
theorem sources_mem (h : Law ν pick sl T a n multi mc N) (hl : ∀ s s', T.len s = T.len s') (k : Nat) {s0 : Nat}
    (h0 : s0 < T.ns) (S : Finset Nat) (hS : ∀ s ∈ S, s < T.ns) :
    ν {ω | ∃ s : Nat, (pick ω).sources[k]? = some (some s) ∧ s ∈ S} =
      S.card * ν {ω | (pick ω).sources[k]? = some (some s0)} := by
  have hU : {ω | ∃ s : Nat, (pick ω).sources[k]? = some (some s) ∧ s ∈ S} =
      ⋃ s ∈ S, {ω | (pick ω).sources[k]? = some (some s)} := by
    ext ω
    simp only [Set.mem_setOf_eq, Set.mem_iUnion, exists_prop]
    exact exists_congr fun s => and_comm
  rw [hU, measure_biUnion_finset]
  · rw [Finset.sum_congr rfl fun s hs => (fairSources h).each k s s0 (hS s hs) h0 (hl _ _), Finset.sum_const,
      nsmul_eq_mul]
  · intro s _ s' _ hne
    rw [Function.onFun, Set.disjoint_left]
    intro ω h1 h2
    rw [Set.mem_setOf_eq] at h1 h2
    rw [h1] at h2
    exact hne (Option.some.inj (Option.some.inj h2))
  · intro s _
    exact measurable_sources h {l | l[k]? = some (some s)}

theorem card_label [DecidableEq L] (y : L) (l : List L) :
    ((Finset.range l.length).filter fun s => l[s]? = some y).card = l.count y := by
  induction l with
  | nil => rfl
  | cons x l ih =>
    rw [List.length_cons, Finset.range_eq_Ico, ← Finset.insert_Ico_add_one_left_eq_Ico (by omega)]
    rw [Finset.filter_insert]
    have e : (Finset.Ico (0 + 1) (l.length + 1)).filter (fun s => (x :: l)[s]? = some y) =
        ((Finset.range l.length).filter fun s => l[s]? = some y).map ⟨Nat.succ, Nat.succ_injective⟩ := by
      ext u
      simp only [Finset.mem_filter, Finset.mem_Ico, Finset.mem_map, Finset.mem_range, Function.Embedding.coeFn_mk]
      constructor
      · rintro ⟨⟨h1, h2⟩, h3⟩
        obtain ⟨v, rfl⟩ : ∃ v, u = v + 1 := ⟨u - 1, by omega⟩
        exact ⟨v, ⟨by omega, by simpa using h3⟩, rfl⟩
      · rintro ⟨v, ⟨h1, h2⟩, rfl⟩
        exact ⟨⟨by simp, by simpa using h1⟩, by simpa using h2⟩
    rw [e, List.count_cons]
    split
    · rename_i hx
      rw [Finset.card_insert_of_notMem, Finset.card_map, ih]
      · simp at hx
        simp [hx]
      · simp
    · rename_i hx
      rw [Finset.card_map, ih]
      simp at hx
      simp [hx]

theorem classShares [DecidableEq L] (h : Law ν pick sl T a n multi mc N) [IsProbabilityMeasure ν] (hN : 1 ≤ N)
    (hα : multi = true → a.alpha ≤ 1) (hl : ∀ s s', T.len s = T.len s') {labels : List L}
    (hy : labels.length = T.ns) (hns : 1 ≤ T.ns) : ClassShares ν pick labels := by
  have hsome : ∀ k : Nat, ν {ω | ∃ s : Nat, (pick ω).sources[k]? = some (some s)} =
      T.ns * ν {ω | (pick ω).sources[k]? = some (some 0)} := by
    intro k
    rw [← Finset.card_range T.ns, ← sources_mem h hl k hns (Finset.range T.ns) fun s hs => Finset.mem_range.1 hs]
    apply le_antisymm
    · have hsub : {ω | ∃ s : Nat, (pick ω).sources[k]? = some (some s)} ⊆
          {ω | ∃ s : Nat, (pick ω).sources[k]? = some (some s) ∧ s ∈ Finset.range T.ns} ∪
            ⋃ s : {s : Nat // T.ns ≤ s}, {ω | (pick ω).sources[k]? = some (some s.1)} := by
        rintro ω ⟨s, hs⟩
        by_cases hlt : s < T.ns
        · exact Or.inl ⟨s, hs, Finset.mem_range.2 hlt⟩
        · exact Or.inr (Set.mem_iUnion.2 ⟨⟨s, not_lt.1 hlt⟩, hs⟩)
      refine le_trans (measure_mono hsub) (le_trans (measure_union_le _ _) ?_)
      rw [measure_iUnion_null fun s : {s : Nat // T.ns ≤ s} => sources_lt h s.2, add_zero]
    · exact measure_mono fun ω ⟨s, hs, _⟩ => ⟨s, hs⟩
  have hclass : ∀ (k : Nat) (y : L), ν {ω | ∃ s : Nat, (pick ω).sources[k]? = some (some s) ∧ labels[s]? = some y} =
      labels.count y * ν {ω | (pick ω).sources[k]? = some (some 0)} := by
    intro k y
    rw [← card_label y labels, ← sources_mem h hl k hns]
    · congr 1
      ext ω
      refine exists_congr fun s => and_congr_right fun _ => ?_
      rw [Finset.mem_filter, Finset.mem_range]
      refine ⟨fun hs => ⟨(List.getElem?_eq_some_iff.1 hs).1, hs⟩, fun hs => hs.2⟩
    · intro s hs
      rw [Finset.mem_filter, Finset.mem_range, hy] at hs
      exact hs.1
  refine ⟨fun k y => ?_, fun y => ?_⟩
  · rw [hclass, hsome, hy]
    ring
  · have h1 := first_kept h hN hns hα
    rw [hsome] at h1
    have hz : (T.ns : ℝ≥0∞) ≠ 0 := by
      rw [Nat.cast_ne_zero]; omega
    have : ν {ω | (pick ω).sources[0]? = some (some 0)} = (T.ns : ℝ≥0∞)⁻¹ := by
      rw [mul_comm] at h1
      exact ENNReal.eq_inv_of_mul_eq_one_left h1
    rw [hclass, this, hy, div_eq_mul_inv]

end sym
end Convst.SourceLaw
