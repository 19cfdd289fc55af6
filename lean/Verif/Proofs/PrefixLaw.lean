import Verif.Proofs.SourceLaw
import Verif.Spec.Places
import Mathlib.Data.Fintype.CardEmbedding

/-!
# One shapelet after the other

Lemmas for C130: summing the law of C102 over what happens to the later shapelets.
-/

set_option autoImplicit false
set_option linter.unusedSectionVars false

namespace Convst.SourceLaw
open Convst Spec MeasureTheory
open scoped ENNReal

variable {L Ω : Type} {N : Nat}

/-! ## Sums of weights -/

open Classical in
theorem tsum_ite_set {α : Type} {S : Set α} (hS : S.Finite) (c : ℝ≥0∞) :
    ∑' x, (if x ∈ S then c else 0) = S.ncard * c := by
  rw [tsum_eq_sum (s := hS.toFinset)]
  · rw [Finset.sum_congr rfl (g := fun _ => c), Finset.sum_const, nsmul_eq_mul, Set.ncard_eq_toFinset_card _ hS]
    intro x hx
    rw [if_pos (hS.mem_toFinset.1 hx)]
  · intro x hx
    rw [if_neg (fun h => hx (hS.mem_toFinset.2 h))]

theorem tsum_option {α : Type} (f : Option α → ℝ≥0∞) : ∑' o, f o = f none + ∑' a, f (some a) := by
  rw [← (Equiv.optionEquivSumPUnit.{0} α).symm.tsum_eq f, ENNReal.summable.tsum_sum ENNReal.summable, add_comm]
  congr 1
  rw [tsum_eq_single PUnit.unit]
  · rfl
  · intro b hb
    exact absurd rfl hb

theorem ncard_cancel {α : Type} {S : Set α} (hS : S.Finite) (hne : S.Nonempty) :
    (S.ncard : ℝ≥0∞) * (S.ncard : ℝ≥0∞)⁻¹ = 1 := by
  refine ENNReal.mul_inv_cancel ?_ (ENNReal.natCast_ne_top _)
  rw [Nat.cast_ne_zero, Ne, Set.ncard_eq_zero hS]
  exact hne.ne_empty

section pos
variable (sl : Bool) (T : Train L) (P : Par) (o : Opt) (multi : Bool) (rec : Nat → Option Src) (i : Nat) (ch : List Nat)

theorem positions_finite : (positions T P o multi rec i ch).Finite := by
  have hf : (⋃ s ∈ Finset.range T.ns, ({s} : Set Nat) ×ˢ
      {t | t < nWin o.phase (T.len s) (P.length i) (P.dilation i)}).Finite :=
    Set.Finite.biUnion (Finset.finite_toSet _) fun s _ => (Set.finite_singleton s).prod (Set.finite_lt_nat _)
  refine hf.subset ?_
  rintro ⟨s, t⟩ ⟨h1, h2, -⟩
  exact Set.mem_biUnion (Finset.mem_coe.2 (Finset.mem_range.2 h1)) ⟨rfl, h2⟩

open Classical in
theorem sum_posWeight_vl (s : Nat) : ∑' t, posWeight false T P o multi rec i ch s t =
    if s ∈ {s | ∃ t, Admissible T P o multi rec i ch s t} then
      ({s | ∃ t, Admissible T P o multi rec i ch s t}.ncard : ℝ≥0∞)⁻¹ else 0 := by
  set S := {s | ∃ t, Admissible T P o multi rec i ch s t} with hS
  have hAfin : {t | Admissible T P o multi rec i ch s t}.Finite :=
    (Set.finite_lt_nat (nWin o.phase (T.len s) (P.length i) (P.dilation i))).subset fun t h => h.2.1
  have e1 : ∀ t, posWeight false T P o multi rec i ch s t =
      if t ∈ {t | Admissible T P o multi rec i ch s t} then
        (S.ncard : ℝ≥0∞)⁻¹ * ({t | Admissible T P o multi rec i ch s t}.ncard : ℝ≥0∞)⁻¹ else 0 := by
    intro t
    unfold posWeight
    by_cases h : Admissible T P o multi rec i ch s t
    · rw [if_pos h, if_neg Bool.false_ne_true, if_pos (show t ∈ {t | Admissible T P o multi rec i ch s t} from h)]
    · rw [if_neg h, if_neg (show t ∉ {t | Admissible T P o multi rec i ch s t} from h)]
  simp only [e1]
  rw [tsum_ite_set hAfin]
  by_cases hs : s ∈ S
  · rw [if_pos hs]
    have := ncard_cancel hAfin hs
    rw [mul_left_comm, this, mul_one]
  · rw [if_neg hs]
    have : {t | Admissible T P o multi rec i ch s t} = ∅ := by
      ext t
      simp only [Set.mem_setOf_eq, Set.mem_empty_iff_false, iff_false]
      exact fun h => hs ⟨t, h⟩
    rw [this]
    simp

theorem sum_posWeight (hne : positions T P o multi rec i ch ≠ ∅) :
    ∑' s, ∑' t, posWeight sl T P o multi rec i ch s t = 1 := by
  classical
  have hfin := positions_finite T P o multi rec i ch
  have hne' := Set.nonempty_iff_ne_empty.2 hne
  cases sl with
  | true =>
    have e : ∀ s t, posWeight true T P o multi rec i ch s t =
        if (s, t) ∈ positions T P o multi rec i ch then ((positions T P o multi rec i ch).ncard : ℝ≥0∞)⁻¹ else 0 := by
      intro s t
      unfold posWeight
      by_cases h : Admissible T P o multi rec i ch s t
      · rw [if_pos h, if_pos rfl, if_pos (show (s, t) ∈ positions T P o multi rec i ch from h)]
      · rw [if_neg h, if_neg (show (s, t) ∉ positions T P o multi rec i ch from h)]
    simp only [e]
    rw [← ENNReal.tsum_prod (f := fun s t => if (s, t) ∈ positions T P o multi rec i ch then
      ((positions T P o multi rec i ch).ncard : ℝ≥0∞)⁻¹ else 0)]
    have e2 : ∀ p : Nat × Nat, (p.1, p.2) = p := fun _ => rfl
    simp only [e2]
    rw [tsum_ite_set hfin, ncard_cancel hfin hne']
  | false =>
    set S := {s | ∃ t, Admissible T P o multi rec i ch s t} with hS
    have hSfin : S.Finite := (hfin.image Prod.fst).subset fun s ⟨t, h⟩ => ⟨(s, t), h, rfl⟩
    have hSne : S.Nonempty := by
      obtain ⟨⟨s, t⟩, h⟩ := hne'
      exact ⟨s, t, h⟩
    have e : ∀ s, ∑' t, posWeight false T P o multi rec i ch s t = if s ∈ S then (S.ncard : ℝ≥0∞)⁻¹ else 0 :=
      sum_posWeight_vl T P o multi rec i ch
    simp only [e]
    rw [tsum_ite_set hSfin, ncard_cancel hSfin hSne]

end pos

theorem ncard_channels (nf n : Nat) : {l : List Nat | ChannelsOK true nf n l}.Finite ∧
    {l : List Nat | ChannelsOK true nf n l}.ncard = nf.descFactorial n := by
  set F : (Fin n ↪ Fin nf) → List Nat := fun f => List.ofFn fun i => (f i : Nat) with hF
  have hinj : Function.Injective F := by
    intro f g h
    have := List.ofFn_injective h
    ext i
    exact congrFun this i
  have himg : {l : List Nat | ChannelsOK true nf n l} = Set.range F := by
    ext l
    rw [Set.mem_setOf_eq, Set.mem_range]
    unfold ChannelsOK
    rw [if_pos rfl]
    constructor
    · rintro ⟨h1, h2, h3⟩
      subst h2
      refine ⟨⟨fun i => ⟨l.get i, h3 _ (List.get_mem _ _)⟩, fun i j hij => ?_⟩, ?_⟩
      · have : l.get i = l.get j := congrArg Fin.val hij
        exact (List.nodup_iff_injective_get.1 h1) this
      · show List.ofFn (fun i => l.get i) = l
        exact List.ofFn_get l
    · rintro ⟨f, rfl⟩
      refine ⟨?_, by simp [hF], ?_⟩
      · rw [hF, List.nodup_ofFn]
        intro i j hij
        exact f.injective (Fin.ext hij)
      · intro c hc
        rw [hF, List.mem_ofFn'] at hc
        obtain ⟨i, rfl⟩ := hc
        exact (f i).2
  rw [himg]
  refine ⟨Set.finite_range F, ?_⟩
  rw [← Set.image_univ, Set.ncard_image_of_injective _ hinj, Set.ncard_univ, Nat.card_eq_fintype_card,
    Fintype.card_embedding_eq, Fintype.card_fin, Fintype.card_fin]

theorem sum_channelWeight {multi : Bool} {nf n : Nat} (hn : multi = true → n ≤ nf) :
    ∑' ch, channelWeight multi nf n ch = 1 := by
  classical
  cases multi with
  | false =>
    rw [tsum_eq_single [0]]
    · unfold channelWeight ChannelsOK
      simp
    · intro ch hch
      unfold channelWeight ChannelsOK
      rw [if_neg (by simpa using hch)]
  | true =>
    obtain ⟨h1, h2⟩ := ncard_channels nf n
    have e : ∀ ch, channelWeight true nf n ch =
        if ch ∈ {l : List Nat | ChannelsOK true nf n l} then (nf.descFactorial n : ℝ≥0∞)⁻¹ else 0 := by
      intro ch
      unfold channelWeight
      by_cases h : ChannelsOK true nf n ch
      · rw [if_pos h, if_pos rfl, if_pos (show ch ∈ {l : List Nat | ChannelsOK true nf n l} from h)]
      · rw [if_neg h, if_neg (show ch ∉ {l : List Nat | ChannelsOK true nf n l} from h)]
    simp only [e]
    rw [tsum_ite_set h1, h2]
    refine ENNReal.mul_inv_cancel ?_ (ENNReal.natCast_ne_top _)
    rw [Nat.cast_ne_zero, Ne, Nat.descFactorial_eq_zero_iff_lt]
    have := hn rfl
    omega

/-! ## Dependence on the earlier shapelets only -/

theorem admissible_before {T : Train L} {P : Par} {o : Opt} {multi : Bool} {rec rec' : Nat → Option Src} {i : Nat}
    (h : ∀ j, j < i → rec j = rec' j) (ch : List Nat) (s t : Nat) :
    Admissible T P o multi rec i ch s t ↔ Admissible T P o multi rec' i ch s t := by
  have hb : ∀ c, Blocked T P o rec i s c t ↔ Blocked T P o rec' i s c t := by
    intro c
    unfold Blocked
    refine exists_congr fun j => exists_congr fun m => exists_congr fun r => ?_
    refine and_congr_right fun hj => ?_
    rw [h j hj]
  unfold Admissible
  have : (fun c => Blocked T P o rec i s c t) = fun c => Blocked T P o rec' i s c t := funext fun c => propext (hb c)
  rw [this]

/-- The parameters of the two keys agree. -/
def SamePar (k k' : Key) : Prop :=
  k.1.1 = k'.1.1 ∧ k.1.2.1 = k'.1.2.1 ∧ k.1.2.2.1 = k'.1.2.2.1 ∧ k.1.2.2.2.1 = k'.1.2.2.2.1

theorem par_eq {δ δ' : Fin N → Key} (h : ∀ i, SamePar (δ i) (δ' i)) : (mk δ 0 0).par = (mk δ' 0 0).par := by
  have e : ∀ j, SamePar (ext zero δ j) (ext zero δ' j) := by
    intro j
    unfold ext
    split
    · exact h _
    · exact ⟨rfl, rfl, rfl, rfl⟩
  show Par.mk _ _ _ _ = Par.mk _ _ _ _
  simp only [Par.mk.injEq, true_and]
  exact ⟨funext fun j => (e j).1, funext fun j => (e j).2.1, funext fun j => (e j).2.2.1⟩

theorem paramsLaw_eq {a : FitArgs ℝ L} {n mc : Nat} {δ δ' : Fin N → Key} (h : ∀ i, SamePar (δ i) (δ' i)) :
    paramsLaw a n mc (mk δ 0 0) = paramsLaw a n mc (mk δ' 0 0) := by
  unfold paramsLaw
  rw [par_eq h]
  congr 1
  refine Finset.prod_congr rfl fun i hi => ?_
  have hi : i < N := Finset.mem_range.1 hi
  congr 1
  show (ext zero δ i).1.2.2.2.1 = (ext zero δ' i).1.2.2.2.1
  unfold ext
  rw [dif_pos hi, dif_pos hi]
  exact (h ⟨i, hi⟩).2.2.2

section step
variable (sl : Bool) (T : Train L) (o : Opt) (multi : Bool)

/-- Weight of the channels `ch` and of the source `q` of shapelet `i` after `δ`. -/
noncomputable def nextWeight (δ : Fin N → Key) (i : Fin N) (ch : List Nat) (q : Option (Nat × Nat × List Nat)) : ℝ≥0∞ := by
  classical
  exact channelWeight multi T.nf (δ i).1.2.2.2.1 ch *
    match q with
    | none => if positions T (mk δ 0 0).par o multi (mk δ 0 0).src i ch = ∅ then 1 else 0
    | some p => if p.2.2 = ch then posWeight sl T (mk δ 0 0).par o multi (mk δ 0 0).src i ch p.1 p.2.1 else 0

theorem srcWeight_next {δ δ' : Fin N → Key} {i : Fin N} (hp : ∀ j, SamePar (δ j) (δ' j))
    (hb : ∀ j, j < i → δ j = δ' j) :
    srcWeight sl T o multi δ i = nextWeight sl T o multi δ' i (δ i).1.2.2.2.2 (δ i).2 := by
  have hrec : ∀ j : Nat, j < i → (mk δ 0 0).src j = (mk δ' 0 0).src j := by
    intro j hj
    have hjN : j < N := lt_trans hj i.2
    show (ext zero δ j).2.map _ = (ext zero δ' j).2.map _
    have e : ext zero δ j = ext zero δ' j := by
      unfold ext
      rw [dif_pos hjN, dif_pos hjN, hb ⟨j, hjN⟩ hj]
    rw [e]
  obtain ⟨q1, q2⟩ := posWeight_of_admissible sl T o multi (P := (mk δ' 0 0).par) (T' := T) (i := i)
    (ch := (δ i).1.2.2.2.2) (admissible_before hrec (δ i).1.2.2.2.2)
  unfold srcWeight nextWeight
  rw [par_eq hp, (hp i).2.2.2]
  congr 1
  cases (δ i).2 with
  | none => simp only [q2]
  | some p => simp only [q1]

theorem sum_next (δ : Fin N → Key) (i : Fin N) (hn : multi = true → (δ i).1.2.2.2.1 ≤ T.nf) :
    ∑' x : List Nat × Option (Nat × Nat × List Nat), nextWeight sl T o multi δ i x.1 x.2 = 1 := by
  classical
  rw [ENNReal.tsum_prod (f := fun ch q => nextWeight sl T o multi δ i ch q)]
  have hin : ∀ ch, ∑' q, nextWeight sl T o multi δ i ch q = channelWeight multi T.nf (δ i).1.2.2.2.1 ch := by
    intro ch
    rw [tsum_option]
    unfold nextWeight
    simp only
    rw [ENNReal.tsum_mul_left, ← mul_add]
    have hs : ∑' p : Nat × Nat × List Nat, (if p.2.2 = ch then
        posWeight sl T (mk δ 0 0).par o multi (mk δ 0 0).src i ch p.1 p.2.1 else 0) =
        ∑' s, ∑' t, posWeight sl T (mk δ 0 0).par o multi (mk δ 0 0).src i ch s t := by
      rw [ENNReal.tsum_prod (f := fun s (x : Nat × List Nat) => if x.2 = ch then
        posWeight sl T (mk δ 0 0).par o multi (mk δ 0 0).src i ch s x.1 else 0)]
      refine tsum_congr fun s => ?_
      rw [ENNReal.tsum_prod (f := fun t (c : List Nat) => if c = ch then
        posWeight sl T (mk δ 0 0).par o multi (mk δ 0 0).src i ch s t else 0)]
      refine tsum_congr fun t => ?_
      rw [tsum_ite_eq]
    rw [hs]
    by_cases he : positions T (mk δ 0 0).par o multi (mk δ 0 0).src i ch = ∅
    · rw [if_pos he]
      have hz : ∀ s t, posWeight sl T (mk δ 0 0).par o multi (mk δ 0 0).src i ch s t = 0 := by
        intro s t
        unfold posWeight
        rw [if_neg]
        intro h
        have : (s, t) ∈ positions T (mk δ 0 0).par o multi (mk δ 0 0).src i ch := h
        rw [he] at this
        exact this
      simp [hz]
    · rw [if_neg he, sum_posWeight _ _ _ _ _ _ _ _ he, zero_add, mul_one]
  simp only [hin]
  exact sum_channelWeight hn

end step

/-! ## The first `k` shapelets -/

section law
variable [MeasurableSpace Ω] {ν : Measure Ω} {pick : Ω → Choices} {sl : Bool} {T : Train L} {a : FitArgs ℝ L} {n : Nat}
  {multi : Bool} {mc : Nat}

/-- All parameters and the first `k` keys are those of `δ`. -/
def Upto (δ δ' : Fin N → Key) (k : Nat) : Prop := (∀ i, SamePar (δ' i) (δ i)) ∧ ∀ i : Fin N, (i : Nat) < k → δ' i = δ i

/-- `δ` with other channels and source for shapelet `k`. -/
def upd (δ : Fin N → Key) (k : Fin N) (x : List Nat × Option (Nat × Nat × List Nat)) : Fin N → Key :=
  Function.update δ k (((δ k).1.1, (δ k).1.2.1, (δ k).1.2.2.1, (δ k).1.2.2.2.1, x.1), x.2)

theorem upd_par (δ : Fin N → Key) (k : Fin N) (x : List Nat × Option (Nat × Nat × List Nat)) (i : Fin N) :
    SamePar (upd δ k x i) (δ i) := by
  unfold upd
  by_cases h : i = k
  · subst h
    rw [Function.update_self]
    exact ⟨rfl, rfl, rfl, rfl⟩
  · rw [Function.update_of_ne h]
    exact ⟨rfl, rfl, rfl, rfl⟩

theorem upd_ne (δ : Fin N → Key) {k i : Fin N} (x : List Nat × Option (Nat × Nat × List Nat)) (h : i ≠ k) :
    upd δ k x i = δ i := by
  unfold upd
  rw [Function.update_of_ne h]

theorem upto_succ (δ δ' : Fin N → Key) (k : Fin N) :
    Upto δ δ' k ↔ ∃ x, Upto (upd δ k x) δ' (k + 1) := by
  constructor
  · rintro ⟨h1, h2⟩
    refine ⟨((δ' k).1.2.2.2.2, (δ' k).2), fun i => ?_, fun i hi => ?_⟩
    · obtain ⟨a1, a2, a3, a4⟩ := upd_par δ k ((δ' k).1.2.2.2.2, (δ' k).2) i
      obtain ⟨b1, b2, b3, b4⟩ := h1 i
      exact ⟨by rw [a1, b1], by rw [a2, b2], by rw [a3, b3], by rw [a4, b4]⟩
    · by_cases h : i = k
      · subst h
        unfold upd
        rw [Function.update_self]
        obtain ⟨b1, b2, b3, b4⟩ := h1 i
        rw [← b1, ← b2, ← b3, ← b4]
      · rw [upd_ne _ _ h]
        refine h2 i ?_
        have : (i : Nat) ≠ k := fun e => h (Fin.ext e)
        omega
  · rintro ⟨x, h1, h2⟩
    refine ⟨fun i => ?_, fun i hi => ?_⟩
    · obtain ⟨a1, a2, a3, a4⟩ := upd_par δ k x i
      obtain ⟨b1, b2, b3, b4⟩ := h1 i
      exact ⟨by rw [b1, a1], by rw [b2, a2], by rw [b3, a3], by rw [b4, a4]⟩
    · rw [h2 i (by omega), upd_ne]
      rintro rfl
      omega

/-- Law of the first `k` shapelets. -/
theorem measure_upto (h : Law ν pick sl T a n multi mc N) (hmc : multi = true → mc ≤ T.nf) (k : Nat) (hk : k ≤ N)
    (δ : Fin N → Key) :
    ν {ω | Upto δ (fun i => keyAt (pick ω) i) k} =
      paramsLaw a n mc (mk δ 0 0) * ∏ i ∈ Finset.univ.filter (fun i : Fin N => (i : Nat) < k), srcWeight sl T (optOf a) multi δ i := by
  induction hm : N - k generalizing k δ with
  | zero =>
    have hkN : k = N := by omega
    subst hkN
    have e : {ω | Upto δ (fun i => keyAt (pick ω) i) k} = {ω | ∀ i : Fin k, keyAt (pick ω) i = δ i} := by
      ext ω
      constructor
      · exact fun h i => h.2 i i.2
      · intro h
        refine ⟨fun i => ?_, fun i _ => h i⟩
        have := h i
        simp only [this]
        exact ⟨rfl, rfl, rfl, rfl⟩
    rw [e, (measure_key h δ).2]
    congr 1
    refine Finset.prod_congr ?_ fun _ _ => rfl
    ext i
    simp
  | succ m ih =>
    have hkN : k < N := by omega
    set K : Fin N := ⟨k, hkN⟩ with hK
    have hU : {ω | Upto δ (fun i => keyAt (pick ω) i) k} =
        ⋃ x : List Nat × Option (Nat × Nat × List Nat), {ω | Upto (upd δ K x) (fun i => keyAt (pick ω) i) (k + 1)} := by
      ext ω
      rw [Set.mem_iUnion]
      exact upto_succ δ _ K
    rw [hU, measure_iUnion]
    · have hterm : ∀ x, ν {ω | Upto (upd δ K x) (fun i => keyAt (pick ω) i) (k + 1)} =
          paramsLaw a n mc (mk δ 0 0) * (∏ i ∈ Finset.univ.filter (fun i : Fin N => (i : Nat) < k), srcWeight sl T (optOf a) multi δ i) *
            nextWeight sl T (optOf a) multi δ K x.1 x.2 := by
        intro x
        rw [ih (k + 1) (by omega) (upd δ K x) (by omega), paramsLaw_eq (upd_par δ K x), mul_assoc]
        congr 1
        have hfil : (Finset.univ.filter fun i : Fin N => (i : Nat) < k + 1) =
            insert K (Finset.univ.filter fun i : Fin N => (i : Nat) < k) := by
          ext i
          simp only [Finset.mem_filter, Finset.mem_univ, true_and, Finset.mem_insert, Fin.ext_iff, hK]
          omega
        rw [hfil, Finset.prod_insert (by simp [hK]), mul_comm]
        congr 1
        · refine Finset.prod_congr rfl fun i hi => ?_
          have hi : (i : Nat) < k := (Finset.mem_filter.1 hi).2
          have hne : i ≠ K := by
            rintro rfl
            exact absurd hi (by simp [hK])
          rw [srcWeight_next sl T (optOf a) multi (upd_par δ K x) (fun j hj => upd_ne δ x (by
            rintro rfl
            have : k < (i : Nat) := hj
            omega)), upd_ne δ x hne]
          exact (srcWeight_next sl T (optOf a) multi (δ := δ) (δ' := δ) (fun _ => ⟨rfl, rfl, rfl, rfl⟩) fun _ _ => rfl).symm
        · rw [srcWeight_next sl T (optOf a) multi (upd_par δ K x) (fun j hj => upd_ne δ x (ne_of_lt hj))]
          unfold upd
          rw [Function.update_self]
      simp only [hterm]
      rw [ENNReal.tsum_mul_left]
      by_cases hP : paramsLaw a n mc (mk δ 0 0) = 0
      · rw [hP, zero_mul, zero_mul]
      · rw [sum_next, mul_one]
        intro hmul
        have h1 := Finset.prod_ne_zero_iff.1 (right_ne_zero_of_mul hP) k (Finset.mem_range.2 hkN)
        have h2 : nchWeight mc (δ K).1.2.2.2.1 ≠ 0 := by
          have e : (mk δ 0 0).nch k = (δ K).1.2.2.2.1 := by
            show (ext zero δ ((K : Fin N) : Nat)).1.2.2.2.1 = _
            rw [ext_fin]
          rw [← e]
          exact h1
        unfold nchWeight at h2
        split at h2
        · rename_i hc
          exact le_trans hc.2 (hmc hmul)
        · exact absurd rfl h2
    · intro x x' hne
      rw [Function.onFun, Set.disjoint_left]
      intro ω h1 h2
      apply hne
      have e1 := h1.2 K (by simp [hK])
      have e2 := h2.2 K (by simp [hK])
      rw [e1] at e2
      unfold upd at e2
      rw [Function.update_self, Function.update_self] at e2
      simp only [Prod.mk.injEq, true_and] at e2
      exact Prod.ext e2.1 e2.2
    · exact fun x => (measure_keys h fun δ' => Upto (upd δ K x) δ' (k + 1)).1

/-! ## In terms of choices -/

theorem agree_blocked {T : Train L} {P P' : Par} {o : Opt} {rec rec' : Nat → Option Src} {i s c t : Nat} (hi : i < P.n)
    (hn : P.n = P'.n) (hl : ∀ j, j < P.n → P.length j = P'.length j) (hd : ∀ j, j < P.n → P.dilation j = P'.dilation j)
    (hf : ∀ j, j < P.n → P.normalize j = P'.normalize j)
    (h : ∀ j, j < i → (rec j).map (fun r => (r.sample, r.index, r.channels)) =
      (rec' j).map fun r => (r.sample, r.index, r.channels)) :
    Blocked T P o rec i s c t → Blocked T P' o rec' i s c t := by
  rintro ⟨j, m, r, h1, h2, h3, h4, h5, h6, ⟨⟨j', m1, m2, m3⟩, m4⟩, h8⟩
  have hjn : j < P.n := lt_trans h1 hi
  have hj := h j h1
  rw [h4] at hj
  cases hr : rec' j with
  | none => rw [hr] at hj; simp at hj
  | some r' =>
    rw [hr] at hj
    simp only [Option.map_some, Option.some.injEq, Prod.mk.injEq] at hj
    obtain ⟨e1, e2, e3⟩ := hj
    refine ⟨j, m, r', h1, by rw [← hd j hjn, ← hd i hi, h2], by rw [← hf j hjn, ← hf i hi, h3], hr, by rw [← e1, h5],
      by rw [← e3]; exact h6, ⟨⟨j', hn ▸ m1, by rw [← hd j' m1, ← hd i hi, m2], by rw [← hl j' m1, m3]⟩, ?_⟩, ?_⟩
    · intro q q1 q2
      rw [← hn] at q1
      rw [← hl q q1]
      exact m4 q q1 (by rw [hd q q1, hd i hi, q2])
    · rw [← hl j hjn, ← hd j hjn, ← e2]
      exact h8

theorem agree_admissible {T : Train L} {P P' : Par} {o : Opt} {multi : Bool} {rec rec' : Nat → Option Src} {i : Nat}
    (hi : i < P.n) (hn : P.n = P'.n) (hl : ∀ j, j < P.n → P.length j = P'.length j)
    (hd : ∀ j, j < P.n → P.dilation j = P'.dilation j) (hf : ∀ j, j < P.n → P.normalize j = P'.normalize j)
    (h : ∀ j, j < i → (rec j).map (fun r => (r.sample, r.index, r.channels)) =
      (rec' j).map fun r => (r.sample, r.index, r.channels)) (ch : List Nat) (s t : Nat) :
    Admissible T P o multi rec i ch s t ↔ Admissible T P' o multi rec' i ch s t := by
  unfold Admissible
  have : (fun c => Blocked T P o rec i s c t) = fun c => Blocked T P' o rec' i s c t := by
    funext c
    refine propext ⟨agree_blocked hi hn hl hd hf h, agree_blocked (hn ▸ hi) hn.symm ?_ ?_ ?_ fun j hj => (h j hj).symm⟩
    · exact fun j hj => (hl j (hn ▸ hj)).symm
    · exact fun j hj => (hd j (hn ▸ hj)).symm
    · exact fun j hj => (hf j (hn ▸ hj)).symm
  rw [this, hl i hi, hd i hi]

theorem posWeight_agree (sl : Bool) {T : Train L} {P P' : Par} {o : Opt} {multi : Bool} {rec rec' : Nat → Option Src}
    {i : Nat} {ch : List Nat}
    (h : ∀ s t, Admissible T P o multi rec i ch s t ↔ Admissible T P' o multi rec' i ch s t) :
    (∀ s t, posWeight sl T P o multi rec i ch s t = posWeight sl T P' o multi rec' i ch s t) ∧
      positions T P o multi rec i ch = positions T P' o multi rec' i ch := by
  have hp : positions T P o multi rec i ch = positions T P' o multi rec' i ch := by
    ext ⟨s, t⟩
    exact h s t
  refine ⟨fun s t => ?_, hp⟩
  unfold posWeight
  simp only [h, hp]
  by_cases hc : Admissible T P o multi rec i ch s t
  · rw [if_pos hc, if_pos ((h s t).1 hc)]
  · rw [if_neg hc, if_neg (fun h' => hc ((h s t).2 h'))]

theorem par_key (d : Choices) : ∀ j, j < N →
    (mk (fun i : Fin N => keyAt d i) 0 0).par.length j = d.par.length j ∧
    (mk (fun i : Fin N => keyAt d i) 0 0).par.dilation j = d.par.dilation j ∧
    (mk (fun i : Fin N => keyAt d i) 0 0).par.normalize j = d.par.normalize j ∧
    (mk (fun i : Fin N => keyAt d i) 0 0).nch j = d.nch j := by
  intro j hj
  have e : ext zero (fun i : Fin N => keyAt d i) j = keyAt d j := by
    unfold ext
    rw [dif_pos hj]
  refine ⟨?_, ?_, ?_, ?_⟩
  · show (ext zero (fun i : Fin N => keyAt d i) j).1.1 = _
    rw [e]; rfl
  · show (ext zero (fun i : Fin N => keyAt d i) j).1.2.1 = _
    rw [e]; rfl
  · show (ext zero (fun i : Fin N => keyAt d i) j).1.2.2.1 = _
    rw [e]; rfl
  · show (ext zero (fun i : Fin N => keyAt d i) j).1.2.2.2.1 = _
    rw [e]; rfl

theorem srcWeight_place {o : Opt} {d : Choices} (hd : d.par.n = N) (k : Fin N) :
    srcWeight sl T o multi (fun i : Fin N => keyAt d i) k = placeWeight sl T o multi d k := by
  obtain ⟨q1, q2⟩ := posWeight_agree sl (T := T) (o := o) (multi := multi) (i := k) (ch := d.channels k)
    (P := (mk (fun i : Fin N => keyAt d i) 0 0).par) (P' := d.par) (rec := (mk (fun i : Fin N => keyAt d i) 0 0).src)
    (rec' := d.src)
    (agree_admissible k.2 hd.symm (fun j hj => (par_key d j hj).1) (fun j hj => (par_key d j hj).2.1)
      (fun j hj => (par_key d j hj).2.2.1) (by
        intro j hj
        have hjN : j < N := lt_trans hj k.2
        rw [mk_src (fun i : Fin N => keyAt d i) 0 0 ⟨j, hjN⟩]
        show Option.map _ (Option.map _ (Option.map _ (d.src j))) = _
        rw [Option.map_map, Option.map_map]
        rfl) (d.channels k))
  have q1' : ∀ s t, posWeight sl T (mk (fun i : Fin N => keyAt d i) 0 0).par o multi
      (mk (fun i : Fin N => keyAt d i) 0 0).src k (keyAt d k).1.2.2.2.2 s t =
      posWeight sl T d.par o multi d.src k (d.channels k) s t := q1
  have q2' : positions T (mk (fun i : Fin N => keyAt d i) 0 0).par o multi
      (mk (fun i : Fin N => keyAt d i) 0 0).src k (keyAt d k).1.2.2.2.2 = positions T d.par o multi d.src k (d.channels k) := q2
  unfold srcWeight placeWeight
  simp only [q1', q2']
  rfl

theorem upto_agrees {c d : Choices} (hc : c.par.n = N) (hd : d.par.n = N) (k : Nat) :
    Upto (fun i : Fin N => keyAt d i) (fun i : Fin N => keyAt c i) k ↔ c.AgreesUpTo d k := by
  constructor
  · rintro ⟨h1, h2⟩
    refine ⟨⟨by rw [hc, hd], fun i hi => ?_⟩, fun i hi hk => ?_⟩
    · exact h1 ⟨i, hd ▸ hi⟩
    · have := h2 ⟨i, hd ▸ hi⟩ hk
      unfold keyAt at this
      simp only [Prod.mk.injEq] at this
      exact ⟨this.1.2.2.2.2, this.2⟩
  · rintro ⟨⟨-, h1⟩, h2⟩
    refine ⟨fun i => h1 i (hd ▸ i.2), fun i hk => ?_⟩
    obtain ⟨a1, a2, a3, a4⟩ := h1 i (hd ▸ i.2)
    obtain ⟨b1, b2⟩ := h2 i (hd ▸ i.2) hk
    have b2 : (c.src i).map (fun r => (r.sample, r.index, r.channels)) = (d.src i).map fun r => (r.sample, r.index, r.channels) := b2
    show keyAt c i = keyAt d i
    unfold keyAt
    rw [a1, a2, a3, a4, b1, b2]

theorem sequential (h : Law ν pick sl T a n multi mc N) (hmc : multi = true → mc ≤ T.nf)
    (hpar : ∀ d, ν {ω | (pick ω).SameParams d} = paramsLaw a n mc d) : Sequential ν pick sl T a n multi mc := by
  have hempty : ∀ d k, d.par.n ≠ N → {ω | (pick ω).AgreesUpTo d k} = ∅ := by
    intro d k hne
    ext ω
    simp only [Set.mem_setOf_eq, Set.mem_empty_iff_false, iff_false]
    intro hω
    exact hne (by rw [← hω.1.1, h.count ω])
  have hset : ∀ d k, d.par.n = N → {ω | (pick ω).AgreesUpTo d k} =
      {ω | Upto (fun i : Fin N => keyAt d i) (fun i : Fin N => keyAt (pick ω) i) k} := by
    intro d k hd
    ext ω
    exact (upto_agrees (h.count ω) hd k).symm
  refine ⟨fun d k => ?_, fun d => ?_, fun d k hk => ?_⟩
  · by_cases hd : d.par.n = N
    · rw [hset d k hd]
      exact (measure_keys h fun δ' => Upto (fun i : Fin N => keyAt d i) δ' k).1
    · rw [hempty d k hd]
      exact MeasurableSet.empty
  · rw [← hpar d]
    congr 1
    ext ω
    exact ⟨fun h => h.1, fun h => ⟨h, fun i _ hi => absurd hi (Nat.not_lt_zero _)⟩⟩
  · by_cases hd : d.par.n = N
    · have hkN : k < N := hd ▸ hk
      rw [hset d _ hd, hset d _ hd, measure_upto h hmc (k + 1) hkN, measure_upto h hmc k hkN.le, mul_assoc]
      congr 1
      have hfil : (Finset.univ.filter fun i : Fin N => (i : Nat) < k + 1) =
          insert ⟨k, hkN⟩ (Finset.univ.filter fun i : Fin N => (i : Nat) < k) := by
        ext i
        simp only [Finset.mem_filter, Finset.mem_univ, true_and, Finset.mem_insert, Fin.ext_iff]
        omega
      rw [hfil, Finset.prod_insert (by simp), mul_comm]
      congr 1
      exact srcWeight_place hd ⟨k, hkN⟩
    · rw [hempty d _ hd, hempty d _ hd, measure_empty, zero_mul]

/-! ## The first shapelet -/

theorem first_admissible (h : Law ν pick sl T a n multi mc N) (hN : 0 < N) (hα : multi = true → a.alpha ≤ 1)
    {δ : Fin N → Key} (hP : paramsLaw a n mc (mk δ 0 0) ≠ 0) (ch : List Nat) {s : Nat} (hs : s < T.ns) :
    Admissible T (mk δ 0 0).par (optOf a) multi (mk δ 0 0).src 0 ch s 0 := by
  have hex := parWeight_extent h.bounds (left_ne_zero_of_mul hP) (i := 0) hN
  have hl := h.len s hs
  refine ⟨hs, ?_, ?_⟩
  · show 0 < nWin (optOf a).phase (T.len s) ((mk δ 0 0).par.length 0) ((mk δ 0 0).par.dilation 0)
    unfold nWin
    split <;> omega
  · have hnb : ∀ c, ¬ Blocked T (mk δ 0 0).par (optOf a) (mk δ 0 0).src 0 s c 0 := by
      rintro c ⟨j, m, r, hj, -⟩
      omega
    unfold EnoughFree
    split
    · rename_i hmul
      refine le_trans (mul_le_of_le_one_right (Nat.cast_nonneg _) (hα hmul)) ?_
      rw [Nat.cast_le]
      apply le_of_eq
      symm
      rw [List.countP_eq_length]
      intro c _
      exact @decide_eq_true _ (_) (hnb c)
    · exact hnb 0

/-- The sample of the first shapelet, given the parameters. -/
theorem first_given (h : Law ν pick false T a n multi mc N) (hmc : multi = true → mc ≤ T.nf) (hN : 0 < N)
    (hα : multi = true → a.alpha ≤ 1) (δ : Fin N → Key) {s : Nat} (hs : s < T.ns) :
    ν {ω | Upto δ (fun i => keyAt (pick ω) i) 0 ∧ ∃ p, (keyAt (pick ω) 0).2 = some p ∧ p.1 = s} =
      ν {ω | Upto δ (fun i => keyAt (pick ω) i) 0} / T.ns := by
  classical
  have h0 := measure_upto h hmc 0 (Nat.zero_le _) δ
  have hf0 : (Finset.univ.filter fun i : Fin N => (i : Nat) < 0) = ∅ := by
    ext i
    simp
  rw [hf0, Finset.prod_empty, mul_one] at h0
  rw [h0]
  by_cases hP : paramsLaw a n mc (mk δ 0 0) = 0
  · rw [hP, ENNReal.zero_div]
    refine measure_mono_null (fun ω hω => hω.1) (h0.trans hP)
  set K : Fin N := ⟨0, hN⟩ with hK
  have hU : {ω | Upto δ (fun i => keyAt (pick ω) i) 0 ∧ ∃ p, (keyAt (pick ω) 0).2 = some p ∧ p.1 = s} =
      ⋃ x : List Nat × Nat × List Nat,
        {ω | Upto (upd δ K (x.1, some (s, x.2))) (fun i => keyAt (pick ω) i) 1} := by
    ext ω
    rw [Set.mem_iUnion]
    constructor
    · rintro ⟨h1, ⟨s', t, c⟩, h2, rfl⟩
      obtain ⟨⟨ch, q⟩, hx⟩ := (upto_succ δ _ K).1 h1
      have := hx.2 K (by simp [hK])
      refine ⟨(ch, t, c), ?_⟩
      unfold upd at this
      rw [Function.update_self] at this
      have e : q = some (s', t, c) := by
        rw [← h2]
        exact (congrArg Prod.snd this).symm
      rw [e] at hx
      exact hx
    · rintro ⟨⟨ch, t, c⟩, hx⟩
      refine ⟨(upto_succ δ _ K).2 ⟨_, hx⟩, (s, t, c), ?_, rfl⟩
      have := hx.2 K (by simp [hK])
      unfold upd at this
      rw [Function.update_self] at this
      exact congrArg Prod.snd this
  rw [hU, measure_iUnion]
  · have hterm : ∀ x : List Nat × Nat × List Nat,
        ν {ω | Upto (upd δ K (x.1, some (s, x.2))) (fun i => keyAt (pick ω) i) 1} =
        paramsLaw a n mc (mk δ 0 0) * nextWeight false T (optOf a) multi δ K x.1 (some (s, x.2)) := by
      intro x
      rw [measure_upto h hmc 1 hN, paramsLaw_eq (upd_par δ K _)]
      congr 1
      have hfil : (Finset.univ.filter fun i : Fin N => (i : Nat) < 1) = {K} := by
        ext i
        simp only [Finset.mem_filter, Finset.mem_univ, true_and, Finset.mem_singleton, Fin.ext_iff, hK]
        omega
      rw [hfil, Finset.prod_singleton,
        srcWeight_next false T (optOf a) multi (upd_par δ K _) (fun j hj => upd_ne δ _ (ne_of_lt hj))]
      unfold upd
      rw [Function.update_self]
    simp only [hterm]
    rw [ENNReal.tsum_mul_left, div_eq_mul_inv]
    congr 1
    have hn : multi = true → (δ K).1.2.2.2.1 ≤ T.nf := by
      intro hmul
      have h1 := Finset.prod_ne_zero_iff.1 (right_ne_zero_of_mul hP) 0 (Finset.mem_range.2 hN)
      have h2 : nchWeight mc (δ K).1.2.2.2.1 ≠ 0 := by
        have e : (mk δ 0 0).nch 0 = (δ K).1.2.2.2.1 := by
          show (ext zero δ ((K : Fin N) : Nat)).1.2.2.2.1 = _
          rw [ext_fin]
        rw [← e]
        exact h1
      unfold nchWeight at h2
      split at h2
      · rename_i hc
        exact le_trans hc.2 (hmc hmul)
      · exact absurd rfl h2
    rw [ENNReal.tsum_prod (f := fun ch (x : Nat × List Nat) => nextWeight false T (optOf a) multi δ K ch (some (s, x)))]
    have hin : ∀ ch, ∑' x : Nat × List Nat, nextWeight false T (optOf a) multi δ K ch (some (s, x)) =
        channelWeight multi T.nf (δ K).1.2.2.2.1 ch * (T.ns : ℝ≥0∞)⁻¹ := by
      intro ch
      unfold nextWeight
      simp only
      rw [ENNReal.tsum_mul_left]
      congr 1
      rw [ENNReal.tsum_prod (f := fun t (c : List Nat) => if c = ch then
        posWeight false T (mk δ 0 0).par (optOf a) multi (mk δ 0 0).src K ch s t else 0)]
      simp only [tsum_ite_eq]
      rw [sum_posWeight_vl]
      have hS : {s | ∃ t, Admissible T (mk δ 0 0).par (optOf a) multi (mk δ 0 0).src K ch s t} = Set.Iio T.ns := by
        ext u
        exact ⟨fun ⟨t, ht⟩ => ht.1, fun hu => ⟨0, first_admissible h hN hα hP ch hu⟩⟩
      rw [if_pos (by rw [hS]; exact hs), hS]
      congr 2
      rw [Set.ncard_eq_toFinset_card']
      simp
    simp only [hin]
    rw [ENNReal.tsum_mul_right, sum_channelWeight hn, one_mul]
  · intro x x' hne
    rw [Function.onFun, Set.disjoint_left]
    intro ω h1 h2
    apply hne
    have e1 := h1.2 K (by simp [hK])
    have e2 := h2.2 K (by simp [hK])
    rw [e1] at e2
    unfold upd at e2
    rw [Function.update_self, Function.update_self] at e2
    simp only [Prod.mk.injEq, true_and, Option.some.injEq] at e2
    exact Prod.ext e2.1 e2.2
  · exact fun x => (measure_keys h fun δ' => Upto (upd δ K (x.1, some (s, x.2))) δ' 1).1

theorem firstUniform (h : Law ν pick false T a n multi mc N) [IsProbabilityMeasure ν] (hmc : multi = true → mc ≤ T.nf)
    (hN : 0 < N) (hα : multi = true → a.alpha ≤ 1) : FirstUniform ν pick T.ns := by
  have hsrc : ∀ ω s, (pick ω).sources[0]? = some (some s) ↔ ∃ p, (keyAt (pick ω) 0).2 = some p ∧ p.1 = s := by
    intro ω s
    rw [sources_some (h.count ω)]
    exact ⟨fun ⟨_, p⟩ => p, fun p => ⟨hN, p⟩⟩
  refine ⟨fun d s hs => ?_, fun s hs => ?_⟩
  · by_cases hd : d.par.n = N
    · have e : ∀ ω, (pick ω).SameParams d ↔ Upto (fun i : Fin N => keyAt d i) (fun i : Fin N => keyAt (pick ω) i) 0 := by
        intro ω
        rw [upto_agrees (h.count ω) hd]
        exact ⟨fun h => ⟨h, fun i _ hi => absurd hi (Nat.not_lt_zero _)⟩, fun h => h.1⟩
      simp only [e, hsrc]
      exact first_given h hmc hN hα _ hs
    · have e : ∀ ω, ¬ (pick ω).SameParams d := fun ω hω => hd (by rw [← hω.1, h.count ω])
      simp [e]
  · let dk : (Fin N → Nat × Nat × Bool × Nat) → Fin N → Key := fun κ i =>
      (((κ i).1, (κ i).2.1, (κ i).2.2.1, (κ i).2.2.2, []), none)
    have hP1 : ∀ ω κ, Upto (dk κ) (fun i : Fin N => keyAt (pick ω) i) 0 ↔ κ = fun i : Fin N =>
        ((pick ω).par.length i, (pick ω).par.dilation i, (pick ω).par.normalize i, (pick ω).nch i) := by
      intro ω κ
      constructor
      · rintro ⟨h1, -⟩
        funext i
        obtain ⟨a1, a2, a3, a4⟩ := h1 i
        exact Prod.ext a1.symm (Prod.ext a2.symm (Prod.ext a3.symm a4.symm))
      · rintro rfl
        exact ⟨fun i => ⟨rfl, rfl, rfl, rfl⟩, fun i hi => absurd hi (Nat.not_lt_zero _)⟩
    have hsplit : ∀ E : Set Ω, (∀ κ, MeasurableSet {ω | Upto (dk κ) (fun i : Fin N => keyAt (pick ω) i) 0 ∧ ω ∈ E}) →
        ν E = ∑' κ, ν {ω | Upto (dk κ) (fun i : Fin N => keyAt (pick ω) i) 0 ∧ ω ∈ E} := by
      intro E hE
      rw [← measure_iUnion ?_ hE]
      · congr 1
        ext ω
        rw [Set.mem_iUnion]
        exact ⟨fun hω => ⟨_, (hP1 ω _).2 rfl, hω⟩, fun ⟨_, _, hω⟩ => hω⟩
      · intro κ κ' hne
        rw [Function.onFun, Set.disjoint_left]
        intro ω h1 h2
        exact hne (((hP1 ω κ).1 h1.1).trans ((hP1 ω κ').1 h2.1).symm)
    have e0 := hsplit Set.univ fun κ => by
      simp only [Set.mem_univ, and_true]
      exact (measure_keys h fun δ' => Upto (dk κ) δ' 0).1
    simp only [Set.mem_univ, and_true] at e0
    rw [measure_univ] at e0
    rw [hsplit]
    · simp only [Set.mem_setOf_eq, hsrc]
      simp only [fun κ => first_given h hmc hN hα (dk κ) hs, div_eq_mul_inv]
      rw [ENNReal.tsum_mul_right, ← e0]
    · intro κ
      simp only [Set.mem_setOf_eq, hsrc]
      exact (measure_keys h fun δ' => Upto (dk κ) δ' 0 ∧ ∃ p, (δ' ⟨0, hN⟩).2 = some p ∧ p.1 = s).1

end law
end Convst.SourceLaw
