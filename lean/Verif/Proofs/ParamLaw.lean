import Verif.Spec.ParamLaw
import Mathlib.Algebra.BigOperators.Ring.Finset
import Mathlib.Topology.Algebra.InfiniteSum.ENNReal

set_option autoImplicit false
set_option linter.unusedSectionVars false

namespace Convst
open Spec MeasureTheory
open scoped ENNReal

theorem sum_lengthWeight {sizes : List Nat} (h : sizes ≠ []) :
    ∑ l ∈ sizes.toFinset, lengthWeight sizes l = 1 := by
  have h0 : (sizes.length : ℝ≥0∞) ≠ 0 := by
    simpa using h
  unfold lengthWeight
  simp only [div_eq_mul_inv]
  rw [← Finset.sum_mul, ← Nat.cast_sum, List.sum_toFinset_count_eq_length]
  exact ENNReal.mul_inv_cancel h0 (ENNReal.natCast_ne_top _)

theorem sum_flagWeight (p : ℝ) : ∑ b, flagWeight p b = 1 := by
  rw [Fintype.sum_bool]
  unfold flagWeight
  simp only [if_true, Bool.false_eq_true, if_false]
  rw [← ENNReal.ofReal_add (le_min zero_le_one (le_max_left _ _)) (by simp)]
  simp

theorem sum_nchWeight {mc : Nat} (h : 1 ≤ mc) : ∑ c ∈ Finset.range (mc + 1), nchWeight mc c = 1 := by
  rw [Finset.sum_range_succ']
  have h1 : ∀ k ∈ Finset.range mc, nchWeight mc (k + 1) = (mc : ℝ≥0∞)⁻¹ := by
    intro k hk
    have := Finset.mem_range.1 hk
    unfold nchWeight
    rw [if_pos ⟨by omega, by omega⟩]
  rw [Finset.sum_congr rfl h1, Finset.sum_const, Finset.card_range, nsmul_eq_mul]
  have h2 : nchWeight mc 0 = 0 := by unfold nchWeight; simp
  rw [h2, add_zero]
  exact ENNReal.mul_inv_cancel (by simpa using Nat.one_le_iff_ne_zero.1 h) (ENNReal.natCast_ne_top _)

theorem sum_plainWeight {m N : Nat} (hN : 1 ≤ N) (hm : m ≤ N) :
    ∑ d ∈ Finset.range (N + 1), plainWeight m d = 1 := by
  by_cases h : m ≤ 1
  · unfold plainWeight
    simp only [if_pos h]
    rw [Finset.sum_ite_eq' (Finset.range (N + 1)) 1]
    rw [if_pos (Finset.mem_range.2 (by omega))]
  · have h : 1 < m := by omega
    have hlog : 0 < Real.log m := Real.log_pos (by exact_mod_cast h)
    have hsub : ∑ d ∈ Finset.range (N + 1), plainWeight m d = ∑ d ∈ Finset.Ico 1 m, plainWeight m d := by
      symm
      refine Finset.sum_subset ?_ ?_
      · intro d hd
        have := Finset.mem_Ico.1 hd
        exact Finset.mem_range.2 (by omega)
      · intro d _ hd
        unfold plainWeight
        rw [if_neg (by omega), if_neg]
        intro hh
        exact hd (Finset.mem_Ico.2 hh)
    rw [hsub]
    have hterm : ∀ d ∈ Finset.Ico 1 m, plainWeight m d =
        ENNReal.ofReal ((Real.log ((d + 1 : Nat) : ℝ) - Real.log (d : ℝ)) / Real.log m) := by
      intro d hd
      unfold plainWeight
      rw [if_neg (by omega), if_pos (Finset.mem_Ico.1 hd)]
      push_cast
      rfl
    rw [Finset.sum_congr rfl hterm, ← ENNReal.ofReal_sum_of_nonneg]
    · rw [← Finset.sum_div, Finset.sum_Ico_sub (fun d : Nat => Real.log (d : ℝ)) (le_of_lt h)]
      simp [hlog.ne']
    · intro d hd
      have h1 := (Finset.mem_Ico.1 hd).1
      refine div_nonneg (sub_nonneg.2 (Real.log_le_log ?_ ?_)) hlog.le
      · exact_mod_cast h1
      · exact_mod_cast Nat.le_succ d

theorem logWeight_pos (k : Nat) : 0 < logWeight k := by
  unfold logWeight
  positivity

open Classical in
theorem sum_prime_log (m : Nat) (hm : 1 ≤ m) :
    ∑ d ∈ Finset.range (m + 1), (if d = 1 ∨ d.Prime then logWeight (Nat.primeCounting d) else 0) =
      ∑ k ∈ Finset.range (Nat.primeCounting m + 1), logWeight k := by
  induction m, hm using Nat.le_induction with
  | base =>
    simp [Finset.sum_range_succ, Nat.not_prime_zero]
  | succ m hm ih =>
    rw [Finset.sum_range_succ, ih]
    have hpc : Nat.primeCounting (m + 1) = Nat.primeCounting m + if (m + 1).Prime then 1 else 0 := by
      unfold Nat.primeCounting Nat.primeCounting'
      rw [Nat.count_succ]
    rw [hpc]
    by_cases hp : (m + 1).Prime
    · rw [if_pos (Or.inr hp), if_pos hp, Finset.sum_range_succ _ (Nat.primeCounting m + 1)]
    · have : ¬ (m + 1 = 1 ∨ (m + 1).Prime) := by
        rintro (h | h)
        · omega
        · exact hp h
      rw [if_neg this, if_neg hp, add_zero, add_zero]

theorem sum_primeWeight {m N : Nat} (hm1 : 1 ≤ m) (hm : m ≤ N) :
    ∑ d ∈ Finset.range (N + 1), primeWeight m d = 1 := by
  classical
  set T := ∑ k ∈ Finset.range (Nat.primeCounting m + 1), logWeight k with hT
  have hTpos : 0 < T := Finset.sum_pos (fun k _ => logWeight_pos k) ⟨0, by simp⟩
  have hsub : ∑ d ∈ Finset.range (N + 1), primeWeight m d = ∑ d ∈ Finset.range (m + 1), primeWeight m d := by
    symm
    refine Finset.sum_subset ?_ ?_
    · intro d hd
      have := Finset.mem_range.1 hd
      exact Finset.mem_range.2 (by omega)
    · intro d _ hd
      unfold primeWeight
      rw [if_neg]
      rintro ⟨-, h⟩
      exact hd (Finset.mem_range.2 (by omega))
  have hterm : ∀ d ∈ Finset.range (m + 1), primeWeight m d =
      ENNReal.ofReal ((if d = 1 ∨ d.Prime then logWeight (Nat.primeCounting d) else 0) / T) := by
    intro d hd
    have := Finset.mem_range.1 hd
    unfold primeWeight
    by_cases h : d = 1 ∨ d.Prime
    · rw [if_pos ⟨h, by omega⟩, if_pos h]
    · rw [if_neg (fun hh => h hh.1), if_neg h, zero_div, ENNReal.ofReal_zero]
  rw [hsub, Finset.sum_congr rfl hterm, ← ENNReal.ofReal_sum_of_nonneg]
  · rw [← Finset.sum_div, sum_prime_log m hm1, ← hT, div_self hTpos.ne', ENNReal.ofReal_one]
  · intro d _
    refine div_nonneg ?_ hTpos.le
    split
    · exact (logWeight_pos _).le
    · exact le_refl _

theorem sum_dilWeight {n l : Nat} (prime : Bool) (h2 : 2 ≤ l) (hl : l ≤ n) :
    ∑ d ∈ Finset.range (n + 1), dilWeight n prime l d = 1 := by
  have hm1 : 1 ≤ (n - 1) / (l - 1) := by
    rw [Nat.le_div_iff_mul_le (by omega)]; omega
  have hm : (n - 1) / (l - 1) ≤ n := le_trans (Nat.div_le_self _ _) (by omega)
  unfold dilWeight
  cases prime
  · simp only [Bool.false_eq_true, if_false]
    exact sum_plainWeight (by omega) hm
  · simp only [if_true]
    exact sum_primeWeight hm1 hm

/-- Outside the grid of lengths, dilations and channels the weight is zero. -/
theorem oneWeight_outside {L : Type} {a : FitArgs ℝ L} {n mc : Nat} (hs : ∀ l ∈ a.sizes, 2 ≤ l ∧ l ≤ n)
    {l d c : Nat} {b : Bool}
    (h : ¬ (l ∈ a.sizes ∧ d ≤ n ∧ c ≤ mc)) : oneWeight a n mc l d b c = 0 := by
  unfold oneWeight
  by_cases h1 : l ∈ a.sizes
  · by_cases h2 : d ≤ n
    · have h3 : ¬ c ≤ mc := fun h3 => h ⟨h1, h2, h3⟩
      have : nchWeight mc c = 0 := by
        unfold nchWeight; rw [if_neg]; omega
      rw [this, mul_zero]
    · obtain ⟨hl2, hln⟩ := hs l h1
      have hm : (n - 1) / (l - 1) ≤ n - 1 := Nat.div_le_self _ _
      have : dilWeight n a.prime l d = 0 := by
        unfold dilWeight plainWeight primeWeight
        split
        · rw [if_neg]; rintro ⟨-, hh⟩; omega
        · split
          · rw [if_neg]; omega
          · rw [if_neg]; omega
      rw [this, mul_zero, zero_mul, zero_mul]
  · have : lengthWeight a.sizes l = 0 := by
      unfold lengthWeight
      rw [List.count_eq_zero_of_not_mem h1]; simp
    rw [this, zero_mul, zero_mul, zero_mul]

/-- The parameters of one shapelet. -/
abbrev One := Nat × Nat × Bool × Nat

/-- The choices with the given parameters. -/
def choicesOf {N : Nat} (p : Fin N → One) : Choices where
  par := ⟨N, fun i => if h : i < N then (p ⟨i, h⟩).1 else 0, fun i => if h : i < N then (p ⟨i, h⟩).2.1 else 0,
    fun i => if h : i < N then (p ⟨i, h⟩).2.2.1 else false⟩
  nch i := if h : i < N then (p ⟨i, h⟩).2.2.2 else 0
  channels _ := []
  src _ := none
  thr _ := 0

/-- The parameters of shapelet `i`. -/
def Choices.one (c : Choices) (i : Nat) : One := (c.par.length i, c.par.dilation i, c.par.normalize i, c.nch i)

theorem sameParams_choicesOf {N : Nat} (p : Fin N → One) (c : Choices) :
    c.SameParams (choicesOf p) ↔ c.par.n = N ∧ ∀ i : Fin N, Choices.one c i = p i := by
  unfold Choices.SameParams
  constructor
  · rintro ⟨h1, h2⟩
    refine ⟨h1, fun i => ?_⟩
    obtain ⟨e1, e2, e3, e4⟩ := h2 i i.2
    have hi : (i : Nat) < N := i.2
    simp only [choicesOf, dif_pos hi] at e1 e2 e3 e4
    unfold Choices.one
    rw [e1, e2, e3, e4]
  · rintro ⟨h1, h2⟩
    refine ⟨h1, fun i hi => ?_⟩
    have hi : i < N := hi
    have := h2 ⟨i, hi⟩
    unfold Choices.one at this
    simp only [choicesOf, dif_pos hi]
    rw [← this]
    exact ⟨rfl, rfl, rfl, rfl⟩

theorem paramsLaw_choicesOf {L : Type} {a : FitArgs ℝ L} {n mc : Nat} (p : Fin a.nShp → One) :
    paramsLaw a n mc (choicesOf p) =
      ∏ i, oneWeight a n mc (p i).1 (p i).2.1 (p i).2.2.1 (p i).2.2.2 := by
  unfold paramsLaw parWeight
  rw [if_pos (show (choicesOf p).par.n = a.nShp from rfl), ← Finset.prod_mul_distrib]
  show ∏ i ∈ Finset.range a.nShp, _ = _
  rw [Finset.prod_range]
  refine Finset.prod_congr rfl fun i _ => ?_
  unfold oneWeight
  simp only [choicesOf, dif_pos i.2]

section Facts
variable {Ω L : Type} [MeasurableSpace Ω] {P : Measure Ω} {pick : Ω → Choices} {a : FitArgs ℝ L} {n mc : Nat}

open Classical in
theorem independent_of_law (hN : ∀ ω, (pick ω).par.n = a.nShp) (hs : ∀ l ∈ a.sizes, 2 ≤ l ∧ l ≤ n)
    (hlaw : ∀ d, MeasurableSet {ω | (pick ω).SameParams d} ∧ P {ω | (pick ω).SameParams d} = paramsLaw a n mc d)
    (A : Nat → One → Prop) :
    MeasurableSet {ω | ∀ i, i < a.nShp → A i (Choices.one (pick ω) i)} ∧
    P {ω | ∀ i, i < a.nShp → A i (Choices.one (pick ω) i)} =
      ∏ i ∈ Finset.range a.nShp, ∑ v ∈ a.sizes.toFinset ×ˢ Finset.range (n + 1) ×ˢ Finset.univ ×ˢ Finset.range (mc + 1),
        if A i v then oneWeight a n mc v.1 v.2.1 v.2.2.1 v.2.2.2 else 0 := by
  set w : One → ℝ≥0∞ := fun v => oneWeight a n mc v.1 v.2.1 v.2.2.1 v.2.2.2 with hw
  set D : Finset One := a.sizes.toFinset ×ˢ Finset.range (n + 1) ×ˢ Finset.univ ×ˢ Finset.range (mc + 1) with hD
  let E : (Fin a.nShp → One) → Set Ω := fun p =>
    if ∀ i : Fin a.nShp, A i (p i) then {ω | (pick ω).SameParams (choicesOf p)} else ∅
  have hE : {ω | ∀ i, i < a.nShp → A i (Choices.one (pick ω) i)} = ⋃ p, E p := by
    ext ω
    rw [Set.mem_iUnion]
    constructor
    · intro h
      refine ⟨fun i => Choices.one (pick ω) i, ?_⟩
      show ω ∈ if _ then _ else _
      rw [if_pos (fun i : Fin a.nShp => h i i.2)]
      exact (sameParams_choicesOf _ _).2 ⟨hN ω, fun i => rfl⟩
    · rintro ⟨p, hp⟩
      have hp : ω ∈ if ∀ i : Fin a.nShp, A i (p i) then {ω | (pick ω).SameParams (choicesOf p)} else ∅ := hp
      by_cases hA : ∀ i : Fin a.nShp, A i (p i)
      · rw [if_pos hA] at hp
        intro i hi
        have := ((sameParams_choicesOf _ _).1 hp).2 ⟨i, hi⟩
        rw [show Choices.one (pick ω) i = p ⟨i, hi⟩ from this]
        exact hA ⟨i, hi⟩
      · rw [if_neg hA] at hp
        exact absurd hp (Set.notMem_empty _)
  have hmeas : ∀ p, MeasurableSet (E p) := by
    intro p
    show MeasurableSet (if _ then _ else _)
    split
    · exact (hlaw _).1
    · exact MeasurableSet.empty
  have hval : ∀ p, P (E p) = ∏ i : Fin a.nShp, if A i (p i) then w (p i) else 0 := by
    intro p
    show P (if ∀ i : Fin a.nShp, A i (p i) then {ω | (pick ω).SameParams (choicesOf p)} else ∅) = _
    by_cases hA : ∀ i : Fin a.nShp, A i (p i)
    · rw [if_pos hA, (hlaw _).2, paramsLaw_choicesOf]
      refine Finset.prod_congr rfl fun i _ => ?_
      rw [if_pos (hA i)]
    · rw [if_neg hA, measure_empty]
      obtain ⟨i, hi⟩ := not_forall.1 hA
      exact (Finset.prod_eq_zero (Finset.mem_univ i) (if_neg hi)).symm
  have hdisj : Pairwise (Function.onFun Disjoint E) := by
    intro p q hpq
    rw [Function.onFun, Set.disjoint_left]
    intro ω h1 h2
    apply hpq
    have h1 : ω ∈ if ∀ i : Fin a.nShp, A i (p i) then {ω | (pick ω).SameParams (choicesOf p)} else ∅ := h1
    have h2 : ω ∈ if ∀ i : Fin a.nShp, A i (q i) then {ω | (pick ω).SameParams (choicesOf q)} else ∅ := h2
    by_cases hp : ∀ i : Fin a.nShp, A i (p i)
    · by_cases hq : ∀ i : Fin a.nShp, A i (q i)
      · rw [if_pos hp] at h1
        rw [if_pos hq] at h2
        funext i
        rw [← ((sameParams_choicesOf _ _).1 h1).2 i, ← ((sameParams_choicesOf _ _).1 h2).2 i]
      · rw [if_neg hq] at h2; exact absurd h2 (Set.notMem_empty _)
    · rw [if_neg hp] at h1; exact absurd h1 (Set.notMem_empty _)
  rw [hE]
  refine ⟨MeasurableSet.iUnion hmeas, ?_⟩
  rw [measure_iUnion hdisj hmeas]
  simp only [hval]
  rw [tsum_eq_sum (s := Fintype.piFinset fun _ => D)]
  · rw [Finset.prod_range, Finset.prod_univ_sum]
  · intro p hp
    rw [Fintype.mem_piFinset] at hp
    obtain ⟨i, hi⟩ := not_forall.1 hp
    refine Finset.prod_eq_zero (Finset.mem_univ i) ?_
    have : w (p i) = 0 := by
      refine oneWeight_outside hs fun hh => hi ?_
      obtain ⟨h1, h2, h3⟩ := hh
      rw [hD]
      simp only [Finset.mem_product, List.mem_toFinset, Finset.mem_range, Finset.mem_univ, true_and]
      exact ⟨h1, by omega, by omega⟩
    rw [this]; simp

/-- The law of the length and of the flag alone. -/
theorem sum_grid (hs : ∀ l ∈ a.sizes, 2 ≤ l ∧ l ≤ n) (hmc : 1 ≤ mc) (f : Nat → Bool → ℝ≥0∞) :
    ∑ v ∈ a.sizes.toFinset ×ˢ Finset.range (n + 1) ×ˢ (Finset.univ : Finset Bool) ×ˢ Finset.range (mc + 1),
        f v.1 v.2.2.1 * oneWeight a n mc v.1 v.2.1 v.2.2.1 v.2.2.2 =
      ∑ l ∈ a.sizes.toFinset, ∑ b, f l b * (lengthWeight a.sizes l * flagWeight a.pNorm b) := by
  rw [Finset.sum_product]
  refine Finset.sum_congr rfl fun l hl => ?_
  obtain ⟨h2, hn⟩ := hs l (List.mem_toFinset.1 hl)
  rw [Finset.sum_product]
  have : ∀ d ∈ Finset.range (n + 1), ∑ x ∈ (Finset.univ : Finset Bool) ×ˢ Finset.range (mc + 1),
      f l x.1 * oneWeight a n mc l d x.1 x.2 =
      dilWeight n a.prime l d * ∑ b, f l b * (lengthWeight a.sizes l * flagWeight a.pNorm b) := by
    intro d _
    rw [Finset.sum_product, Finset.mul_sum]
    refine Finset.sum_congr rfl fun b _ => ?_
    show ∑ y ∈ Finset.range (mc + 1), f l b * (lengthWeight a.sizes l * dilWeight n a.prime l d *
      flagWeight a.pNorm b * nchWeight mc y) = _
    rw [← Finset.mul_sum, ← Finset.mul_sum, sum_nchWeight hmc]
    ring
  rw [Finset.sum_congr rfl this, ← Finset.sum_mul, sum_dilWeight _ h2 hn, one_mul]

theorem lengthWeight_le {sizes : List Nat} (l : Nat) : lengthWeight sizes l ≤ 1 := by
  unfold lengthWeight
  refine ENNReal.div_le_of_le_mul ?_
  rw [one_mul]
  exact_mod_cast List.count_le_length

open Classical in
theorem sum_lengthWeight_ne {sizes : List Nat} (h : sizes ≠ []) (l : Nat) :
    (∑ l' ∈ sizes.toFinset, if l' ≠ l then lengthWeight sizes l' else 0) = 1 - lengthWeight sizes l := by
  have hfin : lengthWeight sizes l ≠ ∞ := ne_top_of_le_ne_top ENNReal.one_ne_top (lengthWeight_le l)
  refine ENNReal.eq_sub_of_add_eq hfin ?_
  have h1 : lengthWeight sizes l = ∑ l' ∈ sizes.toFinset, if l' = l then lengthWeight sizes l' else 0 := by
    rw [Finset.sum_ite_eq']
    split
    · rfl
    · next hh =>
      unfold lengthWeight
      rw [List.count_eq_zero_of_not_mem (fun hm => hh (List.mem_toFinset.2 hm))]; simp
  rw [h1, ← Finset.sum_add_distrib, ← sum_lengthWeight h]
  refine Finset.sum_congr rfl fun l' _ => ?_
  by_cases hh : l' = l <;> simp [hh]

theorem paramFacts_of_law (hN : ∀ ω, (pick ω).par.n = a.nShp) (hne : a.sizes ≠ [])
    (hs : ∀ l ∈ a.sizes, 2 ≤ l ∧ l ≤ n) (hmc : 1 ≤ mc)
    (hlaw : ∀ d, MeasurableSet {ω | (pick ω).SameParams d} ∧ P {ω | (pick ω).SameParams d} = paramsLaw a n mc d) :
    ParamFacts P pick a n mc := by
  classical
  have hun : ∀ l, P {ω | Unused (pick ω) a.nShp l} = (1 - lengthWeight a.sizes l) ^ a.nShp := by
    intro l
    have := (independent_of_law hN hs hlaw (fun _ v => v.1 ≠ l)).2
    refine this.trans ?_
    rw [Finset.prod_const, Finset.card_range]
    congr 1
    have h1 := sum_grid hs hmc (fun l' _ => if l' ≠ l then (1 : ℝ≥0∞) else 0)
    simp only [ite_mul, one_mul, zero_mul] at h1
    refine Eq.trans ?_ (h1.trans ?_)
    · refine Finset.sum_congr rfl fun v _ => ?_
      congr
    rw [← sum_lengthWeight_ne hne l]
    refine Finset.sum_congr rfl fun l' _ => ?_
    split
    · rw [← Finset.mul_sum, sum_flagWeight, mul_one]
    · simp
  refine ⟨fun A => ?_, hun, ?_, ?_⟩
  · have := (independent_of_law hN hs hlaw (fun i v => A i v.1 v.2.1 v.2.2.1 v.2.2.2)).2
    refine this.trans (Finset.prod_congr rfl fun i _ => ?_)
    rw [Finset.sum_product]
    refine Finset.sum_congr rfl fun l _ => ?_
    rw [Finset.sum_product]
    refine Finset.sum_congr rfl fun d _ => ?_
    rw [Finset.sum_product]
  · have : {ω | ∃ l ∈ a.sizes, Unused (pick ω) a.nShp l} =
        ⋃ l ∈ a.sizes.toFinset, {ω | Unused (pick ω) a.nShp l} := by
      ext ω; simp
    rw [this]
    refine (measure_biUnion_finset_le _ _).trans (le_of_eq (Finset.sum_congr rfl fun l _ => hun l))
  · intro k
    have hset : {ω | normCount (pick ω) a.nShp = k} = ⋃ t ∈ (Finset.range a.nShp).powersetCard k,
        {ω | ∀ i, i < a.nShp → ((Choices.one (pick ω) i).2.2.1 = true ↔ i ∈ t)} := by
      ext ω
      have hc : normCount (pick ω) a.nShp =
          ((Finset.range a.nShp).filter fun i => (pick ω).par.normalize i = true).card := by
        unfold normCount
        rw [Finset.card_def, Finset.filter_val, Finset.range_val, Multiset.range]
        simp
      simp only [Set.mem_iUnion, Set.mem_setOf_eq, Finset.mem_powersetCard, exists_prop, hc]
      constructor
      · intro h
        refine ⟨_, ⟨Finset.filter_subset _ _, h⟩, fun i hi => ?_⟩
        rw [Finset.mem_filter, Finset.mem_range]
        exact ⟨fun h => ⟨hi, h⟩, fun h => h.2⟩
      · rintro ⟨t, ⟨ht, hk⟩, h⟩
        rw [← hk]
        congr 1
        ext i
        rw [Finset.mem_filter, Finset.mem_range]
        constructor
        · rintro ⟨hi, hb⟩; exact (h i hi).1 hb
        · intro hi
          have hi' := Finset.mem_range.1 (ht hi)
          exact ⟨hi', (h i hi').2 hi⟩
    rw [hset, measure_biUnion_finset]
    · have hterm : ∀ t ∈ (Finset.range a.nShp).powersetCard k,
          P {ω | ∀ i, i < a.nShp → ((Choices.one (pick ω) i).2.2.1 = true ↔ i ∈ t)} =
            flagWeight a.pNorm true ^ k * flagWeight a.pNorm false ^ (a.nShp - k) := by
        intro t ht
        obtain ⟨htr, htk⟩ := Finset.mem_powersetCard.1 ht
        rw [(independent_of_law hN hs hlaw (fun i v => v.2.2.1 = true ↔ i ∈ t)).2]
        have hi : ∀ i ∈ Finset.range a.nShp,
            (∑ v ∈ a.sizes.toFinset ×ˢ Finset.range (n + 1) ×ˢ (Finset.univ : Finset Bool) ×ˢ Finset.range (mc + 1),
              if (v.2.2.1 = true ↔ i ∈ t) then oneWeight a n mc v.1 v.2.1 v.2.2.1 v.2.2.2 else 0) =
            if i ∈ t then flagWeight a.pNorm true else flagWeight a.pNorm false := by
          intro i _
          have h1 := sum_grid hs hmc (fun _ b => if (b = true ↔ i ∈ t) then (1 : ℝ≥0∞) else 0)
          simp only [ite_mul, one_mul, zero_mul] at h1
          refine h1.trans ?_
          simp only [Fintype.sum_bool, Bool.false_eq_true, false_iff, true_iff]
          by_cases hit : i ∈ t
          · simp only [hit, if_true, not_true_eq_false, if_false, add_zero]
            rw [← Finset.sum_mul, sum_lengthWeight hne, one_mul]
          · simp only [hit, if_false, not_false_eq_true, if_true, zero_add]
            rw [← Finset.sum_mul, sum_lengthWeight hne, one_mul]
        have hi' := Finset.prod_congr (rfl : Finset.range a.nShp = _) hi
        refine Eq.trans (Finset.prod_congr rfl fun i _ => Finset.sum_congr rfl fun v _ => ?_) (hi'.trans ?_)
        · congr
        rw [Finset.prod_ite, Finset.prod_const, Finset.prod_const]
        have e1 : (Finset.range a.nShp).filter (fun i => i ∈ t) = t := by
          ext i; rw [Finset.mem_filter]; exact ⟨fun h => h.2, fun h => ⟨htr h, h⟩⟩
        have e2 : ((Finset.range a.nShp).filter (fun i => i ∉ t)).card = a.nShp - k := by
          have := Finset.card_filter_add_card_filter_not (s := Finset.range a.nShp) (fun i => i ∈ t)
          rw [e1, htk, Finset.card_range] at this
          omega
        rw [e1, htk, e2]
      rw [Finset.sum_congr rfl hterm, Finset.sum_const, Finset.card_powersetCard, Finset.card_range, nsmul_eq_mul,
        mul_assoc]
    · intro t ht t' ht' htt
      rw [Function.onFun, Set.disjoint_left]
      intro ω h1 h2
      apply htt
      have ht := (Finset.mem_powersetCard.1 ht).1
      have ht' := (Finset.mem_powersetCard.1 ht').1
      ext i
      constructor
      · intro hi
        have := Finset.mem_range.1 (ht hi)
        exact (h2 i this).1 ((h1 i this).2 hi)
      · intro hi
        have := Finset.mem_range.1 (ht' hi)
        exact (h1 i this).1 ((h2 i this).2 hi)
    · intro t _
      exact (independent_of_law hN hs hlaw (fun i v => v.2.2.1 = true ↔ i ∈ t)).1

end Facts
end Convst
