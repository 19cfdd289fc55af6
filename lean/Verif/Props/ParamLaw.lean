import Verif.Proofs.ParamLaw
import Verif.Props.Law

/-!
# Which lengths and how many normalised shapelets a call of `fit` draws

`ParamFacts` (`Verif/Spec/ParamLaw.lean`) lists what is shown of the parameters drawn by the four methods.
-/

set_option autoImplicit false
set_option linter.unusedSectionVars false

namespace Convst.Props
open Convst Spec MeasureTheory
open scoped ENNReal

variable {G L : Type} [MeasurableSpace G] [Gen G ℝ] [LawfulGen G] [DecidableEq L] {μ : Measure G}

/-- **C115.** Univariate series of equal length. -/
theorem C115_univariate_same_length [IsProbabilityMeasure μ] (hf : Fair G μ) {a : FitArgs ℝ L} (hv : ValidSL a) :
    ∃ pick : G × (Nat → G) → Choices,
      (∀ ω order, IsSchedule order → ∃ S, uslGenerate a ω.1 ω.2 order = .ok S ∧
        uShown S = uListed (pick ω).par ((pick ω).out (trainSL a) (optOf a))) ∧
      ParamFacts (tapes μ) pick a a.nt 1 := by
  obtain ⟨pick, h1, -, h3, h4⟩ := law_usl hf hv
  exact ⟨pick, h1, paramFacts_of_law h4 hv.sizes hv.bounds (le_refl _) h3⟩

/-- **C115.** Univariate series of different lengths. -/
theorem C115_univariate_variable_length [IsProbabilityMeasure μ] (hf : Fair G μ) {a : FitArgs ℝ L} {minLen : Nat}
    {xLen : List Nat} (hv : ValidVL a minLen xLen) :
    ∃ pick : G × (Nat → G) → Choices,
      (∀ ω order, IsSchedule order → ∃ S, uvlGenerate a minLen xLen ω.1 ω.2 order = .ok S ∧
        uShown S = uListed (pick ω).par ((pick ω).out (trainVL a xLen) (optOf a))) ∧
      ParamFacts (tapes μ) pick a minLen 1 := by
  obtain ⟨pick, h1, -, h3, h4⟩ := law_uvl hf hv
  exact ⟨pick, h1, paramFacts_of_law h4 hv.sizes hv.bounds (le_refl _) h3⟩

/-- **C115.** Multivariate series of equal length. -/
theorem C115_multivariate_same_length [IsProbabilityMeasure μ] (hf : Fair G μ) {a : FitArgs ℝ L} (hv : ValidSL a)
    {mc : Nat} (hmc : 1 ≤ mc) (hmcf : mc ≤ a.nf) :
    ∃ pick : G × (Nat → G) → Choices,
      (∀ ω order, IsSchedule order → ∃ S, mslGenerate a mc ω.1 ω.2 order = .ok S ∧
        mShown S = mListed (pick ω).par ((pick ω).out (trainSL a) (optOf a))) ∧
      ParamFacts (tapes μ) pick a a.nt mc := by
  obtain ⟨pick, h1, -, h3, h4⟩ := law_msl hf hv hmc hmcf
  exact ⟨pick, h1, paramFacts_of_law h4 hv.sizes hv.bounds hmc h3⟩

/-- **C115.** Multivariate series of different lengths. -/
theorem C115_multivariate_variable_length [IsProbabilityMeasure μ] (hf : Fair G μ) {a : FitArgs ℝ L} {minLen : Nat}
    {xLen : List Nat} (hv : ValidVL a minLen xLen) {mc : Nat} (hmc : 1 ≤ mc) (hmcf : mc ≤ a.nf) :
    ∃ pick : G × (Nat → G) → Choices,
      (∀ ω order, IsSchedule order → ∃ S, mvlGenerate a mc minLen xLen ω.1 ω.2 order = .ok S ∧
        mShown S = mListed (pick ω).par ((pick ω).out (trainVL a xLen) (optOf a))) ∧
      ParamFacts (tapes μ) pick a minLen mc := by
  obtain ⟨pick, h1, -, h3, h4⟩ := law_mvl hf hv hmc hmcf
  exact ⟨pick, h1, paramFacts_of_law h4 hv.sizes hv.bounds hmc h3⟩

/-! ## What the user sees -/

theorem uListed_length {P : Par} {out : Nat → Option (Out ℝ)} {x : Shown} (hx : x ∈ uListed P out) :
    ∃ i, i < P.n ∧ x.length = P.length i := by
  unfold uListed at hx
  simp only [List.mem_filterMap, List.mem_range] at hx
  obtain ⟨i, hi, h⟩ := hx
  refine ⟨i, hi, ?_⟩
  simp only [Option.map_eq_some_iff] at h
  obtain ⟨v, -, rfl⟩ := h
  rfl

theorem mListed_length {P : Par} {out : Nat → Option (Out ℝ)} {x : Shown} (hx : x ∈ mListed P out) :
    ∃ i, i < P.n ∧ x.length = P.length i := by
  unfold mListed at hx
  simp only [List.mem_filterMap, List.mem_range] at hx
  obtain ⟨i, hi, h⟩ := hx
  refine ⟨i, hi, ?_⟩
  simp only [Option.map_eq_some_iff] at h
  obtain ⟨v, -, rfl⟩ := h
  rfl

theorem uShown_length {S : UShp ℝ} {l : Nat} (h : l ∈ S.lengths) : ∃ x ∈ uShown S, x.length = l := by
  obtain ⟨k, hk, rfl⟩ := List.mem_iff_getElem.1 h
  exact ⟨_, List.mem_map.2 ⟨k, List.mem_range.2 hk, rfl⟩, by simp [List.getD, hk]⟩

theorem mShown_length {S : MShp ℝ} {l : Nat} (h : l ∈ S.lengths) : ∃ x ∈ mShown S, x.length = l := by
  obtain ⟨k, hk, rfl⟩ := List.mem_iff_getElem.1 h
  exact ⟨_, List.mem_map.2 ⟨k, List.mem_range.2 hk, rfl⟩, by simp [List.getD, hk]⟩

/-- **C115.** Univariate series of equal length: with at least this probability `fit` returns shapelets none of which has
the length `l`, even when `l` was offered. -/
theorem C115_length_absent_univariate [IsProbabilityMeasure μ] (hf : Fair G μ) {a : FitArgs ℝ L} (hv : ValidSL a)
    (l : Nat) :
    (1 - lengthWeight a.sizes l) ^ a.nShp ≤
      tapes μ {ω | ∀ order, IsSchedule order → ∃ S, uslGenerate a ω.1 ω.2 order = .ok S ∧ l ∉ S.lengths} := by
  obtain ⟨pick, h1, -, h3, h4⟩ := law_usl hf hv
  rw [← (paramFacts_of_law h4 hv.sizes hv.bounds (le_refl _) h3).unused l]
  refine measure_mono fun ω hω order ho => ?_
  obtain ⟨S, hS, hsh⟩ := h1 ω order ho
  refine ⟨S, hS, fun hl => ?_⟩
  obtain ⟨x, hx, rfl⟩ := uShown_length hl
  rw [hsh] at hx
  obtain ⟨i, hi, e⟩ := uListed_length hx
  rw [h4] at hi
  exact hω i hi e.symm

/-- **C115.** Multivariate series of equal length. -/
theorem C115_length_absent_multivariate [IsProbabilityMeasure μ] (hf : Fair G μ) {a : FitArgs ℝ L} (hv : ValidSL a)
    {mc : Nat} (hmc : 1 ≤ mc) (hmcf : mc ≤ a.nf) (l : Nat) :
    (1 - lengthWeight a.sizes l) ^ a.nShp ≤
      tapes μ {ω | ∀ order, IsSchedule order → ∃ S, mslGenerate a mc ω.1 ω.2 order = .ok S ∧ l ∉ S.lengths} := by
  obtain ⟨pick, h1, -, h3, h4⟩ := law_msl hf hv hmc hmcf
  rw [← (paramFacts_of_law h4 hv.sizes hv.bounds hmc h3).unused l]
  refine measure_mono fun ω hω order ho => ?_
  obtain ⟨S, hS, hsh⟩ := h1 ω order ho
  refine ⟨S, hS, fun hl => ?_⟩
  obtain ⟨x, hx, rfl⟩ := mShown_length hl
  rw [hsh] at hx
  obtain ⟨i, hi, e⟩ := mListed_length hx
  rw [h4] at hi
  exact hω i hi e.symm

/-- **C115.** Univariate series of different lengths. -/
theorem C115_length_absent_univariate_variable [IsProbabilityMeasure μ] (hf : Fair G μ) {a : FitArgs ℝ L} {minLen : Nat}
    {xLen : List Nat} (hv : ValidVL a minLen xLen) (l : Nat) :
    (1 - lengthWeight a.sizes l) ^ a.nShp ≤
      tapes μ {ω | ∀ order, IsSchedule order → ∃ S, uvlGenerate a minLen xLen ω.1 ω.2 order = .ok S ∧ l ∉ S.lengths} := by
  obtain ⟨pick, h1, -, h3, h4⟩ := law_uvl hf hv
  rw [← (paramFacts_of_law h4 hv.sizes hv.bounds (le_refl _) h3).unused l]
  refine measure_mono fun ω hω order ho => ?_
  obtain ⟨S, hS, hsh⟩ := h1 ω order ho
  refine ⟨S, hS, fun hl => ?_⟩
  obtain ⟨x, hx, rfl⟩ := uShown_length hl
  rw [hsh] at hx
  obtain ⟨i, hi, e⟩ := uListed_length hx
  rw [h4] at hi
  exact hω i hi e.symm

/-- **C115.** Multivariate series of different lengths. -/
theorem C115_length_absent_multivariate_variable [IsProbabilityMeasure μ] (hf : Fair G μ) {a : FitArgs ℝ L} {minLen : Nat}
    {xLen : List Nat} (hv : ValidVL a minLen xLen) {mc : Nat} (hmc : 1 ≤ mc) (hmcf : mc ≤ a.nf) (l : Nat) :
    (1 - lengthWeight a.sizes l) ^ a.nShp ≤
      tapes μ {ω | ∀ order, IsSchedule order → ∃ S, mvlGenerate a mc minLen xLen ω.1 ω.2 order = .ok S ∧ l ∉ S.lengths} := by
  obtain ⟨pick, h1, -, h3, h4⟩ := law_mvl hf hv hmc hmcf
  rw [← (paramFacts_of_law h4 hv.sizes hv.bounds hmc h3).unused l]
  refine measure_mono fun ω hω order ho => ?_
  obtain ⟨S, hS, hsh⟩ := h1 ω order ho
  refine ⟨S, hS, fun hl => ?_⟩
  obtain ⟨x, hx, rfl⟩ := mShown_length hl
  rw [hsh] at hx
  obtain ⟨i, hi, e⟩ := mListed_length hx
  rw [h4] at hi
  exact hω i hi e.symm

/-- **C115.** Two lengths or more are offered: no number of shapelets makes sure that a given one is used. -/
theorem C115_never_certain [IsProbabilityMeasure μ] (hf : Fair G μ) {a : FitArgs ℝ L} (hv : ValidSL a) {l l' : Nat}
    (hl' : l' ∈ a.sizes) (hne : l' ≠ l) :
    0 < tapes μ {ω | ∀ order, IsSchedule order → ∃ S, uslGenerate a ω.1 ω.2 order = .ok S ∧ l ∉ S.lengths} := by
  refine lt_of_lt_of_le ?_ (C115_length_absent_univariate hf hv l)
  refine pos_iff_ne_zero.2 (pow_ne_zero _ ?_)
  rw [← sum_lengthWeight_ne hv.sizes l]
  intro h0
  have := Finset.sum_eq_zero_iff.1 h0 l' (List.mem_toFinset.2 hl')
  rw [if_pos hne] at this
  unfold lengthWeight at this
  rw [ENNReal.div_eq_zero_iff] at this
  rcases this with h | h
  · exact (List.count_pos_iff.2 hl').ne' (by exact_mod_cast h)
  · exact ENNReal.natCast_ne_top _ h

/-- Two shapelets, lengths 2 and 3. -/
noncomputable def twoLengths : FitArgs ℝ Nat := { lawEx with sizes := [2, 3], pNorm := 1 / 2 }

theorem twoLengths_valid : ValidSL twoLengths :=
  ⟨⟨lawEx_valid.data.y, lawEx_valid.data.nf, lawEx_valid.data.nt⟩, le_refl _,
    ⟨lawEx_valid.perc.lo, lawEx_valid.perc.le, lawEx_valid.perc.hi⟩, by norm_num [twoLengths, lawEx], by simp [twoLengths],
    by simp [twoLengths, lawEx]⟩

/-- The hypotheses are met: with two shapelets and two lengths, the length 3 is drawn by none with probability 1/4, and
exactly one shapelet is normalised with probability 1/2. -/
example : ∃ pick : Tape × (Nat → Tape) → Choices,
    tapes tapeLaw {ω | Unused (pick ω) 2 3} = 4⁻¹ ∧ tapes tapeLaw {ω | normCount (pick ω) 2 = 1} = 2⁻¹ := by
  obtain ⟨pick, -, h⟩ := C115_univariate_same_length tape_fair twoLengths_valid
  refine ⟨pick, (h.unused 3).trans ?_, (h.normalised 1).trans ?_⟩
  · have : lengthWeight twoLengths.sizes 3 = 2⁻¹ := by simp [lengthWeight, twoLengths]
    rw [this, ENNReal.one_sub_inv_two]
    show (2⁻¹ : ℝ≥0∞) ^ 2 = 4⁻¹
    rw [← ENNReal.inv_pow]
    norm_num
  · have e : ∀ b, flagWeight twoLengths.pNorm b = 2⁻¹ := by
      intro b
      unfold flagWeight twoLengths
      have : (min 1 (max 0 (1 / 2)) : ℝ) = 1 / 2 := by norm_num
      simp only [this]
      have e2 : ENNReal.ofReal (1 / 2) = 2⁻¹ := by
        rw [one_div, ENNReal.ofReal_inv_of_pos (by norm_num)]
        norm_num
      cases b
      · norm_num
        exact e2
      · norm_num
        exact e2
    rw [e, e]
    show ((Nat.choose 2 1 : Nat) : ℝ≥0∞) * 2⁻¹ ^ 1 * 2⁻¹ ^ (2 - 1) = 2⁻¹
    norm_num
    rw [ENNReal.mul_inv_cancel (by simp) (by simp), one_mul]

end Convst.Props
