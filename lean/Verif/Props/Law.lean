import Verif.Proofs.LawVariants
import Verif.Proofs.LawCompare
import Verif.Proofs.Tape
import Verif.Props.Complete

/-!
# The probability of every result of `fit`

`Fair G μ` (`Verif/Spec/Law.lean`) is an ideal generator; `Tape` is one.  The random choices of `fit` are the
parameters of the shapelets, their numbers of channels, channels, sources and thresholds: `Choices`.
-/

set_option autoImplicit false
set_option linter.unusedSectionVars false

namespace Convst.Props
open Convst Spec MeasureTheory
open scoped ENNReal

variable {G L : Type} [MeasurableSpace G] [Gen G ℝ] [LawfulGen G] [DecidableEq L] {μ : Measure G}

/-- **C102.** Univariate series of equal length. -/
theorem C102_univariate_same_length [IsProbabilityMeasure μ] (hf : Fair G μ) {a : FitArgs ℝ L} (hv : ValidSL a) :
    ∃ pick : G × (Nat → G) → Choices,
      (∀ ω order, IsSchedule order → ∃ S, uslGenerate a ω.1 ω.2 order = .ok S ∧
        uShown S = uListed (pick ω).par ((pick ω).out (trainSL a) (optOf a))) ∧
      ∀ d, MeasurableSet {ω | (pick ω).Within d} ∧
        tapes μ {ω | (pick ω).Within d} = lawOf true (trainSL a) a a.nt false 1 d := by
  obtain ⟨pick, h1, h2, -⟩ := law_usl hf hv
  exact ⟨pick, h1, h2⟩

/-- **C102.** Univariate series of different lengths. -/
theorem C102_univariate_variable_length [IsProbabilityMeasure μ] (hf : Fair G μ) {a : FitArgs ℝ L} {minLen : Nat}
    {xLen : List Nat} (hv : ValidVL a minLen xLen) :
    ∃ pick : G × (Nat → G) → Choices,
      (∀ ω order, IsSchedule order → ∃ S, uvlGenerate a minLen xLen ω.1 ω.2 order = .ok S ∧
        uShown S = uListed (pick ω).par ((pick ω).out (trainVL a xLen) (optOf a))) ∧
      ∀ d, MeasurableSet {ω | (pick ω).Within d} ∧
        tapes μ {ω | (pick ω).Within d} = lawOf false (trainVL a xLen) a minLen false 1 d := by
  obtain ⟨pick, h1, h2, -⟩ := law_uvl hf hv
  exact ⟨pick, h1, h2⟩

/-- **C102.** Multivariate series of equal length. -/
theorem C102_multivariate_same_length [IsProbabilityMeasure μ] (hf : Fair G μ) {a : FitArgs ℝ L} (hv : ValidSL a)
    {mc : Nat} (hmc : 1 ≤ mc) (hmcf : mc ≤ a.nf) :
    ∃ pick : G × (Nat → G) → Choices,
      (∀ ω order, IsSchedule order → ∃ S, mslGenerate a mc ω.1 ω.2 order = .ok S ∧
        mShown S = mListed (pick ω).par ((pick ω).out (trainSL a) (optOf a))) ∧
      ∀ d, MeasurableSet {ω | (pick ω).Within d} ∧
        tapes μ {ω | (pick ω).Within d} = lawOf true (trainSL a) a a.nt true mc d := by
  obtain ⟨pick, h1, h2, -⟩ := law_msl hf hv hmc hmcf
  exact ⟨pick, h1, h2⟩

/-- **C102.** Multivariate series of different lengths. -/
theorem C102_multivariate_variable_length [IsProbabilityMeasure μ] (hf : Fair G μ) {a : FitArgs ℝ L} {minLen : Nat}
    {xLen : List Nat} (hv : ValidVL a minLen xLen) {mc : Nat} (hmc : 1 ≤ mc) (hmcf : mc ≤ a.nf) :
    ∃ pick : G × (Nat → G) → Choices,
      (∀ ω order, IsSchedule order → ∃ S, mvlGenerate a mc minLen xLen ω.1 ω.2 order = .ok S ∧
        mShown S = mListed (pick ω).par ((pick ω).out (trainVL a xLen) (optOf a))) ∧
      ∀ d, MeasurableSet {ω | (pick ω).Within d} ∧
        tapes μ {ω | (pick ω).Within d} = lawOf false (trainVL a xLen) a minLen true mc d := by
  obtain ⟨pick, h1, h2, -⟩ := law_mvl hf hv hmc hmcf
  exact ⟨pick, h1, h2⟩

/-! ## C103 -/

/-- **C103.** Univariate series of equal length. -/
theorem C103_univariate_same_length [IsProbabilityMeasure μ] (hf : Fair G μ) {a : FitArgs ℝ L} (hv : ValidSL a) :
    ∃ pick : G × (Nat → G) → Choices,
      (∀ ω order, IsSchedule order → ∃ S, uslGenerate a ω.1 ω.2 order = .ok S ∧
        uShown S = uListed (pick ω).par ((pick ω).out (trainSL a) (optOf a))) ∧
      ∀ d, MeasurableSet {ω | (pick ω).SameParams d} ∧
        tapes μ {ω | (pick ω).SameParams d} = paramsLaw a a.nt 1 d := by
  obtain ⟨pick, h1, -, h3, -⟩ := law_usl hf hv
  exact ⟨pick, h1, h3⟩

/-- **C103.** Univariate series of different lengths. -/
theorem C103_univariate_variable_length [IsProbabilityMeasure μ] (hf : Fair G μ) {a : FitArgs ℝ L} {minLen : Nat}
    {xLen : List Nat} (hv : ValidVL a minLen xLen) :
    ∃ pick : G × (Nat → G) → Choices,
      (∀ ω order, IsSchedule order → ∃ S, uvlGenerate a minLen xLen ω.1 ω.2 order = .ok S ∧
        uShown S = uListed (pick ω).par ((pick ω).out (trainVL a xLen) (optOf a))) ∧
      ∀ d, MeasurableSet {ω | (pick ω).SameParams d} ∧
        tapes μ {ω | (pick ω).SameParams d} = paramsLaw a minLen 1 d := by
  obtain ⟨pick, h1, -, h3, -⟩ := law_uvl hf hv
  exact ⟨pick, h1, h3⟩

/-- **C103.** Multivariate series of equal length. -/
theorem C103_multivariate_same_length [IsProbabilityMeasure μ] (hf : Fair G μ) {a : FitArgs ℝ L} (hv : ValidSL a)
    {mc : Nat} (hmc : 1 ≤ mc) (hmcf : mc ≤ a.nf) :
    ∃ pick : G × (Nat → G) → Choices,
      (∀ ω order, IsSchedule order → ∃ S, mslGenerate a mc ω.1 ω.2 order = .ok S ∧
        mShown S = mListed (pick ω).par ((pick ω).out (trainSL a) (optOf a))) ∧
      ∀ d, MeasurableSet {ω | (pick ω).SameParams d} ∧
        tapes μ {ω | (pick ω).SameParams d} = paramsLaw a a.nt mc d := by
  obtain ⟨pick, h1, -, h3, -⟩ := law_msl hf hv hmc hmcf
  exact ⟨pick, h1, h3⟩

/-- **C103.** Multivariate series of different lengths. -/
theorem C103_multivariate_variable_length [IsProbabilityMeasure μ] (hf : Fair G μ) {a : FitArgs ℝ L} {minLen : Nat}
    {xLen : List Nat} (hv : ValidVL a minLen xLen) {mc : Nat} (hmc : 1 ≤ mc) (hmcf : mc ≤ a.nf) :
    ∃ pick : G × (Nat → G) → Choices,
      (∀ ω order, IsSchedule order → ∃ S, mvlGenerate a mc minLen xLen ω.1 ω.2 order = .ok S ∧
        mShown S = mListed (pick ω).par ((pick ω).out (trainVL a xLen) (optOf a))) ∧
      ∀ d, MeasurableSet {ω | (pick ω).SameParams d} ∧
        tapes μ {ω | (pick ω).SameParams d} = paramsLaw a minLen mc d := by
  obtain ⟨pick, h1, -, h3, -⟩ := law_mvl hf hv hmc hmcf
  exact ⟨pick, h1, h3⟩

/-! ## C104 -/

/-- **C104.** One shapelet, univariate series of equal length: the two methods sample it with the same
probabilities. -/
theorem C104_one_shapelet_univariate [IsProbabilityMeasure μ] (hf : Fair G μ) {a : FitArgs ℝ L} (hv : ValidSL a)
    {xLen : List Nat} (hw : ValidVL a a.nt xLen) (hx : ∀ s, s < a.X.length → xLen.getD s 0 = a.nt)
    (h1 : a.nShp = 1) :
    ∃ pick pick' : G × (Nat → G) → Choices,
      (∀ ω order, IsSchedule order → ∃ S, uslGenerate a ω.1 ω.2 order = .ok S ∧
        uShown S = uListed (pick ω).par ((pick ω).out (trainSL a) (optOf a))) ∧
      (∀ ω order, IsSchedule order → ∃ S, uvlGenerate a a.nt xLen ω.1 ω.2 order = .ok S ∧
        uShown S = uListed (pick' ω).par ((pick' ω).out (trainVL a xLen) (optOf a))) ∧
      ∀ d, tapes μ {ω | (pick ω).Within d} = tapes μ {ω | (pick' ω).Within d} := by
  obtain ⟨pick, e1, e2⟩ := C102_univariate_same_length hf hv
  obtain ⟨pick', e3, e4⟩ := C102_univariate_variable_length hf hw
  refine ⟨pick, pick', e1, e3, fun d => ?_⟩
  rw [(e2 d).2, (e4 d).2, (sameTrain_full hv.data hx).lawOf]
  exact lawOf_one h1 (N := a.nt) (fun _ _ => rfl) d

/-- **C104.** One shapelet, multivariate series of equal length. -/
theorem C104_one_shapelet_multivariate [IsProbabilityMeasure μ] (hf : Fair G μ) {a : FitArgs ℝ L} (hv : ValidSL a)
    {xLen : List Nat} (hw : ValidVL a a.nt xLen) (hx : ∀ s, s < a.X.length → xLen.getD s 0 = a.nt)
    (h1 : a.nShp = 1) {mc : Nat} (hmc : 1 ≤ mc) (hmcf : mc ≤ a.nf) :
    ∃ pick pick' : G × (Nat → G) → Choices,
      (∀ ω order, IsSchedule order → ∃ S, mslGenerate a mc ω.1 ω.2 order = .ok S ∧
        mShown S = mListed (pick ω).par ((pick ω).out (trainSL a) (optOf a))) ∧
      (∀ ω order, IsSchedule order → ∃ S, mvlGenerate a mc a.nt xLen ω.1 ω.2 order = .ok S ∧
        mShown S = mListed (pick' ω).par ((pick' ω).out (trainVL a xLen) (optOf a))) ∧
      ∀ d, tapes μ {ω | (pick ω).Within d} = tapes μ {ω | (pick' ω).Within d} := by
  obtain ⟨pick, e1, e2⟩ := C102_multivariate_same_length hf hv hmc hmcf
  obtain ⟨pick', e3, e4⟩ := C102_multivariate_variable_length hf hw hmc hmcf
  refine ⟨pick, pick', e1, e3, fun d => ?_⟩
  rw [(e2 d).2, (e4 d).2, (sameTrain_full hv.data hx).lawOf]
  exact lawOf_one h1 (N := a.nt) (fun _ _ => rfl) d

/-- Two series of three points, in two classes; two shapelets of length 2. -/
noncomputable def lawEx : FitArgs ℝ Nat where
  X := [[[1, 2, 4]], [[8, 16, 32]]]
  nf := 1
  nt := 3
  y := [0, 1]
  nShp := 2
  sizes := [2]
  pNorm := 0
  pMin := 5
  pMax := 50
  alpha := 1
  phase := false
  prime := false

theorem lawEx_valid : ValidSL lawEx where
  data := ⟨rfl, by simp [lawEx], by simp [lawEx]⟩
  nf := le_refl _
  perc := ⟨by norm_num [lawEx], by norm_num [lawEx], by norm_num [lawEx]⟩
  nShp := by norm_num [lawEx]
  sizes := by simp [lawEx]
  bounds := by simp [lawEx]

theorem lawEx_validVL : ValidVL lawEx 3 [3, 3] where
  data := ⟨rfl, rfl, by simp [lawEx], by simp [lawEx], by simp [lawEx], by simp⟩
  ne := by simp [lawEx]
  nf := le_refl _
  perc := lawEx_valid.perc
  nShp := lawEx_valid.nShp
  sizes := lawEx_valid.sizes
  bounds := lawEx_valid.bounds

/-- Both shapelets come from the first series, the first one from its start, the second one from its second point,
with thresholds below `x`. -/
noncomputable def lawExChoices (x : Nat → ℝ) : Choices where
  par := ⟨2, fun _ => 2, fun _ => 1, fun _ => false⟩
  nch _ := 1
  channels _ := [0]
  src i := some ⟨0, i, 0, [0]⟩
  thr := x

theorem lawEx_params (x : Nat → ℝ) : paramsLaw lawEx 3 1 (lawExChoices x) = 1 := by
  have h1 : lengthWeight [2] 2 = 1 := by simp [lengthWeight]
  have h2 : dilWeight 3 false 2 1 = 1 := by
    unfold dilWeight plainWeight
    have : Real.log 2 ≠ 0 := by
      have := Real.log_pos (by norm_num : (1 : ℝ) < 2)
      exact ne_of_gt this
    norm_num
  have h3 : flagWeight 0 false = 1 := by simp [flagWeight]
  have h4 : nchWeight 1 1 = 1 := by simp [nchWeight]
  unfold paramsLaw parWeight
  rw [if_pos (show (lawExChoices x).par.n = lawEx.nShp from rfl)]
  show (∏ i ∈ Finset.range 2, lengthWeight [2] 2 * dilWeight 3 false 2 1 * flagWeight 0 false) *
    (∏ i ∈ Finset.range 2, nchWeight 1 1) = 1
  rw [h1, h2, h3, h4]
  simp

theorem lawEx_admissible (x : Nat → ℝ) (i : Nat) (hi : i < 2) (s t : Nat) :
    Admissible (trainSL lawEx) (lawExChoices x).par (optOf lawEx) false (lawExChoices x).src i [0] s t ↔
      s < 2 ∧ t < 2 ∧ (i = 1 → ¬ (s = 0 ∧ t = 0)) := by
  unfold Admissible EnoughFree
  have hb : t < 2 → (Blocked (trainSL lawEx) (lawExChoices x).par (optOf lawEx) (lawExChoices x).src i s 0 t ↔
      i = 1 ∧ s = 0 ∧ t = 0) := by
    intro ht
    have e : allowance (optOf lawEx).alpha 2 = 1 := by
      unfold allowance
      show ⌊max 1 ((1 - (1 : ℝ)) * ((2 : Nat) : ℝ))⌋.toNat = 1
      norm_num
    constructor
    · rintro ⟨j, m, r, h1, -, -, h4, h5, -, ⟨⟨q, -, -, hm⟩, -⟩, hnear⟩
      have hj : j = 0 := by omega
      have hi1 : i = 1 := by omega
      subst hj hi1
      obtain rfl := Option.some.inj h4
      have hm : (2 : Nat) = m := hm
      subst hm
      rw [e] at hnear
      obtain ⟨k, hk, hnear⟩ := hnear
      have hk : k + 1 < 2 := hk
      have hk0 : k = 0 := by omega
      subst hk0
      have hnear : (t : Int) = (((0 : Nat) : Int) - (0 : Nat) * (1 : Nat)) % ((3 : Nat) : Int) ∨
          (t : Int) = (((0 : Nat) : Int) + (0 : Nat) * (1 : Nat)) % ((3 : Nat) : Int) := hnear
      have h5 : 0 = s := h5
      omega
    · rintro ⟨rfl, rfl, rfl⟩
      refine ⟨0, 2, ⟨0, 0, 0, [0]⟩, Nat.zero_lt_one, rfl, rfl, rfl, rfl, by simp,
        ⟨⟨0, Nat.zero_lt_two, rfl, rfl⟩, fun j _ _ => le_refl 2⟩, ?_⟩
      rw [e]
      exact ⟨0, by show 0 + 1 < 2; omega, Or.inl (show ((0 : Nat) : Int) = (((0 : Nat) : Int) - (0 : Nat) * (1 : Nat)) % ((3 : Nat) : Int) by decide)⟩
  show s < 2 ∧ t < 2 ∧ ¬ Blocked (trainSL lawEx) (lawExChoices x).par (optOf lawEx) (lawExChoices x).src i s 0 t ↔ _
  constructor
  · rintro ⟨h1, h2, h3⟩
    rw [hb h2] at h3
    exact ⟨h1, h2, fun e h => h3 ⟨e, h⟩⟩
  · rintro ⟨h1, h2, h3⟩
    refine ⟨h1, h2, ?_⟩
    rw [hb h2]
    exact fun h => h3 h.1 h.2

theorem lawEx_pos (x : Nat → ℝ) (sl : Bool) (i : Nat) (hi : i < 2) :
    posWeight sl (trainSL lawEx) (lawExChoices x).par (optOf lawEx) false (lawExChoices x).src i [0] 0 i =
      if i = 0 then 4⁻¹ else if sl then 3⁻¹ else 2⁻¹ := by
  have hadm := lawEx_admissible x i hi
  have e1 : positions (trainSL lawEx) (lawExChoices x).par (optOf lawEx) false (lawExChoices x).src i [0] =
      ((if i = 0 then {(0, 0), (0, 1), (1, 0), (1, 1)} else {(0, 1), (1, 0), (1, 1)} : Finset (Nat × Nat)) : Set _) := by
    ext ⟨s, t⟩
    unfold positions
    rw [Set.mem_setOf_eq, hadm]
    interval_cases i
    · simp; omega
    · simp; omega
  have e2 : {s | ∃ t, Admissible (trainSL lawEx) (lawExChoices x).par (optOf lawEx) false (lawExChoices x).src i [0] s t} =
      (({0, 1} : Finset Nat) : Set Nat) := by
    ext s
    rw [Set.mem_setOf_eq]
    simp only [hadm]
    constructor
    · rintro ⟨t, h1, -⟩
      simp; omega
    · intro h
      refine ⟨1, ?_, by omega, by omega⟩
      simp at h
      omega
  have e3 : {t | Admissible (trainSL lawEx) (lawExChoices x).par (optOf lawEx) false (lawExChoices x).src i [0] 0 t} =
      ((if i = 0 then {0, 1} else {1} : Finset Nat) : Set Nat) := by
    ext t
    rw [Set.mem_setOf_eq, hadm]
    interval_cases i
    · simp; omega
    · simp; omega
  unfold posWeight
  rw [if_pos ((hadm 0 i).2 ⟨by omega, hi, by omega⟩), e1, e2, e3, Set.ncard_coe_finset, Set.ncard_coe_finset,
    Set.ncard_coe_finset]
  have h22 : (2 : ℝ≥0∞)⁻¹ * 2⁻¹ = 4⁻¹ := by
    rw [← ENNReal.mul_inv (by simp) (by simp)]
    norm_num
  interval_cases i <;> cases sl <;> simp [h22]

theorem lawEx_law : ∃ x : Nat → ℝ, ∀ sl, lawOf sl (trainSL lawEx) lawEx 3 false 1 (lawExChoices x) =
    if sl then 12⁻¹ else 8⁻¹ := by
  have hD : ∀ i, distTo (trainSL lawEx) ⟨2, fun _ => 2, fun _ => 1, fun _ => false⟩ (optOf lawEx) i
      ⟨0, i, 0, [0]⟩ 0 ≠ [] := by
    intro i h
    have := congrArg List.length h
    unfold distTo at this
    rw [List.length_map, List.length_range] at this
    have h2 : nWin false 3 2 1 = 0 := this
    simp [nWin] at h2
  have hx : ∀ i, ∃ x, thrWeight (optOf lawEx) (distTo (trainSL lawEx) ⟨2, fun _ => 2, fun _ => 1, fun _ => false⟩
      (optOf lawEx) i ⟨0, i, 0, [0]⟩ 0) x = 1 := fun i =>
    thrWeight_large (hD i) (by norm_num [optOf, lawEx]) (by norm_num [optOf, lawEx]) (by norm_num [optOf, lawEx])
      (by norm_num [optOf, lawEx]) (by norm_num [optOf, lawEx])
  choose x hx using hx
  refine ⟨x, fun sl => ?_⟩
  have hoth : others (trainSL lawEx) 0 = ∅ := by
    ext s
    constructor
    · rintro ⟨h1, h2, h3⟩
      have h1 : s < 2 := h1
      have : s = 1 := by omega
      subst this
      exact absurd h3 (by show ¬ (some 1 = some 0); simp)
    · intro h; exact absurd h (Set.notMem_empty _)
  have hstep : ∀ i, i < 2 → stepWeight sl (trainSL lawEx) (lawExChoices x).par (optOf lawEx) false
      (lawExChoices x).nch (lawExChoices x).channels (lawExChoices x).src (lawExChoices x).thr i =
      if i = 0 then 4⁻¹ else if sl then 3⁻¹ else 2⁻¹ := by
    intro i hi
    unfold stepWeight
    have hch : channelWeight false (trainSL lawEx).nf ((lawExChoices x).nch i) ((lawExChoices x).channels i) = 1 := by
      unfold channelWeight
      rw [if_pos (show ChannelsOK false (trainSL lawEx).nf ((lawExChoices x).nch i) ((lawExChoices x).channels i) from rfl)]
      simp
    have ht : testWeight (trainSL lawEx) 0 0 = 1 := by
      unfold testWeight
      rw [if_pos hoth, if_pos rfl]
    rw [hch, one_mul]
    have hs : (lawExChoices x).src i = some ⟨0, i, 0, [0]⟩ := rfl
    rw [hs]
    simp only
    rw [if_pos (show [0] = (lawExChoices x).channels i from rfl)]
    show posWeight sl (trainSL lawEx) (lawExChoices x).par (optOf lawEx) false
      (lawExChoices x).src i [0] 0 i * testWeight (trainSL lawEx) 0 0 * thrWeight (optOf lawEx) (distTo (trainSL lawEx)
      ⟨2, fun _ => 2, fun _ => 1, fun _ => false⟩ (optOf lawEx) i ⟨0, i, 0, [0]⟩ 0) (x i) = _
    rw [ht, hx i, mul_one, mul_one]
    exact lawEx_pos x sl i hi
  unfold lawOf
  rw [lawEx_params, one_mul]
  show ∏ i ∈ Finset.range 2, _ = _
  rw [Finset.prod_range_succ, Finset.prod_range_one, hstep 0 (by omega), hstep 1 (by omega), if_pos rfl, if_neg (by omega)]
  cases sl
  · simp only [Bool.false_eq_true, if_false]
    rw [← ENNReal.mul_inv (by simp) (by simp)]
    norm_num
  · simp only [if_true]
    rw [← ENNReal.mul_inv (by simp) (by simp)]
    norm_num

/-- **C104.** With two shapelets the two methods differ, although the series have the same length: on the set
`lawEx` the probability that both shapelets are cut from the first series, at its first and then at its second
point, is 1/12 with the method for equal lengths and 1/8 with the one for different lengths. -/
theorem C104_different_laws [IsProbabilityMeasure μ] (hf : Fair G μ) :
    ∃ (pick pick' : G × (Nat → G) → Choices) (d : Choices),
      (∀ ω order, IsSchedule order → ∃ S, uslGenerate lawEx ω.1 ω.2 order = .ok S ∧
        uShown S = uListed (pick ω).par ((pick ω).out (trainSL lawEx) (optOf lawEx))) ∧
      (∀ ω order, IsSchedule order → ∃ S, uvlGenerate lawEx 3 [3, 3] ω.1 ω.2 order = .ok S ∧
        uShown S = uListed (pick' ω).par ((pick' ω).out (trainVL lawEx [3, 3]) (optOf lawEx))) ∧
      (∀ i, i < 2 → ∃ r, d.src i = some r ∧ r.sample = 0 ∧ r.index = i) ∧
      tapes μ {ω | (pick ω).Within d} = 12⁻¹ ∧ tapes μ {ω | (pick' ω).Within d} = 8⁻¹ := by
  obtain ⟨pick, e1, e2⟩ := C102_univariate_same_length hf lawEx_valid
  obtain ⟨pick', e3, e4⟩ := C102_univariate_variable_length hf lawEx_validVL
  obtain ⟨x, hx⟩ := lawEx_law
  refine ⟨pick, pick', lawExChoices x, e1, e3, fun i _ => ⟨_, rfl, rfl, rfl⟩, ?_, ?_⟩
  · rw [(e2 _).2]
    exact hx true
  · rw [(e4 _).2, (sameTrain_full lawEx_valid.data (xLen := [3, 3]) (by
      intro s hs
      have hs : s < 2 := hs
      interval_cases s <;> rfl)).lawOf]
    exact hx false

/-- The hypotheses are met: `Tape` with its law is a fair generator, and the parameters are valid. -/
example : Fair Tape tapeLaw ∧ ValidSL lawEx ∧ ValidVL lawEx 3 [3, 3] := ⟨tape_fair, lawEx_valid, lawEx_validVL⟩

example : ValidSL { lawEx with nShp := 1 } ∧ ValidVL { lawEx with nShp := 1 } 3 [3, 3] :=
  ⟨⟨⟨lawEx_valid.data.y, lawEx_valid.data.nf, lawEx_valid.data.nt⟩, le_refl _, ⟨lawEx_valid.perc.lo, lawEx_valid.perc.le,
    lawEx_valid.perc.hi⟩, le_refl _, lawEx_valid.sizes, lawEx_valid.bounds⟩,
   ⟨⟨lawEx_valid.data.y, rfl, lawEx_valid.data.nf, lawEx_valid.data.nt, lawEx_validVL.data.le, lawEx_validVL.data.ge⟩,
    lawEx_validVL.ne, le_refl _, ⟨lawEx_valid.perc.lo, lawEx_valid.perc.le, lawEx_valid.perc.hi⟩, le_refl _,
    lawEx_valid.sizes, lawEx_valid.bounds⟩⟩

end Convst.Props
