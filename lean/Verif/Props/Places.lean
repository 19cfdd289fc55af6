import Verif.Proofs.PrefixLaw
import Verif.Props.Sources

/-!
# C130: shapelets are placed one after the other

For an ideal generator, how the place of the next shapelet is chosen when the parameters and the places of the earlier ones are
known.  C102 gives the probability of all choices together; here the later ones are summed out.
-/

set_option autoImplicit false
set_option linter.unusedSectionVars false

namespace Convst.Props
open Convst Spec MeasureTheory
open scoped ENNReal

variable {G L : Type} [MeasurableSpace G] [Gen G ℝ] [LawfulGen G] [DecidableEq L] {μ : Measure G}

/-- **C130.** Univariate series of equal length: the next shapelet is taken from any of the positions left with the same
probability. -/
theorem C130_univariate_same_length [IsProbabilityMeasure μ] (hf : Fair G μ) {a : FitArgs ℝ L} (hv : ValidSL a) :
    ∃ pick : G × (Nat → G) → Choices,
      (∀ ω order, IsSchedule order → ∃ S, uslGenerate a ω.1 ω.2 order = .ok S ∧
        uShown S = uListed (pick ω).par ((pick ω).out (trainSL a) (optOf a))) ∧
      (∀ d, tapes μ {ω | (pick ω).Within d} = lawOf true (trainSL a) a a.nt false 1 d) ∧
      Sequential (tapes μ) pick true (trainSL a) a a.nt false 1 := by
  obtain ⟨pick, h1, h2, h3, h4⟩ := law_usl hf hv
  have h : SourceLaw.Law (tapes μ) pick true (trainSL a) a a.nt false 1 a.nShp :=
    ⟨h2, h4, hv.perc, hv.bounds, fun _ _ => le_refl _⟩
  exact ⟨pick, h1, fun d => (h2 d).2, SourceLaw.sequential h (by simp) fun d => (h3 d).2⟩

/-- **C130.** Univariate series of different lengths: the next shapelet is taken from any of the series with a position left with
the same probability, long or short; the first one from each series with probability `1 / n_samples`. -/
theorem C130_univariate_variable_length [IsProbabilityMeasure μ] (hf : Fair G μ) {a : FitArgs ℝ L} {minLen : Nat} {xLen : List Nat}
    (hv : ValidVL a minLen xLen) :
    ∃ pick : G × (Nat → G) → Choices,
      (∀ ω order, IsSchedule order → ∃ S, uvlGenerate a minLen xLen ω.1 ω.2 order = .ok S ∧
        uShown S = uListed (pick ω).par ((pick ω).out (trainVL a xLen) (optOf a))) ∧
      (∀ d, tapes μ {ω | (pick ω).Within d} = lawOf false (trainVL a xLen) a minLen false 1 d) ∧
      Sequential (tapes μ) pick false (trainVL a xLen) a minLen false 1 ∧ FirstUniform (tapes μ) pick a.X.length := by
  obtain ⟨pick, h1, h2, h3, h4⟩ := law_uvl hf hv
  have h : SourceLaw.Law (tapes μ) pick false (trainVL a xLen) a minLen false 1 a.nShp :=
    ⟨h2, h4, hv.perc, hv.bounds, trainVL_minLen hv⟩
  exact ⟨pick, h1, fun d => (h2 d).2, SourceLaw.sequential h (by simp) fun d => (h3 d).2,
    SourceLaw.firstUniform h (by simp) hv.nShp (by simp)⟩

/-- **C130.** Multivariate series of equal length: the channels are drawn first. -/
theorem C130_multivariate_same_length [IsProbabilityMeasure μ] (hf : Fair G μ) {a : FitArgs ℝ L} (hv : ValidSL a) {mc : Nat}
    (hmc : 1 ≤ mc) (hmcf : mc ≤ a.nf) :
    ∃ pick : G × (Nat → G) → Choices,
      (∀ ω order, IsSchedule order → ∃ S, mslGenerate a mc ω.1 ω.2 order = .ok S ∧
        mShown S = mListed (pick ω).par ((pick ω).out (trainSL a) (optOf a))) ∧
      (∀ d, tapes μ {ω | (pick ω).Within d} = lawOf true (trainSL a) a a.nt true mc d) ∧
      Sequential (tapes μ) pick true (trainSL a) a a.nt true mc := by
  obtain ⟨pick, h1, h2, h3, h4⟩ := law_msl hf hv hmc hmcf
  have h : SourceLaw.Law (tapes μ) pick true (trainSL a) a a.nt true mc a.nShp :=
    ⟨h2, h4, hv.perc, hv.bounds, fun _ _ => le_refl _⟩
  exact ⟨pick, h1, fun d => (h2 d).2, SourceLaw.sequential h (fun _ => hmcf) fun d => (h3 d).2⟩

/-- **C130.** Multivariate series of different lengths. -/
theorem C130_multivariate_variable_length [IsProbabilityMeasure μ] (hf : Fair G μ) {a : FitArgs ℝ L} {minLen : Nat} {xLen : List Nat}
    (hv : ValidVL a minLen xLen) {mc : Nat} (hmc : 1 ≤ mc) (hmcf : mc ≤ a.nf) :
    ∃ pick : G × (Nat → G) → Choices,
      (∀ ω order, IsSchedule order → ∃ S, mvlGenerate a mc minLen xLen ω.1 ω.2 order = .ok S ∧
        mShown S = mListed (pick ω).par ((pick ω).out (trainVL a xLen) (optOf a))) ∧
      (∀ d, tapes μ {ω | (pick ω).Within d} = lawOf false (trainVL a xLen) a minLen true mc d) ∧
      Sequential (tapes μ) pick false (trainVL a xLen) a minLen true mc ∧
      (a.alpha ≤ 1 → FirstUniform (tapes μ) pick a.X.length) := by
  obtain ⟨pick, h1, h2, h3, h4⟩ := law_mvl hf hv hmc hmcf
  have h : SourceLaw.Law (tapes μ) pick false (trainVL a xLen) a minLen true mc a.nShp :=
    ⟨h2, h4, hv.perc, hv.bounds, trainVL_minLen hv⟩
  exact ⟨pick, h1, fun d => (h2 d).2, SourceLaw.sequential h (fun _ => hmcf) fun d => (h3 d).2,
    fun hα => SourceLaw.firstUniform h (fun _ => hmcf) hv.nShp fun _ => hα⟩

/-! ## The hypotheses can be met -/

/-- Two bivariate series of lengths 5 and 4: the first shapelet comes from the shorter one with probability 1/2. -/
example : ∃ pick : Tape × (Nat → Tape) → Choices,
    tapes tapeLaw {ω | (pick ω).sources[0]? = some (some 1)} = 1 / 2 := by
  obtain ⟨pick, -, -, -, h⟩ := C130_multivariate_variable_length tape_fair exB_validVL (mc := 2) (by norm_num) (le_refl _)
  have := (h (by norm_num [exB])).first 1 (by simp [exB])
  exact ⟨pick, by simpa [exB] using this⟩

theorem lawEx_place (x : Nat → ℝ) (i : Nat) (hi : i < 2) :
    placeWeight true (trainSL lawEx) (optOf lawEx) false (lawExChoices x) i = if i = 0 then 4⁻¹ else 3⁻¹ := by
  unfold placeWeight
  have hch : channelWeight false (trainSL lawEx).nf ((lawExChoices x).nch i) ((lawExChoices x).channels i) = 1 := by
    unfold channelWeight
    rw [if_pos (show ChannelsOK false (trainSL lawEx).nf ((lawExChoices x).nch i) ((lawExChoices x).channels i) from rfl)]
    simp
  have hp : (lawExChoices x).place i = some (0, i, [0]) := rfl
  rw [hch, one_mul, hp]
  simp only
  rw [if_pos (show [0] = (lawExChoices x).channels i from rfl)]
  have := lawEx_pos x true i hi
  rw [if_pos rfl] at this
  exact this

/-- In `lawEx` four positions are free for the first shapelet and three for the second: the first one starts at the first point of
the first series with probability 1/4, and then the second one at its second point with probability 1/3. -/
example : ∃ pick : Tape × (Nat → Tape) → Choices,
    tapes tapeLaw {ω | (pick ω).AgreesUpTo (lawExChoices 0) 1} = 4⁻¹ ∧
    tapes tapeLaw {ω | (pick ω).AgreesUpTo (lawExChoices 0) 2} = 4⁻¹ * 3⁻¹ := by
  obtain ⟨pick, -, -, h⟩ := C130_univariate_same_length tape_fair lawEx_valid
  have h0 := h.start (lawExChoices 0)
  have h1 := h.next (lawExChoices 0) 0 (by show 0 < 2; norm_num)
  have h2 := h.next (lawExChoices 0) 1 (by show 1 < 2; norm_num)
  have e0 : paramsLaw lawEx lawEx.nt 1 (lawExChoices 0) = 1 := lawEx_params 0
  rw [h0, e0, lawEx_place 0 0 (by norm_num), if_pos rfl, one_mul] at h1
  rw [h1, lawEx_place 0 1 (by norm_num), if_neg (by norm_num)] at h2
  exact ⟨pick, h1, h2⟩

end Convst.Props
