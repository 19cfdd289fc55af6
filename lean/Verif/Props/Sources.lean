import Verif.Proofs.SourceLaw
import Verif.Proofs.LawVariants
import Verif.Props.ExchangeLaw

/-!
# C128: the training samples the shapelets come from

Which samples provide the shapelets, and how often, when the draws of the generator are uniform and independent.  The choices
`pick` made by `fit` are the ones whose law C102 gives.
-/

set_option autoImplicit false
set_option linter.unusedSectionVars false

namespace Convst.Props
open Convst Spec MeasureTheory
open scoped ENNReal

variable {G L : Type} [MeasurableSpace G] [Gen G ℝ] [LawfulGen G] [DecidableEq L] {μ : Measure G}

instance tapes_prob [IsProbabilityMeasure μ] : IsProbabilityMeasure (tapes μ) := by
  unfold tapes
  infer_instance

theorem trainVL_minLen {a : FitArgs ℝ L} {minLen : Nat} {xLen : List Nat} (hv : ValidVL a minLen xLen) (s : Nat)
    (hs : s < (trainVL a xLen).ns) : minLen ≤ (trainVL a xLen).len s := by
  have hs' : s < xLen.length := by rw [hv.data.len]; exact hs
  show minLen ≤ xLen.getD s 0
  rw [List.getD_eq_getElem _ _ hs']
  exact hv.data.ge _ (List.getElem_mem hs')

/-- **C128.** Univariate series of equal length: every series is as likely as any other to provide the `k`-th shapelet, jointly for
all shapelets, and a class provides shapelets in proportion to its number of series. -/
theorem C128_univariate_same_length [IsProbabilityMeasure μ] (hf : Fair G μ) {a : FitArgs ℝ L} (hv : ValidSL a)
    (hX : a.X ≠ []) :
    ∃ pick : G × (Nat → G) → Choices,
      (∀ ω order, IsSchedule order → ∃ S, uslGenerate a ω.1 ω.2 order = .ok S ∧
        uShown S = uListed (pick ω).par ((pick ω).out (trainSL a) (optOf a))) ∧
      (∀ d, tapes μ {ω | (pick ω).Within d} = lawOf true (trainSL a) a a.nt false 1 d) ∧
      FairSources (tapes μ) pick (trainSL a) ∧ ClassShares (tapes μ) pick a.y := by
  obtain ⟨pick, h1, h2, -, h4⟩ := law_usl hf hv
  have h : SourceLaw.Law (tapes μ) pick true (trainSL a) a a.nt false 1 a.nShp :=
    ⟨h2, h4, hv.perc, hv.bounds, fun _ _ => le_refl _⟩
  exact ⟨pick, h1, fun d => (h2 d).2, SourceLaw.fairSources h, SourceLaw.classShares h hv.nShp (by simp) (fun _ _ => rfl)
    hv.data.y (List.length_pos_of_ne_nil hX)⟩

/-- **C128.** Univariate series of different lengths: series of equal length are treated alike. -/
theorem C128_univariate_variable_length [IsProbabilityMeasure μ] (hf : Fair G μ) {a : FitArgs ℝ L} {minLen : Nat} {xLen : List Nat}
    (hv : ValidVL a minLen xLen) :
    ∃ pick : G × (Nat → G) → Choices,
      (∀ ω order, IsSchedule order → ∃ S, uvlGenerate a minLen xLen ω.1 ω.2 order = .ok S ∧
        uShown S = uListed (pick ω).par ((pick ω).out (trainVL a xLen) (optOf a))) ∧
      (∀ d, tapes μ {ω | (pick ω).Within d} = lawOf false (trainVL a xLen) a minLen false 1 d) ∧
      FairSources (tapes μ) pick (trainVL a xLen) := by
  obtain ⟨pick, h1, h2, -, h4⟩ := law_uvl hf hv
  have h : SourceLaw.Law (tapes μ) pick false (trainVL a xLen) a minLen false 1 a.nShp :=
    ⟨h2, h4, hv.perc, hv.bounds, trainVL_minLen hv⟩
  exact ⟨pick, h1, fun d => (h2 d).2, SourceLaw.fairSources h⟩

/-- **C128.** Multivariate series of equal length. -/
theorem C128_multivariate_same_length [IsProbabilityMeasure μ] (hf : Fair G μ) {a : FitArgs ℝ L} (hv : ValidSL a) {mc : Nat} (hmc : 1 ≤ mc) (hmcf : mc ≤ a.nf)
    (hX : a.X ≠ []) (hα : a.alpha ≤ 1) :
    ∃ pick : G × (Nat → G) → Choices,
      (∀ ω order, IsSchedule order → ∃ S, mslGenerate a mc ω.1 ω.2 order = .ok S ∧
        mShown S = mListed (pick ω).par ((pick ω).out (trainSL a) (optOf a))) ∧
      (∀ d, tapes μ {ω | (pick ω).Within d} = lawOf true (trainSL a) a a.nt true mc d) ∧
      FairSources (tapes μ) pick (trainSL a) ∧ ClassShares (tapes μ) pick a.y := by
  obtain ⟨pick, h1, h2, -, h4⟩ := law_msl hf hv hmc hmcf
  have h : SourceLaw.Law (tapes μ) pick true (trainSL a) a a.nt true mc a.nShp :=
    ⟨h2, h4, hv.perc, hv.bounds, fun _ _ => le_refl _⟩
  exact ⟨pick, h1, fun d => (h2 d).2, SourceLaw.fairSources h, SourceLaw.classShares h hv.nShp (fun _ => hα) (fun _ _ => rfl)
    hv.data.y (List.length_pos_of_ne_nil hX)⟩

/-- **C128.** Multivariate series of different lengths. -/
theorem C128_multivariate_variable_length [IsProbabilityMeasure μ] (hf : Fair G μ) {a : FitArgs ℝ L} {minLen : Nat} {xLen : List Nat}
    (hv : ValidVL a minLen xLen) {mc : Nat} (hmc : 1 ≤ mc) (hmcf : mc ≤ a.nf) :
    ∃ pick : G × (Nat → G) → Choices,
      (∀ ω order, IsSchedule order → ∃ S, mvlGenerate a mc minLen xLen ω.1 ω.2 order = .ok S ∧
        mShown S = mListed (pick ω).par ((pick ω).out (trainVL a xLen) (optOf a))) ∧
      (∀ d, tapes μ {ω | (pick ω).Within d} = lawOf false (trainVL a xLen) a minLen true mc d) ∧
      FairSources (tapes μ) pick (trainVL a xLen) := by
  obtain ⟨pick, h1, h2, -, h4⟩ := law_mvl hf hv hmc hmcf
  have h : SourceLaw.Law (tapes μ) pick false (trainVL a xLen) a minLen true mc a.nShp :=
    ⟨h2, h4, hv.perc, hv.bounds, trainVL_minLen hv⟩
  exact ⟨pick, h1, fun d => (h2 d).2, SourceLaw.fairSources h⟩

/-! ## The hypotheses can be met -/

/-- Three samples, two of them of class 0: the first shapelet comes from class 0 with probability 2/3, and from each sample with
the same probability. -/
example : ∃ pick : Tape × (Nat → Tape) → Choices,
    tapes tapeLaw {ω | ∃ s : Nat, (pick ω).sources[0]? = some (some s) ∧ [0, 1, 0][s]? = some 0} = 2 / 3 ∧
    ∀ k : Nat, tapes tapeLaw {ω | (pick ω).sources[k]? = some (some 0)} =
      tapes tapeLaw {ω | (pick ω).sources[k]? = some (some 1)} := by
  obtain ⟨pick, -, -, h1, h2⟩ := C128_multivariate_same_length tape_fair exE_valid (mc := 2) (by norm_num) (le_refl _)
    (by simp [exE]) (by norm_num [exE])
  refine ⟨pick, ?_, fun k => h1.each k 0 1 (by simp [trainSL, exE]) (by simp [trainSL, exE]) rfl⟩
  have := h2.first 0
  have e : exE.y = [0, 1, 0] := rfl
  rw [e] at this
  simpa using this

/-- Two series of equal length given as series of different lengths. -/
example : ∃ pick : Tape × (Nat → Tape) → Choices, FairSources (tapes tapeLaw) pick (trainVL lawEx [3, 3]) := by
  obtain ⟨pick, -, -, h⟩ := C128_univariate_variable_length tape_fair lawEx_validVL
  exact ⟨pick, h⟩

end Convst.Props
