import Verif.Props.CasesFit
import Verif.Props.ParamLaw
import Verif.Props.Draws
import Verif.Props.Complete
import Verif.Props.Units
import Verif.Props.Places
import Verif.Props.Sources
import Verif.Props.Separate
import Verif.Props.FitCount

/-!
# Concrete cases for the theorems on the random choices of `fit`
-/

set_option autoImplicit false
set_option linter.unusedSectionVars false

namespace Convst.Props
open Convst Spec MeasureTheory
open scoped ENNReal

theorem half_exB : (1 - lengthWeight exB.sizes 3 : ℝ≥0∞) ^ exB.nShp = 16⁻¹ := by
  have : lengthWeight exB.sizes 3 = 2⁻¹ := by simp [lengthWeight, exB]
  rw [this, ENNReal.one_sub_inv_two]
  show (2⁻¹ : ℝ≥0∞) ^ 4 = 16⁻¹
  rw [← ENNReal.inv_pow]
  norm_num

/-- C115: four shapelets of length 2 or 3: with probability at least 1/16 none has length 3, for the four methods. -/
example :
    (16⁻¹ : ℝ≥0∞) ≤ tapes tapeLaw {ω | ∀ order, IsSchedule order →
      ∃ S, uslGenerate exB ω.1 ω.2 order = .ok S ∧ 3 ∉ S.lengths} ∧
    (16⁻¹ : ℝ≥0∞) ≤ tapes tapeLaw {ω | ∀ order, IsSchedule order →
      ∃ S, uvlGenerate exB 4 [5, 4] ω.1 ω.2 order = .ok S ∧ 3 ∉ S.lengths} ∧
    (16⁻¹ : ℝ≥0∞) ≤ tapes tapeLaw {ω | ∀ order, IsSchedule order →
      ∃ S, mslGenerate exB 2 ω.1 ω.2 order = .ok S ∧ 3 ∉ S.lengths} ∧
    (16⁻¹ : ℝ≥0∞) ≤ tapes tapeLaw {ω | ∀ order, IsSchedule order →
      ∃ S, mvlGenerate exB 2 4 [5, 4] ω.1 ω.2 order = .ok S ∧ 3 ∉ S.lengths} := by
  refine ⟨?_, ?_, ?_, ?_⟩ <;> rw [← half_exB]
  · exact C115_length_absent_univariate tape_fair exB_valid 3
  · exact C115_length_absent_univariate_variable tape_fair exB_validVL 3
  · exact C115_length_absent_multivariate tape_fair exB_valid exB_one exB_two 3
  · exact C115_length_absent_multivariate_variable tape_fair exB_validVL exB_one exB_two 3

example : 0 < tapes tapeLaw {ω | ∀ order, IsSchedule order →
    ∃ S, uslGenerate exB ω.1 ω.2 order = .ok S ∧ 3 ∉ S.lengths} :=
  C115_never_certain tape_fair exB_valid (l' := 2) (by simp [exB]) (by norm_num)

/-- C115, C130, C128: the choices made with series of different lengths and several channels. -/
example : (∃ pick : Tape × (Nat → Tape) → Choices, ParamFacts (tapes tapeLaw) pick exB 4 1) ∧
    (∃ pick : Tape × (Nat → Tape) → Choices, ParamFacts (tapes tapeLaw) pick exB 5 2) ∧
    (∃ pick : Tape × (Nat → Tape) → Choices, ParamFacts (tapes tapeLaw) pick exB 4 2) ∧
    (∃ pick : Tape × (Nat → Tape) → Choices, FirstUniform (tapes tapeLaw) pick 2) ∧
    (∃ pick : Tape × (Nat → Tape) → Choices, Sequential (tapes tapeLaw) pick true (trainSL exB) exB 5 true 2) ∧
    (∃ pick : Tape × (Nat → Tape) → Choices, ClassShares (tapes tapeLaw) pick [0, 1]) ∧
    ∃ pick : Tape × (Nat → Tape) → Choices, FairSources (tapes tapeLaw) pick (trainVL exB [5, 4]) := by
  obtain ⟨p1, -, h1⟩ := C115_univariate_variable_length tape_fair exB_validVL
  obtain ⟨p2, -, h2⟩ := C115_multivariate_same_length tape_fair exB_valid exB_one exB_two
  obtain ⟨p3, -, h3⟩ := C115_multivariate_variable_length tape_fair exB_validVL exB_one exB_two
  obtain ⟨p4, -, -, -, h4⟩ := C130_univariate_variable_length tape_fair exB_validVL
  obtain ⟨p5, -, -, h5⟩ := C130_multivariate_same_length tape_fair exB_valid exB_one exB_two
  obtain ⟨p6, -, -, -, h6⟩ := C128_univariate_same_length tape_fair exB_valid (by simp [exB])
  obtain ⟨p7, -, -, h7⟩ := C128_multivariate_variable_length tape_fair exB_validVL exB_one exB_two
  exact ⟨⟨p1, h1⟩, ⟨p2, h2⟩, ⟨p3, h3⟩, ⟨p4, h4⟩, ⟨p5, h5⟩, ⟨p6, h6⟩, p7, h7⟩

variable (g : Script) (g0 : Script) (gs : Nat → Script)

/-- C29: shapelets of length 3 and 2 on 9 points; the largest dilation 4 of length 3 is never drawn, 3 can be. -/
example : (∃ d e g', drawDilations 9 [3, 2] false g = .ok ([d, e], g') ∧ 1 ≤ d ∧ 2 * d ≤ 8 ∧ 1 ≤ e ∧ e ≤ 8) ∧
    (∃ d g', drawDilations 9 [3] false g = .ok ([d], g') ∧ d ≠ 4) ∧
    ∃ g g' : Script, drawDilations 9 [3, 2] false g = .ok ([3, 7], g') := by
  refine ⟨?_, C29_largest_never_drawn (by norm_num) (by norm_num) (by norm_num) g, ?_⟩
  · obtain ⟨ds, g', h, hf⟩ := C29_dilations_fit (n := 9) (lengths := [3, 2]) false (by simp) (by simp) g
    cases hf with
    | cons h1 t =>
      cases t with
      | cons h2 t' =>
        cases t'
        exact ⟨_, _, g', h, h1.1, h1.2, h2.1, by simpa using h2.2⟩
  · refine (C29_dilations_exact false (by simp) (by simp)).2 (.cons ?_ (.cons ?_ .nil))
    · simp [Drawable]
    · simp [Drawable]

/-- C30: three draws among 5 values. -/
example : (∃ r g', choiceLog (K := ℝ) 5 3 g = .ok (r, g') ∧ r.length = 3 ∧ (∀ j ∈ r, j < 5) ∧
      List.Forall₂ (Selects 5) (unitDraws 3 g) r) ∧
    ∃ g g' : Script, choiceLog (K := ℝ) 5 3 g = .ok ([4, 0, 2], g') := by
  obtain ⟨r, g', h, h1, h2⟩ := C30_choice_log_range (n := 5) (m := 3) (by norm_num) g
  exact ⟨⟨r, g', h, h1, h2, (C30_choice_log_law (by norm_num) h).1⟩, C30_choice_log_complete rfl (by simp)⟩

/-- C79: the results of `fit` are allowed, and allowed results are results, for the other three methods. -/
example : (∃ S, uslGenerate exA g0 gs List.range = .ok S ∧ UAllowed (trainSL exA) exA 5 (uShown S)) ∧
    (∃ (g0 : Script) (gs : Nat → Script) (S : UShp ℝ), ∀ order, IsSchedule order →
      uvlGenerate exB 4 [5, 4] g0 gs order = .ok S) ∧
    (∃ (g0 : Script) (gs : Nat → Script) (S : MShp ℝ), ∀ order, IsSchedule order →
      mslGenerate exB 2 g0 gs order = .ok S) ∧
    ∃ (g0 : Script) (gs : Nat → Script) (S : MShp ℝ), ∀ order, IsSchedule order →
      mvlGenerate exB 2 4 [5, 4] g0 gs order = .ok S := by
  obtain ⟨S1, -, h1⟩ := C79_sound_variable_length exB_validVL g0 gs rangeSchedule
  obtain ⟨S2, -, h2⟩ := C79_sound_multivariate_same_length exB_valid exB_one exB_two g0 gs rangeSchedule
  obtain ⟨S3, -, h3⟩ := C79_sound_multivariate_variable_length exB_validVL exB_one exB_two g0 gs rangeSchedule
  obtain ⟨a1, a2, T1, -, a3⟩ := C79_complete_variable_length exB_validVL h1
  obtain ⟨b1, b2, T2, -, b3⟩ := C79_complete_multivariate_same_length exB_valid h2
  obtain ⟨c1, c2, T3, -, c3⟩ := C79_complete_multivariate_variable_length exB_validVL h3
  exact ⟨C79_sound_same_length exA_valid g0 gs rangeSchedule, ⟨a1, a2, T1, a3⟩, ⟨b1, b2, T2, b3⟩, c1, c2, T3, c3⟩

/-- C84: the sign of every value changed, and for several channels an offset. -/
example : (∃ S S', UUnits (-1) 0 S S' ∧ uvlGenerate exB 4 [5, 4] g0 gs List.range = .ok S) ∧
    (∃ S S', MUnits (-1) 7 S S' ∧ mslGenerate exB 2 g0 gs List.range = .ok S) ∧
    ∃ S S', MUnits (-1) 7 S S' ∧ mvlGenerate exB 2 4 [5, 4] g0 gs List.range = .ok S := by
  obtain ⟨S1, T1, u1, h1⟩ := C84_fit_univariate_variable_length (c := -1) (b := 0) exB_validVL (by norm_num)
    (Or.inl (by norm_num)) (Or.inl rfl) g0 gs
  obtain ⟨S2, T2, u2, h2⟩ := C84_fit_multivariate_same_length (c := -1) (b := 7) exB_valid exB_one exB_two (by norm_num)
    (Or.inl (by norm_num)) g0 gs
  obtain ⟨S3, T3, u3, h3⟩ := C84_fit_multivariate_variable_length (c := -1) (b := 7) exB_validVL exB_one exB_two
    (by norm_num) (Or.inl (by norm_num)) g0 gs
  exact ⟨⟨S1, T1, u1, (h1 _ rangeSchedule).1⟩, ⟨S2, T2, u2, (h2 _ rangeSchedule).1⟩, S3, T3, u3, (h3 _ rangeSchedule).1⟩

end Convst.Props
