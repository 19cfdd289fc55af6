import Verif.Props.CasesFit
import Verif.Props.Separate
import Verif.Props.Plots
import Verif.Props.Unique

/-!
# Concrete cases for separation, comparison plots and repeated rows
-/

set_option autoImplicit false
set_option linter.unusedSectionVars false

namespace Convst.Props
open Convst Spec

/-- C59: two datasets won, one drawn within the margin, one lost. -/
example : (winDrawLoss (1 / 10 : ℝ) [1, 2, 3, 4] [2, 3, 3, 1]).1 + (winDrawLoss (1 / 10 : ℝ) [1, 2, 3, 4] [2, 3, 3, 1]).2.1 +
    (winDrawLoss (1 / 10 : ℝ) [1, 2, 3, 4] [2, 3, 3, 1]).2.2 = 4 :=
  C59_partition (by norm_num) [1, 2, 3, 4] [2, 3, 3, 1] rfl

example : winDrawLoss (-1 / 10 : ℝ) [3] [3] = (1, 0, 1) := C59_negative_margin (by norm_num) 3

/-- C54: the columns of a table with two equal ones. -/
example : ∃ cols out, cols.length = 3 ∧ nbUnique [[1, 2, 1], [0, 5, 0]] 3 1 = .ok out ∧ IsUnique cols out := by
  obtain ⟨cols, out, -, h1, -, h2, h3⟩ := C54_unique_columns [[1, 2, 1], [0, 5, 0]] 3 (by norm_num) (by simp)
  exact ⟨cols, out, h1, h2, h3⟩

/-- C54: the counts of a table with repeated rows. -/
example : ∃ rows idx counts, nbUnique [[2, 1], [0, 3], [2, 1]] 2 0 = .ok (rows, idx, counts) ∧ counts.sum = 3 := by
  obtain ⟨⟨rows, idx, counts⟩, h, -⟩ := C54_unique_rows [[2, 1], [0, 3], [2, 1]] 2 (by simp) (by simp)
  exact ⟨rows, idx, counts, h, (C54_counts_sum (by simp) (by simp) h).1⟩

example : ∃ out, npAllAxis1 [[true, true], [true, false]] = .ok out ∧ out[0]? = some true ∧ out[1]? ≠ some true := by
  obtain ⟨out, h1, -, h2⟩ := C54_all_axis1 (arr := [[true, true], [true, false]]) (by simp)
  refine ⟨out, h1, (h2 0 (by simp)).2 (by simp), fun h => ?_⟩
  have := (h2 1 (by simp)).1 h
  simp at this

/-- Without normalised shapelets. -/
theorem exB_raw_valid : ValidSL { exB with pNorm := 0 } where
  data := ⟨rfl, by simp [exB], by simp [exB]⟩
  nf := by norm_num [exB]
  perc := ⟨by norm_num [exB], by norm_num [exB], by norm_num [exB]⟩
  nShp := by norm_num [exB]
  sizes := by simp [exB]
  bounds := by simp [exB]

/-- C70: the shapelets of two series with values 0 to 4, and a series of larger values. -/
example (g0 : Script) (gs : Nat → Script) : ∃ S, uslGenerate { exB with pNorm := 0 } g0 gs List.range = .ok S ∧
    ∀ k, k < S.lengths.length →
      ∃ d, (uRow exB.phase S [9, 8, 7, 7, 8, 9])[3 * k]? = some d ∧ 0 < d := by
  obtain ⟨S, h, -⟩ := C19_fit_univariate_same_length exB_raw_valid g0 gs
  have hS := h List.range fun _ => List.Perm.refl _
  refine ⟨S, hS, fun k hk => ?_⟩
  obtain ⟨s, hs, -, h2⟩ := C70_separates exB_raw_valid le_rfl (fun _ => List.Perm.refl _) hS k hk
  refine h2 [9, 8, 7, 7, 8, 9] (by simp [HasWindow, exB]) ?_
  have hs2 : s < 2 := by simpa [exB] using hs
  interval_cases s <;> simp [exB]

end Convst.Props
