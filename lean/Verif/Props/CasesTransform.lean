import Verif.Props.Transform
import Verif.Props.Invariance
import Verif.Props.Variants

/-!
# Concrete cases for the theorems on `transform`

The series `exX` and shapelets `exU`, and with two channels `exXm` and `exM`, meet the hypotheses of the theorems of
`Transform`, `Invariance` and `Variants`.
-/

set_option autoImplicit false

namespace Convst.Props
open Convst Spec

theorem exX_uni : uslApply exX exU false = .ok (exX.map fun s => uRow false exU (s.getD 0 [])) :=
  C01_univariate_same_length exU_wf false exX_ne exX_fits

theorem exX_var : uvlApply exX exU true [5, 3] =
    .ok ((List.range exX.length).map fun i => uRow true exU (((exX.getD i []).getD 0 []).take ([5, 3].getD i 0))) :=
  C02_univariate_variable_length exU_wf true exX_ne (by simp [exX]) (fun _ _ _ _ => Or.inl rfl)

theorem exXm_multi : mslApply exXm 4 exM false = .ok (exXm.map fun x => mRow false exM x 4) :=
  C03_multivariate_same_length exM_wf false exXm_rect exM_fits

theorem exXm_fits_var : ∀ i, i < exXm.length → ∀ k, k < exM.lengths.length →
    Fits false (min ([4, 3].getD i 0) 4) (exM.lengths.getD k 0) (exM.dilations.getD k 0) := by
  intro i hi k hk
  simp [exXm] at hi
  simp [exM] at hk
  interval_cases i <;> interval_cases k <;> simp [exM, Fits]

theorem exXm_var : ∃ M, mvlApply exXm 4 exM false [4, 3] = .ok M :=
  ⟨_, C04_multivariate_variable_length exM_wf false exXm_rect (by simp [exXm]) exXm_fits_var⟩

/-! ## C05, C01, C03: meaning of the features -/

example : IsFeatures [3, 1, 2, 1] 2 (features [3, 1, 2, 1] (2 : ℝ)) ∧
    (features [3, 1, 2, 1] (2 : ℝ)).2.1 < ([3, 1, 2, 1] : List ℝ).length := by
  have h : ∀ x ∈ ([3, 1, 2, 1] : List ℝ), 0 ≤ x := by
    intro x hx
    simp at hx
    rcases hx with rfl | rfl | rfl | rfl <;> norm_num
  exact ⟨C05_features_meaning (by simp) h, (C05_feature_ranges h (C05_features_meaning (by simp) h)).2.2.1⟩

example : uDistances false exU [0, 1, 2, 3, 4] 1 ≠ [] :=
  (C05_applies false exU [0, 1, 2, 3, 4] 1 (by simp [HasWindow, exU])).1

example : ∃ M : List (List ℝ), uslApply exX exU false = .ok M ∧ M.length = 2 := by
  obtain ⟨M, h, hl, -⟩ := C01_univariate_same_length_real exU_wf false exX_ne (X := exX) (by
    intro s hs k hk
    simp [exU] at hk
    simp only [exX, List.mem_cons, List.not_mem_nil, or_false] at hs
    rcases hs with rfl | rfl <;> interval_cases k <;> simp [exU, HasWindow])
  exact ⟨M, h, hl⟩

example : IsFeatures (mDistances false exM [[0, 1, 2, 3], [5, 5, 6, 7]] 4 1) (exM.threshold.getD 1 0)
    (mFeatures false exM [[0, 1, 2, 3], [5, 5, 6, 7]] 4 1) :=
  (C03_features_meaning false exM _ 4 1 (by simp [HasWindow, exM])).1

/-! ## C12: failure -/

/-- The second series, of three points, is too short for the second shapelet. -/
example : uvlApply exX exU false [5, 3] = .error .valueError := by
  rw [C12_univariate_variable_length exU_wf false exX_ne (by simp [exX]), if_neg]
  intro h
  have := h 1 (by simp [exX]) 1 (by simp [exU])
  simp [exU, exX, Fits, uPrefix] at this

example : mslApply exXm 4 exM false = .ok (exXm.map fun x => mRow false exM x 4) := by
  rw [C12_multivariate_same_length exM_wf false exXm_rect (by simp [exXm]), if_pos exM_fits]

/-- The second series, of one point, is too short for the second shapelet. -/
example : mvlApply exXm 4 exM false [4, 1] = .error .valueError := by
  rw [C12_multivariate_variable_length exM_wf false exXm_rect (by simp [exXm]), if_neg]
  intro h
  have := h 1 (by simp [exXm]) 1 (by simp [exM])
  simp [exM, Fits] at this

/-- With phase invariance a series of three points is accepted. -/
example : uslApply [[[1, 2, 3]]] exU true = .ok [uRow true exU [1, 2, 3]] := C12_phase_total exU_wf (by simp)

example : ∃ M, uvlApply exX exU true [5, 1] = .ok M :=
  ⟨_, C12_phase_total_variable_length exU_wf exX_ne (by simp [exX])⟩

example : ∃ M, mslApply exXm 4 exM true = .ok M := ⟨_, C12_phase_total_multivariate exM_wf exXm_rect⟩

/-! ## C06, C07, C08 -/

example : ∃ M A B, uslApply (exX ++ exX) exU false = .ok M ∧ uslApply exX exU false = .ok A ∧
    uslApply exX exU false = .ok B ∧ M = A ++ B := by
  obtain ⟨A, hA⟩ : ∃ A, uslApply exX exU false = .ok A := ⟨_, exX_uni⟩
  exact ⟨A ++ A, A, A, (C06_concat exU_wf exX_ne exX_ne).2 ⟨A, A, hA, hA, rfl⟩, hA, hA, rfl⟩

example : ∃ M', uvlApply exX (pick exU [2, 0]) true [5, 3] = .ok M' := by
  obtain ⟨M', h, -⟩ := C07_columns_variable_length exU_wf exX_ne (by simp [exX]) exX_var [2, 0] (by simp [exU])
  exact ⟨M', h⟩

example : ∃ M', mvlApply exXm 4 (mPick exM [1]) false [4, 3] = .ok M' := by
  obtain ⟨M, hM⟩ := exXm_var
  obtain ⟨M', h, -⟩ := C07_columns_multivariate_variable_length exM_wf exXm_rect (by simp [exXm]) hM [1] (by simp [exM])
  exact ⟨M', h⟩

example : ∃ g ss, groupShapelets exU.lengths exU.dilations = .ok g ∧
    allTasks (uvlKernel exX exU true [5, 3]) 2 exU.normalize g = .ok ss ∧
    ss.flatten.reverse.foldlM doStore (List.replicate 2 (List.replicate 9 0)) = uvlApply exX exU true [5, 3] := by
  obtain ⟨g, ss, h1, h2, h3⟩ := C08_univariate_variable_length exU_wf true (xLen := [5, 3]) exX_ne (by simp [exX])
    (fun _ _ _ _ => Or.inl rfl)
  exact ⟨g, ss, h1, h2, h3 _ (List.reverse_perm _)⟩

example : ∃ g ss, groupShapelets exM.lengths exM.dilations = .ok g ∧
    allTasks (mslKernel exXm 4 exM false) 2 exM.normalize g = .ok ss ∧
    ss.flatten.reverse.foldlM doStore (List.replicate 2 (List.replicate 6 0)) = mslApply exXm 4 exM false := by
  obtain ⟨g, ss, h1, h2, h3⟩ := C08_multivariate_same_length exM_wf false exXm_rect exM_fits
  exact ⟨g, ss, h1, h2, h3 _ (List.reverse_perm _)⟩

example : ∃ g ss, groupShapelets exM.lengths exM.dilations = .ok g ∧
    allTasks (mvlKernel exXm 4 exM false [4, 3]) 2 exM.normalize g = .ok ss ∧
    ss.flatten.reverse.foldlM doStore (List.replicate 2 (List.replicate 6 0)) = mvlApply exXm 4 exM false [4, 3] := by
  obtain ⟨g, ss, h1, h2, h3⟩ := C08_multivariate_variable_length exM_wf false exXm_rect (by simp [exXm]) exXm_fits_var
  exact ⟨g, ss, h1, h2, h3 _ (List.reverse_perm _)⟩

/-! ## C09, C10, C33 -/

example : mvlApply [[[0, 1, 2, 99], [5, 5, 6, 98]]] 4 exM false [3] =
    mvlApply [[[0, 1, 2, 0], [5, 5, 6, 0]]] 4 exM false [3] :=
  C09_padding_multivariate _ _ _ _ _ _ (by simp) (by simp)

example : mvlApply exXm 4 exM false (List.replicate 2 4) = mslApply exXm 4 exM false :=
  C10_multivariate exXm 4 exM false (fun s hs => (exXm_rect s hs).2)

example : ∃ r, combinations1d [3, 5, 3, 3] [1, 2, 1, 4] = .ok r ∧ r.Nodup := by
  obtain ⟨r, h1, h2, -⟩ := C33_combinations (x := [3, 5, 3, 3]) (y := [1, 2, 1, 4]) rfl
  exact ⟨r, h1, h2⟩

/-! ## C13: rotations -/

example : ∃ M M' : List (List ℝ), uslApply exX exU true = .ok M ∧
    uslApply [[[2, 3, 4, 0, 1]], [[0, 0, 2, 1, 1]]] exU true = .ok M' := by
  obtain ⟨M, M', h, h', -⟩ := C13_phase_invariance exU_wf exX_ne (by simp [exX]) (fun _ => 2)
  exact ⟨M, M', h, h'⟩

/-- The first series is rotated by 2, the first three points of the second one by 1. -/
example : ∃ M M' : List (List ℝ), uvlApply exX exU true [5, 3] = .ok M ∧
    uvlApply [[[2, 3, 4, 0, 1]], [[1, 0, 1, 7, 7]]] exU true [5, 3] = .ok M' := by
  obtain ⟨M, M', h, h', -⟩ := C13_phase_invariance_variable_length exU_wf (X := exX)
    (X' := [[[2, 3, 4, 0, 1]], [[1, 0, 1, 7, 7]]]) (xLen := [5, 3]) exX_ne (by simp) rfl (by simp [exX])
    (by intro i hi; simp [exX] at hi; interval_cases i <;> simp [exX, uPrefix])
    (fun i => if i = 0 then 2 else 1)
    (by intro i hi; simp [exX] at hi; interval_cases i <;> simp [exX, uPrefix])
  exact ⟨M, M', h, h'⟩

example : mDistances true exM ([[0, 1, 2, 3], [5, 5, 6, 7]].map fun ch => ch.rotate 1) 4 0 =
    (mDistances true exM [[0, 1, 2, 3], [5, 5, 6, 7]] 4 0).rotate 1 :=
  C13_distances_rotate_multivariate exM_wf (exXm_rect _ (by simp [exXm])) 0 1

example : ∃ M M' : List (List ℝ), mslApply exXm 4 exM true = .ok M ∧
    mslApply [[[1, 2, 3, 0], [5, 6, 7, 5]], [[1, 0, 0, 1], [0, 2, 0, 2]]] 4 exM true = .ok M' := by
  obtain ⟨M, M', h, h', -⟩ := C13_phase_invariance_multivariate exM_wf exXm_rect (by omega) (fun _ => 1)
  exact ⟨M, M', h, h'⟩

/-! ## C14: offsets -/

example : ∃ M', uslApply [[[0 + 10, 1 + 10, 2 + 10, 3 + 10, 4 + 10]], [[1 + 10, 1 + 10, 0 + 10, 0 + 10, 2 + 10]]] exU false =
    .ok M' := by
  obtain ⟨M', h, -⟩ := C14_offset_invariance exU_wf false exX_ne (fun _ => 10) exX_uni
  exact ⟨M', h⟩

example : ∃ M', uvlApply [[[0 + 10, 1 + 10, 2 + 10, 3 + 10, 4 + 10]], [[1 + 10, 1 + 10, 0 + 10, 0 + 10, 2 + 10]]] exU true
    [5, 3] = .ok M' := by
  obtain ⟨M', h, -⟩ := C14_offset_invariance_variable_length exU_wf true exX_ne (by simp [exX]) (fun _ => 10) exX_var
  exact ⟨M', h⟩

example : mFeatures false exM ([[0, 1, 2, 3], [5, 5, 6, 7]].mapIdx fun j ch => ch.map fun a => a + (if j = 0 then 10 else -1)) 4 0 =
    mFeatures false exM [[0, 1, 2, 3], [5, 5, 6, 7]] 4 0 :=
  C14_offset_invariance_multivariate false exM (exXm_rect _ (by simp [exXm])) exM_wf (fun j => if j = 0 then 10 else -1)
    (k := 0) rfl

example : ∃ M', mslApply [[[0 + 1, 1 + 1, 2 + 1, 3 + 1], [5 + 1, 5 + 1, 6 + 1, 7 + 1]],
    [[1 + 1, 1 + 1, 0 + 1, 0 + 1], [2 + 1, 0 + 1, 2 + 1, 0 + 1]]] 4 exM false = .ok M' := by
  obtain ⟨M', h, -⟩ := C14_offset_invariance_multivariate_matrix exM_wf false exXm_rect (by simp [exXm]) (fun _ _ => 1)
    exXm_multi
  exact ⟨M', h⟩

example : ∃ M', mvlApply [[[0 + 1, 1 + 1, 2 + 1, 3 + 1], [5 + 1, 5 + 1, 6 + 1, 7 + 1]],
    [[1 + 1, 1 + 1, 0 + 1, 0 + 1], [2 + 1, 0 + 1, 2 + 1, 0 + 1]]] 4 exM false [4, 3] = .ok M' := by
  obtain ⟨M, hM⟩ := exXm_var
  obtain ⟨M', h, -⟩ := C14_offset_invariance_multivariate_variable_length exM_wf false exXm_rect (by simp [exXm])
    (fun _ _ => 1) hM
  exact ⟨M', h⟩

/-! ## C15, C57: scale -/

theorem std_zero_two : 0 < std [(0 : ℝ), 2] := by
  have hm : mean [(0 : ℝ), 2] = 1 := by rw [mean_eq]; norm_num
  rw [std_eq, Real.sqrt_pos, var, hm]
  norm_num

example : znorm [3 * 0, 3 * (2 : ℝ)] = [0, 2].map fun v => (v - 2 / 2) / (std [(0 : ℝ), 2] + (1 / 10 ^ 8) / 3) := by
  have h := C15_scaled_window [0, 2] (a := 3) (by norm_num)
  simpa using h

example : |l1 (znorm [3 * 0, 3 * (2 : ℝ)]) [1, 5] - l1 (znorm [0, 2]) [1, 5]| ≤
    2 * ((1 / 10 ^ 8) * |1 - 1 / 3|) / std [(0 : ℝ), 2] := by
  have h := C15_distance_bound [0, 2] [1, 5] (a := 3) (by norm_num) std_zero_two
  simpa using h

example : |(znorm [3 * 0, 3 * (2 : ℝ)]).getD 1 0 - (znorm [0, 2]).getD 1 0| ≤
    |2 - mean [0, 2]| * ((1 / 10 ^ 8) * |1 - 1 / 3|) /
      ((std [(0 : ℝ), 2] + 1 / 10 ^ 8) * (std [(0 : ℝ), 2] + (1 / 10 ^ 8) / 3)) :=
  C15_value_bound [0, 2] (a := 3) (by norm_num) (j := 1) (by simp)

example : mean (znorm [(0 : ℝ), 2]) = 0 ∧ std (znorm [(0 : ℝ), 2]) < 1 :=
  ⟨(C57_znorm (by simp)).1, (C57_znorm (by simp)).2.2.2.1⟩

/-! ## C17: distance vectors -/

example : computeShapeletDistVector [(0 : ℝ)] [1, 2] 2 2 true false = .error .valueError :=
  C17_dist_vector_error _ _ _ _ _ _ (by norm_num) (by simp [Fits])

example : ∃ D, computeShapeletDistVector [(1 : ℝ), 1, 0, 0, 2] [0, 1, 3] 3 2 true false = .ok D := by
  obtain ⟨D, -, h, -⟩ := C17_agrees_with_transform exU_wf false exX_ne exX_uni (i := 1) (k := 1) rfl (by simp [exU])
  exact ⟨D, h⟩

example : ∃ D, computeShapeletDistVector [(1 : ℝ), 1, 0] [0, 1, 3] 3 2 true true = .ok D := by
  obtain ⟨D, -, h, -⟩ := C17_agrees_with_transform_variable_length exU_wf true exX_ne (by simp [exX]) exX_var (i := 1)
    (k := 1) (by simp [exX]) (by simp [exU])
  exact ⟨D, h⟩

example : ∃ Ds : List (List ℝ), Ds.length = (mChannels exM 0).length := by
  obtain ⟨Ds, -, -, h, -⟩ := C17_agrees_with_transform_multivariate exM_wf false exXm_rect exXm_multi (i := 1) (k := 0)
    (by simp [exXm]) (by simp [exM])
  exact ⟨Ds, h⟩

example : ∃ Ds : List (List ℝ), Ds.length = (mChannels exM 0).length := by
  obtain ⟨M, hM⟩ := exXm_var
  obtain ⟨Ds, -, -, h, -⟩ := C17_agrees_with_transform_multivariate_variable_length exM_wf false exXm_rect
    (by simp [exXm]) hM (i := 1) (k := 0) (by simp [exXm]) (by simp [exM])
  exact ⟨Ds, h⟩

/-! ## C18, C28 -/

example : manhattan [(1 : ℝ), 2, 3] [0, 5, 1] = .ok (∑ j ∈ Finset.range 3, |[1, 2, 3].getD j 0 - [0, 5, 1].getD j 0|) :=
  C18_manhattan_value rfl

example : ∃ a b c, manhattan [(1 : ℝ), 2] [0, 5] = .ok a ∧ manhattan [(0 : ℝ), 5] [3, 3] = .ok b ∧
    manhattan [(1 : ℝ), 2] [3, 3] = .ok c ∧ c ≤ a + b := by
  obtain ⟨a, b, c, -, h1, h2, h3, -, -, -, -, h4⟩ := C18_manhattan_metric (x := [1, 2]) (y := [0, 5]) (z := [3, 3]) rfl rfl
  exact ⟨a, b, c, h1, h2, h3, h4⟩

example : ∃ a, euclidean [(1 : ℝ), 2] [0, 5] = .ok a ∧ squaredEuclidean [(1 : ℝ), 2] [0, 5] = .ok (a ^ 2) := by
  obtain ⟨a, h1, h2, -⟩ := C18_euclidean_value (x := [1, 2]) (y := [0, 5]) rfl
  exact ⟨a, h1, h2⟩

example : ∃ a b c, euclidean [(1 : ℝ), 2] [0, 5] = .ok a ∧ euclidean [(0 : ℝ), 5] [3, 3] = .ok b ∧
    euclidean [(1 : ℝ), 2] [3, 3] = .ok c ∧ c ≤ a + b := by
  obtain ⟨a, b, c, -, h1, h2, h3, -, -, -, -, h4⟩ := C18_euclidean_metric (x := [1, 2]) (y := [0, 5]) (z := [3, 3]) rfl rfl
  exact ⟨a, b, c, h1, h2, h3, h4⟩

example : 1 ∈ primeUpTo 12 := (C28_one_is_listed 12 (by norm_num)).1

end Convst.Props
