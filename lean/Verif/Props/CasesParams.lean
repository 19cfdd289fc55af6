import Verif.Props.InputTransformers
import Verif.Props.Params

/-!
# Concrete cases for the theorems on scalers, derivatives and parameters
-/

set_option autoImplicit false

namespace Convst.Props
open Convst Spec

/-! ## C47: scalers -/

theorem exScaler : ∃ s, Scaler.fitStandard ([[1, 5, 0], [3, 5, 2]] : List (List ℝ)) 3 = .ok s ∧ s.atts = [0, 2] := by
  have h : ∀ r ∈ ([[1, 5, 0], [3, 5, 2]] : List (List ℝ)), r.length = 3 := by simp
  obtain ⟨s, hs, hsort, hmem⟩ := (C47_kept_features _ 3 h).1
    ⟨0, by norm_num, [1, 5, 0], by simp, [3, 5, 2], by simp, by norm_num⟩
  refine ⟨s, hs, ?_⟩
  refine List.Pairwise.eq_of_mem_iff hsort (by decide) ?_
  intro j
  rw [hmem]
  constructor
  · rintro ⟨hj, r, hr, r', hr', hne⟩
    simp only [List.mem_cons, List.not_mem_nil, or_false] at hr hr'
    interval_cases j <;> rcases hr with rfl | rfl <;> rcases hr' with rfl | rfl <;> simp_all
  · intro hj
    simp only [List.mem_cons, List.not_mem_nil, or_false] at hj
    rcases hj with rfl | rfl
    · exact ⟨by norm_num, [1, 5, 0], by simp, [3, 5, 2], by simp, by norm_num⟩
    · exact ⟨by norm_num, [1, 5, 0], by simp, [3, 5, 2], by simp, by norm_num⟩

/-- The scaler fitted on two rows, applied to another row, to the training rows and to a row with two columns only. -/
example : ∃ s Y, Scaler.fitStandard ([[1, 5, 0], [3, 5, 2]] : List (List ℝ)) 3 = .ok s ∧
    s.transformStandard [[2, 7, 7]] = .ok [s.atts.map fun j =>
      ([2, 7, 7].getD j 0 - mean (colOf [[1, 5, 0], [3, 5, 2]] j)) / std (colOf [[1, 5, 0], [3, 5, 2]] j)] ∧
    s.transformStandard [[1, 5, 0], [3, 5, 2]] = .ok Y ∧ mean (colOf Y 1) = 0 ∧ std (colOf Y 1) = 1 ∧
    s.transformStandard [[2, 7]] = .error .indexError := by
  have h : ∀ r ∈ ([[1, 5, 0], [3, 5, 2]] : List (List ℝ)), r.length = 3 := by simp
  obtain ⟨s, hs, ha⟩ := exScaler
  obtain ⟨Y, h1, -, -, h2⟩ := C47_standardised h hs
  have h3 := h2 1 (by rw [ha]; simp)
  exact ⟨s, Y, hs, C47_predict_time h hs [[2, 7, 7]] (by simp), h1, h3.1, h3.2,
    C47_too_few_columns (j := 2) (by rw [ha]; simp) (by simp) (by simp)⟩

/-- C47: the min-max variant can be fitted exactly when some feature is not constant; otherwise it raises `ValueError`. -/
theorem C47_minmax_succeeds {X : List (List ℝ)} {nc : Nat} (h : ∀ r ∈ X, r.length = nc) :
    ((∃ j, j < nc ∧ Varies X j) → ∃ s, Scaler.fitMinMax X nc = .ok s) ∧
    ((¬ ∃ j, j < nc ∧ Varies X j) → Scaler.fitMinMax X nc = .error .valueError) := by
  have heq := fitMinMax_eq h
  simp only at heq
  constructor
  · rintro ⟨j, hj, hv⟩
    rw [heq, if_neg]
    · exact ⟨_, rfl⟩
    · rintro (h' | h')
      · subst h'
        obtain ⟨r, hr, _⟩ := hv
        cases hr
      · have := (mem_atts X nc j).2 ⟨hj, hv⟩
        rw [h'] at this
        cases this
  · intro hc
    rw [heq, if_pos]
    right
    rw [List.eq_nil_iff_forall_not_mem]
    intro j hj
    exact hc ⟨j, (mem_atts X nc j).1 hj⟩

example : ∃ s Y, Scaler.fitMinMax ([[1, 5, 0], [3, 5, 2]] : List (List ℝ)) 3 = .ok s ∧
    s.transformMinMax [[1, 5, 0], [3, 5, 2]] = .ok Y ∧ Y.length = 2 := by
  have h : ∀ r ∈ ([[1, 5, 0], [3, 5, 2]] : List (List ℝ)), r.length = 3 := by simp
  obtain ⟨s, hs⟩ := (C47_minmax_succeeds h).1 ⟨0, by norm_num, [1, 5, 0], by simp, [3, 5, 2], by simp, by norm_num⟩
  obtain ⟨-, -, Y, h1, h2, -⟩ := C47_minmax h hs
  exact ⟨s, Y, hs, h1, h2⟩

/-! ## C61: derivatives -/

example : derivate 2 (.arrayOther .float64 ([3, 4] ++ [10]) : XIn ℝ) = .ok (.arrayOther .float64 ([3, 4] ++ [8])) :=
  (C61_other_dimensions 2 (by omega) .float64 [3, 4] 10).1

example : (derivateRow 2 ([0, 1, 4, 9] : List ℝ))[1]? = some (∑ j ∈ Finset.range 3,
    ((-1 : ℝ)) ^ (2 - j) * (Nat.choose 2 j) * [0, 1, 4, 9].getD (1 + j) 0) :=
  C61_forward_difference 2 [0, 1, 4, 9] 1 (by simp)

example : derivateRow 2 (List.zipWith (fun u v => 3 * u + 5 * v) [0, 1, 4, 9] [1, 0, 0, (2 : ℝ)]) =
    List.zipWith (fun u v => 3 * u + 5 * v) (derivateRow 2 [0, 1, 4, 9]) (derivateRow 2 [1, 0, 0, 2]) :=
  C61_linear 2 3 5 _ _ rfl

example : derivateRow 2 ((List.range 10).map fun (t : Nat) => (Polynomial.X : Polynomial ℝ).eval (t : ℝ)) =
    List.replicate (10 - 2) 0 :=
  C61_polynomials_vanish 2 10 _ (by rw [Polynomial.natDegree_X]; omega)

example : derivateRow 1 (([0, 1, 4] : List ℝ).map fun v => v + 7) = derivateRow 1 [0, 1, 4] :=
  C61_offset 1 (by omega) _ 7

example : ([0, 1, 4, 9] : List ℝ)[2] = [(0 : ℝ), 1, 4, 9][0] + ((derivateRow 1 ([0, 1, 4, 9] : List ℝ)).take 2).sum :=
  C61_recover _ (by simp) 2 (by simp)

/-! ## C44, C35, C36, C37: parameters -/

example : ∃ n, checkNJobs (K := ℝ) 4 (.int (-1)) = .ok n ∧ n = 4 + 1 + -1 := by
  obtain ⟨n, h1, h2, -⟩ := (C44_n_jobs_partial (K := ℝ) 4 (by omega)).2.2.1 (-1) (by omega) (by omega)
  exact ⟨n, h1, h2⟩

example : ∃ n, checkNJobs (K := ℝ) 4 (.int 0) = .ok n ∧ n ≤ 0 := C44_nonpositive 4 0 (Or.inl rfl)

example {G R L : Type} (env : Env G R L) (w : World R) (p : Params ℝ R) :
    Rdst.init env w { p with transformType := "Univariate_Variable" } = (w, .error .valueError) :=
  C35_univariate_variable_rejected _ (by decide +kernel) env w p

example {G R L : Type} (env : Env G R L) (w : World R) (p : Params ℝ R) :
    Rdst.init env w { p with reduction := 1 } = (w, .error .valueError) :=
  C36_reduction_one_rejected env w _ le_rfl

example : ∃ L : List Int, setLengths (.ints []) (some (.int 4, .int 10)) (1 / 2 : ℝ) 50 = .ints L ∧ L.Pairwise (· < ·) := by
  obtain ⟨L, h1, -, h2, -⟩ := C36_lengths_from_bounds (.ints []) (.int 4) (.int 10) (1 / 2) (by norm_num) 50
  exact ⟨L, h1, h2⟩

example : ∃ sizes, checkParams (K := ℝ) (.ints [3, 11]) 8 = .ok sizes ∧ ∀ l ∈ sizes, 2 ≤ l ∧ l ≤ 8 := by
  rcases C37_validated_lengths_partial (.ints [3, 11]) (n := 8) (by omega) with ⟨h | ⟨z, hz, hz'⟩, -⟩ | ⟨-, -, s, h, -, hs, -⟩
  · simp [intLengths] at h
  · simp [intLengths] at hz
    omega
  · exact ⟨s, h, hs⟩

/-! ## C34, C40: data -/

example : autoClass (.array .float64 ⟨[[[0, 1, 2], [1, 2, 3]], [[4, 5, 6], [7, 8, 9]]], 2, 3⟩ : XIn ℝ) = .ok .multi := by
  have hw : (XIn.array DType.float64 (⟨[[[0, 1, 2], [1, 2, 3]], [[4, 5, 6], [7, 8, 9]]], 2, 3⟩ : Arr3 ℝ)).WF := by
    intro s hs
    simp only [List.mem_cons, List.not_mem_nil, or_false] at hs
    rcases hs with rfl | rfl <;> simp
  exact (C34_auto_array _ hw (dt := .float64) (by simp) (Or.inl ⟨_, rfl⟩)).1 _ rfl
    ⟨2, 2, 3, rfl, by omega, by omega, by omega, by omega, by simp⟩

example {G R L : Type} (env : Env G R L) (o : Rdst ℝ R) (ho : o.transformType = .auto) (w : World R) (y : List L) :
    ∃ o', o.prepare env w (.array .otherDtype ⟨[[[0, 1, 2, 3]], [[4, 5, 6, 7]]], 1, 4⟩) y = (o', w, .error .valueError) := by
  obtain ⟨o', h, -⟩ := C34_other_dtype env o ho w (.array .otherDtype ⟨[[[0, 1, 2, 3]], [[4, 5, 6, 7]]], 1, 4⟩)
    (Or.inl ⟨_, rfl⟩) y
  exact ⟨o', h⟩

example : ∃ A : Arr3 ℝ, formatUneven (.list [⟨[[1, 2, 3]], 3⟩, ⟨[[4, 5]], 2⟩]) = .ok (A, [3, 2]) ∧
    Arr3.cell A 1 0 2 = some 0 := by
  obtain ⟨A, h, -, -, hle, ⟨x, hx, hnt⟩, -, hc⟩ := C40_format_uneven
    (.list [(⟨[[1, 2, 3]], 3⟩ : Mat ℝ), ⟨[[4, 5]], 2⟩]) (by simp [XIn.WF, Mat.WF]) _ rfl (by simp) 1 (by simp)
  have h3 : A.nt = 3 := by
    have h1 := hle ⟨[[1, 2, 3]], 3⟩ (by simp)
    simp only [List.mem_cons, List.not_mem_nil, or_false] at hx
    rcases hx with rfl | rfl <;> simp at hnt h1 <;> omega
  exact ⟨A, h, (hc 1 0 2 ⟨[[4, 5]], 2⟩ rfl (by omega) (by omega)).2 le_rfl⟩

example : formatUneven (.list [(⟨[[1, 2, 3]], 3⟩ : Mat ℝ), ⟨[[4, 5], [6, 7]], 2⟩]) = .error .valueError :=
  (C40_format_errors _ [(⟨[[1, 2, 3]], 3⟩ : Mat ℝ), ⟨[[4, 5], [6, 7]], 2⟩] rfl).2
    ⟨⟨[[4, 5], [6, 7]], 2⟩, by simp, ⟨[[1, 2, 3]], 3⟩, by simp, by simp⟩

end Convst.Props
