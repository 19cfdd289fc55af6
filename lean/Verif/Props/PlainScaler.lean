import Verif.Props.EnsembleEnd
import Verif.Props.InputTransformers

/-!
# C129: scaling of the features inside `R_DST_Ensemble`

Unlike `R_DST_Ridge` (C47), the ensemble keeps the features that are constant on the training set.
-/

set_option autoImplicit false
set_option linter.unusedSectionVars false

namespace Convst.Props
open Convst Spec

open Classical in
/-- A row of features standardised with the training matrix `F`: every feature minus its training mean, divided by its training
standard deviation unless it is constant on the training set. -/
noncomputable def standardised (F : List (List ℝ)) (n : Nat) (r : List ℝ) : List ℝ :=
  (List.range n).map fun j =>
    if Varies F j then (r.getD j 0 - mean (colOf F j)) / std (colOf F j) else r.getD j 0 - mean (colOf F j)

theorem plainScaler_eq {F : List (List ℝ)} {n : Nat} (hne : F ≠ []) (hn : 1 ≤ n) (hF : ∀ r ∈ F, r.length = n) :
    fitPlainScaler F = .ok ((List.range n).map fun j => mean (colOf F j),
      (List.range n).map fun j => handleZero (std (colOf F j))) := by
  have hc : nCols F = n := by
    cases F with
    | nil => exact absurd rfl hne
    | cons r F => exact hF r (by simp)
  have hcol : (List.range (nCols F)).mapM (fun j => column F j) = .ok ((List.range n).map (colOf F)) := by
    rw [hc]
    apply mapM_ok
    intro j hj
    exact column_ok fun r hr => by rw [hF r hr]; simpa using hj
  unfold fitPlainScaler
  rw [if_neg (by simp [hne, hc]; omega), hcol, Res.bind_ok, Res.pure_eq, List.map_map, List.map_map]
  rfl

/-- **C129.** Fitting the scaler succeeds on every matrix with a row and a column; it then standardises every matrix with as many
columns, keeping all features. -/
theorem C129_transform {F : List (List ℝ)} {n : Nat} (hne : F ≠ []) (hn : 1 ≤ n) (hF : ∀ r ∈ F, r.length = n) :
    ∃ sc, fitPlainScaler F = .ok sc ∧
      (∀ Z : List (List ℝ), (∀ r ∈ Z, r.length = n) → plainTransform sc Z = .ok (Z.map (standardised F n))) ∧
      ∀ Z : List (List ℝ), (∃ r ∈ Z, r.length ≠ n) → plainTransform sc Z = .error .valueError := by
  refine ⟨_, plainScaler_eq hne hn hF, fun Z hZ => ?_, fun Z hZ => ?_⟩
  · rw [plainTransform_ok (by simp) (by simp) hZ]
    congr 1
    refine List.map_congr_left fun r hr => ?_
    unfold plainStd standardised
    rw [hZ r hr]
    refine List.map_congr_left fun j hj => ?_
    have hj := List.mem_range.1 hj
    rw [getD_lt (0 : ℝ) (a := (List.range n).map fun j => mean (colOf F j)) (by simpa using hj),
      getD_lt (0 : ℝ) (a := (List.range n).map fun j => handleZero (std (colOf F j))) (by simpa using hj)]
    simp only [List.getElem_map, List.getElem_range]
    unfold handleZero
    by_cases hv : Varies F j
    · have := (varies_iff F j).1 hv
      rw [if_pos hv, if_neg (by simpa using this)]
    · have : std (colOf F j) = 0 := by
        by_contra hc
        exact hv ((varies_iff F j).2 hc)
      rw [if_neg hv, if_pos (by simpa using this), div_one]
  · unfold plainTransform
    obtain ⟨r, hr, hl⟩ := hZ
    refine mapM_error ⟨r, hr, ?_⟩ fun r' _ => ?_
    · rw [if_neg (by simpa using hl)]
    · split
      · exact .inr ⟨_, rfl⟩
      · exact .inl rfl

/-- **C129.** On the training matrix every feature that varies gets mean 0 and standard deviation 1, and every constant feature
becomes 0. -/
theorem C129_training {F : List (List ℝ)} {n j : Nat} (hne : F ≠ []) (hj : j < n) :
    (Varies F j → mean (colOf (F.map (standardised F n)) j) = 0 ∧ std (colOf (F.map (standardised F n)) j) = 1) ∧
    (¬ Varies F j → ∀ r ∈ F, (standardised F n r).getD j 0 = 0) := by
  classical
  have hget : ∀ r, (standardised F n r).getD j 0 = if Varies F j then (r.getD j 0 - mean (colOf F j)) / std (colOf F j)
      else r.getD j 0 - mean (colOf F j) := by
    intro r
    unfold standardised
    rw [getD_lt (0 : ℝ) (by simpa using hj), List.getElem_map]
    simp only [List.getElem_range]
  have hcne : colOf F j ≠ [] := by unfold colOf; simpa using hne
  constructor
  · intro hv
    have hcol : colOf (F.map (standardised F n)) j =
        (colOf F j).map fun v => (v - mean (colOf F j)) / std (colOf F j) := by
      conv_lhs => unfold colOf
      conv_rhs => arg 2; unfold colOf
      rw [List.map_map, List.map_map]
      refine List.map_congr_left fun r _ => ?_
      simp only [Function.comp_apply]
      rw [hget, if_pos hv]
    rw [hcol]
    exact mean_std_scaled hcne ((varies_iff F j).1 hv)
  · intro hv r hr
    rw [hget, if_neg hv]
    have hconst : colOf F j = List.replicate F.length (r.getD j 0) := by
      rw [List.eq_replicate_iff]
      refine ⟨by simp [colOf], fun v hvm => ?_⟩
      obtain ⟨s, hs, rfl⟩ := List.mem_map.1 hvm
      by_contra hc
      exact hv ⟨s, hs, r, hr, hc⟩
    rw [hconst]
    have hl : (F.length : ℝ) ≠ 0 := by
      rw [Nat.cast_ne_zero]
      exact fun h => hne (List.length_eq_zero_iff.1 h)
    have hm : mean (List.replicate F.length (r.getD j 0)) = r.getD j 0 := by
      unfold mean
      rw [ssum_eq_sum, List.sum_replicate, List.length_replicate, nsmul_eq_mul]
      show (F.length : ℝ) * _ / (F.length : ℝ) = _
      field_simp
    rw [hm, sub_self]

section
variable {G R : Type} [Gen G ℝ]

/-- **C129.** Every member of a fitted ensemble standardises the features it computes with the features of its training
series, at prediction too. -/
theorem C129_members {env : EnsEnv G ℝ R} (hl : CVLaw env.ridgeCV) {gs : Nat → Nat → G}
    {sched : Nat → Nat → List Nat} {order : List Nat} {e e' : Ensemble ℝ R}
    (hord : order.Perm (List.range e.reps.length)) {w w' : World R} {X : XIn ℝ} {y : List Int}
    (h : e.fit env gs sched order w X y = (e', w', .ok ())) {i : Nat} {m : Member ℝ R} (hm : e'.models[i]? = some m) :
    ∃ Xi F, m.rep X = .ok Xi ∧ m.rdst.transform Xi = .ok F ∧
      ∀ n, (∀ r ∈ F, r.length = n) → ∀ Z : List (List ℝ), (∀ r ∈ Z, r.length = n) →
        plainTransform m.scaler Z = .ok (Z.map (standardised F n)) := by
  obtain ⟨w1, st, accs, -, -, -, -, hmem, -, -⟩ := ens_fit_ok hord h
  obtain ⟨ws, hws, hwl, hml, -, -⟩ := C51_weights hl hord h
  have hi : i < e.reps.length := by
    have := (List.getElem?_eq_some_iff.1 hm).1
    omega
  have : i ∈ order := hord.mem_iff.2 (by simpa using hi)
  obtain ⟨k, hk, rfl⟩ := List.getElem_of_mem this
  obtain ⟨m', h1, h2⟩ := hmem k hk
  rw [hm] at h1
  cases h1
  obtain ⟨rep, Xi, w1, o0, F, Fs, h1, h2, h3, h4, h5, h6, h7, h8, h9, h10⟩ := fitMember_ok h2
  refine ⟨Xi, F, by rw [h6]; exact h2, h7, fun n hF Z hZ => ?_⟩
  have hne : F ≠ [] ∧ nCols F ≠ 0 := by
    unfold fitPlainScaler at h8
    split at h8
    · cases h8
    · rename_i hc
      rw [not_or] at hc
      exact ⟨by simpa using hc.1, hc.2⟩
  have hn : nCols F = n := by
    cases F with
    | nil => exact absurd rfl hne.1
    | cons r F => exact hF r (by simp)
  obtain ⟨sc, e1, e2, -⟩ := C129_transform hne.1 (by omega) hF
  rw [h8] at e1
  cases e1
  exact e2 Z hZ

end

/-! ## A case in which one feature is constant -/

example : ∃ sc, fitPlainScaler [[1, 5], [3, 5]] = .ok sc ∧
    plainTransform sc [[(2 : ℝ), 9]] = .ok [[0, 4]] := by
  have hF : ∀ r ∈ [[(1 : ℝ), 5], [3, 5]], r.length = 2 := by simp
  obtain ⟨sc, h1, h2, -⟩ := C129_transform (F := [[1, 5], [3, 5]]) (by simp) (by norm_num) hF
  refine ⟨sc, h1, ?_⟩
  rw [h2 [[2, 9]] (by simp)]
  have v0 : Varies [[(1 : ℝ), 5], [3, 5]] 0 := ⟨[1, 5], by simp, [3, 5], by simp, by norm_num⟩
  have v1 : ¬ Varies [[(1 : ℝ), 5], [3, 5]] 1 := by
    rintro ⟨r, hr, s, hs, hne⟩
    apply hne
    simp only [List.mem_cons, List.not_mem_nil, or_false] at hr hs
    rcases hr with rfl | rfl <;> rcases hs with rfl | rfl <;> rfl
  have m0 : mean (colOf [[(1 : ℝ), 5], [3, 5]] 0) = 2 := by
    show ssum [(1 : ℝ), 3] / ((2 : Nat) : ℝ) = 2
    rw [ssum_eq_sum]; norm_num
  have m1 : mean (colOf [[(1 : ℝ), 5], [3, 5]] 1) = 5 := by
    show ssum [(5 : ℝ), 5] / ((2 : Nat) : ℝ) = 5
    rw [ssum_eq_sum]; norm_num
  simp only [standardised, List.range_succ, List.range_zero, List.nil_append, List.map_append, List.map_cons, List.map_nil,
    if_pos v0, if_neg v1, m0, m1]
  norm_num

end Convst.Props
