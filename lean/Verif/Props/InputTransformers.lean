import Verif.Proofs.Scaler
import Verif.Proofs.Object
import Mathlib.Algebra.Group.ForwardDiff
import Mathlib.Tactic.IntervalCases

/-!
# Scalers and input transformers (C47, C57, C61)
-/

set_option autoImplicit false
set_option linter.unusedSectionVars false

namespace Convst.Props
open Convst Spec

/-! ## C47: scalers -/

/-- Feature `j` takes two different values on the rows of `X`. -/
def Varies (X : List (List ℝ)) (j : Nat) : Prop := ∃ r ∈ X, ∃ s ∈ X, r.getD j 0 ≠ s.getD j 0

theorem varies_iff (X : List (List ℝ)) (j : Nat) : Varies X j ↔ std (colOf X j) ≠ 0 := by
  rw [Ne, std_eq_zero_iff]
  unfold Varies colOf
  constructor
  · rintro ⟨r, hr, s, hs, h⟩ hall
    exact h (hall _ (List.mem_map.2 ⟨r, hr, rfl⟩) _ (List.mem_map.2 ⟨s, hs, rfl⟩))
  · intro h
    by_contra hc
    apply h
    intro a ha b hb
    obtain ⟨r, hr, rfl⟩ := List.mem_map.1 ha
    obtain ⟨s, hs, rfl⟩ := List.mem_map.1 hb
    by_contra hne
    exact hc ⟨r, hr, s, hs, hne⟩

theorem mem_atts (X : List (List ℝ)) (nc j : Nat) :
    (j ∈ whereIdx nc fun j => !(Scalar.eqb (std (colOf X j)) 0)) ↔ j < nc ∧ Varies X j := by
  rw [mem_whereIdx, varies_iff]
  simp

/-- C47: fitting the scaler keeps, in increasing order, exactly the features that are not constant on the
training matrix; it raises `ValueError` exactly when all are constant. -/
theorem C47_kept_features (X : List (List ℝ)) (nc : Nat) (h : ∀ r ∈ X, r.length = nc) :
    ((∃ j, j < nc ∧ Varies X j) → ∃ s, Scaler.fitStandard X nc = .ok s ∧
      s.atts.Pairwise (· < ·) ∧ ∀ j, j ∈ s.atts ↔ j < nc ∧ Varies X j) ∧
    ((¬ ∃ j, j < nc ∧ Varies X j) → Scaler.fitStandard X nc = .error .valueError) := by
  have heq := fitStandard_eq h
  simp only at heq
  constructor
  · rintro ⟨j, hj, hv⟩
    rw [heq, if_neg]
    · exact ⟨_, rfl, List.pairwise_lt_range.filter _, mem_atts X nc⟩
    · rintro (h' | h')
      · subst h'
        obtain ⟨r, hr, _⟩ := hv
        cases hr
      · have := (mem_atts X nc j).2 ⟨hj, hv⟩
        rw [h'] at this; cases this
  · intro hc
    rw [heq, if_pos]
    right
    rw [List.eq_nil_iff_forall_not_mem]
    intro j hj
    exact hc ⟨j, (mem_atts X nc j).1 hj⟩

theorem fitStandard_ok {X : List (List ℝ)} {nc : Nat} (h : ∀ r ∈ X, r.length = nc) {s : Scaler ℝ}
    (hs : Scaler.fitStandard X nc = .ok s) :
    X ≠ [] ∧ s.atts = (whereIdx nc fun j => !(Scalar.eqb (std (colOf X j)) 0)) ∧
    s.offset = s.atts.map (fun j => mean (colOf X j)) ∧
    s.scale = s.atts.map fun j => std (colOf X j) := by
  have heq := fitStandard_eq h
  simp only at heq
  rw [heq] at hs
  split at hs
  · cases hs
  · rename_i hne
    cases hs
    refine ⟨fun h' => hne (.inl h'), rfl, rfl, ?_⟩
    apply List.map_congr_left
    intro j hj
    have := (varies_iff X j).1 ((mem_atts X nc j).1 hj).2
    unfold handleZero
    rw [if_neg (by simpa using this)]

/-- C47: on any matrix having the training columns, the fitted scaler returns, row by row, the kept
features, each shifted by the training mean and divided by the training standard deviation. -/
theorem C47_predict_time {X : List (List ℝ)} {nc : Nat} (h : ∀ r ∈ X, r.length = nc) {s : Scaler ℝ}
    (hs : Scaler.fitStandard X nc = .ok s) (Z : List (List ℝ)) (hZ : ∀ r ∈ Z, nc ≤ r.length) :
    s.transformStandard Z = .ok (Z.map fun r => s.atts.map fun j =>
      (r.getD j 0 - mean (colOf X j)) / std (colOf X j)) := by
  obtain ⟨-, hatts, hoff, hsc⟩ := fitStandard_ok h hs
  unfold Scaler.transformStandard
  have hin : ∀ r ∈ Z, ∀ j ∈ s.atts, j < r.length := by
    intro r hr j hj
    rw [hatts] at hj
    have := (mem_whereIdx.1 hj).1
    have := hZ r hr
    omega
  rw [selectCols_ok hin, Res.bind_ok, Res.pure_eq, List.map_map]
  congr 1
  apply List.map_congr_left
  intro r _
  simp only [Function.comp_apply, standardRow]
  rw [hoff, hsc, zip_row]

theorem mean_std_scaled {c : List ℝ} (hne : c ≠ []) (hs : std c ≠ 0) :
    mean (c.map fun v => (v - mean c) / std c) = 0 ∧
      std (c.map fun v => (v - mean c) / std c) = 1 := by
  have hscale : (c.map fun v => (v - mean c) / std c) =
      ((c.map fun v => v + -mean c).map fun v => (std c)⁻¹ * v) := by
    rw [List.map_map]
    apply List.map_congr_left
    intro a _
    simp only [Function.comp_apply, div_eq_mul_inv]
    ring
  have hpos : 0 < std c := lt_of_le_of_ne (std_nonneg c) (Ne.symm hs)
  rw [hscale]
  refine ⟨?_, ?_⟩
  · rw [mean_mul_const, mean_add_const hne]; ring
  · rw [std_mul_const, std_add_const, abs_of_pos (inv_pos.2 hpos)]
    exact inv_mul_cancel₀ hs

/-- C47: on the training matrix every kept feature gets mean 0 and standard deviation 1. -/
theorem C47_standardised {X : List (List ℝ)} {nc : Nat} (h : ∀ r ∈ X, r.length = nc) {s : Scaler ℝ}
    (hs : Scaler.fitStandard X nc = .ok s) :
    ∃ Y, s.transformStandard X = .ok Y ∧ Y.length = X.length ∧
      (∀ r ∈ Y, r.length = s.atts.length) ∧
      ∀ k, k < s.atts.length → mean (colOf Y k) = 0 ∧ std (colOf Y k) = 1 := by
  obtain ⟨hne, hatts, -, -⟩ := fitStandard_ok h hs
  refine ⟨_, C47_predict_time h hs X (fun r hr => (h r hr).ge), by simp, ?_, ?_⟩
  · intro r hr
    obtain ⟨r', _, rfl⟩ := List.mem_map.1 hr
    simp
  · intro k hk
    have hcol : colOf (X.map fun r => s.atts.map fun j =>
        (r.getD j 0 - mean (colOf X j)) / std (colOf X j)) k =
        (colOf X s.atts[k]).map fun v =>
          (v - mean (colOf X s.atts[k])) / std (colOf X s.atts[k]) := by
      unfold colOf
      rw [List.map_map, List.map_map]
      apply List.map_congr_left
      intro r _
      simp [hk]
    rw [hcol]
    apply mean_std_scaled
    · unfold colOf; simpa using hne
    · have hmem : ∀ j ∈ s.atts, std (colOf X j) ≠ 0 := by
        intro j hj
        rw [hatts] at hj
        exact (varies_iff X _).1 ((mem_atts X nc _).1 hj).2
      exact hmem _ (List.getElem_mem hk)

/-- C47: a matrix with too few columns is rejected with `IndexError` as soon as it has a row. -/
theorem C47_too_few_columns {s : Scaler ℝ} {Z : List (List ℝ)} {j : Nat} (hj : j ∈ s.atts)
    (hZ : Z ≠ []) (hlen : ∀ r ∈ Z, r.length ≤ j) :
    s.transformStandard Z = .error .indexError := by
  unfold Scaler.transformStandard
  have : selectCols Z s.atts = .error .indexError := by
    unfold selectCols
    obtain ⟨r, hr⟩ := List.exists_mem_of_ne_nil Z hZ
    have key : ∀ r ∈ Z, takeIds r s.atts = .error .indexError := by
      intro r hr
      unfold takeIds
      apply mapM_error
      · exact ⟨j, hj, by simp [hlen r hr]⟩
      · intro i _
        cases hi : r[i]? with
        | none => left; rfl
        | some v => right; exact ⟨v, rfl⟩
    exact mapM_error ⟨r, hr, key r hr⟩ fun r' hr' => .inl (key r' hr')
  rw [this]; rfl

/-- C47: the min-max variant keeps the same features and maps each of them onto `[0, 1]` on the training
matrix, both bounds being reached. -/
theorem C47_minmax {X : List (List ℝ)} {nc : Nat} (h : ∀ r ∈ X, r.length = nc) {s : Scaler ℝ}
    (hs : Scaler.fitMinMax X nc = .ok s) :
    (∀ j, j ∈ s.atts ↔ j < nc ∧ Varies X j) ∧ s.atts.Pairwise (· < ·) ∧
    ∃ Y, s.transformMinMax X = .ok Y ∧ Y.length = X.length ∧
      ∀ k, k < s.atts.length → (∀ v ∈ colOf Y k, 0 ≤ v ∧ v ≤ 1) ∧ 0 ∈ colOf Y k ∧ 1 ∈ colOf Y k := by
  have heq := fitMinMax_eq h
  simp only at heq
  rw [heq] at hs
  split at hs
  · cases hs
  · rename_i hne
    cases hs
    set atts := whereIdx nc fun j => !(Scalar.eqb (std (colOf X j)) 0) with hatts
    refine ⟨mem_atts X nc, List.pairwise_lt_range.filter _, ?_⟩
    have hin : ∀ r ∈ X, ∀ j ∈ atts, j < r.length := by
      intro r hr j hj
      rw [h r hr]; exact (mem_whereIdx.1 hj).1
    refine ⟨X.map fun r => atts.map fun j => r.getD j 0 *
        (1 / handleZero (maxOf (colOf X j) - minOf (colOf X j))) +
        (0 - minOf (colOf X j) * (1 / handleZero (maxOf (colOf X j) - minOf (colOf X j)))), ?_,
      by simp, ?_⟩
    · unfold Scaler.transformMinMax
      rw [selectCols_ok hin, Res.bind_ok, Res.pure_eq, List.map_map]
      congr 1
      apply List.map_congr_left
      intro r _
      simp only [Function.comp_apply, minMaxRow]
      rw [zip_row]
    · intro k hk
      have hk' : k < atts.length := hk
      set c := colOf X atts[k] with hc
      have hcol : colOf (X.map fun r => atts.map fun j => r.getD j 0 *
          (1 / handleZero (maxOf (colOf X j) - minOf (colOf X j))) +
          (0 - minOf (colOf X j) * (1 / handleZero (maxOf (colOf X j) - minOf (colOf X j))))) k =
          c.map fun v => v * (1 / handleZero (maxOf c - minOf c)) +
            (0 - minOf c * (1 / handleZero (maxOf c - minOf c))) := by
        rw [hc]
        unfold colOf
        rw [List.map_map, List.map_map]
        apply List.map_congr_left
        intro r _
        simp [hk']
      rw [hcol]
      obtain ⟨r, hr, r', hr', hne'⟩ := ((mem_atts X nc _).1 (List.getElem_mem hk')).2
      have m1 : r.getD atts[k] 0 ∈ c := List.mem_map.2 ⟨r, hr, rfl⟩
      have m2 : r'.getD atts[k] 0 ∈ c := List.mem_map.2 ⟨r', hr', rfl⟩
      have hlt : minOf c < maxOf c := by
        rcases lt_or_gt_of_ne hne' with hl | hl
        · linarith [(minOf_le m1).1, (le_maxOf m2).1]
        · linarith [(minOf_le m2).1, (le_maxOf m1).1]
      have hz : handleZero (maxOf c - minOf c) = maxOf c - minOf c := by
        unfold handleZero
        rw [if_neg (by simp only [real_eqb]; intro h0; linarith)]
      have hd : 0 < maxOf c - minOf c := by linarith
      have hf : ∀ v : ℝ, v * (1 / handleZero (maxOf c - minOf c)) +
          (0 - minOf c * (1 / handleZero (maxOf c - minOf c))) =
          (v - minOf c) / (maxOf c - minOf c) := by
        intro v
        rw [hz]; field_simp; ring
      refine ⟨?_, ?_, ?_⟩
      · intro v hv
        obtain ⟨u, hu, rfl⟩ := List.mem_map.1 hv
        rw [hf]
        refine ⟨div_nonneg (by linarith [(minOf_le hu).1]) hd.le, ?_⟩
        rw [div_le_one hd]
        linarith [(le_maxOf hu).1]
      · exact List.mem_map.2 ⟨minOf c, (minOf_le m1).2, by rw [hf]; simp⟩
      · exact List.mem_map.2 ⟨maxOf c, (le_maxOf m1).2, by rw [hf]; exact div_self hd.ne'⟩

/-- Three features, the middle one constant: the hypotheses of the C47 theorems are met. -/
example : ∃ s, Scaler.fitStandard ([[1, 5, 0], [3, 5, 2]] : List (List ℝ)) 3 = .ok s ∧
    s.atts = [0, 2] := by
  have h : ∀ r ∈ ([[1, 5, 0], [3, 5, 2]] : List (List ℝ)), r.length = 3 := by simp
  obtain ⟨s, hs, hsort, hmem⟩ := (C47_kept_features _ 3 h).1
    ⟨0, by norm_num, [1, 5, 0], by simp, [3, 5, 2], by simp, by norm_num⟩
  refine ⟨s, hs, ?_⟩
  refine List.Pairwise.eq_of_mem_iff hsort (by decide) ?_
  intro j
  rw [hmem]
  constructor
  · rintro ⟨hj, r, hr, r', hr', hne⟩
    simp only [List.mem_cons, List.not_mem_nil, or_false] at hr hr'
    interval_cases j
    · simp
    · rcases hr with rfl | rfl <;> rcases hr' with rfl | rfl <;> simp at hne
    · simp
  · intro hj
    simp only [List.mem_cons, List.not_mem_nil, or_false] at hj
    rcases hj with rfl | rfl
    · exact ⟨by norm_num, [1, 5, 0], by simp, [3, 5, 2], by simp, by norm_num⟩
    · exact ⟨by norm_num, [1, 5, 0], by simp, [3, 5, 2], by simp, by norm_num⟩

/-! ## C57: dataset level z-normalisation -/

section ZNormData
variable {K : Type} [Scalar K]

theorem zNormOneSample_ok (x : List (List K)) : zNormOneSample x = .ok (x.map znorm) := by
  unfold zNormOneSample
  rw [mapM_ok (g := fun i => znorm (x.getD i []))]
  · congr 1
    apply List.ext_getElem (by simp)
    intro i h1 h2
    rw [List.length_map] at h2
    simp [h2]
  · intro i hi
    have hi' := List.mem_range.1 hi
    rw [aget_ok hi', getD_lt _ hi']
    rfl

/-- C57: `z_norm_all_samples` normalises every channel of every series separately. -/
theorem C57_all_samples (X : List (List (List K))) :
    zNormAllSamples X = .ok (X.map fun x => x.map znorm) := by
  unfold zNormAllSamples
  rw [mapM_ok (g := fun i => (X.getD i []).map znorm)]
  · congr 1
    apply List.ext_getElem (by simp)
    intro i h1 h2
    rw [List.length_map] at h2
    simp [h2]
  · intro i hi
    have hi' := List.mem_range.1 hi
    rw [aget_ok hi', getD_lt _ hi', Res.bind_ok, zNormOneSample_ok]

/-- C57: `Z_normalizer.transform` normalises every channel of every series of the data, read as an array. -/
theorem C57_transformer {X : XIn K} {A : Arr3 K} (h : toArr3 X = .ok A) :
    zNormalizer X = .ok (A.data.map fun x => x.map znorm) := by
  unfold zNormalizer
  rw [h, Res.bind_ok, C57_all_samples]

/-- Frame of one in-place update of the channels of series `i`. -/
theorem zNorm_channels (X : List (List (List K))) (i : Nat) (hi : i < X.length) :
    (List.range X[i].length).foldlM (init := X) (fun X f => do
      let r ← aget2 X i f
      aset2 X i f (znorm r)) = (.ok (X.set i (X[i].map znorm)) : Res _) := by
  obtain ⟨s, hs, hp⟩ := forRange_inv (n := X[i].length) (s := X)
    (f := fun X f => do
      let r ← aget2 X i f
      aset2 X i f (znorm r))
    (P := fun f Y => Y = X.set i ((X[i].take f).map znorm ++ X[i].drop f)) (by simp) (by
    intro f Y hf hY
    have hlen : i < Y.length := by rw [hY]; simpa using hi
    have hYi : Y[i] = (X[i].take f).map znorm ++ X[i].drop f := by simp [hY]
    have hcell : aget2 Y i f = .ok X[i][f] := by
      unfold aget2
      rw [aget_ok hlen, Res.bind_ok, hYi, aget_eq_ok, List.getElem?_append_right (by simp)]
      simp [Nat.min_eq_left hf.le, hf]
    have hw : aset2 Y i f (znorm X[i][f]) =
        .ok (X.set i ((X[i].take (f + 1)).map znorm ++ X[i].drop (f + 1))) := by
      unfold aset2
      rw [aget_ok hlen, Res.bind_ok, aset_ok (by rw [hYi]; simp; omega), Res.bind_ok, aset_ok hlen,
        hYi]
      congr 1
      rw [hY, List.set_set]
      congr 1
      rw [List.set_append_right _ _ (by simp)]
      have hd : X[i].drop f = X[i][f] :: X[i].drop (f + 1) := (List.getElem_cons_drop hf).symm
      rw [hd]
      simp only [List.length_map, List.length_take, Nat.min_eq_left hf.le, Nat.sub_self,
        List.set_cons_zero]
      rw [List.take_add_one, List.getElem?_eq_getElem hf]
      simp only [Option.toList_some, List.map_append, List.map_cons, List.map_nil,
        List.append_assoc, List.cons_append, List.nil_append]
    exact ⟨_, by rw [hcell, Res.bind_ok]; exact hw, rfl⟩)
  rw [hs, hp]
  simp

/-- C57: the in-place `z_norm_3D` and `z_norm_3D_list` leave in the caller's array the normalisation of
every channel of every series, for series of any lengths. -/
theorem C57_in_place (X : List (List (List K))) :
    zNorm3D X (fun i => (X.getD i []).length) = .ok (X.map fun x => x.map znorm) := by
  unfold zNorm3D
  obtain ⟨s, hs, hp⟩ := forRange_inv (n := X.length) (s := X)
    (f := fun Y i => (List.range ((X.getD i []).length)).foldlM (init := Y) fun Y f => do
      let r ← aget2 Y i f
      aset2 Y i f (znorm r))
    (P := fun i Y => Y = (X.take i).map (fun x => x.map znorm) ++ X.drop i) (by simp) (by
    intro i Y hi hY
    have hlen : i < Y.length := by rw [hY]; simp; omega
    have hYi : Y[i] = X[i] := by
      simp only [hY]
      rw [List.getElem_append_right (by simp)]
      simp [Nat.min_eq_left hi.le]
    have := zNorm_channels Y i hlen
    rw [hYi] at this
    refine ⟨_, by rw [getD_lt _ hi]; exact this, ?_⟩
    rw [hY, List.set_append_right _ _ (by simp)]
    have hd : X.drop i = X[i] :: X.drop (i + 1) := (List.getElem_cons_drop hi).symm
    rw [hd]
    simp only [List.length_map, List.length_take, Nat.min_eq_left hi.le, Nat.sub_self,
      List.set_cons_zero]
    rw [List.take_add_one, List.getElem?_eq_getElem hi]
    simp only [Option.toList_some, List.map_append, List.map_cons, List.map_nil,
      List.append_assoc, List.cons_append, List.nil_append])
  rw [hs, hp]
  simp

end ZNormData

/-! ## C61: derivatives -/

section Deriv
variable {K : Type} [Scalar K]

theorem diff_length (x : List K) : (diff x).length = x.length - 1 := by
  simp [diff]

theorem derivateRow_succ (k : Nat) (x : List K) : derivateRow (k + 1) x = diff (derivateRow k x) := by
  simp [derivateRow, List.range_succ]

/-- C61: `Derivate(order=k)` shortens a series by `k` points. -/
theorem C61_length (k : Nat) (x : List K) : (derivateRow k x).length = x.length - k := by
  induction k with
  | zero => simp [derivateRow]
  | succ k ih => rw [derivateRow_succ, diff_length, ih]; omega

/-- C61: a 3D array is differentiated channel by channel; the number of series and of channels does not
change and the announced length stays the true one. -/
theorem C61_channelwise (k : Nat) (A : Arr3 K) :
    derivate3 k A = ⟨A.data.map fun s => s.map (derivateRow k), A.nf, A.nt - k⟩ := by
  induction k with
  | zero =>
    have h0 : (derivateRow 0 : List K → List K) = id := by funext x; simp [derivateRow]
    simp [derivate3, h0]
  | succ k ih =>
    have : derivate3 (k + 1) A =
        ⟨(derivate3 k A).data.map fun s => s.map diff, (derivate3 k A).nf, (derivate3 k A).nt - 1⟩ := by
      simp [derivate3, List.range_succ]
    rw [this, ih]
    simp only [List.map_map, Arr3.mk.injEq, true_and]
    refine ⟨?_, by omega⟩
    apply List.map_congr_left
    intro s _
    simp only [Function.comp_apply, List.map_map]
    apply List.map_congr_left
    intro x _
    simp [derivateRow_succ]

/-- C61: the transformer accepts every 3D array and rejects every list of series of different shapes. -/
theorem C61_inputs (k : Nat) (X : XIn K) :
    (∀ dt A, X = .array dt A →
      derivate k X = .ok (.array dt ⟨A.data.map fun s => s.map (derivateRow k), A.nf, A.nt - k⟩)) ∧
    (∀ x xs, X = .list (x :: xs) → 0 < k →
      (∃ z ∈ xs, z.rows.length ≠ x.rows.length ∨ z.len ≠ x.len) →
      derivate k X = .error .valueError) := by
  constructor
  · rintro dt A rfl
    unfold derivate
    split
    · rename_i h
      subst h
      rw [← C61_channelwise]; rfl
    · simp only [C61_channelwise]
  · rintro x xs rfl hk ⟨z, hz, hne⟩
    unfold derivate
    rw [if_neg (by omega)]
    simp only
    rw [if_neg]
    simp only [List.all_eq_true, Bool.and_eq_true, beq_iff_eq]
    intro hall
    have := hall z hz
    omega

/-- C61: arrays that are not 3D: the last axis loses `k` points, and there must be one. -/
theorem C61_other_dimensions (k : Nat) (hk : 0 < k) (dt : DType) (shape : List Nat) (n : Nat) :
    derivate k (.arrayOther dt (shape ++ [n]) : XIn K) = .ok (.arrayOther dt (shape ++ [n - k])) ∧
      derivate k (.arrayOther dt [] : XIn K) = .error .valueError := by
  unfold derivate
  rw [if_neg (by omega), if_neg (by omega)]
  simp

end Deriv

theorem diff_get (x : List ℝ) (i : Nat) (hi : i + 1 < x.length) :
    (diff x)[i]'(by rw [diff_length]; omega) = x[i + 1] - x[i] := by
  simp [diff]

/-- The `k`-th forward difference of a function. -/
noncomputable def fdiff : Nat → (Nat → ℝ) → Nat → ℝ
  | 0, f => f
  | k + 1, f => fun i => fdiff k f (i + 1) - fdiff k f i

theorem derivateRow_get (k : Nat) (f : Nat → ℝ) (n : Nat) :
    derivateRow k ((List.range n).map f) = (List.range (n - k)).map (fdiff k f) := by
  induction k with
  | zero => simp [derivateRow, fdiff]
  | succ k ih =>
    rw [derivateRow_succ, ih]
    apply List.ext_getElem
    · rw [diff_length]; simp; omega
    · intro i h1 h2
      simp only [List.length_map, List.length_range] at h2
      rw [diff_get _ _ (by simp; omega)]
      simp [fdiff]

/-- C61: the derivative is the iterated forward difference of the series. -/
theorem C61_forward_difference (k : Nat) (x : List ℝ) (i : Nat) (hi : i + k < x.length) :
    (derivateRow k x)[i]? = some (∑ j ∈ Finset.range (k + 1),
      ((-1 : ℝ)) ^ (k - j) * (k.choose j) * x.getD (i + j) 0) := by
  have hx : x = (List.range x.length).map fun t => x.getD t 0 := by
    apply List.ext_getElem (by simp)
    intro t h1 h2
    simp [h1]
  conv_lhs => rw [hx, derivateRow_get]
  rw [List.getElem?_map, List.getElem?_range (by omega)]
  simp only [Option.map_some, Option.some.injEq]
  set f : Nat → ℝ := fun t => x.getD t 0 with hf
  have key : ∀ (k : Nat) (i : Nat), fdiff k f i = (fwdDiff 1)^[k] f i := by
    intro k
    induction k with
    | zero => intro i; rfl
    | succ k ih =>
      intro i
      rw [Function.iterate_succ_apply']
      simp only [fdiff, fwdDiff, ih]
  rw [key, fwdDiff_iter_eq_sum_shift]
  apply Finset.sum_congr rfl
  intro j _
  simp only [zsmul_eq_mul, smul_eq_mul, mul_one, hf]
  push_cast
  ring

/-- C61: linearity. -/
theorem C61_linear (k : Nat) (a b : ℝ) (x y : List ℝ) (h : x.length = y.length) :
    derivateRow k (List.zipWith (fun u v => a * u + b * v) x y) =
      List.zipWith (fun u v => a * u + b * v) (derivateRow k x) (derivateRow k y) := by
  induction k with
  | zero => simp [derivateRow]
  | succ k ih =>
    have hl : (derivateRow k x).length = (derivateRow k y).length := by
      rw [C61_length, C61_length, h]
    rw [derivateRow_succ, derivateRow_succ, derivateRow_succ, ih]
    apply List.ext_getElem
    · simp [diff_length, hl]
    · intro i h1 h2
      have hi : i + 1 < (derivateRow k x).length := by
        rw [diff_length] at h1
        simp only [List.length_zipWith] at h1
        omega
      rw [diff_get _ _ (by simp; omega)]
      simp only [List.getElem_zipWith]
      rw [diff_get _ _ hi, diff_get _ _ (by omega)]
      ring

/-- C61: a series sampled from a polynomial of degree less than `k` becomes zero. -/
theorem C61_polynomials_vanish (k n : Nat) (p : Polynomial ℝ) (hp : p.natDegree < k) :
    derivateRow k ((List.range n).map fun (t : Nat) => p.eval (t : ℝ)) = List.replicate (n - k) 0 := by
  rw [derivateRow_get]
  have key : ∀ (k : Nat) (p : Polynomial ℝ), p.natDegree < k → ∀ i : Nat,
      fdiff k (fun t : Nat => p.eval (t : ℝ)) i = 0 := by
    intro k p hp i
    have h1 : ∀ (k : Nat) (i : Nat), fdiff k (fun t : Nat => p.eval (t : ℝ)) i =
        (fwdDiff (1 : ℝ))^[k] (fun z => p.eval z) (i : ℝ) := by
      intro k
      induction k with
      | zero => intro i; rfl
      | succ k ih =>
        intro i
        rw [Function.iterate_succ_apply']
        simp only [fdiff, fwdDiff, ih]
        push_cast
        rfl
    rw [h1]
    exact congrFun (Polynomial.fwdDiff_iter_eq_zero_of_degree_lt hp) _
  rw [List.eq_replicate_iff]
  refine ⟨by simp, ?_⟩
  intro b hb
  obtain ⟨i, _, rfl⟩ := List.mem_map.1 hb
  exact key k p hp i

/-- C61: adding a constant does not change the derivative of order one or more. -/
theorem C61_offset (k : Nat) (hk : 0 < k) (x : List ℝ) (c : ℝ) :
    derivateRow k (x.map fun v => v + c) = derivateRow k x := by
  obtain ⟨k, rfl⟩ : ∃ m, k = m + 1 := ⟨k - 1, by omega⟩
  clear hk
  have h1 : diff (x.map fun v => v + c) = diff x := by
    apply List.ext_getElem
    · simp [diff_length]
    · intro i h1 h2
      rw [diff_length] at h2
      rw [diff_get _ _ (by simp; omega), diff_get _ _ (by omega)]
      simp
  have h2 : ∀ (k : Nat) (z : List ℝ), derivateRow (k + 1) z = derivateRow k (diff z) := by
    intro k
    induction k with
    | zero => intro z; simp [derivateRow]
    | succ k ih => intro z; rw [derivateRow_succ, ih, ← derivateRow_succ]
  rw [h2, h2, h1]

/-- C61: a series is recovered from its first value and the cumulative sums of its derivative. -/
theorem C61_recover (x : List ℝ) (hx : 0 < x.length) (i : Nat) (hi : i < x.length) :
    x[i] = x[0] + ((derivateRow 1 x).take i).sum := by
  have h1 : derivateRow 1 x = diff x := by simp [derivateRow]
  rw [h1]
  induction i with
  | zero => simp
  | succ i ih =>
    have hi' : i < (diff x).length := by rw [diff_length]; omega
    rw [List.take_add_one, List.getElem?_eq_getElem hi', Option.toList_some, List.sum_append,
      List.sum_singleton, diff_get _ _ hi]
    have := ih (by omega)
    linarith

/-- The hypotheses of the C61 theorems are met by a quadratic series of five points. -/
example : derivateRow 2 ([0, 1, 4, 9, 16] : List ℝ) = [2, 2, 2] := by
  norm_num [derivateRow, diff, List.range_succ]

end Convst.Props
