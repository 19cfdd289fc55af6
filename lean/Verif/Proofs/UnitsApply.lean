import Verif.Proofs.Units
import Verif.Proofs.ApplyAll
import Verif.Proofs.RealFeatures

/-!
# Features after a change of units
-/

set_option autoImplicit false
set_option linter.unusedSectionVars false

namespace Convst
open Spec

variable {c b : ℝ}

/-- Inside the series, windows commute with any pointwise map. -/
theorem window_map_inside {phase : Bool} (x : List ℝ) (f : ℝ → ℝ) {l d i : Nat}
    (hi : i < nWin phase x.length l d) :
    window phase (x.map f) l d i = (window phase x l d i).map f := by
  unfold window
  rw [List.map_map]
  apply List.map_congr_left
  intro j hj
  rw [List.mem_range] at hj
  have hp : pos phase x.length d i j < x.length := by
    cases phase with
    | true =>
      simp only [nWin, pos, if_true] at hi ⊢
      exact Nat.mod_lt _ (by omega)
    | false =>
      simp only [nWin, pos, Bool.false_eq_true, if_false] at hi ⊢
      have : j * d ≤ (l - 1) * d := Nat.mul_le_mul_right _ (by omega)
      omega
  rw [List.length_map, Function.comp_apply, List.getD_eq_getElem?_getD, List.getElem?_map,
    List.getElem?_eq_getElem hp, List.getD_eq_getElem?_getD, List.getElem?_eq_getElem hp]
  rfl

theorem l1_units (norm : Bool) {w v : List ℝ} (h : w.length ≤ v.length) :
    l1 (w.map (shpUnits c b norm)) (v.map (shpUnits c b norm)) = |c| * l1 w v := by
  rw [l1_eq_sum, l1_eq_sum, List.length_map, Finset.mul_sum]
  apply Finset.sum_congr rfl
  intro j hj
  rw [Finset.mem_range] at hj
  have hj' : j < v.length := by omega
  simp only [List.getD_eq_getElem?_getD, List.getElem?_map, List.getElem?_eq_getElem hj,
    List.getElem?_eq_getElem hj', Option.map_some, Option.getD_some, shpUnits]
  rw [← abs_mul]
  congr 1
  ring

theorem isFeatures_scale {D : List ℝ} {thr : ℝ} {f : Feat ℝ} {k : ℝ} (hk : 0 < k)
    (h : IsFeatures D thr f) :
    IsFeatures (D.map fun t => k * t) (k * thr) (k * f.1, f.2.1, f.2.2) := by
  obtain ⟨⟨h1, h2⟩, ⟨p, hp, h3, h4⟩, h5⟩ := h
  refine ⟨⟨List.mem_map.2 ⟨_, h1, rfl⟩, ?_⟩, ⟨p, hp, by simp [h3], ?_⟩, ?_⟩
  · intro x hx
    obtain ⟨y, hy, rfl⟩ := List.mem_map.1 hx
    exact mul_le_mul_of_nonneg_left (h2 y hy) hk.le
  · intro q x hq hx
    rw [List.getElem?_map, Option.map_eq_some_iff] at hx
    obtain ⟨y, hy, rfl⟩ := hx
    exact mul_lt_mul_of_pos_left (h4 q y hq hy) hk
  · rw [List.countP_map]
    simp only [h5]
    congr 1
    apply List.countP_congr
    intro x _
    simp [mul_le_mul_iff_right₀ hk]

theorem features_scale {D : List ℝ} (hne : D ≠ []) (hD : ∀ x ∈ D, 0 ≤ x) (thr : ℝ) (hc : c ≠ 0) :
    features (D.map fun t => |c| * t) (|c| * thr) = featUnits c (features D thr) := by
  have hk : 0 < |c| := abs_pos.2 hc
  refine isFeatures_unique (features_isFeatures (by simpa using hne) ?_)
    (isFeatures_scale hk (features_isFeatures hne hD))
  intro x hx
  obtain ⟨y, hy, rfl⟩ := List.mem_map.1 hx
  exact mul_nonneg hk.le (hD y hy)

theorem getD_scale (t : List ℝ) (k : Nat) :
    (t.map fun t => |c| * t).getD k 0 = |c| * t.getD k 0 := by
  rw [List.getD_eq_getElem?_getD, List.getElem?_map, List.getD_eq_getElem?_getD]
  cases t[k]? <;> simp

theorem Spec.Harmless.ne {n : List Bool} (h : Harmless c n) : c ≠ 0 := by
  rcases h with h | h
  · rintro rfl; simp at h
  · exact h.1

theorem Spec.Harmless.at {n : List Bool} (h : Harmless c n) (k : Nat) : HarmlessFor c (n.getD k false) := by
  rcases h with h | h
  · exact Or.inl h
  · exact Or.inr (h.2 k)

theorem nWin_pos_of_hasWindow {phase : Bool} {T l d : Nat} (h : HasWindow phase T l d) : 0 < nWin phase T l d := by
  unfold nWin
  unfold HasWindow at h
  cases phase <;> simp only [Bool.false_eq_true, if_false, if_true] at h ⊢ <;> omega

theorem uFeatures_units {S S' : UShp ℝ} (hU : UUnits c b S S') (hH : Harmless c S.normalize) (hS : UWF S)
    (phase : Bool) (x : List ℝ) {k : Nat} (hk : k < S.lengths.length)
    (hw : HasWindow phase x.length (S.lengths.getD k 0) (S.dilations.getD k 0)) :
    uFeatures phase S' (x.map (inUnits c b)) k = featUnits c (uFeatures phase S x k) := by
  have hD : uDistances phase S' (x.map (inUnits c b)) k = (uDistances phase S x k).map fun t => |c| * t := by
    unfold uDistances distances
    rw [hU.lengths, hU.dilations, hU.normalize, hU.values k hk, List.length_map, List.map_map]
    apply List.map_congr_left
    intro i hi
    rw [List.mem_range] at hi
    rw [window_map_inside x _ hi, seen_units (hH.at k), l1_units, Function.comp_apply]
    rw [seen_length, window_length]
    have := hS.room k hk
    rw [uValues, List.length_take]
    omega
  unfold uFeatures
  rw [hD, hU.threshold, getD_scale]
  refine features_scale ?_ (distances_nonneg _ _ _ _ _ _) _ hH.ne
  intro h0
  have := congrArg List.length h0
  simp only [uDistances, distances, List.length_map, List.length_range, List.length_nil] at this
  have := nWin_pos_of_hasWindow hw
  omega

theorem mFeatures_units {S S' : MShp ℝ} {nf : Nat} (hU : MUnits c b S S') (hH : Harmless c S.normalize)
    (hS : MWF S nf) (phase : Bool) {x : List (List ℝ)} {T : Nat} (hx : Rect x nf T) {k : Nat}
    (hk : k < S.lengths.length)
    (hw : HasWindow phase T (S.lengths.getD k 0) (S.dilations.getD k 0)) :
    mFeatures phase S' (x.map (List.map (inUnits c b))) T k = featUnits c (mFeatures phase S x T k) := by
  have hD : mDistances phase S' (x.map (List.map (inUnits c b))) T k =
      (mDistances phase S x T k).map fun t => |c| * t := by
    unfold mDistances
    rw [hU.lengths, hU.dilations, List.map_map]
    apply List.map_congr_left
    intro i hi
    rw [List.mem_range] at hi
    rw [Function.comp_apply, mDist_eq_sum, mDist_eq_sum, hU.channels k hk, Finset.mul_sum]
    apply Finset.sum_congr rfl
    intro j hj
    rw [Finset.mem_range] at hj
    have hj' : j < S.nChannels.getD k 0 := by rw [← mChannels_length hS hk]; exact hj
    have hjn : (mChannels S k).getD j 0 < x.length := by
      rw [hx.1, getD_lt 0 hj]
      exact hS.range _ (List.mem_of_mem_drop (List.mem_of_mem_take (List.getElem_mem hj)))
    have hmap : (x.map (List.map (inUnits c b))).getD ((mChannels S k).getD j 0) [] =
        (x.getD ((mChannels S k).getD j 0) []).map (inUnits c b) := by
      rw [getD_lt _ hjn, getD_lt _ (by simpa using hjn), List.getElem_map]
    have hlen : (x.getD ((mChannels S k).getD j 0) []).length = T := by
      rw [getD_lt _ hjn]; exact hx.2 _ (List.getElem_mem hjn)
    rw [hmap, hU.lengths, hU.dilations, hU.normalize, hU.values k hk j hj',
      window_map_inside _ _ (by rw [hlen]; exact hi), seen_units (hH.at k), l1_units]
    rw [seen_length, window_length, mValues_length hS hk hj']
  unfold mFeatures
  rw [hD, hU.threshold, getD_scale]
  refine features_scale ?_ (mDistances_nonneg _ _ _ _ _) _ hH.ne
  intro h0
  have := congrArg List.length h0
  simp only [mDistances, List.length_map, List.length_range, List.length_nil] at this
  have := nWin_pos_of_hasWindow hw
  omega

theorem rowUnits_cells (f f' : Nat → Feat ℝ) (n : Nat) (h : ∀ k, k < n → f' k = featUnits c (f k)) :
    ((List.range n).flatMap fun k => cells (f' k)) =
      rowUnits c ((List.range n).flatMap fun k => cells (f k)) := by
  rw [← cells_flatMap, ← cells_flatMap]
  unfold rowUnits
  apply List.ext_getElem
  · simp
  · intro i h1 h2
    have hi : i < 3 * n := by simpa using h1
    simp only [List.getElem_map, List.getElem_range, List.getElem_mapIdx]
    rw [h _ (by omega)]
    have : i % 3 = 0 ∨ i % 3 = 1 ∨ i % 3 = 2 := by omega
    rcases this with e | e | e <;> rw [e] <;> rfl

theorem uRow_units {S S' : UShp ℝ} (hU : UUnits c b S S') (hH : Harmless c S.normalize) (hS : UWF S)
    (phase : Bool) (x : List ℝ)
    (hw : ∀ k, k < S.lengths.length → HasWindow phase x.length (S.lengths.getD k 0) (S.dilations.getD k 0)) :
    uRow phase S' (x.map (inUnits c b)) = rowUnits c (uRow phase S x) := by
  unfold uRow
  rw [hU.lengths]
  exact rowUnits_cells _ _ _ fun k hk => uFeatures_units hU hH hS phase x hk (hw k hk)

theorem mRow_units {S S' : MShp ℝ} {nf : Nat} (hU : MUnits c b S S') (hH : Harmless c S.normalize)
    (hS : MWF S nf) (phase : Bool) {x : List (List ℝ)} {T : Nat} (hx : Rect x nf T)
    (hw : ∀ k, k < S.lengths.length → HasWindow phase T (S.lengths.getD k 0) (S.dilations.getD k 0)) :
    mRow phase S' (x.map (List.map (inUnits c b))) T = rowUnits c (mRow phase S x T) := by
  unfold mRow
  rw [hU.lengths]
  exact rowUnits_cells _ _ _ fun k hk => mFeatures_units hU hH hS phase hx hk (hw k hk)

end Convst
