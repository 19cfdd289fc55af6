import Verif.Props.Interpreter

/-!
# What the interpreters draw (C49, C64, C71)
-/

set_option autoImplicit false
set_option linter.unusedSectionVars false

namespace Convst.Props

open Convst Spec

/-! ## C64: best match on a series -/

theorem pos_mod (phase : Bool) {T l d p j : Nat} (hw : HasWindow phase T l d) (hp : p < nWin phase T l d)
    (hj : j < l) : (p + j * d) % T = pos phase T d p j ∧ pos phase T d p j < T := by
  unfold pos
  unfold HasWindow at hw
  unfold nWin at hp
  cases phase with
  | true =>
    simp only [if_true] at hw ⊢
    exact ⟨trivial, Nat.mod_lt _ hw⟩
  | false =>
    simp only [Bool.false_eq_true, if_false] at hw hp ⊢
    have : j * d ≤ (l - 1) * d := Nat.mul_le_mul_right d (by omega)
    exact ⟨Nat.mod_eq_of_lt (by omega), by omega⟩

theorem fits_of_hasWindow {phase : Bool} {T l d : Nat} (hw : HasWindow phase T l d) : Fits phase T l d := by
  unfold HasWindow at hw
  unfold Fits
  cases phase with
  | true => exact Or.inl rfl
  | false => right; simp only [Bool.false_eq_true, if_false] at hw; omega

theorem nWin_pos_iff (phase : Bool) (T l d : Nat) : 0 < nWin phase T l d ↔ HasWindow phase T l d := by
  unfold nWin HasWindow
  cases phase <;> simp

/-- **C64.** On every series that offers a window to the shapelet, the points drawn are the time points of
the first window at the least distance, all inside the series; the values drawn are those of the shapelet,
brought to the mean and deviation of that window when the shapelet is normalised. -/
theorem C64_positions (s : ShpView ℝ) (X : List ℝ) (hl : 1 ≤ s.length) (hv : s.values.length = s.length)
    (hw : HasWindow s.phase X.length s.length s.dilation) :
    ∃ p, FirstMin (distances s.phase s.norm X s.values s.length s.dilation) p ∧
      (∀ j, j < s.length → pos s.phase X.length s.dilation p j < X.length) ∧
      s.plotOnX X = .ok ((List.range s.length).map (pos s.phase X.length s.dilation p),
        if s.norm then s.values.map (fun v => v * std (window s.phase X s.length s.dilation p) +
          mean (window s.phase X s.length s.dilation p)) else s.values) := by
  have hD := C17_dist_vector X s.values s.length s.dilation s.norm s.phase hl hv.ge (fits_of_hasWindow hw)
  have hlen : (distances s.phase s.norm X s.values s.length s.dilation).length =
      nWin s.phase X.length s.length s.dilation := by
    unfold distances
    simp
  obtain ⟨p, hp, hmin⟩ := argmin_spec (l := distances s.phase s.norm X s.values s.length s.dilation) (by
    intro h0
    have h1 := (nWin_pos_iff _ _ _ _).2 hw
    rw [← hlen, h0] at h1
    simp at h1)
  have hpn : p < nWin s.phase X.length s.length s.dilation := by rw [← hlen]; exact hmin.1
  have hidx : ((List.range s.length).map fun i => (p + i * s.dilation) % X.length) =
      (List.range s.length).map (pos s.phase X.length s.dilation p) := by
    apply List.map_congr_left
    intro j hj
    exact (pos_mod s.phase hw hpn (List.mem_range.1 hj)).1
  refine ⟨p, hmin, fun j hj => (pos_mod s.phase hw hpn hj).2, ?_⟩
  unfold ShpView.plotOnX
  rw [hD, Res.bind_ok, hp, Res.bind_ok]
  simp only
  rw [hidx]
  cases hn : s.norm with
  | false => rfl
  | true =>
    simp only [if_true]
    rw [takeIds_in (0 : ℝ) (by
      intro i hi
      obtain ⟨j, hj, rfl⟩ := List.mem_map.1 hi
      exact (pos_mod s.phase hw hpn (List.mem_range.1 hj)).2), Res.bind_ok, List.map_map]
    rfl

/-- **C64.** Drawing fails, with `ValueError`, exactly when the series has no window for the shapelet. -/
theorem C64_fails_iff (s : ShpView ℝ) (X : List ℝ) (hl : 1 ≤ s.length) (hv : s.values.length = s.length) :
    s.plotOnX X = .error .valueError ↔ ¬ HasWindow s.phase X.length s.length s.dilation := by
  constructor
  · intro h hw
    obtain ⟨p, -, -, h2⟩ := C64_positions s X hl hv hw
    rw [h] at h2
    cases h2
  · intro hw
    by_cases hf : Fits s.phase X.length s.length s.dilation
    · have hD := C17_dist_vector X s.values s.length s.dilation s.norm s.phase hl hv.ge hf
      have h0 : nWin s.phase X.length s.length s.dilation = 0 := by
        by_contra h
        exact hw ((nWin_pos_iff _ _ _ _).1 (by omega))
      unfold ShpView.plotOnX
      rw [hD, Res.bind_ok]
      unfold distances
      rw [h0]
      rfl
    · unfold ShpView.plotOnX
      rw [C17_dist_vector_error X s.values s.length s.dilation s.norm s.phase hl hf]
      rfl

theorem l1_zero {w v : List ℝ} (hl : w.length = v.length) (h : l1 w v = 0) : w = v := by
  rw [l1_eq_sum, Finset.sum_eq_zero_iff_of_nonneg fun _ _ => abs_nonneg _] at h
  apply List.ext_getElem hl
  intro i h1 h2
  have := h i (Finset.mem_range.2 h1)
  rw [getD_lt _ h1, getD_lt _ h2, abs_eq_zero] at this
  linarith

/-- A point of a list is within `√n` deviations of the mean. -/
theorem abs_sub_mean_le {w : List ℝ} {a : ℝ} (ha : a ∈ w) : |a - mean w| ≤ Real.sqrt w.length * std w := by
  have hlen : (0 : ℝ) < w.length := by
    exact_mod_cast List.length_pos_iff.2 (List.ne_nil_of_mem ha)
  rw [std_eq, ← Real.sqrt_mul (by positivity)]
  apply Real.abs_le_sqrt
  unfold var
  rw [mul_div_cancel₀ _ hlen.ne', sq]
  exact List.single_le_sum (by
    intro x hx
    obtain ⟨b, -, rfl⟩ := List.mem_map.1 hx
    exact mul_self_nonneg _) _ (List.mem_map.2 ⟨a, ha, rfl⟩)

/-- **C64.** A shapelet taken from the series itself is drawn over it: if its values are those of some
window (normalised when the shapelet is), the values drawn are those of the series at the highlighted
points, exactly for a shapelet that is not normalised and with an error of `|x - mean| · ε / (std + ε)`,
hence at most `ε √length`, for a normalised one; `ε` is the constant `1e-8` of the code. -/
theorem C64_rescaled (s : ShpView ℝ) (X : List ℝ) (hl : 1 ≤ s.length) {i : Nat}
    (hi : i < nWin s.phase X.length s.length s.dilation)
    (hs : s.values = seen s.norm (window s.phase X s.length s.dilation i)) :
    ∃ idx vals, s.plotOnX X = .ok (idx, vals) ∧ idx.length = s.length ∧ vals.length = s.length ∧
      (∀ j, j < s.length → idx.getD j 0 < X.length) ∧
      (s.norm = false → ∀ j, j < s.length → vals.getD j 0 = X.getD (idx.getD j 0) 0) ∧
      (s.norm = true → ∃ w : List ℝ, w = idx.map (fun t => X.getD t 0) ∧ ∀ j, j < s.length →
        |vals.getD j 0 - X.getD (idx.getD j 0) 0| =
          |X.getD (idx.getD j 0) 0 - mean w| * Scalar.eps / (std w + Scalar.eps) ∧
        |vals.getD j 0 - X.getD (idx.getD j 0) 0| ≤ Real.sqrt s.length * Scalar.eps) := by
  have hv : s.values.length = s.length := by
    rw [hs, seen_length, window_length]
  have hw : HasWindow s.phase X.length s.length s.dilation := (nWin_pos_iff _ _ _ _).1 (by omega)
  obtain ⟨p, hmin, hin, hplot⟩ := C64_positions s X hl hv hw
  have hlen : (distances s.phase s.norm X s.values s.length s.dilation).length =
      nWin s.phase X.length s.length s.dilation := by
    unfold distances
    simp
  have hpn : p < nWin s.phase X.length s.length s.dilation := by rw [← hlen]; exact hmin.1
  have hDat : ∀ q, q < nWin s.phase X.length s.length s.dilation →
      (distances s.phase s.norm X s.values s.length s.dilation).getD q 0 =
        l1 (seen s.norm (window s.phase X s.length s.dilation q)) s.values := by
    intro q hq
    unfold distances
    rw [getD_range_map _ hq]
  have hzero : l1 (seen s.norm (window s.phase X s.length s.dilation p)) s.values = 0 := by
    have h1 := (hmin.2 i (by rw [hlen]; exact hi)).1
    rw [hDat p hpn, hDat i hi] at h1
    rw [hs, l1_self, ← hs] at h1
    exact le_antisymm h1 (l1_nonneg _ _)
  have hval : seen s.norm (window s.phase X s.length s.dilation p) = s.values :=
    l1_zero (by rw [seen_length, window_length, hv]) hzero
  have hgi : ∀ j, j < s.length → ((List.range s.length).map (pos s.phase X.length s.dilation p)).getD j 0 =
      pos s.phase X.length s.dilation p j := fun j hj => getD_range_map _ hj
  have hwin : ∀ j, j < s.length → (window s.phase X s.length s.dilation p).getD j 0 =
      X.getD (pos s.phase X.length s.dilation p j) 0 := by
    intro j hj
    unfold window
    rw [getD_range_map _ hj]
  refine ⟨_, _, hplot, by simp, by split <;> simp [hv], ?_, ?_, ?_⟩
  · intro j hj
    rw [hgi j hj]
    exact hin j hj
  · intro hn j hj
    rw [hgi j hj, ← hwin j hj]
    rw [hn] at hval
    simp only [hn, Bool.false_eq_true, if_false]
    rw [← hval]
    rfl
  · intro hn
    refine ⟨window s.phase X s.length s.dilation p, by rw [List.map_map]; rfl, ?_⟩
    intro j hj
    rw [hgi j hj, ← hwin j hj]
    rw [hn] at hval
    simp only [hn, if_true]
    set w := window s.phase X s.length s.dilation p with hwd
    have hwl : w.length = s.length := window_length _ _ _ _ _
    have hz : s.values = w.map fun a => (a - mean w) / (std w + Scalar.eps) := by
      rw [← hval]
      rfl
    have hj' : j < w.length := by omega
    have hpos := std_add_eps_pos w
    have heps := real_eps_pos
    have hx : w.getD j 0 = w[j] := getD_lt _ hj'
    have hvj : (s.values.map fun v => v * std w + mean w).getD j 0 =
        (w.getD j 0 - mean w) / (std w + Scalar.eps) * std w + mean w := by
      rw [hz, List.map_map, getD_lt _ (by simpa using hj'), hx]
      simp
    have hdiff : (s.values.map fun v => v * std w + mean w).getD j 0 - w.getD j 0 =
        -((w.getD j 0 - mean w) * Scalar.eps / (std w + Scalar.eps)) := by
      rw [hvj]
      field_simp
      ring
    have habs : |(s.values.map fun v => v * std w + mean w).getD j 0 - w.getD j 0| =
        |w.getD j 0 - mean w| * Scalar.eps / (std w + Scalar.eps) := by
      rw [hdiff, abs_neg, abs_div, abs_mul, abs_of_pos heps, abs_of_pos hpos]
    refine ⟨habs, ?_⟩
    rw [habs]
    have hb := abs_sub_mean_le (w := w) (a := w.getD j 0) (by rw [hx]; exact List.getElem_mem _)
    rw [hwl] at hb
    rw [div_le_iff₀ hpos]
    have hsq := Real.sqrt_nonneg (s.length : ℝ)
    have hsd := std_nonneg w
    nlinarith [mul_le_mul_of_nonneg_right hb heps.le, mul_nonneg hsq (mul_nonneg heps.le heps.le)]

/-- A normalised shapelet of length 2 and its series. -/
example : ∃ idx vals, (⟨znorm [3, 5], 2, 1, true, 0, false⟩ : ShpView ℝ).plotOnX [0, 0, 3, 5] = .ok (idx, vals) ∧
    idx.length = 2 ∧ ∀ j, j < 2 → |vals.getD j 0 - [0, 0, 3, 5].getD (idx.getD j 0) 0| ≤
      Real.sqrt (2 : Nat) * Scalar.eps := by
  obtain ⟨idx, vals, h1, h2, -, -, -, h6⟩ := C64_rescaled (⟨znorm [3, 5], 2, 1, true, 0, false⟩ : ShpView ℝ)
    [0, 0, 3, 5] (by simp) (i := 2) (by simp [nWin]) (by simp [seen, window, pos, List.range_succ])
  obtain ⟨w, -, hw⟩ := h6 rfl
  exact ⟨idx, vals, h1, h2, fun j hj => (hw j hj).2⟩

section
variable {R L : Type}

/-- **C64.** The first highlighted point is the position reported by `transform`: for a fitted univariate
transformer, every series of a successful call and every shapelet, cell `3k + 1` of the row of the series
is the first abscissa drawn for shapelet `k` on that series. -/
theorem C64_matches_transform {o : Rdst ℝ R} {S : UShp ℝ} (hS : o.shapelets = some (.u S)) (hwf : UWF S)
    (ht : o.transformType = .uni ∨ o.transformType = .uniVar) {X : XIn ℝ} (hX : X.WF)
    {xs : List (Mat ℝ)} (hxs : samples X = .ok xs) {nf : Nat} (hnf : ∀ x ∈ xs, x.rows.length = nf)
    {M : List (List ℝ)} (hM : o.transform X = .ok M) {i k : Nat} {x : Mat ℝ} (hx : xs[i]? = some x)
    (hk : k < S.lengths.length)
    (hw : HasWindow o.phase (x.rows.getD 0 []).length (S.lengths.getD k 0) (S.dilations.getD k 0)) :
    ∃ (row : List ℝ) (idx : List Nat) (vals : List ℝ) (p : Nat), M[i]? = some row ∧ interpPlotOnX o k (x.rows.getD 0 []) = .ok (idx, vals) ∧
      idx[0]? = some p ∧ row[3 * k + 1]? = some (p : ℝ) := by
  obtain ⟨rfl, -⟩ := transform_rows hS (nf := nf) hwf hX hxs hnf hM
  have hg := (C63_univariate hS hwf ht).1 k hk
  have hl : 1 ≤ S.lengths.getD k 0 := hwf.pos k hk
  obtain ⟨p, hmin, hin, hplot⟩ := C64_positions ⟨uValues S k, S.lengths.getD k 0, S.dilations.getD k 0,
    S.normalize.getD k false, S.threshold.getD k 0, o.phase⟩ (x.rows.getD 0 []) hl (uValues_length hwf hk) hw
  simp only at hmin hin hplot
  have hpn : p < nWin o.phase (x.rows.getD 0 []).length (S.lengths.getD k 0) (S.dilations.getD k 0) := by
    have := hmin.1
    unfold distances at this
    simpa using this
  refine ⟨_, _, _, p, by rw [List.getElem?_map, hx]; rfl, by
    unfold interpPlotOnX; rw [hg, Res.bind_ok]; exact hplot, ?_, ?_⟩
  · rw [List.getElem?_map, List.getElem?_range (by omega), Option.map_some]
    have h := (pos_mod o.phase hw hpn (j := 0) (by omega)).1
    rw [← h, Nat.zero_mul, Nat.add_zero, Nat.mod_eq_of_lt]
    unfold nWin at hpn
    split at hpn <;> omega
  · have hcell := row_cells (fun k => uFeatures o.phase S (x.rows.getD 0 []) k) S.lengths.length k 1 hk (by omega)
    have hrow : objRow o.phase (.u S) x = (List.range S.lengths.length).flatMap fun k =>
        cells (uFeatures o.phase S (x.rows.getD 0 []) k) := rfl
    rw [hrow, hcell]
    have hne : uDistances o.phase S (x.rows.getD 0 []) k ≠ [] := by
      intro h0
      have := hmin.1
      unfold uDistances at h0
      rw [h0] at this
      simp at this
    obtain ⟨-, ⟨p', hp', hd, hfirst⟩, -⟩ := features_isFeatures (D := uDistances o.phase S (x.rows.getD 0 []) k)
      (thr := S.threshold.getD k 0) hne (distances_nonneg _ _ _ _ _ _)
    have hmem := (features_isFeatures (D := uDistances o.phase S (x.rows.getD 0 []) k)
      (thr := S.threshold.getD k 0) hne (distances_nonneg _ _ _ _ _ _)).1
    have hp'lt : p' < (uDistances o.phase S (x.rows.getD 0 []) k).length := by
      rw [List.getElem?_eq_some_iff] at hd
      exact hd.1
    have hfm : FirstMin (uDistances o.phase S (x.rows.getD 0 []) k) p' := by
      refine ⟨hp'lt, fun j hj => ?_⟩
      have e : (uDistances o.phase S (x.rows.getD 0 []) k).getD p' 0 =
          (features (uDistances o.phase S (x.rows.getD 0 []) k) (S.threshold.getD k 0)).1 := by
        rw [List.getD_eq_getElem?_getD, hd]; rfl
      rw [e, getD_lt _ hj]
      exact ⟨hmem.2 _ (List.getElem_mem _), fun hjp => hfirst j _ hjp (List.getElem?_eq_getElem hj)⟩
    have : p' = p := FirstMin.unique hfm hmin
    subst this
    unfold uFeatures
    show some (features (uDistances o.phase S (x.rows.getD 0 []) k) (S.threshold.getD k 0)).2.1 = _
    rw [hp']

end
end Convst.Props
