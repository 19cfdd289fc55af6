import Verif.Proofs.ZNorm
import Verif.Props.Transform
import Mathlib.Tactic.NormNum.Prime

/-!
# Invariances of the distances, distance functions, primes (C13 - C15, C17, C18, C28, C57)
-/

set_option autoImplicit false
set_option linter.unusedSectionVars false

namespace Convst.Props
open Convst Spec
variable {K : Type} [Scalar K]

/-! ## C13: phase invariance -/

theorem window_rotate (x : List K) (r l d i : Nat) (hx : x ≠ []) :
    window true (x.rotate r) l d i = window true x l d ((i + r) % x.length) := by
  have hp : 0 < x.length := List.length_pos_iff.2 hx
  unfold window
  apply List.map_congr_left
  intro j _
  simp only [pos, if_true, List.length_rotate]
  rw [getD_lt _ (by simpa using Nat.mod_lt _ hp), getD_lt _ (Nat.mod_lt _ hp),
    List.getElem_rotate]
  congr 1
  rw [Nat.mod_add_mod, Nat.mod_add_mod]
  congr 1
  omega

/-- **C13.** Rotating the series rotates the vector of distances by the same amount (any scalar
type). -/
theorem C13_distances_rotate (norm : Bool) (x v : List K) (l d r : Nat) :
    distances true norm (x.rotate r) v l d = (distances true norm x v l d).rotate r := by
  rcases eq_or_ne x [] with rfl | hx
  · simp [distances, nWin]
  · apply List.ext_getElem
    · simp [distances, nWin]
    · intro i h1 h2
      rw [List.getElem_rotate]
      simp only [distances, nWin, if_true, List.getElem_map, List.getElem_range, List.length_map,
        List.length_range]
      rw [window_rotate _ _ _ _ _ hx]

/-- Minimum and count do not depend on the order of the distances. -/
theorem features_perm {D D' : List ℝ} {thr : ℝ} (hp : D'.Perm D) (hD : ∀ x ∈ D, 0 ≤ x) :
    (features D' thr).1 = (features D thr).1 ∧ (features D' thr).2.2 = (features D thr).2.2 := by
  refine ⟨?_, ?_⟩
  · rcases eq_or_ne D [] with rfl | hne
    · rw [List.perm_nil.1 hp]
    · have hne' : D' ≠ [] := fun h => hne (by rw [h] at hp; exact List.nil_perm.1 hp)
      have h1 := (features_isFeatures (thr := thr) hne hD).1
      have h2 := (features_isFeatures (thr := thr) hne' fun x hx => hD x (hp.subset hx)).1
      exact le_antisymm (h2.2 _ (hp.symm.subset h1.1)) (h1.2 _ (hp.subset h2.1))
  · simp only [features]
    rw [hp.countP_eq]

/-- **C13.** Exact arithmetic, univariate: when every series is rotated (each by its own amount) the
minimum and the occurrence count of every shapelet are unchanged, and the new position of the
minimum, shifted back, is a position of the minimum in the original series. -/
theorem C13_phase_invariance {X : List (List (List ℝ))} {S : UShp ℝ} (hS : UWF S)
    (hX : ∀ s ∈ X, s ≠ []) (hne : ∀ s ∈ X, s.getD 0 [] ≠ []) (r : Nat → Nat) :
    ∃ M M' : List (List ℝ), uslApply X S true = .ok M ∧
      uslApply (X.mapIdx fun i s => s.map fun ch => ch.rotate (r i)) S true = .ok M' ∧
      ∀ (i : Nat) s row row', X[i]? = some s → M[i]? = some row → M'[i]? = some row' →
        ∀ k, k < S.lengths.length →
          row'[3 * k]? = row[3 * k]? ∧ row'[3 * k + 2]? = row[3 * k + 2]? ∧
          ∃ p : Nat, row'[3 * k + 1]? = some (p : ℝ) ∧
            (uDistances true S (s.getD 0 []) k)[(p + r i) % (s.getD 0 []).length]? =
              row[3 * k]? := by
  have hX' : ∀ s ∈ (X.mapIdx fun i s => s.map fun ch => ch.rotate (r i)), s ≠ [] := by
    intro s hs
    rw [List.mem_iff_getElem] at hs
    obtain ⟨i, hi, rfl⟩ := hs
    simp only [List.getElem_mapIdx, ne_eq, List.map_eq_nil_iff]
    exact hX _ (List.getElem_mem _)
  refine ⟨_, _, C12_phase_total hS hX, C12_phase_total hS hX', ?_⟩
  intro i s row row' hs hrow hrow' k hk
  have hs' : ((X.mapIdx fun i s => s.map fun ch => ch.rotate (r i)))[i]? =
      some (s.map fun ch => ch.rotate (r i)) := by
    rw [List.getElem?_mapIdx, hs]; rfl
  rw [List.getElem?_map, hs, Option.map_some, Option.some.injEq] at hrow
  rw [List.getElem?_map, hs', Option.map_some, Option.some.injEq] at hrow'
  subst hrow hrow'
  have hsne := hX s (List.mem_of_getElem? hs)
  have hxne := hne s (List.mem_of_getElem? hs)
  have hx' : (s.map fun ch => ch.rotate (r i)).getD 0 [] = (s.getD 0 []).rotate (r i) := by
    cases s with
    | nil => exact absurd rfl hsne
    | cons a s => rfl
  rw [hx']
  set x := s.getD 0 []
  have hD : uDistances true S (x.rotate (r i)) k = (uDistances true S x k).rotate (r i) :=
    C13_distances_rotate _ _ _ _ _ _
  obtain ⟨h1, h2⟩ := C05_applies true S x k (by
    simpa [HasWindow] using List.length_pos_iff.2 hxne)
  have hperm : (uDistances true S (x.rotate (r i)) k).Perm (uDistances true S x k) := by
    rw [hD]; exact List.rotate_perm _ _
  obtain ⟨e1, e2⟩ := features_perm (thr := S.threshold.getD k 0) hperm h2
  have c0 : ∀ y, (uRow true S y)[3 * k]? = some (uFeatures true S y k).1 := fun y =>
    row_cells _ _ k 0 hk (by omega)
  have c1 : ∀ y, (uRow true S y)[3 * k + 1]? = some (uFeatures true S y k).2.1 := fun y =>
    row_cells _ _ k 1 hk (by omega)
  have c2 : ∀ y, (uRow true S y)[3 * k + 2]? = some (uFeatures true S y k).2.2 := fun y =>
    row_cells _ _ k 2 hk (by omega)
  rw [c0, c0, c1, c2, c2]
  refine ⟨congrArg some e1, congrArg some e2, ?_⟩
  have h3 := features_isFeatures (thr := S.threshold.getD k 0)
    (D := uDistances true S (x.rotate (r i)) k)
    (by intro h; rw [h] at hperm; exact h1 (List.nil_perm.1 hperm))
    (fun y hy => h2 y (hperm.subset hy))
  obtain ⟨_, ⟨p, hp1, hp2, _⟩, _⟩ := h3
  refine ⟨p, congrArg some hp1, ?_⟩
  have hlen : (uDistances true S x k).length = x.length := by
    simp [uDistances, distances, nWin]
  rw [hD] at hp2
  have hpl : p < (uDistances true S x k).length := by
    have := (List.getElem?_eq_some_iff.1 hp2).1; simpa using this
  rw [List.getElem?_rotate hpl, hlen] at hp2
  rw [hp2]
  exact congrArg some (by rw [← hD]; exact e1)

example : ∀ s ∈ exX, s.getD 0 [] ≠ [] := by simp [exX]

/-! ## C14: offset invariance -/

theorem window_map {phase : Bool} {x : List K} {l d i : Nat} (f : K → K)
    (hi : i < nWin phase x.length l d) :
    window phase (x.map f) l d i = (window phase x l d i).map f := by
  unfold window
  rw [List.map_map, List.length_map]
  apply List.map_congr_left
  intro j hj
  rw [List.mem_range] at hj
  have : pos phase x.length d i j < x.length := by
    unfold pos
    unfold nWin at hi
    cases phase <;> simp only [Bool.false_eq_true, if_false, if_true] at hi ⊢
    · have h1 : j * d ≤ (l - 1) * d := Nat.mul_le_mul_right d (by omega)
      omega
    · exact Nat.mod_lt _ (by omega)
  simp only [Function.comp_apply]
  rw [getD_lt _ (by simpa using this), getD_lt _ this, List.getElem_map]

theorem distances_add_const (phase : Bool) (x v : List ℝ) (l d : Nat) (c : ℝ) :
    distances phase true (x.map fun a => a + c) v l d = distances phase true x v l d := by
  unfold distances
  rw [List.length_map]
  apply List.map_congr_left
  intro i hi
  rw [window_map _ (List.mem_range.1 hi)]
  simp only [seen, if_true]
  rw [znorm_add_const]

/-- **C14.** Adding a constant to each series (each its own) leaves the three cells of every
normalised shapelet unchanged. -/
theorem C14_offset_invariance {X : List (List (List ℝ))} {S : UShp ℝ} (hS : UWF S) (phase : Bool)
    (hX : ∀ s ∈ X, s ≠ []) (c : Nat → ℝ) {M : List (List ℝ)} (hM : uslApply X S phase = .ok M) :
    ∃ M' : List (List ℝ),
      uslApply (X.mapIdx fun i s => s.map fun ch => ch.map fun a => a + c i) S phase = .ok M' ∧
      ∀ (i : Nat) row, M[i]? = some row → ∃ row' : List ℝ, M'[i]? = some row' ∧
        ∀ k, S.normalize[k]? = some true → ∀ q, q < 3 → row'[3 * k + q]? = row[3 * k + q]? := by
  obtain ⟨hfit, rfl⟩ := (uslApply_ok_iff hS hX).1 hM
  have hget : ∀ (i : Nat) s, X[i]? = some s →
      (s.map fun ch => ch.map fun a => a + c i).getD 0 [] = (s.getD 0 []).map fun a => a + c i := by
    intro i s hs
    have := hX s (List.mem_of_getElem? hs)
    cases s with
    | nil => exact absurd rfl this
    | cons a s => rfl
  refine ⟨_, (uslApply_ok_iff hS ?_).2 ⟨?_, rfl⟩, ?_⟩
  · intro s hs
    rw [List.mem_iff_getElem] at hs
    obtain ⟨i, hi, rfl⟩ := hs
    simp only [List.getElem_mapIdx, ne_eq, List.map_eq_nil_iff]
    exact hX _ (List.getElem_mem _)
  · intro s hs k hk
    rw [List.mem_iff_getElem] at hs
    obtain ⟨i, hi, rfl⟩ := hs
    have hi' : i < X.length := by simpa using hi
    rw [List.getElem_mapIdx, hget i X[i] (by simp), List.length_map]
    exact hfit _ (List.getElem_mem _) k hk
  · intro i row hrow
    rw [List.getElem?_map, Option.map_eq_some_iff] at hrow
    obtain ⟨s, hs, rfl⟩ := hrow
    refine ⟨_, by rw [List.getElem?_map, List.getElem?_mapIdx, hs]; rfl, ?_⟩
    intro k hk q hq
    have hkl : k < S.lengths.length := by
      have := (List.getElem?_eq_some_iff.1 hk).1
      rw [hS.normalize] at this; exact this
    beta_reduce
    rw [hget i s hs, uRow, uRow, row_cells _ _ _ _ hkl hq, row_cells _ _ _ _ hkl hq]
    unfold uFeatures uDistances
    rw [getD_some hk, distances_add_const]

/-- Shapelets 1 and 2 of the running example are normalised. -/
example : exU.normalize[1]? = some true ∧ ∃ M, uslApply exX exU false = .ok M :=
  ⟨rfl, _, C01_univariate_same_length exU_wf false exX_ne exX_fits⟩

/-- **C14**, multivariate distance vector: adding a constant to each channel leaves the distances
of a normalised shapelet unchanged. -/
theorem C14_offset_invariance_multivariate (phase : Bool) (S : MShp ℝ) {nf T : Nat}
    {x : List (List ℝ)} (hx : Rect x nf T) (hS : MWF S nf) (c : Nat → ℝ) {k : Nat}
    (hk : S.normalize[k]? = some true) :
    mFeatures phase S (x.mapIdx fun j ch => ch.map fun a => a + c j) T k = mFeatures phase S x T k := by
  unfold mFeatures
  congr 1
  unfold mDistances
  apply List.map_congr_left
  intro i hi
  rw [mDist_eq_sum, mDist_eq_sum]
  apply Finset.sum_congr rfl
  intro q hq
  rw [Finset.mem_range] at hq
  have hch : (mChannels S k).getD q 0 < nf := by
    apply hS.range
    rw [getD_lt _ hq]
    exact List.mem_of_mem_drop (List.mem_of_mem_take (List.getElem_mem hq))
  set ch := (mChannels S k).getD q 0
  have hlt : ch < x.length := by rw [hx.1]; exact hch
  rw [getD_some hk]
  simp only [seen, if_true]
  rw [getD_lt _ (by simpa using hlt), List.getElem_mapIdx, getD_lt _ hlt, window_map,
    znorm_add_const]
  rw [hx.2 _ (List.getElem_mem hlt)]
  exact List.mem_range.1 hi

example : exM.normalize[0]? = some true := rfl

/-! ## C15: scale -/

/-- **C15.** Exact effect of a positive scale on a z-normalised window. -/
theorem C15_scaled_window (w : List ℝ) {a : ℝ} (ha : 0 < a) :
    znorm (w.map fun v => a * v) =
      w.map fun v => (v - w.sum / w.length) / (std w + (1 / 10 ^ 8) / a) := by
  rw [znorm_mul_const w ha, ← mean_eq, real_eps]

/-- **C15.** Bound on the difference of each value. -/
theorem C15_value_bound (w : List ℝ) {a : ℝ} (ha : 0 < a) {j : Nat} (hj : j < w.length) :
    |(znorm (w.map fun v => a * v)).getD j 0 - (znorm w).getD j 0| ≤
      |w[j] - mean w| * ((1 / 10 ^ 8) * |1 - 1 / a|) /
        ((std w + 1 / 10 ^ 8) * (std w + (1 / 10 ^ 8) / a)) := by
  rw [znorm_mul_const w ha, znorm_eq, getD_lt _ (by simpa using hj), getD_lt _ (by simpa using hj),
    List.getElem_map, List.getElem_map, ← real_eps]
  have h1 := std_nonneg w
  have h2 := real_eps_pos
  have h3 : 0 < std w + Scalar.eps / a := by positivity
  have h4 : 0 < std w + Scalar.eps := by positivity
  have e : (w[j] - mean w) / (std w + Scalar.eps / a) - (w[j] - mean w) / (std w + Scalar.eps) =
      (w[j] - mean w) * (Scalar.eps * (1 - 1 / a)) /
        ((std w + Scalar.eps) * (std w + Scalar.eps / a)) := by
    field_simp
    ring
  rw [e, abs_div, abs_mul, abs_mul, abs_of_pos h2, abs_of_pos (mul_pos h4 h3)]

/-- **C15.** The distance between a normalised window and any shapelet changes by at most
`n * 1e-8 * |1 - 1/a| / std` when the window is scaled by `a`: negligible unless the standard
deviation of the window is comparable with `1e-8`. -/
theorem C15_distance_bound (w v : List ℝ) {a : ℝ} (ha : 0 < a) (hs : 0 < std w) :
    |l1 (znorm (w.map fun t => a * t)) v - l1 (znorm w) v| ≤
      w.length * ((1 / 10 ^ 8) * |1 - 1 / a|) / std w := by
  have h2 := real_eps_pos
  have h3 : 0 < std w + Scalar.eps / a := by positivity
  have h4 : 0 < std w + Scalar.eps := by positivity
  rw [l1_eq_sum, l1_eq_sum, znorm_length, znorm_length, List.length_map, ← Finset.sum_sub_distrib]
  refine (Finset.abs_sum_le_sum_abs _ _).trans ?_
  have step : ∀ j ∈ Finset.range w.length,
      |(|(znorm (w.map fun t => a * t)).getD j 0 - v.getD j 0| - |(znorm w).getD j 0 - v.getD j 0|)|
        ≤ |w.getD j 0 - mean w| * ((Scalar.eps * |1 - 1 / a|) /
          ((std w + Scalar.eps) * (std w + Scalar.eps / a))) := by
    intro j hj
    rw [Finset.mem_range] at hj
    refine (abs_abs_sub_abs_le_abs_sub _ _).trans ?_
    have := C15_value_bound w ha hj
    rw [← real_eps] at this
    rw [sub_sub_sub_cancel_right, getD_lt (a := w) _ hj, ← mul_div_assoc]
    exact this
  refine (Finset.sum_le_sum step).trans ?_
  rw [← Finset.sum_mul]
  have hsum : ∑ j ∈ Finset.range w.length, |w.getD j 0 - mean w| =
      (w.map fun t => |t - mean w|).sum := by
    rw [Finset.sum_range, ← List.sum_ofFn]
    congr 1
    apply List.ext_getElem
    · simp
    · intro i h1 h2
      simp [List.getD]
  rw [hsum, ← real_eps]
  have hden : std w * std w ≤ (std w + Scalar.eps) * (std w + Scalar.eps / a) := by
    apply mul_le_mul <;> first | positivity | (have : 0 < Scalar.eps / a := by positivity
                                               linarith)
  calc (w.map fun t => |t - mean w|).sum * ((Scalar.eps * |1 - 1 / a|) /
          ((std w + Scalar.eps) * (std w + Scalar.eps / a)))
      ≤ (w.length * std w) * ((Scalar.eps * |1 - 1 / a|) / (std w * std w)) := by
        apply mul_le_mul (sum_abs_dev_le w) _ (by positivity) (by positivity)
        apply div_le_div_of_nonneg_left (by positivity) (by positivity) hden
    _ = w.length * (Scalar.eps * |1 - 1 / a|) / std w := by
        field_simp

/-- **C15.** Scale invariance is not exact: a window with standard deviation `1e-8` normalises to
`±1/2`, nine times that window to `±9/10`. -/
theorem C15_not_scale_invariant :
    znorm [(0 : ℝ), 2 / 10 ^ 8] = [-1 / 2, 1 / 2] ∧
    znorm ([(0 : ℝ), 2 / 10 ^ 8].map fun v => 9 * v) = [-9 / 10, 9 / 10] := by
  have hm : mean [(0 : ℝ), 2 / 10 ^ 8] = 1 / 10 ^ 8 := by rw [mean_eq]; norm_num
  have hs : std [(0 : ℝ), 2 / 10 ^ 8] = 1 / 10 ^ 8 := by
    rw [std_eq, Real.sqrt_eq_iff_mul_self_eq (var_nonneg _) (by positivity), var, hm]
    norm_num
  constructor
  · rw [znorm_eq, hm, hs, real_eps]; norm_num
  · rw [znorm_mul_const _ (by norm_num : (0 : ℝ) < 9), hm, hs, real_eps]; norm_num

example : 0 < std [(0 : ℝ), 2 / 10 ^ 8] := by
  have hm : mean [(0 : ℝ), 2 / 10 ^ 8] = 1 / 10 ^ 8 := by rw [mean_eq]; norm_num
  rw [std_eq, Real.sqrt_pos, var, hm]
  norm_num

/-! ## C57: z-normalisation of a vector -/

/-- **C57.** Mean zero, standard deviation `s / (s + 1e-8) < 1`, length preserved. -/
theorem C57_znorm {w : List ℝ} (hw : w ≠ []) :
    mean (znorm w) = 0 ∧ std (znorm w) = std w / (std w + 1 / 10 ^ 8) ∧
    0 ≤ std (znorm w) ∧ std (znorm w) < 1 ∧ (znorm w).length = w.length := by
  have hpos := std_add_eps_pos w
  have hscale : ∀ s : ℝ, (w.map fun a => (a - mean w) / s) =
      ((w.map fun a => a + -mean w).map fun a => s⁻¹ * a) := by
    intro s
    rw [List.map_map]
    apply List.map_congr_left
    intro a _
    simp only [Function.comp_apply, div_eq_mul_inv]
    ring
  have hsd : std (znorm w) = std w / (std w + 1 / 10 ^ 8) := by
    rw [znorm_eq, hscale, std_mul_const, std_add_const, abs_of_pos (inv_pos.2 hpos), real_eps]
    field_simp
  refine ⟨?_, hsd, std_nonneg _, ?_, znorm_length w⟩
  · rw [znorm_eq, hscale, mean_mul_const, mean_add_const hw]; ring
  · rw [hsd, ← real_eps, div_lt_one hpos]
    linarith [real_eps_pos]

/-- **C57.** A constant vector normalises to zeros. -/
theorem C57_constant (c : ℝ) (n : Nat) :
    znorm (List.replicate n c) = List.replicate n 0 := by
  rcases Nat.eq_zero_or_pos n with rfl | hn
  · rfl
  · rw [znorm_eq]
    have : mean (List.replicate n c) = c := by
      rw [mean_eq]
      simp only [List.sum_replicate, List.length_replicate, nsmul_eq_mul]
      field_simp
    rw [this]
    simp

/-! ## C17: the distance vector of fit and interpreter -/

/-- **C17.** `compute_shapelet_dist_vector` returns the distances whose features are the three
cells `transform` writes, in all four option combinations; it fails exactly when the series is too
short. -/
theorem C17_dist_vector (x v : List K) (l d : Nat) (norm phase : Bool) (hl : 1 ≤ l)
    (hv : l ≤ v.length) (hfit : Fits phase x.length l d) :
    computeShapeletDistVector x v l d norm phase = .ok (distances phase norm x v l d) := by
  have hm : ∀ w : List K, w.length = l → manhattan w v = .ok (l1 w v) :=
    fun w hw => manhattan_ok (by omega)
  have hm' : ∀ w : List K, w.length = l → manhattan (znorm w) v = .ok (l1 (znorm w) v) :=
    fun w hw => manhattan_ok (by rw [znorm_length]; omega)
  have plain : phase = false → strides1DPlain x l d =
      .ok ((List.range (nWin phase x.length l d)).map fun i => window phase x l d i) := by
    rintro rfl
    rcases hfit with h | h
    · cases h
    · exact strides1DPlain_ok hl h
  have ph : phase = true → strides1DPhase x l d =
      .ok ((List.range (nWin phase x.length l d)).map fun i => window phase x l d i) := by
    rintro rfl
    exact strides1DPhase_ok
  have lenw : ∀ w ∈ ((List.range (nWin phase x.length l d)).map fun i => window phase x l d i),
      w.length = l := by
    intro w hw
    obtain ⟨i, _, rfl⟩ := List.mem_map.1 hw
    exact window_length _ _ _ _ _
  unfold computeShapeletDistVector
  cases norm <;> cases phase <;>
    simp only [Bool.false_and, Bool.true_and, Bool.not_false, Bool.not_true, Bool.false_eq_true,
      if_false, if_true]
  · unfold distVectorPlain
    rw [plain rfl, Res.bind_ok, mapM_ok (g := fun w => l1 w v) (fun w hw => hm w (lenw w hw)),
      List.map_map]
    rfl
  · unfold distVectorPhase
    rw [ph rfl, Res.bind_ok, mapM_ok (g := fun w => l1 w v) (fun w hw => hm w (lenw w hw)),
      List.map_map]
    rfl
  · unfold distVectorNorm
    rw [plain rfl, Res.bind_ok, mapM_ok (g := fun w => l1 (znorm w) v)
      (fun w hw => hm' w (lenw w hw)), List.map_map]
    rfl
  · unfold distVectorNormPhase
    rw [ph rfl, Res.bind_ok, mapM_ok (g := fun w => l1 (znorm w) v)
      (fun w hw => hm' w (lenw w hw)), List.map_map]
    rfl

/-- **C17.** Failure: `ValueError` when the series is too short. -/
theorem C17_dist_vector_error (x v : List K) (l d : Nat) (norm phase : Bool) (hl : 1 ≤ l)
    (hfit : ¬ Fits phase x.length l d) :
    computeShapeletDistVector x v l d norm phase = .error .valueError := by
  cases phase with
  | true => simp [Fits] at hfit
  | false =>
    have h : x.length < (l - 1) * d := by
      simp only [Fits, Bool.false_eq_true, false_or, not_le] at hfit; exact hfit
    unfold computeShapeletDistVector distVectorNorm distVectorPlain
    cases norm <;> simp [strides1DPlain_err hl h]

/-- **C17.** Link with `transform`: for every shapelet `k` and series `i` of a successful transform,
the distance vector computed for that shapelet and series succeeds and its features are the cells of
block `k` of row `i`. -/
theorem C17_agrees_with_transform {X : List (List (List K))} {S : UShp K} (hS : UWF S)
    (phase : Bool) (hX : ∀ s ∈ X, s ≠ []) {M : List (List K)} (hM : uslApply X S phase = .ok M)
    {i k : Nat} {s : List (List K)} (hs : X[i]? = some s) (hk : k < S.lengths.length) :
    ∃ D row, computeShapeletDistVector (s.getD 0 []) ((S.values.getD k []).take (S.lengths.getD k 0))
        (S.lengths.getD k 0) (S.dilations.getD k 0) (S.normalize.getD k false) phase = .ok D ∧
      M[i]? = some row ∧
      row[3 * k]? = some (features D (S.threshold.getD k 0)).1 ∧
      row[3 * k + 1]? = some (features D (S.threshold.getD k 0)).2.1 ∧
      row[3 * k + 2]? = some (features D (S.threshold.getD k 0)).2.2 := by
  obtain ⟨hfit, rfl⟩ := (uslApply_ok_iff hS hX).1 hM
  refine ⟨_, _, C17_dist_vector _ _ _ _ _ _ (hS.pos k hk) ?_
    (hfit s (List.mem_of_getElem? hs) k hk), by rw [List.getElem?_map, hs]; rfl,
    row_cells _ _ k 0 hk (by omega), row_cells _ _ k 1 hk (by omega),
    row_cells _ _ k 2 hk (by omega)⟩
  exact (uValues_length hS hk).ge

example : computeShapeletDistVector [(0 : ℝ), 1, 2, 3] [1, 2] 2 2 true false =
    .ok (distances false true [0, 1, 2, 3] [1, 2] 2 2) :=
  C17_dist_vector _ _ _ _ _ _ (by norm_num) (by simp) (Or.inr (by simp))

/-! ## C18: the distance functions are metrics -/

/-- **C18.** Manhattan: total on equal lengths, value, and the metric laws. -/
theorem C18_manhattan_value {x y : List ℝ} (h : x.length = y.length) :
    manhattan x y = .ok (∑ j ∈ Finset.range x.length, |x.getD j 0 - y.getD j 0|) := by
  rw [manhattan_ok h.le, l1_eq_sum]

/-- **C18.** Manhattan is a metric on vectors of the same length. -/
theorem C18_manhattan_metric {x y z : List ℝ} (hxy : x.length = y.length)
    (hyz : y.length = z.length) :
    ∃ a b c b', manhattan x y = .ok a ∧ manhattan y z = .ok b ∧ manhattan x z = .ok c ∧
      manhattan y x = .ok b' ∧ 0 ≤ a ∧ (a = 0 ↔ x = y) ∧ b' = a ∧ c ≤ a + b := by
  refine ⟨_, _, _, _, C18_manhattan_value hxy, C18_manhattan_value hyz,
    C18_manhattan_value (hxy.trans hyz), C18_manhattan_value hxy.symm,
    Finset.sum_nonneg fun _ _ => abs_nonneg _, ?_, ?_, ?_⟩
  · rw [Finset.sum_eq_zero_iff_of_nonneg fun _ _ => abs_nonneg _]
    constructor
    · intro h
      apply List.ext_getElem hxy
      intro i h1 h2
      have := h i (Finset.mem_range.2 h1)
      rw [abs_eq_zero, sub_eq_zero, getD_lt _ h1, getD_lt _ h2] at this
      exact this
    · rintro rfl; simp
  · rw [hxy]
    exact Finset.sum_congr rfl fun _ _ => abs_sub_comm _ _
  · rw [← hxy, ← Finset.sum_add_distrib]
    exact Finset.sum_le_sum fun _ _ => abs_sub_le _ _ _

theorem sqLoop {x y : List ℝ} (h : x.length ≤ y.length) :
    squaredEuclidean x y =
      .ok (∑ j ∈ Finset.range x.length, (x.getD j 0 - y.getD j 0) ^ 2) := by
  unfold squaredEuclidean
  rw [foldlM_ok (g := fun s j => s + (x.getD j 0 - y.getD j 0) ^ 2)]
  · rw [foldl_range_sum]
  · intro s i hi
    rw [List.mem_range] at hi
    rw [aget_getD 0 hi, aget_getD 0 (by omega)]
    simp only [Res.bind_ok, Res.pure_eq, sq]

theorem euclidean_of_sq (x y : List K) :
    euclidean x y = (squaredEuclidean x y).map Scalar.sqrt := by
  have : euclidean x y = (squaredEuclidean x y >>= fun s => pure (Scalar.sqrt s)) := rfl
  rw [this]
  cases squaredEuclidean x y <;> rfl

/-- **C18.** `squared_euclidean` and its square root `euclidean`. -/
theorem C18_euclidean_value {x y : List ℝ} (h : x.length = y.length) :
    ∃ a, euclidean x y = .ok a ∧ squaredEuclidean x y = .ok (a ^ 2) ∧ 0 ≤ a ∧
      a = Real.sqrt (∑ j ∈ Finset.range x.length, (x.getD j 0 - y.getD j 0) ^ 2) := by
  refine ⟨_, by rw [euclidean_of_sq, sqLoop h.le]; rfl, ?_, Real.sqrt_nonneg _, rfl⟩
  rw [sqLoop h.le, Real.sq_sqrt (Finset.sum_nonneg fun _ _ => sq_nonneg _)]

/-- **C18.** Euclidean is a metric on vectors of the same length. -/
theorem C18_euclidean_metric {x y z : List ℝ} (hxy : x.length = y.length)
    (hyz : y.length = z.length) :
    ∃ a b c b', euclidean x y = .ok a ∧ euclidean y z = .ok b ∧ euclidean x z = .ok c ∧
      euclidean y x = .ok b' ∧ 0 ≤ a ∧ (a = 0 ↔ x = y) ∧ b' = a ∧ c ≤ a + b := by
  set n := x.length with hn
  let E (u : List ℝ) : EuclideanSpace ℝ (Fin n) := WithLp.toLp 2 fun i => u.getD i 0
  have key : ∀ u v : List ℝ, u.length = n → v.length = n →
      euclidean u v = .ok (dist (E u) (E v)) := by
    intro u v hu hv
    rw [euclidean_of_sq, sqLoop (by omega), hu, EuclideanSpace.dist_eq]
    simp only [Except.map, real_sqrt]
    congr 2
    rw [Finset.sum_range]
    apply Finset.sum_congr rfl
    intro i _
    rw [Real.dist_eq, sq_abs]
  refine ⟨_, _, _, _, key x y rfl hxy.symm, key y z hxy.symm (hyz.symm.trans hxy.symm),
    key x z rfl (hyz.symm.trans hxy.symm), key y x hxy.symm rfl, dist_nonneg, ?_, dist_comm _ _,
    dist_triangle _ _ _⟩
  rw [dist_eq_zero]
  constructor
  · intro h
    apply List.ext_getElem hxy
    intro i h1 h2
    have := congrArg (fun e : EuclideanSpace ℝ (Fin n) => e ⟨i, h1⟩) h
    simp only [E] at this
    rwa [getD_lt _ h1, getD_lt _ h2] at this
  · rintro rfl; rfl

example : ([1, 2, 3] : List ℝ).length = ([0, 5, 1] : List ℝ).length := rfl

/-! ## C28: primes -/

/-- **C28.** `is_prime` accepts exactly the primes and 1. -/
theorem C28_is_prime (n : Nat) : isPrime n = true ↔ n.Prime ∨ n = 1 := by
  rcases Nat.lt_or_ge n 3 with hn | hn
  · interval_cases n
    · simp [isPrime, Nat.not_prime_zero]
    · simp [isPrime]
    · simp [isPrime, Nat.prime_two]
  · unfold isPrime
    rcases Nat.even_or_odd n with he | ho
    · have h2 : n % 2 = 0 := Nat.even_iff.1 he
      have : ¬ n.Prime := by
        intro hp
        rcases hp.eq_two_or_odd with h | h <;> omega
      simp [h2, show n > 2 by omega, this]
      omega
    · have h2 : n % 2 = 1 := Nat.odd_iff.1 ho
      rw [if_neg (by simp [h2]; omega), List.all_eq_true]
      have hmem : ∀ i, i ∈ List.range' 3 ((Nat.sqrt n + 1 - 3 + 1) / 2) 2 ↔
          3 ≤ i ∧ i % 2 = 1 ∧ i ≤ Nat.sqrt n := by
        intro i
        rw [List.mem_range']
        constructor
        · rintro ⟨k, hk, rfl⟩; omega
        · rintro ⟨h3, hodd, hle⟩
          exact ⟨(i - 3) / 2, by omega, by omega⟩
      constructor
      · intro h
        left
        by_contra hp
        have hne : n ≠ 1 := by omega
        have hmf := Nat.minFac_prime hne
        have hdvd := Nat.minFac_dvd n
        have hle : n.minFac ≤ Nat.sqrt n := by
          rw [Nat.le_sqrt]
          have := Nat.minFac_sq_le_self (by omega) hp
          rwa [sq] at this
        have hodd : n.minFac % 2 = 1 := by
          rcases hmf.eq_two_or_odd with h' | h'
          · rw [h'] at hdvd; omega
          · exact h'
        have h3 : 3 ≤ n.minFac := by have := hmf.two_le; omega
        have := h n.minFac ((hmem _).2 ⟨h3, hodd, hle⟩)
        rw [Nat.mod_eq_zero_of_dvd hdvd] at this
        simp at this
      · rintro (hp | hp)
        · intro i hi
          obtain ⟨h3, _, hle⟩ := (hmem i).1 hi
          simp only [Bool.not_eq_eq_eq_not, Bool.not_true, beq_eq_false_iff_ne, ne_eq]
          intro hmod
          rcases (Nat.dvd_prime hp).1 (Nat.dvd_of_mod_eq_zero hmod) with h | h
          · omega
          · have : Nat.sqrt n < n := Nat.sqrt_lt_self (by omega)
            omega
        · omega

/-- **C28.** `prime_up_to n` lists 1 and the primes up to `n`, in increasing order. -/
theorem C28_prime_up_to (n : Nat) :
    (∀ p, p ∈ primeUpTo n ↔ p ≤ n ∧ (p.Prime ∨ p = 1)) ∧ (primeUpTo n).Pairwise (· < ·) := by
  constructor
  · intro p
    rw [primeUpTo, mem_whereIdx, C28_is_prime, Nat.lt_succ_iff]
  · exact List.pairwise_lt_range.filter _

/-- **C28.** The documentation says primes; 1 is listed although it is not one. -/
theorem C28_one_is_listed (n : Nat) (hn : 1 ≤ n) : 1 ∈ primeUpTo n ∧ ¬ Nat.Prime 1 :=
  ⟨((C28_prime_up_to n).1 1).2 ⟨hn, Or.inr rfl⟩, Nat.not_prime_one⟩

example : 7 ∈ primeUpTo 12 ∧ 9 ∉ primeUpTo 12 ∧ 13 ∉ primeUpTo 12 := by
  simp only [(C28_prime_up_to 12).1]
  norm_num

end Convst.Props
