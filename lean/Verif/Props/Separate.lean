import Verif.Props.RidgeFit
import Verif.Props.Variants
import Verif.Props.FitMore

/-!
# Series without common values are told apart: variable lengths and several channels (C70)
-/

set_option autoImplicit false
set_option linter.unusedSectionVars false

namespace Convst.Props
open Convst Spec

theorem nWin_pos {phase : Bool} {T l d : Nat} (h : HasWindow phase T l d) : 0 < nWin phase T l d := by
  unfold HasWindow at h
  unfold nWin
  split
  · rename_i hph; rw [if_pos hph] at h; exact h
  · rename_i hph; rw [if_neg hph] at h; omega

/-- A raw window of `x` and a raw window of `z` are at positive distance when `x` and `z` have no value in
common. -/
theorem l1_windows_pos {phase : Bool} {x z : List ℝ} {l d i t : Nat} (hl : 1 ≤ l)
    (hi : i < nWin phase x.length l d) (ht : t < nWin phase z.length l d) (hdis : ∀ v ∈ x, v ∉ z) :
    0 < l1 (window phase x l d i) (window phase z l d t) := by
  apply l1_pos
  · simp only [window, ne_eq, List.map_eq_nil_iff, List.range_eq_nil]
    omega
  · simp [window]
  · intro v hvw hvs
    exact hdis v (mem_window hi hvw) (mem_window ht hvs)

/-- The distance feature of a shapelet whose distances are all positive. -/
theorem features_pos {D : List ℝ} {thr : ℝ} (hne : D ≠ []) (hD : ∀ x ∈ D, 0 < x) :
    0 < (features D thr).1 :=
  hD _ (features_isFeatures (thr := thr) hne fun x hx => (hD x hx).le).1.1

theorem uRow_pos {phase : Bool} {S : UShp ℝ} (hwf : UWF S) {k : Nat} (hk : k < S.lengths.length)
    (hn : S.normalize.getD k false = false) {z : List ℝ} {t : Nat}
    (ht : t < nWin phase z.length (S.lengths.getD k 0) (S.dilations.getD k 0))
    (hval : uValues S k = window phase z (S.lengths.getD k 0) (S.dilations.getD k 0) t)
    {x : List ℝ} (hx : HasWindow phase x.length (S.lengths.getD k 0) (S.dilations.getD k 0))
    (hdis : ∀ v ∈ x, v ∉ z) : ∃ d, (uRow phase S x)[3 * k]? = some d ∧ 0 < d := by
  refine ⟨_, row_cells (fun k => uFeatures phase S x k) S.lengths.length k 0 hk (by omega), ?_⟩
  refine features_pos (D := uDistances phase S x k) ?_ ?_
  · have := nWin_pos hx
    unfold uDistances distances
    simp only [ne_eq, List.map_eq_nil_iff, List.range_eq_nil]
    omega
  · intro v hv
    obtain ⟨i, hi, rfl⟩ := List.mem_map.1 hv
    rw [List.mem_range] at hi
    rw [hval, hn]
    simp only [seen, Bool.false_eq_true, if_false]
    exact l1_windows_pos (hwf.pos k hk) hi ht hdis

theorem mRow_pos {phase : Bool} {S : MShp ℝ} {nf T : Nat} (hwf : MWF S nf) {k : Nat}
    (hk : k < S.lengths.length) (hn : S.normalize.getD k false = false)
    {c : Nat} (hc : c < (mChannels S k).length) {z : List ℝ} {t : Nat}
    (ht : t < nWin phase z.length (S.lengths.getD k 0) (S.dilations.getD k 0))
    (hval : mValues S k c = window phase z (S.lengths.getD k 0) (S.dilations.getD k 0) t)
    {x : List (List ℝ)} (hr : Rect x nf T)
    (hx : HasWindow phase T (S.lengths.getD k 0) (S.dilations.getD k 0))
    (hdis : ∀ v ∈ x.getD ((mChannels S k).getD c 0) [], v ∉ z) :
    ∃ d, (mRow phase S x T)[3 * k]? = some d ∧ 0 < d := by
  have hch : (mChannels S k).getD c 0 < x.length := by
    rw [hr.1]
    apply hwf.range
    rw [getD_lt _ hc]
    exact List.mem_of_mem_drop (List.mem_of_mem_take (List.getElem_mem hc))
  have hxl : (x.getD ((mChannels S k).getD c 0) []).length = T := by
    rw [getD_lt _ hch]; exact hr.2 _ (List.getElem_mem hch)
  refine ⟨_, row_cells (fun k => mFeatures phase S x T k) S.lengths.length k 0 hk (by omega), ?_⟩
  refine features_pos (D := mDistances phase S x T k) ?_ ?_
  · have := nWin_pos hx
    unfold mDistances
    simp only [ne_eq, List.map_eq_nil_iff, List.range_eq_nil]
    omega
  · intro v hv
    obtain ⟨i, hi, rfl⟩ := List.mem_map.1 hv
    rw [List.mem_range] at hi
    rw [mDist_eq_sum]
    refine Finset.sum_pos' (fun _ _ => l1_nonneg _ _) ⟨c, Finset.mem_range.2 hc, ?_⟩
    rw [hval, hn]
    simp only [seen, Bool.false_eq_true, if_false]
    exact l1_windows_pos (hwf.pos k hk) (by rw [hxl]; exact hi) ht hdis

section
variable {G L : Type} [Gen G ℝ] [LawfulGen G] [DecidableEq L]

/-- **C70**, series of different lengths. -/
theorem C70_separates_variable_length {a : FitArgs ℝ L} {minLen : Nat} {xLen : List Nat}
    (hv : ValidVL a minLen xLen) (hp : a.pNorm ≤ 0) {g0 : G} {gs : Nat → G} {order : Nat → List Nat}
    (ho : IsSchedule order) {S : UShp ℝ} (hS : uvlGenerate a minLen xLen g0 gs order = .ok S) :
    ∀ k, k < S.lengths.length → ∃ s, s < a.X.length ∧
      (uRow a.phase S (((a.X.getD s []).getD 0 []).take (xLen.getD s 0)))[3 * k]? = some 0 ∧
      ∀ x : List ℝ, HasWindow a.phase x.length (S.lengths.getD k 0) (S.dilations.getD k 0) →
        (∀ v ∈ x, v ∉ ((a.X.getD s []).getD 0 []).take (xLen.getD s 0)) →
        ∃ d, (uRow a.phase S x)[3 * k]? = some d ∧ 0 < d := by
  intro k hk
  obtain ⟨P, rec, out, kept, h⟩ := uvl_fitted hv ho hS
  obtain ⟨hwf, -, hk3⟩ := uFitted_wf hv.bounds h
  obtain ⟨M, hM, hsrc⟩ := C23_sources_univariate_variable_length hv ho hS
  obtain ⟨s, t, hs, ht, hval, row, hrow, hrow0⟩ := hsrc k hk
  rw [uvl_transform hv hwf (fun k hk => (hk3 k hk).2.2.1), Except.ok.injEq] at hM
  rw [← hM] at hrow
  obtain ⟨-, rfl⟩ := getElem?_map_range hrow
  have hnorm : S.normalize.getD k false = false := by
    have := (C31_proba_norm_univariate ho (Or.inr ⟨_, _, hv, hS⟩)).1 hp
    have hkn : k < S.normalize.length := by rw [hwf.normalize]; exact hk
    rw [getD_lt _ hkn]
    exact this _ (List.getElem_mem hkn)
  refine ⟨s, hs, hrow0, fun x hx hdis => ?_⟩
  rw [hnorm] at hval
  have e : (((a.X.getD s []).getD 0 []).take (xLen.getD s 0)).length = xLen.getD s 0 :=
    trainVL_len hv hs
  exact uRow_pos hwf hk hnorm (by rw [e]; exact ht) hval hx hdis

/-- The hypotheses are met: two bivariate series of five and four points; `fit` without normalisation. -/
theorem exB0_validVL : ValidVL { exB with pNorm := 0 } 4 [5, 4] where
  data := ⟨rfl, rfl, by simp [exB], by simp [exB], by simp [exB], by simp⟩
  ne := by simp [exB]
  nf := by norm_num [exB]
  perc := ⟨by norm_num [exB], by norm_num [exB], by norm_num [exB]⟩
  nShp := by norm_num [exB]
  sizes := by simp [exB]
  bounds := by simp [exB]

example (g0 : G) (gs : Nat → G) :
    (∃ S, uvlGenerate { exB with pNorm := 0 } 4 [5, 4] g0 gs List.range = .ok S) ∧
    ∃ S, mvlGenerate { exB with pNorm := 0 } 2 4 [5, 4] g0 gs List.range = .ok S := by
  have ho : IsSchedule List.range := fun _ => List.Perm.refl _
  obtain ⟨S, h, -⟩ := C43_fit_transform_univariate_variable_length exB0_validVL g0 gs ho
  obtain ⟨S', h', -⟩ := C43_fit_transform_multivariate_variable_length exB0_validVL (mc := 2)
    (by norm_num) (le_refl _) g0 gs ho
  exact ⟨⟨S, h⟩, S', h'⟩

/-- **C70**, several channels: the distance feature is positive on every series that has no value in common
with the training series on one channel used by the shapelet; and every shapelet uses a channel. -/
theorem C70_separates_multivariate {a : FitArgs ℝ L} (hv : ValidSL a) {mc : Nat} (hmc : 1 ≤ mc)
    (hmcf : mc ≤ a.nf) (hp : a.pNorm ≤ 0) {g0 : G} {gs : Nat → G} {order : Nat → List Nat}
    (ho : IsSchedule order) {S : MShp ℝ} (hS : mslGenerate a mc g0 gs order = .ok S) :
    ∀ k, k < S.lengths.length → mChannels S k ≠ [] ∧ ∃ s, s < a.X.length ∧
      (mRow a.phase S (a.X.getD s []) a.nt)[3 * k]? = some 0 ∧
      ∀ (x : List (List ℝ)) (T : Nat), Rect x a.nf T →
        HasWindow a.phase T (S.lengths.getD k 0) (S.dilations.getD k 0) →
        (∃ ch ∈ mChannels S k, ∀ v ∈ x.getD ch [], v ∉ (a.X.getD s []).getD ch []) →
        ∃ d, (mRow a.phase S x T)[3 * k]? = some d ∧ 0 < d := by
  intro k hk
  obtain ⟨P, nch, rec, out, kept, h⟩ := msl_fitted hv hmc hmcf ho hS
  obtain ⟨hwf, -, hk3⟩ := mFitted_wf hv.bounds h
  obtain ⟨M, hM, hsrc⟩ := C23_sources_multivariate_same_length hv hmc hmcf ho hS
  obtain ⟨s, t, hs, ht, hval, row, hrow, hrow0⟩ := hsrc k hk
  rw [msl_transform hv hwf (fun k hk => (hk3 k hk).2.2.1), Except.ok.injEq] at hM
  rw [← hM, row_get _ [] hs] at hrow
  cases hrow
  obtain ⟨-, -, -, -, -, -, hc1, -, hcl, -, hcr⟩ := hk3 k hk
  have hnorm : S.normalize.getD k false = false := by
    have := (C31_proba_norm_multivariate hmc hmcf ho (Or.inl ⟨hv, hS⟩)).1 hp
    have hkn : k < S.normalize.length := by rw [hwf.normalize]; exact hk
    rw [getD_lt _ hkn]
    exact this _ (List.getElem_mem hkn)
  refine ⟨by intro hc; rw [hc, List.length_nil] at hcl; omega, s, hs, hrow0, ?_⟩
  rintro x T hr hx ⟨ch, hch, hdis⟩
  obtain ⟨c, hc, rfl⟩ := List.mem_iff_getElem.1 hch
  have hv' := hval c (by omega)
  rw [hnorm] at hv'
  have hc' : (mChannels S k)[c] < a.nf := by
    have := hcr _ hch
    exact this
  have hrect := rect_of_data hv.data.nf hv.data.nt
  have e : ((a.X.getD s []).getD ((mChannels S k).getD c 0) []).length = a.nt := by
    have hr' := hrect _ (List.getElem_mem hs)
    have hlt : (mChannels S k)[c] < a.X[s].length := by rw [hr'.1]; exact hc'
    rw [getD_lt _ hs, getD_lt 0 hc, getD_lt [] hlt]
    exact hr'.2 _ (List.getElem_mem hlt)
  refine mRow_pos hwf hk hnorm hc (by rw [e]; exact ht) hv' hr hx ?_
  rw [getD_lt 0 hc]
  exact hdis

/-- **C70**, several channels and different lengths. -/
theorem C70_separates_multivariate_variable_length {a : FitArgs ℝ L} {minLen : Nat}
    {xLen : List Nat} (hv : ValidVL a minLen xLen) {mc : Nat} (hmc : 1 ≤ mc)
    (hmcf : mc ≤ a.nf) (hp : a.pNorm ≤ 0) {g0 : G} {gs : Nat → G} {order : Nat → List Nat}
    (ho : IsSchedule order) {S : MShp ℝ} (hS : mvlGenerate a mc minLen xLen g0 gs order = .ok S) :
    ∀ k, k < S.lengths.length → mChannels S k ≠ [] ∧ ∃ s, s < a.X.length ∧
      (mRow a.phase S ((a.X.getD s []).map fun ch => ch.take (xLen.getD s 0))
        (xLen.getD s 0))[3 * k]? = some 0 ∧
      ∀ (x : List (List ℝ)) (T : Nat), Rect x a.nf T →
        HasWindow a.phase T (S.lengths.getD k 0) (S.dilations.getD k 0) →
        (∃ ch ∈ mChannels S k, ∀ v ∈ x.getD ch [],
          v ∉ ((a.X.getD s []).getD ch []).take (xLen.getD s 0)) →
        ∃ d, (mRow a.phase S x T)[3 * k]? = some d ∧ 0 < d := by
  intro k hk
  obtain ⟨P, nch, rec, out, kept, h⟩ := mvl_fitted hv hmc hmcf ho hS
  obtain ⟨hwf, -, hk3⟩ := mFitted_wf hv.bounds h
  obtain ⟨M, hM, hsrc⟩ := C23_sources_multivariate_variable_length hv hmc hmcf ho hS
  obtain ⟨s, t, hs, ht, hval, row, hrow, hrow0⟩ := hsrc k hk
  rw [mvl_transform hv hwf (fun k hk => (hk3 k hk).2.2.1), Except.ok.injEq] at hM
  rw [← hM] at hrow
  obtain ⟨-, rfl⟩ := getElem?_map_range hrow
  obtain ⟨-, -, -, -, -, -, hc1, -, hcl, -, hcr⟩ := hk3 k hk
  have hnorm : S.normalize.getD k false = false := by
    have := (C31_proba_norm_multivariate hmc hmcf ho (Or.inr ⟨_, _, hv, hS⟩)).1 hp
    have hkn : k < S.normalize.length := by rw [hwf.normalize]; exact hk
    rw [getD_lt _ hkn]
    exact this _ (List.getElem_mem hkn)
  refine ⟨by intro hc; rw [hc, List.length_nil] at hcl; omega, s, hs, hrow0, ?_⟩
  rintro x T hr hx ⟨ch, hch, hdis⟩
  obtain ⟨c, hc, rfl⟩ := List.mem_iff_getElem.1 hch
  have hv' := hval c (by omega)
  rw [hnorm] at hv'
  have hc' : (mChannels S k)[c] < a.nf := by
    have := hcr _ hch
    exact this
  have e : (((a.X.getD s []).getD ((mChannels S k).getD c 0) []).take (xLen.getD s 0)).length =
      xLen.getD s 0 := by
    rw [getD_lt 0 hc]
    exact (hv.data.get hs hc').2
  refine mRow_pos hwf hk hnorm hc (by rw [e]; exact ht) hv' hr hx ?_
  rw [getD_lt 0 hc]
  exact hdis

end

end Convst.Props
