import Verif.Proofs.RealFeatures
import Mathlib.Tactic.IntervalCases

/-!
# Properties of `transform` (C01 - C12, C33)

Statements refer to the model (`uslApply`, `uvlApply`, `mslApply`, `mvlApply`: the four
`*_apply_all_shapelets` functions) and to `Verif/Spec/Transform.lean`.
-/

set_option autoImplicit false
set_option linter.unusedSectionVars false

namespace Convst.Props
open Convst Spec
variable {K : Type} [Scalar K]

/-! ## Concrete data used to show that hypotheses are satisfiable -/

/-- Two univariate series of five points. -/
def exX : List (List (List ℝ)) := [[[0, 1, 2, 3, 4]], [[1, 1, 0, 0, 2]]]

/-- Three shapelets, two of which share length and dilation but not the normalisation flag. -/
noncomputable def exU : UShp ℝ where
  values := [[1, 2, 0], [0, 1, 3], [4, 5, 0]]
  lengths := [2, 3, 2]
  dilations := [1, 2, 1]
  threshold := [1 / 2, 1, 3]
  normalize := [false, true, true]

theorem exU_wf : UWF exU where
  values := rfl
  dilations := rfl
  threshold := rfl
  normalize := rfl
  pos := by intro k hk; simp [exU] at hk; interval_cases k <;> simp [exU]
  room := by intro k hk; simp [exU] at hk; interval_cases k <;> simp [exU]

theorem exX_ne : ∀ s ∈ exX, s ≠ [] := by simp [exX]

theorem exX_fits : ∀ s ∈ exX, ∀ k, k < exU.lengths.length →
    Fits false (s.getD 0 []).length (exU.lengths.getD k 0) (exU.dilations.getD k 0) := by
  intro s hs k hk
  simp [exU] at hk
  simp only [exX, List.mem_cons, List.not_mem_nil, or_false] at hs
  rcases hs with rfl | rfl <;> interval_cases k <;> simp [exU, Fits]

/-- Two multivariate series with two channels of four points. -/
def exXm : List (List (List ℝ)) := [[[0, 1, 2, 3], [5, 5, 6, 7]], [[1, 1, 0, 0], [2, 0, 2, 0]]]

/-- Two multivariate shapelets: one on channels 1 and 0, one on channel 1. -/
noncomputable def exM : MShp ℝ where
  values := [1, 2, 3, 4, 0, 1, 3]
  lengths := [2, 3]
  dilations := [1, 1]
  threshold := [1 / 2, 1]
  normalize := [true, false]
  nChannels := [2, 1]
  channelIds := [1, 0, 1]

theorem exM_wf : MWF exM 2 where
  dilations := rfl
  threshold := rfl
  normalize := rfl
  nChannels := rfl
  pos := by intro k hk; simp [exM] at hk; interval_cases k <;> simp [exM]
  values := by simp [exM, mValOff, List.range_succ]
  channels := by simp [exM]
  range := by intro c hc; simp [exM] at hc; omega

theorem exXm_rect : ∀ x ∈ exXm, Rect x 2 4 := by
  intro x hx
  simp only [exXm, List.mem_cons, List.not_mem_nil, or_false] at hx
  rcases hx with rfl | rfl <;> refine ⟨rfl, ?_⟩ <;> intro r hr <;> simp at hr <;>
    rcases hr with rfl | rfl <;> rfl

theorem exM_fits : ∀ k, k < exM.lengths.length →
    Fits false 4 (exM.lengths.getD k 0) (exM.dilations.getD k 0) := by
  intro k hk
  simp [exM] at hk
  interval_cases k <;> simp [exM, Fits]

/-! ## C05: meaning of the three features -/

/-- **C05.** For any non-empty list of non-negative distances the three features computed by the
running scan are: the least distance, the first position attaining it, the number of distances not
exceeding the threshold. -/
theorem C05_features_meaning {D : List ℝ} {thr : ℝ} (hne : D ≠ []) (hD : ∀ x ∈ D, 0 ≤ x) :
    IsFeatures D thr (features D thr) :=
  features_isFeatures hne hD

/-- **C05.** Consequences for the ranges of the features. -/
theorem C05_feature_ranges {D : List ℝ} {thr : ℝ} {f : Feat ℝ} (hD : ∀ x ∈ D, 0 ≤ x)
    (hf : IsFeatures D thr f) :
    0 ≤ f.1 ∧ 0 ≤ f.2.1 ∧ f.2.1 < D.length ∧ 0 ≤ f.2.2 ∧ f.2.2 ≤ D.length ∧
      (1 ≤ f.2.2 ↔ f.1 ≤ thr) := by
  obtain ⟨⟨h1, h2⟩, ⟨p, hp, hpD, _⟩, hc⟩ := hf
  have hpl : p < D.length := (List.getElem?_eq_some_iff.1 hpD).1
  refine ⟨hD _ h1, ?_, ?_, ?_, ?_, ?_⟩
  · rw [hp]; positivity
  · rw [hp]; exact_mod_cast hpl
  · rw [hc]; positivity
  · rw [hc]; exact_mod_cast List.countP_le_length
  · rw [hc]
    have : (1 : ℝ) ≤ (D.countP fun x => decide (x ≤ thr) : Nat) ↔
        0 < D.countP fun x => decide (x ≤ thr) := by
      rw [← Nat.cast_one, Nat.cast_le]; exact Nat.succ_le_iff
    rw [this, List.countP_pos_iff]
    simp only [decide_eq_true_eq]
    constructor
    · rintro ⟨x, hx, hxt⟩; exact le_trans (h2 x hx) hxt
    · exact fun h => ⟨f.1, h1, h⟩

example : IsFeatures [3, 1, 2, 1] 2 (1, 1, 3) := by
  refine ⟨⟨by simp, ?_⟩, ⟨1, by simp, by simp, ?_⟩, ?_⟩
  · intro x hx; simp at hx; rcases hx with rfl | rfl | rfl | rfl <;> norm_num
  · intro q x hq hx; interval_cases q; simp at hx; subst hx; norm_num
  · norm_num [List.countP_cons]

/-- The distances of the specification are non-negative and, when the series offers a window,
non-empty: C05 applies to every output of `transform`. -/
theorem C05_applies (phase : Bool) (S : UShp ℝ) (x : List ℝ) (k : Nat)
    (h : HasWindow phase x.length (S.lengths.getD k 0) (S.dilations.getD k 0)) :
    uDistances phase S x k ≠ [] ∧ ∀ r ∈ uDistances phase S x k, 0 ≤ r := by
  refine ⟨?_, distances_nonneg _ _ _ _ _ _⟩
  intro hc
  have := congrArg List.length hc
  simp only [uDistances, distances, List.length_map, List.length_range, List.length_nil] at this
  unfold nWin at this
  unfold HasWindow at h
  cases phase <;> simp only [Bool.false_eq_true, if_false, if_true] at h this <;> omega

/-! ## C01 - C04: transform equals its definition -/

/-- **C01.** Univariate, same length, any scalar type (IEEE doubles included): the transform
succeeds and row `i` of the output is the concatenation of the features of each shapelet on series
`i` alone. -/
theorem C01_univariate_same_length {X : List (List (List K))} {S : UShp K} (hS : UWF S)
    (phase : Bool) (hX : ∀ s ∈ X, s ≠ [])
    (hfit : ∀ s ∈ X, ∀ k, k < S.lengths.length →
      Fits phase (s.getD 0 []).length (S.lengths.getD k 0) (S.dilations.getD k 0)) :
    uslApply X S phase = .ok (X.map fun s => uRow phase S (s.getD 0 [])) :=
  uslApply_ok hS hX hfit

example : uslApply exX exU false = .ok (exX.map fun s => uRow false exU (s.getD 0 [])) :=
  C01_univariate_same_length exU_wf false exX_ne exX_fits

/-- Reading of an output row made of three-cell blocks. -/
theorem row_cells (f : Nat → Feat K) (n k r : Nat) (hk : k < n) (hr : r < 3) :
    ((List.range n).flatMap fun k => cells (f k))[3 * k + r]? = (cells (f k))[r]? := by
  rw [← cells_flatMap, List.getElem?_map, List.getElem?_range (by omega)]
  have h1 : (3 * k + r) / 3 = k := by omega
  have h2 : (3 * k + r) % 3 = r := by omega
  simp only [Option.map_some, h1, h2]
  interval_cases r <;> simp [cells]

/-- **C01.** Declarative form in exact arithmetic: shape of the output, and every three-cell block
holds the minimum distance, the first position of the minimum and the number of matches. -/
theorem C01_univariate_same_length_real {X : List (List (List ℝ))} {S : UShp ℝ} (hS : UWF S)
    (phase : Bool) (hX : ∀ s ∈ X, s ≠ [])
    (hfit : ∀ s ∈ X, ∀ k, k < S.lengths.length →
      HasWindow phase (s.getD 0 []).length (S.lengths.getD k 0) (S.dilations.getD k 0)) :
    ∃ M : List (List ℝ), uslApply X S phase = .ok M ∧ M.length = X.length ∧
      ∀ (i : Nat) s, X[i]? = some s → ∃ row : List ℝ, M[i]? = some row ∧ row.length = 3 * S.lengths.length ∧
        ∀ k, k < S.lengths.length → ∃ f : Feat ℝ,
          row[3 * k]? = some f.1 ∧ row[3 * k + 1]? = some f.2.1 ∧ row[3 * k + 2]? = some f.2.2 ∧
          IsFeatures (uDistances phase S (s.getD 0 []) k) (S.threshold.getD k 0) f := by
  refine ⟨_, uslApply_ok hS hX ?_, by simp, ?_⟩
  · intro s hs k hk
    have := hfit s hs k hk
    unfold HasWindow at this
    unfold Fits
    cases phase <;> simp at this ⊢; omega
  · intro i s hs
    refine ⟨uRow phase S (s.getD 0 []), by simp [hs], ?_, ?_⟩
    · have := congrArg List.length (cells_flatMap (uFeatures phase S (s.getD 0 [])) S.lengths.length)
      simpa [uRow] using this.symm
    · intro k hk
      have hw := hfit s (List.mem_of_getElem? hs) k hk
      obtain ⟨h1, h2⟩ := C05_applies phase S (s.getD 0 []) k hw
      refine ⟨uFeatures phase S (s.getD 0 []) k, ?_, ?_, ?_, C05_features_meaning h1 h2⟩
      · exact row_cells _ _ k 0 hk (by omega)
      · exact row_cells _ _ k 1 hk (by omega)
      · exact row_cells _ _ k 2 hk (by omega)

/-- **C02.** Univariate, variable length: every series contributes its first `xLen[i]` values
only. -/
theorem C02_univariate_variable_length {X : List (List (List K))} {S : UShp K} (hS : UWF S)
    (phase : Bool) {xLen : List Nat} (hX : ∀ s ∈ X, s ≠ []) (hlen : X.length ≤ xLen.length)
    (hfit : ∀ i, i < X.length → ∀ k, k < S.lengths.length →
      Fits phase (uPrefix X xLen i).length (S.lengths.getD k 0) (S.dilations.getD k 0)) :
    uvlApply X S phase xLen =
      .ok ((List.range X.length).map fun i =>
        uRow phase S (((X.getD i []).getD 0 []).take (xLen.getD i 0))) :=
  uvlApply_ok hS hX hlen hfit

example : uvlApply exX exU true [5, 3] =
    .ok ((List.range exX.length).map fun i =>
      uRow true exU (((exX.getD i []).getD 0 []).take ([5, 3].getD i 0))) :=
  C02_univariate_variable_length exU_wf true exX_ne (by simp [exX])
    (fun _ _ _ _ => Or.inl rfl)

/-- **C03.** Multivariate, same length: the features of the distance summed over the channels of
each shapelet. -/
theorem C03_multivariate_same_length {X : List (List (List K))} {nt nf : Nat} {S : MShp K}
    (hS : MWF S nf) (phase : Bool) (hX : ∀ x ∈ X, Rect x nf nt)
    (hfit : ∀ k, k < S.lengths.length →
      Fits phase nt (S.lengths.getD k 0) (S.dilations.getD k 0)) :
    mslApply X nt S phase = .ok (X.map fun x => mRow phase S x nt) :=
  mslApply_ok hS hX hfit

example : mslApply exXm 4 exM false = .ok (exXm.map fun x => mRow false exM x 4) :=
  C03_multivariate_same_length exM_wf false exXm_rect exM_fits

/-- **C04.** Multivariate, variable length. -/
theorem C04_multivariate_variable_length {X : List (List (List K))} {nt nf : Nat} {S : MShp K}
    (hS : MWF S nf) (phase : Bool) {xLen : List Nat} (hX : ∀ x ∈ X, Rect x nf nt)
    (hlen : X.length ≤ xLen.length)
    (hfit : ∀ i, i < X.length → ∀ k, k < S.lengths.length →
      Fits phase (min (xLen.getD i 0) nt) (S.lengths.getD k 0) (S.dilations.getD k 0)) :
    mvlApply X nt S phase xLen = .ok ((List.range X.length).map fun i =>
      mRow phase S ((X.getD i []).map fun ch => ch.take (xLen.getD i 0))
        (min (xLen.getD i 0) nt)) :=
  mvlApply_ok hS hX hlen hfit

example : mvlApply exXm 4 exM false [4, 3] = .ok ((List.range exXm.length).map fun i =>
      mRow false exM ((exXm.getD i []).map fun ch => ch.take ([4, 3].getD i 0))
        (min ([4, 3].getD i 0) 4)) := by
  apply C04_multivariate_variable_length exM_wf false exXm_rect (by simp [exXm])
  intro i hi k hk
  simp [exXm] at hi
  simp [exM] at hk
  interval_cases i <;> interval_cases k <;> simp [exM, Fits]

/-- **C03/C04.** In exact arithmetic the multivariate distance is the sum over the shapelet's
channels of the absolute differences, and the features have their declarative meaning. -/
theorem C03_features_meaning (phase : Bool) (S : MShp ℝ) (x : List (List ℝ)) (T k : Nat)
    (h : HasWindow phase T (S.lengths.getD k 0) (S.dilations.getD k 0)) :
    IsFeatures (mDistances phase S x T k) (S.threshold.getD k 0) (mFeatures phase S x T k) ∧
    ∀ i, mDist phase S x k i = ∑ c ∈ Finset.range (mChannels S k).length,
      l1 (seen (S.normalize.getD k false)
          (window phase (x.getD ((mChannels S k).getD c 0) []) (S.lengths.getD k 0)
            (S.dilations.getD k 0) i)) (mValues S k c) := by
  refine ⟨features_isFeatures ?_ (mDistances_nonneg _ _ _ _ _), mDist_eq_sum phase S x k⟩
  intro hc
  have := congrArg List.length hc
  simp only [mDistances, List.length_map, List.length_range, List.length_nil] at this
  unfold nWin at this
  unfold HasWindow at h
  cases phase <;> simp only [Bool.false_eq_true, if_false, if_true] at h this <;> omega

example : HasWindow false 4 (exM.lengths.getD 1 0) (exM.dilations.getD 1 0) := by
  simp [HasWindow, exM]

/-! ## C12: safety and exact failure condition -/

/-- **C12.** Univariate, same length: the transform fails exactly when some series is too short for
some shapelet, and then with `ValueError`; otherwise it returns the specified matrix.  In no case
is there an out-of-bounds access. -/
theorem C12_univariate_same_length {X : List (List (List K))} {S : UShp K} (hS : UWF S)
    (phase : Bool) (hX : ∀ s ∈ X, s ≠ []) :
    uslApply X S phase =
      open Classical in
      if ∀ s ∈ X, ∀ k, k < S.lengths.length →
        Fits phase (s.getD 0 []).length (S.lengths.getD k 0) (S.dilations.getD k 0)
      then .ok (X.map fun s => uRow phase S (s.getD 0 []))
      else .error .valueError := by
  split
  · rename_i h; exact uslApply_ok hS hX h
  · rename_i h
    push Not at h
    obtain ⟨s, hs, k, hk, hn⟩ := h
    exact uslApply_err hS hX ⟨s, hs, k, hk, hn⟩

/-- **C12.** Univariate, variable length. -/
theorem C12_univariate_variable_length {X : List (List (List K))} {S : UShp K} (hS : UWF S)
    (phase : Bool) {xLen : List Nat} (hX : ∀ s ∈ X, s ≠ []) (hlen : X.length ≤ xLen.length) :
    uvlApply X S phase xLen =
      open Classical in
      if ∀ i, i < X.length → ∀ k, k < S.lengths.length →
        Fits phase (uPrefix X xLen i).length (S.lengths.getD k 0) (S.dilations.getD k 0)
      then .ok ((List.range X.length).map fun i => uRow phase S (uPrefix X xLen i))
      else .error .valueError := by
  split
  · rename_i h; exact uvlApply_ok hS hX hlen h
  · rename_i h
    push Not at h
    obtain ⟨i, hi, k, hk, hn⟩ := h
    exact uvlApply_err hS hX hlen ⟨i, hi, k, hk, hn⟩

/-- **C12.** Multivariate, same length. -/
theorem C12_multivariate_same_length {X : List (List (List K))} {nt nf : Nat} {S : MShp K}
    (hS : MWF S nf) (phase : Bool) (hX : ∀ x ∈ X, Rect x nf nt) (hne : X ≠ []) :
    mslApply X nt S phase =
      open Classical in
      if ∀ k, k < S.lengths.length → Fits phase nt (S.lengths.getD k 0) (S.dilations.getD k 0)
      then .ok (X.map fun x => mRow phase S x nt)
      else .error .valueError := by
  split
  · rename_i h; exact mslApply_ok hS hX h
  · rename_i h
    push Not at h
    obtain ⟨k, hk, hn⟩ := h
    exact mslApply_err hS hX hne ⟨k, hk, hn⟩

/-- **C12.** Multivariate, variable length. -/
theorem C12_multivariate_variable_length {X : List (List (List K))} {nt nf : Nat} {S : MShp K}
    (hS : MWF S nf) (phase : Bool) {xLen : List Nat} (hX : ∀ x ∈ X, Rect x nf nt)
    (hlen : X.length ≤ xLen.length) :
    mvlApply X nt S phase xLen =
      open Classical in
      if ∀ i, i < X.length → ∀ k, k < S.lengths.length →
        Fits phase (min (xLen.getD i 0) nt) (S.lengths.getD k 0) (S.dilations.getD k 0)
      then .ok ((List.range X.length).map fun i =>
        mRow phase S (mPrefix X xLen i) (min (xLen.getD i 0) nt))
      else .error .valueError := by
  split
  · rename_i h; exact mvlApply_ok hS hX hlen h
  · rename_i h
    push Not at h
    obtain ⟨i, hi, k, hk, hn⟩ := h
    exact mvlApply_err hS hX hlen ⟨i, hi, k, hk, hn⟩

/-- **C12.** A series with exactly `(length-1)*dilation` points offers no window; its features are
silently `(-1, 0, 0)`. -/
theorem C12_no_window (S : UShp ℝ) (x : List ℝ) (k : Nat)
    (h : x.length = (S.lengths.getD k 0 - 1) * S.dilations.getD k 0) :
    uFeatures false S x k = (-1, 0, 0) := by
  have : uDistances false S x k = [] := by
    simp only [uDistances, distances, nWin, h]; simp
  simp [uFeatures, this, features, scanMin]

/-- The last case happens: a series of four points and the shapelet of length 3, dilation 2. -/
example : uFeatures false exU [1, 2, 3, 4] 1 = (-1, 0, 0) :=
  C12_no_window exU [1, 2, 3, 4] 1 (by simp [exU])

/-- A failing case: a series of three points is rejected. -/
example : uslApply [[[1, 2, 3]]] exU false = .error .valueError := by
  rw [C12_univariate_same_length exU_wf false (by simp), if_neg]
  intro h
  have := h [[1, 2, 3]] (by simp) 1 (by simp [exU])
  simp [exU, Fits] at this

/-- **C12.** With phase invariance the transform always succeeds. -/
theorem C12_phase_total {X : List (List (List K))} {S : UShp K} (hS : UWF S)
    (hX : ∀ s ∈ X, s ≠ []) :
    uslApply X S true = .ok (X.map fun s => uRow true S (s.getD 0 [])) :=
  uslApply_ok hS hX (fun _ _ _ _ => Or.inl rfl)

/-! ## C06, C07: independence of other rows and columns -/

theorem uslApply_ok_iff {X : List (List (List K))} {S : UShp K} (hS : UWF S)
    {phase : Bool} (hX : ∀ s ∈ X, s ≠ []) {M : List (List K)} :
    uslApply X S phase = .ok M ↔
      (∀ s ∈ X, ∀ k, k < S.lengths.length →
        Fits phase (s.getD 0 []).length (S.lengths.getD k 0) (S.dilations.getD k 0)) ∧
      M = X.map fun s => uRow phase S (s.getD 0 []) := by
  rw [C12_univariate_same_length hS phase hX]
  split
  · rename_i h
    exact ⟨fun e => ⟨h, by cases e; rfl⟩, fun e => by rw [e.2]⟩
  · rename_i h
    exact ⟨fun e => by simp at e, fun e => absurd e.1 h⟩

/-- **C06.** Transforming a concatenation of batches concatenates the transforms. -/
theorem C06_concat {X Y : List (List (List K))} {S : UShp K} (hS : UWF S) {phase : Bool}
    (hX : ∀ s ∈ X, s ≠ []) (hY : ∀ s ∈ Y, s ≠ []) {M : List (List K)} :
    uslApply (X ++ Y) S phase = .ok M ↔
      ∃ A B, uslApply X S phase = .ok A ∧ uslApply Y S phase = .ok B ∧ M = A ++ B := by
  rw [uslApply_ok_iff hS (by
    intro s hs; rcases List.mem_append.1 hs with h | h
    · exact hX s h
    · exact hY s h)]
  constructor
  · rintro ⟨h, rfl⟩
    exact ⟨_, _, (uslApply_ok_iff hS hX).2 ⟨fun s hs => h s (by simp [hs]), rfl⟩,
      (uslApply_ok_iff hS hY).2 ⟨fun s hs => h s (by simp [hs]), rfl⟩, by simp⟩
  · rintro ⟨A, B, hA, hB, rfl⟩
    obtain ⟨h1, rfl⟩ := (uslApply_ok_iff hS hX).1 hA
    obtain ⟨h2, rfl⟩ := (uslApply_ok_iff hS hY).1 hB
    refine ⟨?_, by simp⟩
    intro s hs
    rcases List.mem_append.1 hs with h | h
    · exact h1 s h
    · exact h2 s h

/-- **C06.** Selecting, repeating or permuting the input series does the same to the output rows:
`is` is any list of positions in the batch. -/
theorem C06_reindex {X : List (List (List K))} {S : UShp K} (hS : UWF S) {phase : Bool}
    (hX : ∀ s ∈ X, s ≠ []) {M : List (List K)} (hM : uslApply X S phase = .ok M)
    (is : List Nat) (his : ∀ i ∈ is, i < X.length) :
    uslApply (is.map fun i => X.getD i []) S phase = .ok (is.map fun i => M.getD i []) := by
  obtain ⟨h1, rfl⟩ := (uslApply_ok_iff hS hX).1 hM
  have hmem : ∀ i ∈ is, X.getD i [] ∈ X := by
    intro i hi
    rw [getD_lt _ (his i hi)]; exact List.getElem_mem _
  refine (uslApply_ok_iff hS ?_).2 ⟨?_, ?_⟩
  · intro s hs
    obtain ⟨i, hi, rfl⟩ := List.mem_map.1 hs
    exact hX _ (hmem i hi)
  · intro s hs
    obtain ⟨i, hi, rfl⟩ := List.mem_map.1 hs
    exact h1 _ (hmem i hi)
  · rw [List.map_map]
    apply List.map_congr_left
    intro i hi
    rw [getD_lt _ (by simpa using his i hi)]
    simp [List.getD, his i hi]

example : ∃ M, uslApply exX exU false = .ok M ∧
    uslApply (([1, 0] : List Nat).map fun i => exX.getD i []) exU false =
      .ok (([1, 0] : List Nat).map fun i => M.getD i []) := by
  have h := C01_univariate_same_length exU_wf false exX_ne exX_fits
  exact ⟨_, h, C06_reindex exU_wf exX_ne h [1, 0] (by simp [exX])⟩

/-- The shapelet set made of shapelets `ks` of `S`, in that order. -/
def pick (S : UShp K) (ks : List Nat) : UShp K where
  values := ks.map fun k => S.values.getD k []
  lengths := ks.map fun k => S.lengths.getD k 0
  dilations := ks.map fun k => S.dilations.getD k 0
  threshold := ks.map fun k => S.threshold.getD k 0
  normalize := ks.map fun k => S.normalize.getD k false

theorem pick_wf {S : UShp K} (hS : UWF S) {ks : List Nat} (hks : ∀ k ∈ ks, k < S.lengths.length) :
    UWF (pick S ks) where
  values := by simp [pick]
  dilations := by simp [pick]
  threshold := by simp [pick]
  normalize := by simp [pick]
  pos := by
    intro j hj
    have hj' : j < ks.length := by simpa [pick] using hj
    have := hS.pos _ (hks _ (List.getElem_mem hj'))
    simpa [pick, List.getD, hj'] using this
  room := by
    intro j hj
    have hj' : j < ks.length := by simpa [pick] using hj
    have := hS.room _ (hks _ (List.getElem_mem hj'))
    simpa [pick, List.getD, hj'] using this

theorem pick_features {S : UShp K} {ks : List Nat} {phase : Bool} {x : List K} {j : Nat}
    (hj : j < ks.length) : uFeatures phase (pick S ks) x j = uFeatures phase S x ks[j] := by
  simp [uFeatures, uDistances, uValues, pick, List.getD, hj]

/-- **C07.** The three columns of a shapelet do not depend on the other shapelets: if the transform
with the whole set `S` succeeds, the transform with any selection, repetition or reordering `ks` of
the shapelets succeeds, and its block `j` is block `ks[j]` of the whole transform. -/
theorem C07_columns {X : List (List (List K))} {S : UShp K} (hS : UWF S) {phase : Bool}
    (hX : ∀ s ∈ X, s ≠ []) {M : List (List K)} (hM : uslApply X S phase = .ok M)
    (ks : List Nat) (hks : ∀ k ∈ ks, k < S.lengths.length) :
    ∃ M', uslApply X (pick S ks) phase = .ok M' ∧
      ∀ (i : Nat) (row : List K), M[i]? = some row → ∃ row' : List K, M'[i]? = some row' ∧
        ∀ j r : Nat, (hj : j < ks.length) → r < 3 → row'[3 * j + r]? = row[3 * ks[j] + r]? := by
  obtain ⟨h1, rfl⟩ := (uslApply_ok_iff hS hX).1 hM
  refine ⟨_, (uslApply_ok_iff (pick_wf hS hks) hX).2 ⟨?_, rfl⟩, ?_⟩
  · intro s hs j hj
    have hj' : j < ks.length := by simpa [pick] using hj
    have := h1 s hs _ (hks _ (List.getElem_mem hj'))
    simpa [pick, List.getD, hj'] using this
  · intro i row hrow
    rw [List.getElem?_map, Option.map_eq_some_iff] at hrow
    obtain ⟨s, hs, rfl⟩ := hrow
    refine ⟨uRow phase (pick S ks) (s.getD 0 []), by simp [hs], ?_⟩
    intro j r hj hr
    have hlen : (pick S ks).lengths.length = ks.length := by simp [pick]
    rw [uRow, uRow, hlen, row_cells _ _ _ _ hj hr, row_cells _ _ _ _ (hks _ (List.getElem_mem hj)) hr,
      pick_features hj]

example : ∃ M', uslApply exX (pick exU [1]) false = .ok M' := by
  have h := C01_univariate_same_length exU_wf false exX_ne exX_fits
  obtain ⟨M', h', _⟩ := C07_columns exU_wf exX_ne h [1] (by simp [exU])
  exact ⟨M', h'⟩

/-! ## C08: schedule independence -/

/-- **C08.** The stores performed by all iterations of the parallel loop, executed in *any* order
(any permutation, hence any interleaving of the iterations), produce the same matrix as the
sequential program.  Univariate, same length. -/
theorem C08_univariate_same_length {X : List (List (List K))} {S : UShp K} (hS : UWF S)
    (phase : Bool) (hX : ∀ s ∈ X, s ≠ [])
    (hfit : ∀ s ∈ X, ∀ k, k < S.lengths.length →
      Fits phase (s.getD 0 []).length (S.lengths.getD k 0) (S.dilations.getD k 0)) :
    ∃ g ss, groupShapelets S.lengths S.dilations = .ok g ∧
      allTasks (uslKernel X S phase) X.length S.normalize g = .ok ss ∧
      ∀ ss' : List (Store K), ss'.Perm ss.flatten →
        ss'.foldlM doStore (List.replicate X.length (List.replicate (3 * S.lengths.length) 0)) =
          uslApply X S phase := by
  have hk : ∀ i, i < X.length → KernelOK (uslKernel X S phase) S.lengths S.dilations S.normalize
      (fun i k => uFeatures phase S ((X.getD i []).getD 0 []) k) i := by
    intro i hi
    have hmem := List.getElem_mem hi
    have hpos : 0 < X[i].length := List.length_pos_iff.2 (hX _ hmem)
    apply uslKernel_ok hS (x := (X.getD i []).getD 0 [])
    · rw [aget2_eq_ok]
      refine ⟨X[i], by simp [hi], ?_⟩
      rw [getD_lt _ hi]
      exact some_getD _ hpos
    · rw [getD_lt _ hi]; exact hfit _ hmem
    · intro k; rfl
  obtain ⟨g, ss, h1, h2, h3⟩ := applyAll_schedule hS.dilations.symm hS.normalize hk
  refine ⟨g, ss, h1, h2, fun ss' hp => ?_⟩
  rw [h3 ss' hp, uslApply, applyAll_ok hS.dilations.symm hS.normalize hk]

/-- **C08.** Multivariate, variable length. -/
theorem C08_multivariate_variable_length {X : List (List (List K))} {nt nf : Nat} {S : MShp K}
    (hS : MWF S nf) (phase : Bool) {xLen : List Nat} (hX : ∀ x ∈ X, Rect x nf nt)
    (hlen : X.length ≤ xLen.length)
    (hfit : ∀ i, i < X.length → ∀ k, k < S.lengths.length →
      Fits phase (min (xLen.getD i 0) nt) (S.lengths.getD k 0) (S.dilations.getD k 0)) :
    ∃ g ss, groupShapelets S.lengths S.dilations = .ok g ∧
      allTasks (mvlKernel X nt S phase xLen) X.length S.normalize g = .ok ss ∧
      ∀ ss' : List (Store K), ss'.Perm ss.flatten →
        ss'.foldlM doStore (List.replicate X.length (List.replicate (3 * S.lengths.length) 0)) =
          mvlApply X nt S phase xLen := by
  have hk : ∀ i, i < X.length → KernelOK (mvlKernel X nt S phase xLen) S.lengths S.dilations
      S.normalize
      (fun i k => mFeatures phase S (mPrefix X xLen i) (min (xLen.getD i 0) nt) k) i := by
    intro i hi
    refine ⟨fun k l d hl hd => ?_⟩
    have h2 := hfit i hi k (List.getElem?_eq_some_iff.1 hl).1
    rw [getD_some hl, getD_some hd] at h2
    refine mvlParam_ok hS (some_getD [] hi) ?_ (some_getD 0 (by omega)) hl hd h2 (fun _ => rfl)
    rw [getD_lt _ hi]; exact hX _ (List.getElem_mem hi)
  obtain ⟨g, ss, h1, h2, h3⟩ := applyAll_schedule hS.dilations.symm hS.normalize hk
  refine ⟨g, ss, h1, h2, fun ss' hp => ?_⟩
  rw [h3 ss' hp, mvlApply, applyAll_ok hS.dilations.symm hS.normalize hk]

/-- **C08.** Univariate, variable length. -/
theorem C08_univariate_variable_length {X : List (List (List K))} {S : UShp K} (hS : UWF S)
    (phase : Bool) {xLen : List Nat} (hX : ∀ s ∈ X, s ≠ []) (hlen : X.length ≤ xLen.length)
    (hfit : ∀ i, i < X.length → ∀ k, k < S.lengths.length →
      Fits phase (uPrefix X xLen i).length (S.lengths.getD k 0) (S.dilations.getD k 0)) :
    ∃ g ss, groupShapelets S.lengths S.dilations = .ok g ∧
      allTasks (uvlKernel X S phase xLen) X.length S.normalize g = .ok ss ∧
      ∀ ss' : List (Store K), ss'.Perm ss.flatten →
        ss'.foldlM doStore (List.replicate X.length (List.replicate (3 * S.lengths.length) 0)) =
          uvlApply X S phase xLen := by
  have hk : ∀ i, i < X.length → KernelOK (uvlKernel X S phase xLen) S.lengths S.dilations
      S.normalize (fun i k => uFeatures phase S (uPrefix X xLen i) k) i := by
    intro i hi
    have hmem := List.getElem_mem hi
    have hpos : 0 < X[i].length := List.length_pos_iff.2 (hX _ hmem)
    apply uvlKernel_ok hS (x := (X.getD i []).getD 0 []) (n := xLen.getD i 0)
    · rw [aget2_eq_ok]
      refine ⟨X[i], by simp [hi], ?_⟩
      rw [getD_lt _ hi]
      exact some_getD _ hpos
    · exact some_getD 0 (by omega)
    · exact hfit i hi
    · intro k; rfl
  obtain ⟨g, ss, h1, h2, h3⟩ := applyAll_schedule hS.dilations.symm hS.normalize hk
  refine ⟨g, ss, h1, h2, fun ss' hp => ?_⟩
  rw [h3 ss' hp, uvlApply, applyAll_ok hS.dilations.symm hS.normalize hk]

/-- **C08.** Multivariate, same length. -/
theorem C08_multivariate_same_length {X : List (List (List K))} {nt nf : Nat} {S : MShp K}
    (hS : MWF S nf) (phase : Bool) (hX : ∀ x ∈ X, Rect x nf nt)
    (hfit : ∀ k, k < S.lengths.length →
      Fits phase nt (S.lengths.getD k 0) (S.dilations.getD k 0)) :
    ∃ g ss, groupShapelets S.lengths S.dilations = .ok g ∧
      allTasks (mslKernel X nt S phase) X.length S.normalize g = .ok ss ∧
      ∀ ss' : List (Store K), ss'.Perm ss.flatten →
        ss'.foldlM doStore (List.replicate X.length (List.replicate (3 * S.lengths.length) 0)) =
          mslApply X nt S phase := by
  have hk : ∀ i, i < X.length → KernelOK (mslKernel X nt S phase) S.lengths S.dilations
      S.normalize (fun i k => mFeatures phase S (X.getD i []) nt k) i := by
    intro i hi
    refine ⟨fun k l d hl hd => ?_⟩
    have h2 := hfit k (List.getElem?_eq_some_iff.1 hl).1
    rw [getD_some hl, getD_some hd] at h2
    refine mslParam_ok hS (some_getD [] hi) ?_ hl hd h2 (fun _ => rfl)
    rw [getD_lt _ hi]; exact hX _ (List.getElem_mem hi)
  obtain ⟨g, ss, h1, h2, h3⟩ := applyAll_schedule hS.dilations.symm hS.normalize hk
  refine ⟨g, ss, h1, h2, fun ss' hp => ?_⟩
  rw [h3 ss' hp, mslApply, applyAll_ok hS.dilations.symm hS.normalize hk]

example : ∃ g ss, groupShapelets exU.lengths exU.dilations = .ok g ∧
    allTasks (uslKernel exX exU false) 2 exU.normalize g = .ok ss ∧
    ss.flatten.reverse.foldlM doStore (List.replicate 2 (List.replicate 9 0)) =
      uslApply exX exU false := by
  obtain ⟨g, ss, h1, h2, h3⟩ := C08_univariate_same_length exU_wf false exX_ne exX_fits
  exact ⟨g, ss, h1, h2, h3 _ (List.reverse_perm _)⟩

/-! ## C09, C10, C11: padding, equal lengths, single channel -/

/-- **C09.** Two padded arrays agreeing on the true prefixes give the same result (also the same
error).  Univariate. -/
theorem C09_padding_univariate (X X' : List (List (List K))) (S : UShp K) (phase : Bool)
    (xLen : List Nat) (hlen : X.length ≤ xLen.length)
    (h : X.mapIdx (fun i s => s.map fun ch => ch.take (xLen.getD i 0)) =
      X'.mapIdx (fun i s => s.map fun ch => ch.take (xLen.getD i 0))) :
    uvlApply X S phase xLen = uvlApply X' S phase xLen := by
  have hl : X.length = X'.length := by simpa using congrArg List.length h
  have hk : uvlKernel X S phase xLen = uvlKernel X' S phase xLen := by
    unfold uvlKernel
    congr 1
    funext i l d
    by_cases hi : i < X.length
    · have hi' : i < X'.length := hl ▸ hi
      have hrow : X[i].map (fun ch => ch.take (xLen.getD i 0)) =
          X'[i].map (fun ch => ch.take (xLen.getD i 0)) := by
        have h1 : i < (X.mapIdx (fun i s => s.map fun ch => ch.take (xLen.getD i 0))).length := by
          simpa using hi
        have := List.getElem_of_eq h h1
        simpa using this
      have hx := aget_getD 0 (show i < xLen.length by omega)
      unfold aget2
      rw [aget_ok hi, aget_ok hi', hx]
      simp only [Res.bind_ok]
      have h0 := congrArg (fun r => r[0]?) hrow
      simp only [List.getElem?_map] at h0
      unfold aget
      cases h1 : X[i][0]? <;> cases h2 : X'[i][0]? <;> simp [h1, h2] at h0 ⊢
      rw [h0]
    · unfold aget2
      have hi' : ¬ i < X'.length := hl ▸ hi
      rw [aget_error (a := X) (by omega), aget_error (a := X') (by omega)]
  unfold uvlApply
  rw [hk, hl]

/-- **C09.** Multivariate; both arrays have the same padded width `nt`. -/
theorem C09_padding_multivariate (X X' : List (List (List K))) (nt : Nat) (S : MShp K)
    (phase : Bool) (xLen : List Nat) (hlen : X.length ≤ xLen.length)
    (h : X.mapIdx (fun i s => s.map fun ch => ch.take (xLen.getD i 0)) =
      X'.mapIdx (fun i s => s.map fun ch => ch.take (xLen.getD i 0))) :
    mvlApply X nt S phase xLen = mvlApply X' nt S phase xLen := by
  have hl : X.length = X'.length := by simpa using congrArg List.length h
  have hk : mvlKernel X nt S phase xLen = mvlKernel X' nt S phase xLen := by
    unfold mvlKernel
    congr 1
    funext i l d
    by_cases hi : i < X.length
    · have hi' : i < X'.length := hl ▸ hi
      have hrow : X[i].map (fun ch => ch.take (xLen.getD i 0)) =
          X'[i].map (fun ch => ch.take (xLen.getD i 0)) := by
        have h1 : i < (X.mapIdx (fun i s => s.map fun ch => ch.take (xLen.getD i 0))).length := by
          simpa using hi
        have := List.getElem_of_eq h h1
        simpa using this
      have hx := aget_getD 0 (show i < xLen.length by omega)
      rw [aget_ok hi, aget_ok hi', hx]
      simp only [Res.bind_ok]
      rw [hrow]
    · have hi' : ¬ i < X'.length := hl ▸ hi
      rw [aget_error (a := X) (by omega), aget_error (a := X') (by omega)]
  unfold mvlApply
  rw [hk, hl]

example : uvlApply [[[0, 1, 2, 99]], [[1, 1, 0, 0]]] exU true [3, 4] =
    uvlApply [[[0, 1, 2, 0]], [[1, 1, 0, 0]]] exU true [3, 4] :=
  C09_padding_univariate _ _ _ _ _ (by simp) (by simp)

/-- **C10.** On series that all have the same length the variable-length transform equals the
same-length one.  Univariate. -/
theorem C10_univariate (X : List (List (List K))) (n : Nat) (S : UShp K) (phase : Bool)
    (hX : ∀ s ∈ X, ∀ ch ∈ s, ch.length = n) :
    uvlApply X S phase (List.replicate X.length n) = uslApply X S phase := by
  have hk : uvlKernel X S phase (List.replicate X.length n) = uslKernel X S phase := by
    unfold uvlKernel uslKernel
    congr 1
    funext i l d
    cases hx : aget2 X i 0 with
    | error e => rfl
    | ok x =>
      obtain ⟨s, hs, hx'⟩ := aget2_eq_ok.1 hx
      have hi : i < X.length := (List.getElem?_eq_some_iff.1 hs).1
      have hxl := hX s (List.mem_of_getElem? hs) x (List.mem_of_getElem? hx')
      simp only [Res.bind_ok]
      rw [aget_ok (by simpa using hi), Res.bind_ok, List.getElem_replicate,
        List.take_of_length_le (by omega)]
  unfold uvlApply uslApply
  rw [hk]

/-- **C10.** Multivariate. -/
theorem C10_multivariate (X : List (List (List K))) (n : Nat) (S : MShp K) (phase : Bool)
    (hX : ∀ s ∈ X, ∀ ch ∈ s, ch.length = n) :
    mvlApply X n S phase (List.replicate X.length n) = mslApply X n S phase := by
  have hk : mvlKernel X n S phase (List.replicate X.length n) = mslKernel X n S phase := by
    unfold mvlKernel mslKernel
    congr 1
    funext i l d
    by_cases hi : i < X.length
    · rw [aget_ok hi, aget_ok (by simpa using hi)]
      simp only [Res.bind_ok, List.getElem_replicate, Nat.min_self]
      rw [List.map_congr_left (g := id)]
      · simp
      · intro ch hch
        rw [List.take_of_length_le (by rw [hX _ (List.getElem_mem hi) ch hch])]; rfl
    · rw [aget_error (by omega)]; rfl
  unfold mvlApply mslApply
  rw [hk]

example : uvlApply exX exU false (List.replicate 2 5) = uslApply exX exU false :=
  C10_univariate exX 5 exU false (by simp [exX])

/-- The multivariate encoding of univariate shapelets: one channel each, channel 0. -/
def toMulti (S : UShp K) : MShp K where
  values := (List.range S.lengths.length).flatMap (uValues S)
  lengths := S.lengths
  dilations := S.dilations
  threshold := S.threshold
  normalize := S.normalize
  nChannels := List.replicate S.lengths.length 1
  channelIds := List.replicate S.lengths.length 0

theorem flatMap_range_block {α : Type} (f : Nat → List α) (len : Nat → Nat) (n k : Nat) (hk : k < n)
    (hf : ∀ j, j < n → (f j).length = len j) :
    ((((List.range n).flatMap f).drop ((List.range k).map len).sum).take (len k)) = f k := by
  have h1 : n = k + 1 + (n - (k + 1)) := by omega
  rw [h1, List.range_add, List.flatMap_append, List.range_succ, List.flatMap_append,
    List.append_assoc]
  have h2 : ((List.range k).flatMap f).length = ((List.range k).map len).sum := by
    rw [List.length_flatMap]
    congr 1
    apply List.map_congr_left
    intro j hj
    exact hf j (by have := List.mem_range.1 hj; omega)
  rw [← h2, List.drop_left]
  simp only [List.flatMap_singleton]
  rw [← hf k hk, List.take_left]

theorem uValues_length {S : UShp K} (hS : UWF S) {k : Nat} (hk : k < S.lengths.length) :
    (uValues S k).length = S.lengths.getD k 0 := by
  have := hS.room k hk
  rw [uValues, List.length_take]; omega

theorem toMulti_valOff (S : UShp K) (k : Nat) (hk : k ≤ S.lengths.length) :
    mValOff (toMulti S) k = ((List.range k).map fun j => S.lengths.getD j 0).sum := by
  unfold mValOff toMulti
  congr 1
  apply List.map_congr_left
  intro j hj
  have : j < S.lengths.length := by have := List.mem_range.1 hj; omega
  rw [getD_lt 0 (by simpa using this)]
  simp

theorem toMulti_wf {S : UShp K} (hS : UWF S) : MWF (toMulti S) 1 where
  dilations := hS.dilations
  threshold := hS.threshold
  normalize := hS.normalize
  nChannels := by simp [toMulti]
  pos := hS.pos
  values := by
    rw [show (toMulti S).lengths.length = S.lengths.length from rfl, toMulti_valOff S _ (le_refl _)]
    simp only [toMulti, List.length_flatMap]
    congr 1
    apply List.map_congr_left
    intro j hj
    exact uValues_length hS (List.mem_range.1 hj)
  channels := by simp [toMulti]
  range := by intro c hc; simp [toMulti] at hc; omega

/-- **C11.** On single-channel data the multivariate transform with single-channel shapelets returns
the univariate matrix.  The only arithmetic fact used is `0 + x = x`. -/
theorem C11_single_channel {X : List (List (List K))} {S : UShp K} (hS : UWF S) (nt : Nat)
    (phase : Bool) (h0 : ∀ x : K, 0 + x = x) (hX : ∀ x ∈ X, Rect x 1 nt)
    (hfit : ∀ k, k < S.lengths.length →
      Fits phase nt (S.lengths.getD k 0) (S.dilations.getD k 0)) :
    mslApply X nt (toMulti S) phase = uslApply X S phase := by
  have hlen1 : ∀ x ∈ X, (x.getD 0 []).length = nt := by
    intro x hx
    have h1 := (hX x hx).1
    rw [getD_lt _ (by omega)]
    exact (hX x hx).2 _ (List.getElem_mem _)
  rw [mslApply_ok (toMulti_wf hS) hX hfit, uslApply_ok hS]
  · congr 1
    apply List.map_congr_left
    intro x hx
    unfold mRow uRow
    rw [show (toMulti S).lengths.length = S.lengths.length from rfl]
    rw [List.flatMap_def, List.flatMap_def]
    congr 1
    apply List.map_congr_left
    intro k hk
    rw [List.mem_range] at hk
    congr 1
    have hoff : mChanOff (toMulti S) k = k := by
      simp [mChanOff, toMulti]; omega
    have hch : mChannels (toMulti S) k = [0] := by
      unfold mChannels
      rw [hoff]
      simp only [toMulti]
      rw [getD_lt 0 (by simpa using hk), List.getElem_replicate, List.drop_replicate,
        List.take_replicate, Nat.min_eq_left (by omega)]
      rfl
    have hval : mValues (toMulti S) k 0 = uValues S k := by
      unfold mValues
      rw [toMulti_valOff S k (by omega), Nat.zero_mul, Nat.add_zero]
      exact flatMap_range_block (uValues S) (fun j => S.lengths.getD j 0) _ k hk
        (fun j hj => uValues_length hS hj)
    have hdist : ∀ i, mDist phase (toMulti S) x k i =
        l1 (seen (S.normalize.getD k false) (window phase (x.getD 0 []) (S.lengths.getD k 0)
          (S.dilations.getD k 0) i)) (uValues S k) := by
      intro i
      unfold mDist
      rw [hch]
      simp only [List.length_singleton, List.range_one, List.foldl_cons, List.foldl_nil, h0]
      rw [hval]
      rfl
    unfold mFeatures uFeatures
    have : mDistances phase (toMulti S) x nt k = uDistances phase S (x.getD 0 []) k := by
      unfold mDistances uDistances distances
      rw [hlen1 x hx]
      apply List.map_congr_left
      intro i _
      exact hdist i
    rw [this]
    rfl
  · intro s hs hc
    have := (hX s hs).1
    rw [hc] at this; simp at this
  · intro s hs k hk
    rw [hlen1 s hs]; exact hfit k hk

/-- **C11** in exact arithmetic, on a concrete case. -/
example : mslApply exX 5 (toMulti exU) false = uslApply exX exU false := by
  refine C11_single_channel exU_wf 5 false (fun x => zero_add x) ?_ ?_
  · intro x hx
    simp only [exX, List.mem_cons, List.not_mem_nil, or_false] at hx
    rcases hx with rfl | rfl <;> exact ⟨rfl, by simp⟩
  · exact fun k hk => exX_fits [[0, 1, 2, 3, 4]] (by simp [exX]) k hk

/-! ## C33: distinct parameter combinations -/

/-- **C33.** For arrays of equal length `_combinations_1d` succeeds, and its result lists every
occurring pair exactly once, nothing else, in order of first occurrence. -/
theorem C33_combinations {x y : List Nat} (hxy : x.length = y.length) :
    ∃ r, combinations1d x y = .ok r ∧ r.Nodup ∧
      (∀ a b, (a, b) ∈ r ↔ ∃ i : Nat, x[i]? = some a ∧ y[i]? = some b) ∧
      r.Pairwise fun p q => (x.zip y).idxOf p < (x.zip y).idxOf q := by
  refine ⟨_, combinations1d_eq hxy, nodup_firstOcc _, ?_, ?_⟩
  swap
  · have h := firstOcc_pairwise (x.zip y)
    rwa [lawful_beq_subsingleton (instBEqOfDecidableEq (α := ℕ × ℕ)) instBEqProd] at h
  intro a b
  rw [mem_firstOcc]
  constructor
  · exact fun h => mem_zip_getElem? h
  · rintro ⟨i, h1, h2⟩
    obtain ⟨h3, h4⟩ := List.getElem?_eq_some_iff.1 h1
    obtain ⟨h5, h6⟩ := List.getElem?_eq_some_iff.1 h2
    rw [List.mem_iff_getElem]
    exact ⟨i, by simp; omega, by simp [h4, h6]⟩

example : combinations1d [3, 5, 3, 3] [1, 2, 1, 4] = .ok [(3, 1), (5, 2), (3, 4)] := by
  rw [combinations1d_eq (by rfl)]; rfl

end Convst.Props
