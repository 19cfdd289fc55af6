import Verif.Proofs.Missing
import Verif.Proofs.ObjectRows

/-!
# Series with missing values (C105)

`Nf` (`Verif/Model/Missing.lean`) is arithmetic with `NaN`; `MissingFeatures`, `Completes` and `Hit`
(`Verif/Spec/Missing.lean`) say what is expected.
-/

set_option autoImplicit false
set_option linter.unusedSectionVars false

namespace Convst.Props
open Convst Spec

variable {R : Type}

/-- An output row holds, for each of `n` shapelets, three cells with the property `P`. -/
def RowShows {K : Type} (row : List K) (n : Nat) (P : Nat → Feat K → Prop) : Prop :=
  row.length = 3 * n ∧ ∀ k, k < n → ∃ f : Feat K,
    row[3 * k]? = some f.1 ∧ row[3 * k + 1]? = some f.2.1 ∧ row[3 * k + 2]? = some f.2.2 ∧ P k f

theorem rowShows_flatMap {K : Type} [Scalar K] (g : Nat → Feat K) (n : Nat) {P : Nat → Feat K → Prop} (h : ∀ k, k < n → P k (g k)) :
    RowShows ((List.range n).flatMap fun k => cells (g k)) n P := by
  refine ⟨by rw [← cells_flatMap]; simp, fun k hk => ⟨g k, ?_, ?_, ?_, h k hk⟩⟩
  · simpa [cells] using row_cells g n k 0 hk (by omega)
  · simpa [cells] using row_cells g n k 1 hk (by omega)
  · simpa [cells] using row_cells g n k 2 hk (by omega)

theorem nWin_pos {phase : Bool} {T l d : Nat} (h : HasWindow phase T l d) : 0 < nWin phase T l d := by
  unfold nWin; unfold HasWindow at h
  cases phase <;> simp only [Bool.false_eq_true, if_false, if_true] at h ⊢ <;> omega

theorem uMissing (phase : Bool) (S : UShp ℝ) {x : List Nf} {z : List ℝ} (hz : Completes z x) {k : Nat}
    (h : HasWindow phase x.length (S.lengths.getD k 0) (S.dilations.getD k 0)) :
    MissingFeatures (uDistances phase S z k) (Hit phase x (S.lengths.getD k 0) (S.dilations.getD k 0))
      (S.threshold.getD k 0) (uFeatures phase S.nf x k) := by
  unfold uFeatures
  rw [uDistances_mask phase S hz, nf_threshold]
  refine features_mask ?_ (distances_nonneg _ _ _ _ _ _) _ _
  apply List.ne_nil_of_length_pos
  simp only [uDistances, distances, List.length_map, List.length_range]
  rw [hz.1]
  exact nWin_pos h

theorem mMissing (phase : Bool) (S : MShp ℝ) {x : List (List Nf)} {z : List (List ℝ)} {T : Nat}
    (hz : ∀ c, Completes (z.getD c []) (x.getD c [])) {k : Nat}
    (h : HasWindow phase T (S.lengths.getD k 0) (S.dilations.getD k 0)) :
    MissingFeatures (mDistances phase S z T k)
      (fun i => ∃ c ∈ mChannels S k, Hit phase (x.getD c []) (S.lengths.getD k 0) (S.dilations.getD k 0) i)
      (S.threshold.getD k 0) (mFeatures phase S.nf x T k) := by
  unfold mFeatures
  have e : S.nf.threshold.getD k 0 = Nf.num (S.threshold.getD k 0) := getD_map_num S.threshold k
  rw [mDistances_mask phase S hz, e]
  refine features_mask ?_ (mDistances_nonneg _ _ _ _ _) _ _
  apply List.ne_nil_of_length_pos
  simp only [mDistances, List.length_map, List.length_range]
  exact nWin_pos h

theorem nf_uwf {S : UShp ℝ} (h : UWF S) : UWF S.nf where
  values := by simpa [UShp.nf] using h.values
  dilations := h.dilations
  threshold := by simpa [UShp.nf] using h.threshold
  normalize := h.normalize
  pos := h.pos
  room := by
    intro k hk
    have := h.room k hk
    have hv : k < S.values.length := by rw [h.values]; exact hk
    show S.lengths.getD k 0 ≤ ((S.values.map fun v => v.map Nf.num).getD k []).length
    have e : (S.values.map fun v => v.map Nf.num).getD k [] = (S.values.getD k []).map Nf.num := by
      rw [getD_lt _ (by simpa using hv), getD_lt _ hv, List.getElem_map]
    rw [e, List.length_map]
    exact this

theorem nf_mwf {S : MShp ℝ} {nf : Nat} (h : MWF S nf) : MWF S.nf nf where
  dilations := h.dilations
  threshold := by simpa [MShp.nf] using h.threshold
  normalize := h.normalize
  nChannels := h.nChannels
  pos := h.pos
  values := by
    show (S.values.map Nf.num).length = _
    rw [List.length_map]; exact h.values
  channels := h.channels
  range := h.range

theorem hasWindow_of_lt {phase : Bool} {T l d : Nat} (h : (l - 1) * d < T) : HasWindow phase T l d := by
  unfold HasWindow
  cases phase
  · simpa using h
  · simp; omega

/-- **C105.** Univariate model, arrays.  `transform` never rejects missing values; the features of each series
are those of its available windows, except that the minimum and its position are `NaN` and 0 as soon as the
first window contains a missing value.  The conclusion does not depend on what the missing values are replaced
with in `z`. -/
theorem C105_univariate_array {o : Rdst Nf R} {S : UShp ℝ} (ht : o.transformType = .uni)
    (hS : o.shapelets = some (.u S.nf)) (hwf : UWF S) {dt : DType} {B : Arr3 Nf} (hB : (XIn.array dt B).WF)
    (hne : B.data ≠ []) (hnf : 1 ≤ B.nf) (hnt : 3 ≤ B.nt)
    (hk : ∀ k, k < S.lengths.length → (S.lengths.getD k 0 - 1) * S.dilations.getD k 0 < B.nt) :
    ∃ M, o.transform (.array dt B) = .ok M ∧ M.length = B.data.length ∧
      ∀ (i : Nat) s row, B.data[i]? = some s → M[i]? = some row → ∀ z, Completes z (s.getD 0 []) →
        RowShows row S.lengths.length fun k f =>
          MissingFeatures (uDistances o.phase S z k)
            (Hit o.phase (s.getD 0 []) (S.lengths.getD k 0) (S.dilations.getD k 0)) (S.threshold.getD k 0) f := by
  refine ⟨_, transform_array_uni ht hS (nf_uwf hwf) hB hne hnf hnt hk, by simp, ?_⟩
  intro i s row hs hrow z hz
  rw [List.getElem?_map, hs] at hrow
  cases hrow
  refine rowShows_flatMap _ _ fun k hkl => uMissing o.phase S hz (hasWindow_of_lt ?_)
  obtain ⟨h1, h2⟩ := hB s (List.mem_of_getElem? hs)
  have hs0 : 0 < s.length := by omega
  rw [h2 _ (by rw [getD_lt _ hs0]; exact List.getElem_mem hs0)]
  exact hk k hkl

/-- **C105.** Univariate model, lists of series of any lengths. -/
theorem C105_univariate_list {o : Rdst Nf R} {S : UShp ℝ} (ht : o.transformType = .uniVar)
    (hS : o.shapelets = some (.u S.nf)) (hwf : UWF S) {zs : List (Mat Nf)} (hz : ∀ z ∈ zs, z.WF) (hne : zs ≠ [])
    {nf : Nat} (hnf1 : 1 ≤ nf) (hnf : ∀ z ∈ zs, z.rows.length = nf) {m : Nat} (hm : 3 ≤ m)
    (hlen : ∀ z ∈ zs, m ≤ z.len)
    (hk : ∀ k, k < S.lengths.length → (S.lengths.getD k 0 - 1) * S.dilations.getD k 0 < m) :
    ∃ M, o.transform (.list zs) = .ok M ∧ M.length = zs.length ∧
      ∀ (i : Nat) s row, zs[i]? = some s → M[i]? = some row → ∀ z, Completes z (s.rows.getD 0 []) →
        RowShows row S.lengths.length fun k f =>
          MissingFeatures (uDistances o.phase S z k)
            (Hit o.phase (s.rows.getD 0 []) (S.lengths.getD k 0) (S.dilations.getD k 0))
            (S.threshold.getD k 0) f := by
  refine ⟨_, transform_list_uni ht hS (nf_uwf hwf) hz hne hnf1 hnf hm hlen hk, by simp, ?_⟩
  intro i s row hs hrow z hzc
  rw [List.getElem?_map, hs] at hrow
  cases hrow
  refine rowShows_flatMap _ _ fun k hkl => uMissing o.phase S hzc (hasWindow_of_lt ?_)
  have hmem := List.mem_of_getElem? hs
  have hs0 : 0 < s.rows.length := by rw [hnf s hmem]; omega
  rw [hz s hmem _ (by rw [getD_lt _ hs0]; exact List.getElem_mem hs0)]
  exact (hk k hkl).trans_le (hlen s hmem)

/-- **C105.** Multivariate model, arrays: a window is not available when one of the channels of the shapelet has a
missing value in it; missing values of other channels do not matter. -/
theorem C105_multivariate_array {o : Rdst Nf R} {S : MShp ℝ} (ht : o.transformType = .multi)
    (hS : o.shapelets = some (.m S.nf)) {dt : DType} {B : Arr3 Nf} (hwf : MWF S B.nf)
    (hB : (XIn.array dt B).WF) (hne : B.data ≠ []) (hnf : 1 ≤ B.nf) (hnt : 3 ≤ B.nt)
    (hk : ∀ k, k < S.lengths.length → (S.lengths.getD k 0 - 1) * S.dilations.getD k 0 < B.nt) :
    ∃ M, o.transform (.array dt B) = .ok M ∧ M.length = B.data.length ∧
      ∀ (i : Nat) s row, B.data[i]? = some s → M[i]? = some row →
        ∀ z : List (List ℝ), (∀ c, Completes (z.getD c []) (s.getD c [])) →
        RowShows row S.lengths.length fun k f =>
          MissingFeatures (mDistances o.phase S z B.nt k)
            (fun i => ∃ c ∈ mChannels S k,
              Hit o.phase (s.getD c []) (S.lengths.getD k 0) (S.dilations.getD k 0) i)
            (S.threshold.getD k 0) f := by
  refine ⟨_, transform_array_multi ht hS (nf_mwf hwf) hB hne hnf hnt hk, by simp, ?_⟩
  intro i s row hs hrow z hz
  rw [List.getElem?_map, hs] at hrow
  cases hrow
  exact rowShows_flatMap _ _ fun k hkl => mMissing o.phase S hz (hasWindow_of_lt (hk k hkl))

/-- **C105.** Multivariate model, lists of series of any lengths. -/
theorem C105_multivariate_list {o : Rdst Nf R} {S : MShp ℝ} (ht : o.transformType = .multiVar)
    (hS : o.shapelets = some (.m S.nf)) {nf : Nat} (hwf : MWF S nf) {zs : List (Mat Nf)} (hz : ∀ z ∈ zs, z.WF)
    (hne : zs ≠ []) (hnf1 : 1 ≤ nf) (hnf : ∀ z ∈ zs, z.rows.length = nf) {m : Nat} (hm : 3 ≤ m)
    (hlen : ∀ z ∈ zs, m ≤ z.len)
    (hk : ∀ k, k < S.lengths.length → (S.lengths.getD k 0 - 1) * S.dilations.getD k 0 < m) :
    ∃ M, o.transform (.list zs) = .ok M ∧ M.length = zs.length ∧
      ∀ (i : Nat) s row, zs[i]? = some s → M[i]? = some row →
        ∀ z : List (List ℝ), (∀ c, Completes (z.getD c []) (s.rows.getD c [])) →
        RowShows row S.lengths.length fun k f =>
          MissingFeatures (mDistances o.phase S z s.len k)
            (fun i => ∃ c ∈ mChannels S k,
              Hit o.phase (s.rows.getD c []) (S.lengths.getD k 0) (S.dilations.getD k 0) i)
            (S.threshold.getD k 0) f := by
  refine ⟨_, transform_list_multi ht hS (nf_mwf hwf) hz hne hnf1 hnf hm hlen hk, by simp, ?_⟩
  intro i s row hs hrow z hzc
  rw [List.getElem?_map, hs] at hrow
  cases hrow
  exact rowShows_flatMap _ _ fun k hkl =>
    mMissing o.phase S hzc (hasWindow_of_lt ((hk k hkl).trans_le (hlen s (List.mem_of_getElem? hs))))

/-- **C105.** When no window of the series is hit, the features are the ordinary ones: the specification above
contains the one of series without missing values (C05). -/
theorem C105_complete {D : List ℝ} {bad : Nat → Prop} {thr : ℝ} {f : Feat Nf} (h : MissingFeatures D bad thr f)
    (hb : ∀ i, ¬ bad i) {g : Feat ℝ} (hg : IsFeatures D thr g) :
    f = (.num g.1, .num g.2.1, .num g.2.2) := by
  obtain ⟨p, m, h1, h2, h3, -, h5, h6⟩ := h.least (hb 0)
  obtain ⟨⟨g1, g2⟩, ⟨q, hq, g3, g4⟩, g5⟩ := hg
  have hm : m = g.1 := by
    apply le_antisymm
    · exact h5 q g.1 g3 (hb q)
    · exact g2 m (List.mem_of_getElem? h3)
  have hp : p = q := by
    rcases lt_trichotomy p q with hlt | he | hlt
    · exact absurd (g4 p m hlt h3) (by rw [hm]; exact lt_irrefl _)
    · exact he
    · exact absurd (h6 q g.1 hlt g3 (hb q)) (by rw [hm]; exact lt_irrefl _)
  have hc := h.count
  obtain ⟨f1, f2, f3⟩ := f
  simp only at h1 h2 hc
  subst h1 h2 hc
  rw [hm, hp, hq, g5]
  congr 3
  simp only [hb, not_false_iff, true_and]
  have : D = (List.range D.length).map fun i => D.getD i 0 := by
    apply List.ext_getElem
    · simp
    · intro i h1 h2
      rw [List.getElem_map, List.getElem_range, getD_lt _ h1]
  conv_rhs => rw [this, List.countP_map, countP_eq_card]
  congr 2
  apply Finset.filter_congr
  intro i _
  simp

/-- **C105.** A shapelet which itself contains a missing value gives the features `NaN`, 0 and 0 on every series
offering a window, whatever its threshold. -/
theorem C105_missing_in_shapelet (phase : Bool) (S : UShp Nf) (x : List Nf) {k : Nat}
    (hw : HasWindow phase x.length (S.lengths.getD k 0) (S.dilations.getD k 0))
    (hv : Nf.nan ∈ uValues S k) :
    uFeatures phase S x k = (.nan, .num 0, .num 0) := by
  have hD : uDistances phase S x k =
      List.replicate (nWin phase x.length (S.lengths.getD k 0) (S.dilations.getD k 0)) .nan := by
    unfold uDistances distances
    rw [← List.length_range (n := nWin phase x.length (S.lengths.getD k 0) (S.dilations.getD k 0)),
      ← List.map_const', List.length_range]
    apply List.map_congr_left
    intro i _
    obtain ⟨j, hj, e⟩ := List.getElem_of_mem hv
    apply l1_nan_right
    refine ⟨j, ?_, by rw [List.getElem?_eq_getElem hj, e]⟩
    rw [seen_length]
    simp only [window, List.length_map, List.length_range]
    exact hj.trans_le (by simp [uValues])
  have hpos := nWin_pos hw
  unfold uFeatures features
  rw [hD]
  obtain ⟨n, hn⟩ : ∃ n, nWin phase x.length (S.lengths.getD k 0) (S.dilations.getD k 0) = n + 1 :=
    ⟨_, (Nat.succ_pred_eq_of_pos hpos).symm⟩
  rw [hn, List.replicate_succ]
  have hinit : Scalar.eqb (-1 : Nf) (-1) = true := by
    show Scalar.eqb (Nf.num (-1)) (-1 : Nf) = true
    rw [eqb_num]; simp
  have hs : scanMin (Nf.nan :: List.replicate n .nan) 0 (-1) 0 = ((.nan, 0) : Nf × Nat) := by
    rw [scanMin, hinit]; simp [scanMin_nan]
  have hcnt : (Nf.nan :: List.replicate n Nf.nan).countP
      (fun x => Scalar.leb x (S.threshold.getD k 0)) = 0 := by
    rw [List.countP_eq_zero]
    intro a ha
    have : a = .nan := by
      rcases List.mem_cons.1 ha with h | h
      · exact h
      · exact (List.mem_replicate.1 h).2
    subst this
    rw [show Scalar.leb Nf.nan (S.threshold.getD k 0) = false from rfl]
    simp
  rw [hs, hcnt]
  simp [Scalar.ofNat]

/-! ## A concrete case, and the position of the missing value -/

/-- One shapelet `1, 2` of dilation 1, threshold 1/2. -/
noncomputable def missU : UShp ℝ := ⟨[[1, 2]], [2], [1], [1 / 2], [false]⟩

theorem missU_wf : UWF missU where
  values := rfl
  dilations := rfl
  threshold := rfl
  normalize := rfl
  pos := by intro k hk; simp [missU] at hk; subst hk; simp [missU]
  room := by intro k hk; simp [missU] at hk; subst hk; simp [missU]

/-- The same recording with its first, respectively its last value missing. -/
def missX : Arr3 Nf := ⟨[[[.nan, .num 1, .num 2, .num 4]], [[.num 1, .num 2, .num 4, .nan]]], 1, 4⟩

theorem missX_wf : (XIn.array DType.float64 missX).WF := by
  intro s hs
  simp only [missX, List.mem_cons, List.not_mem_nil, or_false] at hs
  rcases hs with rfl | rfl <;> exact ⟨rfl, by intro r hr; simp at hr; subst hr; rfl⟩

example {o : Rdst Nf R} (ht : o.transformType = .uni) (hS : o.shapelets = some (.u missU.nf)) :
    ∃ M, o.transform (.array .float64 missX) = .ok M ∧ M.length = 2 := by
  obtain ⟨M, h1, h2, -⟩ := C105_univariate_array ht hS missU_wf missX_wf (by simp [missX]) (by simp [missX])
    (by simp [missX]) (by intro k hk; simp [missU] at hk; subst hk; simp [missU, missX])
  exact ⟨M, h1, h2⟩

/-- **C105** (violated expectation).  Where the missing value is decides whether the series can be used: the two
series contain the shapelet exactly once, at distance 0, and have one missing value each outside of it.  At the
end of the series it is ignored (distance 0 is reported); at the beginning the distance is `NaN` and the position 0,
although the match is still counted. -/
theorem C105_first_value_matters (o : Rdst Nf R) (ht : o.transformType = .uni) (hph : o.phase = false)
    (hS : o.shapelets = some (.u missU.nf)) :
    o.transform (.array .float64 missX) = .ok [[.nan, .num 0, .num 1], [.num 0, .num 0, .num 1]] := by
  have h := transform_array_uni ht hS (nf_uwf missU_wf) missX_wf (by simp [missX]) (by simp [missX])
    (by simp [missX]) (by intro k hk; simp [missU, UShp.nf] at hk; subst hk; simp [missU, missX, UShp.nf])
  rw [h, hph]
  have e1 : uDistances false missU.nf [.nan, .num 1, .num 2, .num 4] 0 = [.nan, .num 0, .num 3] := by
    simp only [uDistances, distances, nWin, missU, UShp.nf, uValues, window, seen, l1, pos]
    simp [List.range_succ, nf_zero, nf_add, nf_sub, nf_abs, nf_nan_sub, nf_abs_nan, nf_add_nan, nf_nan_add]
    norm_num
  have e2 : uDistances false missU.nf [.num 1, .num 2, .num 4, .nan] 0 = [.num 0, .num 3, .nan] := by
    simp only [uDistances, distances, nWin, missU, UShp.nf, uValues, window, seen, l1, pos]
    simp [List.range_succ, nf_zero, nf_add, nf_sub, nf_abs, nf_nan_sub, nf_abs_nan, nf_add_nan]
    norm_num
  have et : missU.nf.threshold.getD 0 0 = .num (1 / 2) := rfl
  have hinit : Scalar.eqb (-1 : Nf) (-1) = true := by
    show Scalar.eqb (Nf.num (-1)) (-1 : Nf) = true
    rw [eqb_num]; simp
  have f1 : uFeatures false missU.nf [.nan, .num 1, .num 2, .num 4] 0 = (.nan, .num 0, .num 1) := by
    unfold uFeatures features
    rw [e1, et, scanMin, hinit]
    simp [scanMin_nan, leb_num, show Scalar.leb Nf.nan (Nf.num 2⁻¹) = false from rfl, Scalar.ofNat]
    norm_num
  have f2 : uFeatures false missU.nf [.num 1, .num 2, .num 4, .nan] 0 = (.num 0, .num 0, .num 1) := by
    unfold uFeatures features
    rw [e2, et]
    simp [scanMin, hinit, ltb_num, eqb_num, leb_num, show Scalar.leb Nf.nan (Nf.num 2⁻¹) = false from rfl,
      show Scalar.ltb Nf.nan (Nf.num 0) = false from rfl, Scalar.ofNat]
    norm_num
  have hl : missU.nf.lengths.length = 1 := rfl
  simp only [missX, List.map_cons, List.map_nil, uRow, hl, List.range_one, List.flatMap_cons, List.flatMap_nil,
    List.append_nil, List.getD_cons_zero, f1, f2, cells]

end Convst.Props
