import Verif.Props.Reads
import Verif.Props.Stability
import Verif.Props.Variants
import Verif.Spec.PhaseSwitch

/-!
# C135: phase invariance only adds windows
-/

set_option autoImplicit false
set_option linter.unusedSectionVars false

namespace Convst.Props
open Convst Spec

section
variable {K R : Type} [Scalar K]

theorem window_unwrapped (x : List K) {l d i : Nat} (hi : i < nWin false x.length l d) :
    window true x l d i = window false x l d i := by
  unfold window
  apply List.map_congr_left
  intro j hj
  rw [List.mem_range] at hj
  simp only [pos, Bool.false_eq_true, if_false, if_true, nWin] at hi ⊢
  have h1 : j * d ≤ (l - 1) * d := Nat.mul_le_mul_right d (by omega)
  rw [Nat.mod_eq_of_lt (by omega)]

theorem range_prefix {T s : Nat} (hs : s ≤ T) (g g' : Nat → K) (h : ∀ i, i < T - s → g i = g' i) :
    ∃ F : List K, F.length = s ∧ (List.range T).map g = (List.range (T - s)).map g' ++ F := by
  refine ⟨(List.range s).map fun i => g (T - s + i), by simp, ?_⟩
  have e : T = (T - s) + s := by omega
  conv_lhs => rw [e]
  rw [List.range_add, List.map_append, List.map_map]
  congr 1
  apply List.map_congr_left
  intro i hi
  exact h i (List.mem_range.1 hi)

/-- **C135.** In any arithmetic the distances computed with phase invariance are those computed without it, followed by as
many others as the span of the shapelet has points after the first. -/
theorem C135_distances {S : Shapelets K} {nf : Nat} (hnf : 1 ≤ nf) (hwf : ShpWF S nf) {x : Mat K}
    (hx : x.WF ∧ x.rows.length = nf) {k : Nat} (hfit : (lengthOf S k - 1) * dilationOf S k ≤ x.len) :
    ∃ F : List K, F.length = (lengthOf S k - 1) * dilationOf S k ∧
      allDistances true S x.rows x.len k = allDistances false S x.rows x.len k ++ F := by
  cases S with
  | u S =>
    have e : (x.rows.getD 0 []).length = x.len := mat_row_length hx.1 (by omega)
    simp only [lengthOf, dilationOf] at hfit ⊢
    simp only [allDistances, uDistances, distances, nWin, Bool.false_eq_true, if_false, if_true, e]
    refine range_prefix hfit _ _ fun i hi => ?_
    rw [window_unwrapped]
    simpa only [nWin, Bool.false_eq_true, if_false, e] using hi
  | m S =>
    simp only [lengthOf, dilationOf] at hfit ⊢
    simp only [allDistances, mDistances, nWin, Bool.false_eq_true, if_false, if_true]
    refine range_prefix hfit _ _ fun i hi => ?_
    unfold mDist
    apply List.foldl_ext
    intro s c hc
    have hc' := List.mem_range.1 hc
    have hmem : (mChannels S k).getD c 0 ∈ mChannels S k := by
      rw [List.getD_eq_getElem?_getD, List.getElem?_eq_getElem hc']
      exact List.getElem_mem hc'
    have hr : (mChannels S k).getD c 0 < nf :=
      MWF.range hwf _ (List.mem_of_mem_drop (List.mem_of_mem_take hmem))
    have e := mat_row_length hx.1 (c := (mChannels S k).getD c 0) (by omega)
    rw [window_unwrapped]
    simpa only [nWin, Bool.false_eq_true, if_false, e] using hi

/-- **C135.** Switching phase invariance on never makes `transform` fail on data it accepted; in any arithmetic. -/
theorem C135_accepts {o : Rdst K R} {S : Shapelets K} (hS : o.shapelets = some S) {nf : Nat} (hwf : ShpWF S nf) {X : XIn K}
    (hX : X.WF) {xs : List (Mat K)} (hxs : samples X = .ok xs) (hnf : ∀ x ∈ xs, x.rows.length = nf) {M : List (List K)}
    (h : o.transform X = .ok M) : ∃ M', ({ o with phase := true } : Rdst K R).transform X = .ok M' := by
  unfold Rdst.transform at h ⊢
  rw [hS] at h
  simp only [hS] at h ⊢
  split at h
  · rename_i hty
    rw [if_pos hty]
    rw [Res.bind_eq_ok] at h
    obtain ⟨⟨A, lens⟩, hf, h⟩ := h
    simp only at h
    rw [Res.bind_eq_ok] at h
    obtain ⟨Y, hY, h⟩ := h
    obtain ⟨-, hnf0, -⟩ := checkArray3D_py hY
    obtain ⟨hne, hdata, rfl, hrows, hlen⟩ := formatUneven_samples hf hxs
    have hw := samples_wf hX hxs
    have hl : A.data.length = xs.length := by rw [hdata]; simp
    simp only [hf, hY, Res.bind_ok]
    split at h
    · rename_i S' _
      have hA : ∀ s ∈ A.data, s ≠ [] := by
        intro s hs
        rw [hdata] at hs
        obtain ⟨z, hz, rfl⟩ := List.mem_map.1 hs
        have := hrows z hz
        apply List.ne_nil_of_length_pos
        rw [List.length_map]; omega
      exact ⟨_, (uvlApply_ok_iff hwf hA (by simp [hl])).2 ⟨fun _ _ _ _ => .inl rfl, rfl⟩⟩
    · rename_i S' _
      have hnfA : nf = A.nf := by
        obtain ⟨z, hz⟩ := List.exists_mem_of_ne_nil _ hne
        rw [← hnf z hz, hrows z hz]
      subst hnfA
      have hA : ∀ s ∈ A.data, Rect s A.nf A.nt := by
        intro s hs
        rw [hdata] at hs
        obtain ⟨z, hz, rfl⟩ := List.mem_map.1 hs
        refine ⟨by rw [List.length_map]; exact hrows z hz, ?_⟩
        intro r hr
        obtain ⟨r', hr', rfl⟩ := List.mem_map.1 hr
        have e1 := hw z hz r' hr'
        have e2 := hlen z hz
        simp only [padRow, List.length_append, List.length_replicate]
        omega
      exact ⟨_, (mvlApply_ok_iff hwf hA (by simp [hl])).2 ⟨fun _ _ _ _ => .inl rfl, rfl⟩⟩
    · cases h
  · rename_i hty
    rw [if_neg hty]
    rw [Res.bind_eq_ok] at h
    obtain ⟨A, hA, h⟩ := h
    obtain ⟨hs, hnf0, -, hne, hrect⟩ := toArr3_samples hX hA
    rw [hs, Except.ok.injEq] at hxs
    subst hxs
    simp only [hA, Res.bind_ok]
    split at h
    · rename_i S' _
      have hA' : ∀ s ∈ A.data, s ≠ [] := by
        intro s hs
        apply List.ne_nil_of_length_pos
        rw [(hrect s hs).1]; exact hnf0
      exact ⟨_, (uslApply_ok_iff hwf hA').2 ⟨fun _ _ _ _ => .inl rfl, rfl⟩⟩
    · rename_i S' _
      have hnfA : nf = A.nf := by
        obtain ⟨z, hz⟩ := List.exists_mem_of_ne_nil _ hne
        rw [← hnf ⟨z, A.nt⟩ (List.mem_map.2 ⟨z, hz, rfl⟩)]
        exact (hrect z hz).1
      subst hnfA
      exact ⟨_, (mslApply_ok_iff hwf hrect hne).2 ⟨fun _ _ => .inl rfl, rfl⟩⟩
    · cases h

theorem objRow_phases (S : Shapelets K) {k : Nat} (hk : k < numShapelets S) :
    ∃ thr : K, ∀ (phase : Bool) (x : Mat K),
      (objRow phase S x)[3 * k]? = some (features (allDistances phase S x.rows x.len k) thr).1 ∧
      (objRow phase S x)[3 * k + 1]? = some (features (allDistances phase S x.rows x.len k) thr).2.1 ∧
      (objRow phase S x)[3 * k + 2]? = some (features (allDistances phase S x.rows x.len k) thr).2.2 := by
  cases S with
  | u S =>
    refine ⟨S.threshold.getD k 0, fun phase x => ⟨?_, ?_, ?_⟩⟩
    · exact row_cells (fun k => uFeatures phase S (x.rows.getD 0 []) k) S.lengths.length k 0 hk (by omega)
    · exact row_cells (fun k => uFeatures phase S (x.rows.getD 0 []) k) S.lengths.length k 1 hk (by omega)
    · exact row_cells (fun k => uFeatures phase S (x.rows.getD 0 []) k) S.lengths.length k 2 hk (by omega)
  | m S =>
    refine ⟨S.threshold.getD k 0, fun phase x => ⟨?_, ?_, ?_⟩⟩
    · exact row_cells (fun k => mFeatures phase S x.rows x.len k) S.lengths.length k 0 hk (by omega)
    · exact row_cells (fun k => mFeatures phase S x.rows x.len k) S.lengths.length k 1 hk (by omega)
    · exact row_cells (fun k => mFeatures phase S x.rows x.len k) S.lengths.length k 2 hk (by omega)

/-- **C135.** A shapelet of one value, or with dilation 0, has the same features with and without phase invariance; in any
arithmetic. -/
theorem C135_no_span {o : Rdst K R} (hph : o.phase = false) {S : Shapelets K} (hS : o.shapelets = some S) {nf : Nat}
    (hnf : 1 ≤ nf) (hwf : ShpWF S nf) {X : XIn K} (hX : X.WF) {xs : List (Mat K)} (hxs : samples X = .ok xs)
    (hn : ∀ x ∈ xs, x.rows.length = nf) {M M' : List (List K)} (h : o.transform X = .ok M)
    (h' : ({ o with phase := true } : Rdst K R).transform X = .ok M') :
    ∀ (i : Nat) row row', M[i]? = some row → M'[i]? = some row' →
      ∀ k, k < numShapelets S → (lengthOf S k - 1) * dilationOf S k = 0 → SameThree k row row' := by
  intro i row row' hr hr' k hk h0
  obtain ⟨e, -⟩ := transform_rows hS hwf hX hxs hn h
  obtain ⟨e', -⟩ := transform_rows (o := { o with phase := true }) hS hwf hX hxs hn h'
  rw [e, List.getElem?_map, Option.map_eq_some_iff] at hr
  obtain ⟨x, hi, rfl⟩ := hr
  rw [e', List.getElem?_map, hi, Option.map_some, Option.some.injEq] at hr'
  rw [← hr', hph]
  have m := List.mem_of_getElem? hi
  obtain ⟨F, hF, hD⟩ := C135_distances hnf hwf ⟨samples_wf hX hxs x m, hn x m⟩ (k := k) (by rw [h0]; omega)
  rw [h0, List.length_eq_zero_iff] at hF
  rw [hF, List.append_nil] at hD
  obtain ⟨thr, ht⟩ := objRow_phases S hk
  obtain ⟨a1, a2, a3⟩ := ht false x
  obtain ⟨b1, b2, b3⟩ := ht true x
  rw [hD] at b1 b2 b3
  exact ⟨_, a1, a2, a3, b1, b2, b3⟩

end

section
variable {R : Type}

theorem allDistances_nonneg (phase : Bool) (S : Shapelets ℝ) (s : List (List ℝ)) (T k : Nat) :
    ∀ v ∈ allDistances phase S s T k, 0 ≤ v := by
  have := shpDistances_nonneg phase S s T k
  cases S <;> exact this

theorem allDistances_len {phase : Bool} {S : Shapelets ℝ} {nf : Nat} (hnf : 1 ≤ nf) {x : Mat ℝ}
    (hx : x.WF ∧ x.rows.length = nf) (k : Nat) :
    (allDistances phase S x.rows x.len k).length = nWin phase x.len (lengthOf S k) (dilationOf S k) := by
  cases S with
  | u S =>
    have e : (x.rows.getD 0 []).length = x.len := mat_row_length hx.1 (by omega)
    simp only [allDistances, uDistances, distances, e, lengthOf, dilationOf, List.length_map, List.length_range]
  | m S => simp [allDistances, mDistances, lengthOf, dilationOf]

/-- **C135.** `transform` of one fitted object before and after `phase_invariance` is switched on, on any batch of series that
are longer than the spans of the shapelets. -/
theorem C135_transform {o : Rdst ℝ R} (hph : o.phase = false) {S : Shapelets ℝ} (hS : o.shapelets = some S) {nf : Nat}
    (hnf : 1 ≤ nf) (hwf : ShpWF S nf) {X : XIn ℝ} (hX : X.WF) {xs : List (Mat ℝ)} (hxs : samples X = .ok xs)
    (hn : ∀ x ∈ xs, x.rows.length = nf) {M M' : List (List ℝ)} (h : o.transform X = .ok M)
    (h' : ({ o with phase := true } : Rdst ℝ R).transform X = .ok M') :
    ∀ (i : Nat) x row row', xs[i]? = some x → M[i]? = some row → M'[i]? = some row' →
      ∀ k, k < numShapelets S → (lengthOf S k - 1) * dilationOf S k < x.len →
        PhaseAddsAt x.len ((lengthOf S k - 1) * dilationOf S k) k row row' := by
  intro i x row row' hi hr hr' k hk hlt
  obtain ⟨e, -⟩ := transform_rows hS hwf hX hxs hn h
  obtain ⟨e', -⟩ := transform_rows (o := { o with phase := true }) hS hwf hX hxs hn h'
  rw [e, List.getElem?_map, hi, Option.map_some, Option.some.injEq] at hr
  rw [e', List.getElem?_map, hi, Option.map_some, Option.some.injEq] at hr'
  rw [← hr, ← hr', hph]
  have m := List.mem_of_getElem? hi
  have hx := And.intro (samples_wf hX hxs x m) (hn x m)
  obtain ⟨F, hF, hD⟩ := C135_distances hnf hwf hx (k := k) hlt.le
  have hlen := allDistances_len (phase := false) (S := S) hnf hx k
  have hlenT := allDistances_len (phase := true) (S := S) hnf hx k
  simp only [nWin, Bool.false_eq_true, if_false, if_true] at hlen hlenT
  have hne : allDistances false S x.rows x.len k ≠ [] := by
    apply List.ne_nil_of_length_pos
    omega
  have hall := allDistances_nonneg true S x.rows x.len k
  have hneT : allDistances true S x.rows x.len k ≠ [] := by
    apply List.ne_nil_of_length_pos
    omega
  obtain ⟨thr, ht⟩ := objRow_phases S hk
  obtain ⟨a1, a2, a3⟩ := ht false x
  obtain ⟨b1, b2, b3⟩ := ht true x
  obtain ⟨-, ⟨p, p1, p2, -⟩, -⟩ := features_isFeatures (thr := thr) hneT hall
  rw [hD] at hall
  obtain ⟨i, i', c, c', h1, h2, h3, h4, h5, h6, h7, h8, h9⟩ := features_grow (thr := thr) hne
    (allDistances_nonneg _ _ _ _ _) (E := []) (F := F) (by simp) (fun v hv => hall v (by simp [hv]))
  rw [List.nil_append, ← hD] at h2 h4 h5 h8 h9
  have hp : p = i' := by exact_mod_cast p1.symm.trans h2
  have hpl := (List.getElem?_eq_some_iff.1 p2).1
  rw [h1] at a2
  rw [h3] at a3
  rw [h2] at b2
  rw [h4] at b3
  refine ⟨_, _, i, i', c, c', a1, a2, a3, b1, b2, b3, h6, by simpa [hF] using h7, ?_⟩
  rcases lt_or_eq_of_le h5 with hlt' | heq
  · right
    refine ⟨hlt', ?_, by omega⟩
    have := h9 hlt'
    simp only [List.length_nil] at this
    omega
  · exact .inl ⟨heq, (h8 heq).2 rfl⟩

end

/-! ## A concrete case -/

theorem exSecond_spans (T : Nat) (hT : 3 ≤ T) : ∀ k, k < numShapelets (.m exSecond) → spanOf (.m exSecond) k < T := by
  intro k hk
  simp only [numShapelets, exSecond, List.length_singleton, Nat.lt_one_iff] at hk
  subst hk
  simp only [spanOf, exSecond, List.getD_cons_zero]
  omega

/-- The shapelet `0, 1, 3` is found exactly at the end of `1, 3, 2, 0` continued by its beginning. -/
example : allDistances false (.m exSecond) [[0, 0, 0, 0], [1, 3, 2, 0]] 4 0 = [4, 7] ∧
    allDistances true (.m exSecond) [[0, 0, 0, 0], [1, 3, 2, 0]] 4 0 = [4, 7, 5, 0] := by
  constructor
  · simp [allDistances, mDistances, mDist, exSecond, nWin, window, pos, mChannels, mChanOff, seen, l1, mValues, mValOff, List.range_succ]
    norm_num
  · simp [allDistances, mDistances, mDist, exSecond, nWin, window, pos, mChannels, mChanOff, seen, l1, mValues, mValOff, List.range_succ]
    norm_num

/-- The hypotheses of `C135_transform` are met. -/
example : ∃ M M',
    exSecondObj.transform (.array .float64 ⟨[[[0, 0, 0, 0], [1, 3, 2, 0]]], 2, 4⟩) = .ok M ∧
    ({ exSecondObj with phase := true } : Rdst ℝ Nat).transform (.array .float64 ⟨[[[0, 0, 0, 0], [1, 3, 2, 0]]], 2, 4⟩) = .ok M' ∧
    ∀ row row', M[0]? = some row → M'[0]? = some row' → PhaseAddsAt 4 2 0 row row' := by
  obtain ⟨-, h⟩ := held_accept (o := exSecondObj) (S := .m exSecond) rfl (nf := 2) (by norm_num) exSecond_wf (Or.inl rfl)
    (xs := [⟨[[0, 0, 0, 0], [1, 3, 2, 0]], 4⟩]) (by simp) (by simp [Mat.WF]) (T := 4) (by norm_num) (by simp)
    (exSecond_spans 4 (by norm_num))
  obtain ⟨M, hM⟩ := h (Or.inr rfl) (by simp) .float64
  have hX : (XIn.array DType.float64 (⟨[[[0, 0, 0, 0], [1, 3, 2, 0]]], 2, 4⟩ : Arr3 ℝ)).WF := by
    intro s hs
    rw [List.mem_singleton.1 hs]
    simp
  obtain ⟨M', hM'⟩ := C135_accepts (o := exSecondObj) (S := .m exSecond) rfl (nf := 2) exSecond_wf hX
    (xs := [⟨[[0, 0, 0, 0], [1, 3, 2, 0]], 4⟩]) rfl (by simp) hM
  refine ⟨M, M', hM, hM', fun row row' hr hr' => ?_⟩
  have := C135_transform (o := exSecondObj) rfl (S := .m exSecond) rfl (nf := 2) (by norm_num) exSecond_wf hX
    (xs := [⟨[[0, 0, 0, 0], [1, 3, 2, 0]], 4⟩]) rfl (by simp) hM hM' 0 _ row row' rfl hr hr' 0
    (by simp [numShapelets, exSecond]) (by simp [lengthOf, dilationOf, exSecond])
  simpa [lengthOf, dilationOf, exSecond] using this

/-- A shapelet of one value. -/
noncomputable def exDot : UShp ℝ := ⟨[[3]], [1], [2], [1], [false]⟩

theorem exDot_wf : UWF exDot where
  values := rfl
  dilations := rfl
  threshold := rfl
  normalize := rfl
  pos := by intro k hk; simp [exDot] at hk; subst hk; simp [exDot]
  room := by intro k hk; simp [exDot] at hk; subst hk; simp [exDot]

noncomputable def exDotObj : Rdst ℝ Nat := { exFl.exact with transformType := .uni, shapelets := some (.u exDot) }

/-- The hypotheses of `C135_no_span` are met. -/
example : ∃ M M', exDotObj.transform (.array .float64 ⟨[[[1, 3, 2, 0]]], 1, 4⟩) = .ok M ∧
    ({ exDotObj with phase := true } : Rdst ℝ Nat).transform (.array .float64 ⟨[[[1, 3, 2, 0]]], 1, 4⟩) = .ok M' ∧
    ∀ row row', M[0]? = some row → M'[0]? = some row' → SameThree 0 row row' := by
  have hs : ∀ k, k < numShapelets (.u exDot) → spanOf (.u exDot) k < 4 := by
    intro k hk
    simp only [numShapelets, exDot, List.length_singleton, Nat.lt_one_iff] at hk
    subst hk
    simp [spanOf, exDot]
  obtain ⟨-, h⟩ := held_accept (o := exDotObj) (S := .u exDot) rfl (nf := 1) (by norm_num) exDot_wf (Or.inl rfl)
    (xs := [⟨[[1, 3, 2, 0]], 4⟩]) (by simp) (by simp [Mat.WF]) (T := 4) (by norm_num) (by simp) hs
  obtain ⟨-, h'⟩ := held_accept (o := { exDotObj with phase := true }) (S := .u exDot) rfl (nf := 1) (by norm_num) exDot_wf
    (Or.inl rfl) (xs := [⟨[[1, 3, 2, 0]], 4⟩]) (by simp) (by simp [Mat.WF]) (T := 4) (by norm_num) (by simp) hs
  obtain ⟨M, hM⟩ := h (Or.inl rfl) (by simp) .float64
  obtain ⟨M', hM'⟩ := h' (Or.inl rfl) (by simp) .float64
  refine ⟨M, M', hM, hM', fun row row' hr hr' => ?_⟩
  have hX : (XIn.array DType.float64 (⟨[[[1, 3, 2, 0]]], 1, 4⟩ : Arr3 ℝ)).WF := by
    intro s hs
    rw [List.mem_singleton.1 hs]
    simp
  exact C135_no_span (o := exDotObj) rfl (S := .u exDot) rfl (nf := 1) (by norm_num) exDot_wf hX
    (xs := [⟨[[1, 3, 2, 0]], 4⟩]) rfl (by simp) hM hM' 0 row row' hr hr' 0
    (by simp [numShapelets, exDot]) (by simp [lengthOf, dilationOf, exDot])

end Convst.Props
