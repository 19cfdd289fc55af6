import Verif.Props.HoldRidge
import Verif.Props.RoundedRidge
import Verif.Spec.Reads

/-!
# C134: the values of a series the features depend on
-/

set_option autoImplicit false
set_option linter.unusedSectionVars false

namespace Convst.Props
open Convst Spec

/-! ## Which points are read -/

/-- **C134.** With phase invariance every point is read. -/
theorem C134_points_wrapped {T l : Nat} (hl : 1 ≤ l) (d : Nat) {p : Nat} (hp : p < T) : PointRead true T l d p :=
  ⟨p, 0, by simpa [nWin] using hp, hl, by simp [pos, Nat.mod_eq_of_lt hp]⟩

/-- **C134.** Without it, value `j` of the shapelet meets the points from `j d` on, as many as there are windows. -/
theorem C134_points (T l d p : Nat) :
    PointRead false T l d p ↔ ∃ j, j < l ∧ j * d ≤ p ∧ p < j * d + (T - (l - 1) * d) := by
  constructor
  · rintro ⟨i, j, hi, hj, rfl⟩
    simp only [nWin, pos, Bool.false_eq_true, if_false] at hi ⊢
    exact ⟨j, hj, by omega, by omega⟩
  · rintro ⟨j, hj, h1, h2⟩
    exact ⟨p - j * d, j, by simp only [nWin, Bool.false_eq_true, if_false]; omega, hj, by
      simp only [pos, Bool.false_eq_true, if_false]; omega⟩

/-- **C134.** Without phase invariance, a shapelet that fits reads every point exactly if it has one value only or if
length times dilation is at most the number of points.  Otherwise some points are never looked at. -/
theorem C134_all_points {T l d : Nat} (hl : 1 ≤ l) (hfit : (l - 1) * d < T) :
    (∀ p, p < T → PointRead false T l d p) ↔ l = 1 ∨ l * d ≤ T := by
  obtain ⟨m, rfl⟩ : ∃ m, l = m + 1 := ⟨l - 1, by omega⟩
  rw [Nat.add_sub_cancel] at hfit
  simp only [C134_points, Nat.add_sub_cancel]
  have hs : (m + 1) * d = m * d + d := Nat.succ_mul m d
  constructor
  · intro h
    by_contra hc
    rw [not_or, not_le] at hc
    obtain ⟨h1, h2⟩ := hc
    obtain ⟨n, rfl⟩ : ∃ n, m = n + 1 := ⟨m - 1, by omega⟩
    have hs' : (n + 1) * d = n * d + d := Nat.succ_mul n d
    obtain ⟨j, -, hj1, hj2⟩ := h (T - (n + 1) * d) (by omega)
    rcases j with _ | j
    · omega
    · have : (j + 1) * d = j * d + d := Nat.succ_mul j d
      omega
  · intro h p hp
    rcases Nat.eq_zero_or_pos d with rfl | hd
    · exact ⟨0, by omega, by omega, by simpa using hp⟩
    · rcases h with h | h
      · obtain rfl : m = 0 := by omega
        exact ⟨0, by omega, by omega, by simpa using hp⟩
      · rcases Nat.lt_or_ge (p / d) (m + 1) with hq | hq
        · have e := Nat.div_add_mod p d
          have hm := Nat.mod_lt p hd
          rw [Nat.mul_comm] at e
          exact ⟨p / d, hq, by omega, by omega⟩
        · have := (Nat.le_div_iff_mul_le hd).1 hq
          exact ⟨m, by omega, by omega, by omega⟩

/-! ## The features depend on these points only -/

section
variable {K R : Type} [Scalar K]

theorem window_same {phase : Bool} {x x' : List K} {l d i : Nat} (hl : x'.length = x.length)
    (h : ∀ j, j < l → x'[pos phase x.length d i j]? = x[pos phase x.length d i j]?) :
    window phase x' l d i = window phase x l d i := by
  unfold window
  rw [hl]
  apply List.map_congr_left
  intro j hj
  rw [List.getD_eq_getElem?_getD, List.getD_eq_getElem?_getD, h j (List.mem_range.1 hj)]

theorem mat_row_length {x : Mat K} (hx : x.WF) {c : Nat} (hc : c < x.rows.length) : (x.rows.getD c []).length = x.len := by
  rw [List.getD_eq_getElem?_getD, List.getElem?_eq_getElem hc]
  exact hx _ (List.getElem_mem hc)

/-- **C134.** The distances of a shapelet to all windows are the same on two series that agree where it reads. -/
theorem C134_distances {phase : Bool} {S : Shapelets K} {nf : Nat} (hnf : 1 ≤ nf) (hwf : ShpWF S nf) {x x' : Mat K}
    (hx : x.WF ∧ x.rows.length = nf) (hx' : x'.WF ∧ x'.rows.length = nf) {k : Nat} (h : SameWhereRead phase S k x x') :
    allDistances phase S x'.rows x'.len k = allDistances phase S x.rows x.len k := by
  obtain ⟨hlen, h⟩ := h
  cases S with
  | u S =>
    have e : (x.rows.getD 0 []).length = x.len := mat_row_length hx.1 (by omega)
    have e' : (x'.rows.getD 0 []).length = x.len := (mat_row_length hx'.1 (by omega)).trans hlen
    simp only [allDistances, uDistances, distances, e, e']
    apply List.map_congr_left
    intro i hi
    rw [window_same (e'.trans e.symm)]
    intro j hj
    rw [e]
    exact h 0 (by simp [channelsOf]) _ ⟨i, j, List.mem_range.1 hi, hj, rfl⟩
  | m S =>
    simp only [allDistances, mDistances, hlen]
    apply List.map_congr_left
    intro i hi
    unfold mDist
    have key : ∀ c ∈ List.range (mChannels S k).length,
        window phase (x'.rows.getD ((mChannels S k).getD c 0) []) (S.lengths.getD k 0) (S.dilations.getD k 0) i =
        window phase (x.rows.getD ((mChannels S k).getD c 0) []) (S.lengths.getD k 0) (S.dilations.getD k 0) i := by
      intro c hc
      have hc' := List.mem_range.1 hc
      have hmem : (mChannels S k).getD c 0 ∈ mChannels S k := by
        rw [List.getD_eq_getElem?_getD, List.getElem?_eq_getElem hc']
        exact List.getElem_mem hc'
      have hr : (mChannels S k).getD c 0 < nf :=
        MWF.range hwf _ (List.mem_of_mem_drop (List.mem_of_mem_take hmem))
      have e := mat_row_length hx.1 (c := (mChannels S k).getD c 0) (by omega)
      have e' := (mat_row_length hx'.1 (c := (mChannels S k).getD c 0) (by omega)).trans hlen
      apply window_same (e'.trans e.symm)
      intro j hj
      rw [e]
      exact h _ hmem _ ⟨i, j, List.mem_range.1 hi, hj, rfl⟩
    apply List.foldl_ext
    intro s c hc
    rw [key c hc]

theorem objRow_features (phase : Bool) (S : Shapelets K) {k : Nat} (hk : k < numShapelets S) :
    ∃ thr : K, ∀ x : Mat K,
      (objRow phase S x)[3 * k]? = some (features (allDistances phase S x.rows x.len k) thr).1 ∧
      (objRow phase S x)[3 * k + 1]? = some (features (allDistances phase S x.rows x.len k) thr).2.1 ∧
      (objRow phase S x)[3 * k + 2]? = some (features (allDistances phase S x.rows x.len k) thr).2.2 := by
  cases S with
  | u S =>
    refine ⟨S.threshold.getD k 0, fun x => ⟨?_, ?_, ?_⟩⟩
    · exact row_cells (fun k => uFeatures phase S (x.rows.getD 0 []) k) S.lengths.length k 0 hk (by omega)
    · exact row_cells (fun k => uFeatures phase S (x.rows.getD 0 []) k) S.lengths.length k 1 hk (by omega)
    · exact row_cells (fun k => uFeatures phase S (x.rows.getD 0 []) k) S.lengths.length k 2 hk (by omega)
  | m S =>
    refine ⟨S.threshold.getD k 0, fun x => ⟨?_, ?_, ?_⟩⟩
    · exact row_cells (fun k => mFeatures phase S x.rows x.len k) S.lengths.length k 0 hk (by omega)
    · exact row_cells (fun k => mFeatures phase S x.rows x.len k) S.lengths.length k 1 hk (by omega)
    · exact row_cells (fun k => mFeatures phase S x.rows x.len k) S.lengths.length k 2 hk (by omega)

theorem objRow_same {phase : Bool} {S : Shapelets K} {nf : Nat} (hnf : 1 ≤ nf) (hwf : ShpWF S nf) {x x' : Mat K}
    (hx : x.WF ∧ x.rows.length = nf) (hx' : x'.WF ∧ x'.rows.length = nf) {k : Nat} (hk : k < numShapelets S)
    (h : SameWhereRead phase S k x x') : SameThree k (objRow phase S x) (objRow phase S x') := by
  obtain ⟨thr, ht⟩ := objRow_features phase S hk
  have e := C134_distances hnf hwf hx hx' h
  obtain ⟨a1, a2, a3⟩ := ht x
  obtain ⟨b1, b2, b3⟩ := ht x'
  rw [e] at b1 b2 b3
  exact ⟨_, a1, a2, a3, b1, b2, b3⟩

/-- **C134.** `transform`, any arithmetic: the three features of a shapelet are the same on two series that agree at the
points and channels it reads, whatever the other values are and whatever the other series of the batches. -/
theorem C134_transform {o : Rdst K R} {S : Shapelets K} (hS : o.shapelets = some S) {nf : Nat} (hnf : 1 ≤ nf)
    (hwf : ShpWF S nf) {X X' : XIn K} (hX : X.WF) (hX' : X'.WF) {xs xs' : List (Mat K)} (hxs : samples X = .ok xs)
    (hxs' : samples X' = .ok xs') (hn : ∀ x ∈ xs, x.rows.length = nf) (hn' : ∀ x ∈ xs', x.rows.length = nf)
    {M M' : List (List K)} (h : o.transform X = .ok M) (h' : o.transform X' = .ok M') :
    ∀ (i i' : Nat) x x' row row', xs[i]? = some x → xs'[i']? = some x' → M[i]? = some row → M'[i']? = some row' →
      ∀ k, k < numShapelets S → SameWhereRead o.phase S k x x' → SameThree k row row' := by
  intro i i' x x' row row' hi hi' hr hr' k hk hsame
  obtain ⟨e, -⟩ := transform_rows hS hwf hX hxs hn h
  obtain ⟨e', -⟩ := transform_rows hS hwf hX' hxs' hn' h'
  rw [e, List.getElem?_map, hi, Option.map_some, Option.some.injEq] at hr
  rw [e', List.getElem?_map, hi', Option.map_some, Option.some.injEq] at hr'
  rw [← hr, ← hr']
  have m := List.mem_of_getElem? hi
  have m' := List.mem_of_getElem? hi'
  exact objRow_same hnf hwf ⟨samples_wf hX hxs x m, hn x m⟩ ⟨samples_wf hX' hxs' x' m', hn' x' m'⟩ hk hsame

end

section
variable {R L : Type} [DecidableEq L]

theorem objRow_eq {phase : Bool} {S : Shapelets ℝ} {nf : Nat} (hnf : 1 ≤ nf) (hwf : ShpWF S nf) {x x' : Mat ℝ}
    (hx : x.WF ∧ x.rows.length = nf) (hx' : x'.WF ∧ x'.rows.length = nf)
    (h : ∀ k, k < numShapelets S → SameWhereRead phase S k x x') : objRow phase S x' = objRow phase S x := by
  apply List.ext_getElem?
  intro j
  rcases Nat.lt_or_ge j (3 * numShapelets S) with hj | hj
  · obtain ⟨f, a1, a2, a3, b1, b2, b3⟩ := objRow_same hnf hwf hx hx' (k := j / 3) (by omega) (h _ (by omega))
    have hj : j = 3 * (j / 3) ∨ j = 3 * (j / 3) + 1 ∨ j = 3 * (j / 3) + 2 := by omega
    rcases hj with e | e | e
    · rw [e, a1, b1]
    · rw [e, a2, b2]
    · rw [e, a3, b3]
  · rw [List.getElem?_eq_none (by rw [objRow_len]; exact hj), List.getElem?_eq_none (by rw [objRow_len]; exact hj)]

/-- **C134.** `R_DST_Ridge.predict`: series that agree wherever some shapelet reads get the same label; in particular a
channel no shapelet uses may hold anything. -/
theorem C134_predict {c : RidgeClf ℝ R L} {nf : Nat} {o : Rdst ℝ R} {S : Shapelets ℝ} {sc : Scaler ℝ} {m : Linear ℝ L}
    (hc : RidgeFitted c nf o S sc m) (hnf : 1 ≤ nf) {X X' : XIn ℝ} (hX : X.WF) (hX' : X'.WF) {xs xs' : List (Mat ℝ)}
    (hxs : samples X = .ok xs) (hxs' : samples X' = .ok xs') (hn : ∀ x ∈ xs, x.rows.length = nf)
    (hn' : ∀ x ∈ xs', x.rows.length = nf) {P P' : List L} (h : c.predict X = .ok P) (h' : c.predict X' = .ok P') :
    ∀ (i i' : Nat) x x', xs[i]? = some x → xs'[i']? = some x' →
      (∀ k, k < numShapelets S → SameWhereRead o.phase S k x x') → ∃ y, P[i]? = some y ∧ P'[i']? = some y := by
  intro i i' x x' hi hi' hsame
  have key : ∀ (Y : XIn ℝ) (ys : List (Mat ℝ)) (Q : List L), Y.WF → samples Y = .ok ys → (∀ x ∈ ys, x.rows.length = nf) →
      c.predict Y = .ok Q → ∀ (a : Nat) z, ys[a]? = some z → ∃ q b, Q[a]? = some q ∧
        Chosen (decision m (standardised sc (objRow o.phase S z))) b ∧ m.classes[b]? = some q := by
    intro Y ys Q hY hys hn hQ a z hz
    obtain ⟨h1, h2⟩ := C53_predict hc hY hys hn
    cases hM : o.transform Y with
    | error e => rw [h1 e hM] at hQ; cases hQ
    | ok M =>
      obtain ⟨P', hP', hf⟩ := h2 M hM
      rw [hP', Except.ok.injEq] at hQ
      subst hQ
      obtain ⟨ha, rfl⟩ := List.getElem?_eq_some_iff.1 hz
      have ha' : a < P'.length := by rw [← hf.length_eq]; exact ha
      obtain ⟨b, hb, hb'⟩ := hf.get ha ha'
      exact ⟨P'[a], b, List.getElem?_eq_getElem ha', hb, hb'⟩
  obtain ⟨q, b, h1, h2, h3⟩ := key X xs P hX hxs hn h i x hi
  obtain ⟨q', b', h1', h2', h3'⟩ := key X' xs' P' hX' hxs' hn' h' i' x' hi'
  have m := List.mem_of_getElem? hi
  have m' := List.mem_of_getElem? hi'
  rw [objRow_eq hnf hc.wf ⟨samples_wf hX hxs x m, hn x m⟩ ⟨samples_wf hX' hxs' x' m', hn' x' m'⟩ hsame] at h2'
  obtain rfl := chosen_unique h2 h2'
  rw [h3, Option.some.injEq] at h3'
  subst h3'
  exact ⟨q, h1, h1'⟩

end

/-! ## `fit` of the univariate types -/

section
variable {K G L : Type} [Scalar K] [Gen G K] [DecidableEq L]

theorem aget2_first {X X' : List (List (List K))} (h : SameFirstChannel X X') (s : Nat) : aget2 X' s 0 = aget2 X s 0 := by
  obtain ⟨hl, h⟩ := h
  unfold aget2 aget
  rcases Nat.lt_or_ge s X.length with hs | hs
  · have e := h s _ _ (List.getElem?_eq_getElem hs) (List.getElem?_eq_getElem (by omega))
    rw [List.getElem?_eq_getElem hs, List.getElem?_eq_getElem (show s < X'.length by omega)]
    simp only [Res.bind_ok]
    rw [e]
  · rw [List.getElem?_eq_none hs, List.getElem?_eq_none (by omega)]

/-- **C134.** `fit` with a univariate type, series of equal length: data with the same first channels give the same
shapelets, or the same exception, whatever the other channels and their number; in any arithmetic. -/
theorem C134_fit_same_length (a : FitArgs K L) (X' : List (List (List K))) (nf' : Nat) (h : SameFirstChannel a.X X')
    (g0 : G) (gs : Nat → G) (order : Nat → List Nat) :
    uslGenerate { a with X := X', nf := nf' } g0 gs order = uslGenerate a g0 gs order := by
  have hs : uslStep (G := G) { a with X := X', nf := nf' } = uslStep a := by
    funext l d n mn m i
    unfold uslStep
    simp only [h.1, aget2_first h]
  unfold uslGenerate
  simp only [hs]

/-- **C134.** Series of different lengths. -/
theorem C134_fit_variable_length (a : FitArgs K L) (X' : List (List (List K))) (nf' minLen : Nat) (xLen : List Nat)
    (h : SameFirstChannel a.X X') (g0 : G) (gs : Nat → G) (order : Nat → List Nat) :
    uvlGenerate { a with X := X', nf := nf' } minLen xLen g0 gs order = uvlGenerate a minLen xLen g0 gs order := by
  have hs : uvlStep (G := G) { a with X := X', nf := nf' } xLen = uvlStep a xLen := by
    funext ml l d n mn m i
    unfold uvlStep
    simp only [h.1, aget2_first h]
  unfold uvlGenerate
  simp only [h.1, hs]

end

theorem exB_first : SameFirstChannel exB.X [[[0, 1, 2, 3, 4], [7, 7, 7, 7, 7], [8, 8, 8, 8, 8]], [[1, 1, 0, 2, 0]]] := by
  refine ⟨rfl, fun s x x' hx hx' => ?_⟩
  rcases s with _ | _ | s
  · simp only [exB, List.getElem?_cons_zero, Option.some.injEq] at hx hx'
    subst hx hx'
    rfl
  · simp only [exB, List.getElem?_cons_succ, List.getElem?_cons_zero, Option.some.injEq] at hx hx'
    subst hx hx'
    rfl
  · simp [exB] at hx

example (g0 : Script) (gs : Nat → Script) : ∃ S,
    uvlGenerate exB 4 [5, 4] g0 gs List.range = .ok S ∧
    uvlGenerate { exB with X := [[[0, 1, 2, 3, 4], [7, 7, 7, 7, 7], [8, 8, 8, 8, 8]], [[1, 1, 0, 2, 0]]], nf := 3 } 4 [5, 4]
      g0 gs List.range = .ok S := by
  obtain ⟨S, h, -⟩ := C20_fit_univariate_variable_length exB_validVL g0 gs
  have hS := h List.range fun _ => List.Perm.refl _
  exact ⟨S, hS, (C134_fit_variable_length exB _ 3 4 [5, 4] exB_first g0 gs List.range).trans hS⟩

example (g0 : Script) (gs : Nat → Script) : ∃ S,
    uslGenerate exB g0 gs List.range = .ok S ∧
    uslGenerate { exB with X := [[[0, 1, 2, 3, 4], [7, 7, 7, 7, 7], [8, 8, 8, 8, 8]], [[1, 1, 0, 2, 0]]], nf := 3 }
      g0 gs List.range = .ok S := by
  obtain ⟨S, h, -⟩ := C19_fit_univariate_same_length exB_valid g0 gs
  have hS := h List.range fun _ => List.Perm.refl _
  exact ⟨S, hS, (C134_fit_same_length exB _ 3 exB_first g0 gs List.range).trans hS⟩

/-! ## And on all of them -/

theorem pos_in_range {phase : Bool} {T l d i j : Nat} (hi : i < nWin phase T l d) (hj : j < l) : pos phase T d i j < T := by
  cases phase with
  | true =>
    simp only [nWin, pos, if_true] at hi ⊢
    exact Nat.mod_lt _ (by omega)
  | false =>
    simp only [nWin, pos, Bool.false_eq_true, if_false] at hi ⊢
    have := Nat.mul_le_mul_right d (show j ≤ l - 1 by omega)
    omega

theorem window_get {phase : Bool} {x : List ℝ} {l d i j : Nat} (hj : j < l) :
    (window phase x l d i).getD j 0 = x.getD (pos phase x.length d i j) 0 := by
  simp [window, List.getD_eq_getElem?_getD, hj]

theorem l1_le {w w' v : List ℝ} (hl : w'.length = w.length)
    (h : ∀ j, j < w.length → v.getD j 0 ≤ w'.getD j 0 ∧ w'.getD j 0 ≤ w.getD j 0) : l1 w' v ≤ l1 w v := by
  rw [l1_eq_sum, l1_eq_sum, hl]
  apply Finset.sum_le_sum
  intro j hj
  obtain ⟨h1, h2⟩ := h j (Finset.mem_range.1 hj)
  rw [abs_of_nonneg (by linarith), abs_of_nonneg (by linarith)]
  linarith

theorem l1_lt {w w' v : List ℝ} (hl : w'.length = w.length)
    (h : ∀ j, j < w.length → v.getD j 0 ≤ w'.getD j 0 ∧ w'.getD j 0 ≤ w.getD j 0)
    (hs : ∃ j, j < w.length ∧ w'.getD j 0 < w.getD j 0) : l1 w' v < l1 w v := by
  rw [l1_eq_sum, l1_eq_sum, hl]
  obtain ⟨j0, hj0, hlt⟩ := hs
  apply Finset.sum_lt_sum
  · intro j hj
    obtain ⟨h1, h2⟩ := h j (Finset.mem_range.1 hj)
    rw [abs_of_nonneg (by linarith), abs_of_nonneg (by linarith)]
    linarith
  · refine ⟨j0, Finset.mem_range.2 hj0, ?_⟩
    obtain ⟨h1, h2⟩ := h j0 hj0
    rw [abs_of_nonneg (by linarith), abs_of_nonneg (by linarith)]
    linarith

theorem bound_values (vs : List (List ℝ)) : ∃ u : ℝ, 0 ≤ u ∧ ∀ v ∈ vs, ∀ j, v.getD j 0 ≤ u := by
  have one : ∀ v : List ℝ, ∃ u : ℝ, 0 ≤ u ∧ ∀ j, v.getD j 0 ≤ u := by
    intro v
    induction v with
    | nil => exact ⟨0, le_rfl, by simp⟩
    | cons a v ih =>
      obtain ⟨u, hu, h⟩ := ih
      refine ⟨max a u, le_max_of_le_right hu, fun j => ?_⟩
      cases j with
      | zero => simp
      | succ j => simpa using Or.inr (h j)
  induction vs with
  | nil => exact ⟨0, le_rfl, by simp⟩
  | cons v vs ih =>
    obtain ⟨u, hu, h⟩ := ih
    obtain ⟨u', hu', h'⟩ := one v
    refine ⟨max u' u, le_max_of_le_right hu, fun w hw j => ?_⟩
    rcases List.mem_cons.1 hw with rfl | hw
    · exact le_max_of_le_left (h' j)
    · exact le_max_of_le_right (h w hw j)

theorem window_const {phase : Bool} {T l d i : Nat} (hi : i < nWin phase T l d) (a : ℝ) :
    window phase (List.replicate T a) l d i = List.replicate l a := by
  unfold window
  rw [← List.length_range (n := l), ← List.map_const']
  rw [List.length_range]
  apply List.map_congr_left
  intro j hj
  have := pos_in_range hi (List.mem_range.1 hj)
  simp [List.getD_eq_getElem?_getD, this]

theorem dip_between {T p : Nat} (u : ℝ) (q : Nat) (hq : q < T) :
    u ≤ ((List.replicate T (u + 1)).set p u).getD q 0 ∧ ((List.replicate T (u + 1)).set p u).getD q 0 ≤ u + 1 := by
  rw [List.getD_eq_getElem?_getD, List.getElem?_set]
  by_cases h : p = q
  · subst h
    simp [hq]
  · simp [h, hq]

theorem dip_le {phase : Bool} {T l d i p : Nat} (hi : i < nWin phase T l d) {u : ℝ} {v : List ℝ} (hv : ∀ j, v.getD j 0 ≤ u) :
    l1 (window phase ((List.replicate T (u + 1)).set p u) l d i) v ≤ l1 (window phase (List.replicate T (u + 1)) l d i) v := by
  apply l1_le (by rw [window_length, window_length])
  intro j hj
  rw [window_length] at hj
  rw [window_get hj, window_get hj]
  have hq := pos_in_range hi hj
  simp only [List.length_set, List.length_replicate]
  obtain ⟨h1, h2⟩ := dip_between (p := p) u _ hq
  refine ⟨(hv j).trans h1, h2.trans ?_⟩
  simp [List.getD_eq_getElem?_getD, hq]

theorem dip_lt {phase : Bool} {T l d i p j0 : Nat} (hi : i < nWin phase T l d) (hj0 : j0 < l) (hp : p = pos phase T d i j0)
    {u : ℝ} {v : List ℝ} (hv : ∀ j, v.getD j 0 ≤ u) :
    l1 (window phase ((List.replicate T (u + 1)).set p u) l d i) v < l1 (window phase (List.replicate T (u + 1)) l d i) v := by
  apply l1_lt (by rw [window_length, window_length])
  · intro j hj
    rw [window_length] at hj
    rw [window_get hj, window_get hj]
    have hq := pos_in_range hi hj
    simp only [List.length_set, List.length_replicate]
    obtain ⟨h1, h2⟩ := dip_between (p := p) u _ hq
    refine ⟨(hv j).trans h1, h2.trans ?_⟩
    simp [List.getD_eq_getElem?_getD, hq]
  · refine ⟨j0, by rw [window_length]; exact hj0, ?_⟩
    rw [window_get hj0, window_get hj0]
    have hq := pos_in_range hi hj0
    simp only [List.length_set, List.length_replicate, ← hp] at hq ⊢
    simp [List.getD_eq_getElem?_getD, hq]

theorem min_drops {D D' : List ℝ} (thr : ℝ) {B d' : ℝ} (hne : D ≠ []) (hD : ∀ d ∈ D, 0 ≤ d) (hD' : ∀ d ∈ D', 0 ≤ d)
    (hB : ∀ d ∈ D, d = B) (hd' : d' ∈ D') (hlt : d' < B) : (features D' thr).1 < (features D thr).1 := by
  obtain ⟨⟨h1, -⟩, -⟩ := features_isFeatures (thr := thr) hne hD
  obtain ⟨⟨-, h2⟩, -⟩ := features_isFeatures (thr := thr) (List.ne_nil_of_mem hd') hD'
  rw [hB _ h1]
  exact (h2 _ hd').trans_lt hlt

/-- **C134.** No value that is read can be left out, for a shapelet compared with the raw series: there are two series that
differ in this one value only and on which the distance feature differs. -/
theorem C134_needed (phase : Bool) {S : Shapelets ℝ} {nf : Nat} (hnf : 1 ≤ nf) (hwf : ShpWF S nf) {k : Nat}
    (hk : k < numShapelets S) (hraw : normOf S k = false) {T c p : Nat} (hc : c ∈ channelsOf S k)
    (hp : PointRead phase T (lengthOf S k) (dilationOf S k) p) :
    ∃ x x' : Mat ℝ, (x.WF ∧ x.rows.length = nf ∧ x.len = T) ∧ (x'.WF ∧ x'.rows.length = nf ∧ x'.len = T) ∧
      DifferOnlyAt c p x x' ∧ ∃ v v', (objRow phase S x)[3 * k]? = some v ∧ (objRow phase S x')[3 * k]? = some v' ∧ v' < v := by
  obtain ⟨i, j, hi, hj, hpos⟩ := hp
  have hcn : c < nf := by
    cases S with
    | u S => simp only [channelsOf, List.mem_singleton] at hc; omega
    | m S => exact MWF.range hwf _ (List.mem_of_mem_drop (List.mem_of_mem_take hc))
  obtain ⟨u, -, hu⟩ := bound_values (match S with
    | .u S => [uValues S k]
    | .m S => (List.range (mChannels S k).length).map (mValues S k))
  set y : List ℝ := List.replicate T (u + 1) with hy
  set y' : List ℝ := y.set p u with hy'
  refine ⟨⟨List.replicate nf y, T⟩, ⟨(List.replicate nf y).set c y', T⟩, ⟨?_, by simp, rfl⟩, ⟨?_, by simp, rfl⟩, ?_, ?_⟩
  · intro r hr
    obtain ⟨-, rfl⟩ := List.mem_replicate.1 hr
    simp [hy]
  · intro r hr
    rcases List.mem_or_eq_of_mem_set hr with hr | rfl
    · obtain ⟨-, rfl⟩ := List.mem_replicate.1 hr
      simp [hy]
    · simp [hy', hy]
  · intro c' p' hne
    by_cases h1 : c' = c
    · subst h1
      have h2 : p' ≠ p := fun h => hne ⟨rfl, h⟩
      simp [List.getD_eq_getElem?_getD, hcn, hy', Ne.symm h2]
    · simp [List.getD_eq_getElem?_getD, Ne.symm h1]
  · obtain ⟨thr, ht⟩ := objRow_features phase S hk
    refine ⟨_, _, (ht _).1, (ht _).1, ?_⟩
    have get : ∀ c', c' < nf → (List.replicate nf y).getD c' [] = y := by
      intro c' h
      simp [List.getD_eq_getElem?_getD, h]
    have get' : ∀ c', c' < nf → ((List.replicate nf y).set c y').getD c' [] = if c = c' then y' else y := by
      intro c' h
      rw [List.getD_eq_getElem?_getD, List.getElem?_set]
      by_cases e : c = c'
      · subst e; simp [h]
      · simp [e, h]
    cases S with
    | u S =>
      simp only [channelsOf, List.mem_singleton] at hc
      subst hc
      simp only [normOf] at hraw
      simp only [lengthOf, dilationOf] at hi hj hpos
      have hv : ∀ j, (uValues S k).getD j 0 ≤ u := hu _ (by simp)
      have hl : y.length = T := by simp [hy]
      have hl' : y'.length = T := by simp [hy', hy]
      simp only [allDistances, uDistances, get 0 hcn, get' 0 hcn, if_true, hraw]
      refine min_drops thr (B := l1 (List.replicate (S.lengths.getD k 0) (u + 1)) (uValues S k))
        (d' := l1 (window phase y' (S.lengths.getD k 0) (S.dilations.getD k 0) i) (uValues S k)) ?_ (distances_nonneg _ _ _ _ _ _)
        (distances_nonneg _ _ _ _ _ _) ?_ ?_ ?_
      · apply List.ne_nil_of_length_pos
        simp only [distances, List.length_map, List.length_range, hl]
        omega
      · intro d hd
        obtain ⟨t, ht, rfl⟩ := List.mem_map.1 hd
        rw [hl] at ht
        simp only [seen, Bool.false_eq_true, if_false]
        rw [hy, window_const (List.mem_range.1 ht)]
      · exact List.mem_map.2 ⟨i, by rw [hl']; exact List.mem_range.2 hi, by simp [seen]⟩
      · rw [← window_const hi]
        exact dip_lt hi hj hpos hv
    | m S =>
      simp only [channelsOf] at hc
      simp only [normOf] at hraw
      simp only [lengthOf, dilationOf] at hi hj hpos
      have hv : ∀ a, a < (mChannels S k).length → ∀ j, (mValues S k a).getD j 0 ≤ u := fun a ha =>
        hu _ (List.mem_map.2 ⟨a, List.mem_range.2 ha, rfl⟩)
      have hch : ∀ a, a < (mChannels S k).length → (mChannels S k).getD a 0 < nf := by
        intro a ha
        rw [List.getD_eq_getElem?_getD, List.getElem?_eq_getElem ha]
        exact MWF.range hwf _ (List.mem_of_mem_drop (List.mem_of_mem_take (List.getElem_mem ha)))
      simp only [allDistances]
      refine min_drops thr (B := mDist phase S (List.replicate nf y) k i)
        (d' := mDist phase S ((List.replicate nf y).set c y') k i) ?_ (mDistances_nonneg _ _ _ _ _) (mDistances_nonneg _ _ _ _ _) ?_ ?_ ?_
      · apply List.ne_nil_of_length_pos
        simp only [mDistances, List.length_map, List.length_range]
        omega
      · intro d hd
        obtain ⟨t, ht, rfl⟩ := List.mem_map.1 hd
        rw [mDist_eq_sum, mDist_eq_sum]
        apply Finset.sum_congr rfl
        intro a ha
        rw [get _ (hch a (Finset.mem_range.1 ha)), hy, window_const (List.mem_range.1 ht), window_const hi]
      · exact List.mem_map.2 ⟨i, List.mem_range.2 hi, rfl⟩
      · rw [mDist_eq_sum, mDist_eq_sum, hraw]
        simp only [seen, Bool.false_eq_true, if_false]
        obtain ⟨a0, ha0, hca⟩ := List.getElem_of_mem hc
        have hg : (mChannels S k).getD a0 0 = c := by
          rw [List.getD_eq_getElem?_getD, List.getElem?_eq_getElem ha0]; exact hca
        apply Finset.sum_lt_sum
        · intro a ha
          have ha := Finset.mem_range.1 ha
          rw [get _ (hch a ha), get' _ (hch a ha)]
          by_cases e : c = (mChannels S k).getD a 0
          · rw [if_pos e]
            exact dip_le hi (hv a ha)
          · rw [if_neg e]
        · refine ⟨a0, Finset.mem_range.2 ha0, ?_⟩
          rw [get _ (hch a0 ha0), get' _ (hch a0 ha0), if_pos hg.symm]
          exact dip_lt hi hj hpos (hv a0 ha0)

/-! ## Concrete cases -/

/-- Two values four points apart in a series of six points: points 2 and 3 are not read, the others are.  In eight points all
are read. -/
example : (¬ PointRead false 6 2 4 2 ∧ ¬ PointRead false 6 2 4 3 ∧ PointRead false 6 2 4 5) ∧
    (∀ p, p < 8 → PointRead false 8 2 4 p) ∧ PointRead true 6 2 4 2 := by
  refine ⟨⟨?_, ?_, ?_⟩, (C134_all_points (by norm_num) (by norm_num)).2 (Or.inr le_rfl),
    C134_points_wrapped (by norm_num) 4 (by norm_num)⟩
  · rw [C134_points]
    rintro ⟨j, h0, h1, h2⟩
    interval_cases j <;> omega
  · rw [C134_points]
    rintro ⟨j, h0, h1, h2⟩
    interval_cases j <;> omega
  · rw [C134_points]
    exact ⟨1, by norm_num, by norm_num, by norm_num⟩

/-- One raw shapelet of three values on the second of two channels. -/
noncomputable def exSecond : MShp ℝ where
  values := [0, 1, 3]
  lengths := [3]
  dilations := [1]
  threshold := [1]
  normalize := [false]
  nChannels := [1]
  channelIds := [1]

theorem exSecond_wf : MWF exSecond 2 where
  dilations := rfl
  threshold := rfl
  normalize := rfl
  nChannels := rfl
  pos := by intro k hk; simp [exSecond] at hk; subst hk; simp [exSecond]
  values := by simp [exSecond, mValOff]
  channels := by simp [exSecond]
  range := by simp [exSecond]

theorem exSecond_channels : channelsOf (.m exSecond) 0 = [1] := by simp [channelsOf, mChannels, mChanOff, exSecond]

/-- Anything on the first channel. -/
theorem exSecond_same (phase : Bool) (a b c d a' b' c' d' : ℝ) (z : List ℝ) :
    SameWhereRead phase (.m exSecond) 0 ⟨[[a, b, c, d], z], 4⟩ ⟨[[a', b', c', d'], z], 4⟩ := by
  refine ⟨rfl, ?_⟩
  rw [exSecond_channels]
  simp

/-- A classifier with this shapelet, on the number of its occurrences. -/
noncomputable def exSecondObj : Rdst ℝ Nat := { exFl.exact with transformType := .multi, shapelets := some (.m exSecond) }

noncomputable def exSecondClf : RidgeClf ℝ Nat Int :=
  { p := exParams (.int 1), rs := .seed 7, nJobs := .int 1, transformer := some exSecondObj,
    classifier := some (some (⟨[2], [0], [1]⟩, ⟨[[1]], [1], [0, 1]⟩)) }

theorem exSecondClf_fitted :
    RidgeFitted exSecondClf 2 exSecondObj (.m exSecond) ⟨[2], [0], [1]⟩ ⟨[[1]], [1], [0, 1]⟩ where
  transformer := rfl
  shapelets := rfl
  wf := exSecond_wf
  classifier := rfl
  scaler := ⟨rfl, rfl, by simp [Shapelets.count, exSecond], by simp⟩
  linear := ⟨by simp, by simp, by simp, rfl⟩

theorem exSecond_accepts (a b c d : ℝ) :
    ∃ M, exSecondObj.transform (.array .float64 ⟨[[[a, b, c, d], [0, 1, 3, 2]]], 2, 4⟩) = .ok M := by
  obtain ⟨-, h⟩ := held_accept (o := exSecondObj) (S := .m exSecond) rfl (nf := 2) (by norm_num) exSecond_wf (Or.inl rfl)
    (xs := [⟨[[a, b, c, d], [0, 1, 3, 2]], 4⟩]) (by simp) (by simp [Mat.WF]) (T := 4) (by norm_num) (by simp) (by
      intro k hk
      simp only [numShapelets, exSecond, List.length_singleton, Nat.lt_one_iff] at hk
      subst hk
      simp [spanOf, exSecond])
  exact h (Or.inr rfl) (by simp) .float64

/-- The first channel does not matter, to the features and to the predicted label; every value of the second does. -/
example (a b c d : ℝ) : ∃ M M' P P',
    exSecondObj.transform (.array .float64 ⟨[[[5, 5, 5, 5], [0, 1, 3, 2]]], 2, 4⟩) = .ok M ∧
    exSecondObj.transform (.array .float64 ⟨[[[a, b, c, d], [0, 1, 3, 2]]], 2, 4⟩) = .ok M' ∧
    exSecondClf.predict (.array .float64 ⟨[[[5, 5, 5, 5], [0, 1, 3, 2]]], 2, 4⟩) = .ok P ∧
    exSecondClf.predict (.array .float64 ⟨[[[a, b, c, d], [0, 1, 3, 2]]], 2, 4⟩) = .ok P' ∧
    (∀ row row', M[0]? = some row → M'[0]? = some row' → SameThree 0 row row') ∧ P[0]? = P'[0]? ∧ P[0]? ≠ none := by
  obtain ⟨M, hM⟩ := exSecond_accepts 5 5 5 5
  obtain ⟨M', hM'⟩ := exSecond_accepts a b c d
  have w : ∀ a b c d : ℝ, (XIn.array DType.float64 (⟨[[[a, b, c, d], [0, 1, 3, 2]]], 2, 4⟩ : Arr3 ℝ)).WF := by
    intro a b c d s hs
    rw [List.mem_singleton.1 hs]
    simp
  have hn : ∀ a b c d : ℝ, ∀ x ∈ [(⟨[[a, b, c, d], [0, 1, 3, 2]], 4⟩ : Mat ℝ)], x.rows.length = 2 := by simp
  obtain ⟨P, hP, -⟩ := (C53_predict exSecondClf_fitted (w 5 5 5 5) rfl (hn 5 5 5 5)).2 M hM
  obtain ⟨P', hP', -⟩ := (C53_predict exSecondClf_fitted (w a b c d) rfl (hn a b c d)).2 M' hM'
  have key := C134_transform (o := exSecondObj) (S := .m exSecond) rfl (nf := 2) (by norm_num) exSecond_wf (w 5 5 5 5) (w a b c d)
    rfl rfl (hn 5 5 5 5) (hn a b c d) hM hM' 0 0
  obtain ⟨y, h1, h2⟩ := C134_predict exSecondClf_fitted (by norm_num) (w 5 5 5 5) (w a b c d) rfl rfl (hn 5 5 5 5) (hn a b c d)
    hP hP' 0 0 _ _ rfl rfl (by
      intro k hk
      simp only [numShapelets, exSecond, List.length_singleton, Nat.lt_one_iff] at hk
      subst hk
      exact exSecond_same _ 5 5 5 5 a b c d [0, 1, 3, 2])
  refine ⟨M, M', P, P', hM, hM', hP, hP', fun row row' hr hr' => ?_, by rw [h1, h2], by rw [h1]; simp⟩
  exact key _ _ row row' rfl rfl hr hr' 0 (by simp [numShapelets, exSecond]) (exSecond_same _ 5 5 5 5 a b c d [0, 1, 3, 2])

example : ∃ x x' : Mat ℝ, DifferOnlyAt 1 3 x x' ∧ ∃ v v', (objRow false (.m exSecond) x)[0]? = some v ∧
    (objRow false (.m exSecond) x')[0]? = some v' ∧ v' < v := by
  obtain ⟨x, x', -, -, h, h'⟩ := C134_needed false (S := .m exSecond) (nf := 2) (by norm_num) exSecond_wf (k := 0)
    (by simp [numShapelets, exSecond]) (by simp [normOf, exSecond]) (T := 4) (c := 1) (p := 3)
    (by rw [exSecond_channels]; simp) (by
      rw [C134_points]
      exact ⟨2, by simp [lengthOf, exSecond], by simp [dilationOf, exSecond], by simp [lengthOf, dilationOf, exSecond]⟩)
  exact ⟨x, x', h, h'⟩

end Convst.Props
