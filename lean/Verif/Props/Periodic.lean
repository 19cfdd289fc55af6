import Verif.Props.HoldRidge
import Verif.Spec.Periodic

/-!
# C133: phase invariance and periodic recordings
-/

set_option autoImplicit false
set_option linter.unusedSectionVars false

namespace Convst.Props
open Convst Spec

section
variable {K R : Type} [Scalar K]

theorem periods_length {α : Type} (m : Nat) (x : List α) : (periods m x).length = m * x.length := by
  simp [periods]

theorem periods_get {α : Type} (m : Nat) (x : List α) (i : Nat) (h : i < m * x.length) :
    (periods m x)[i]? = x[i % x.length]? := by
  induction m generalizing i with
  | zero => simp at h
  | succ m ih =>
    have e : periods (m + 1) x = x ++ periods m x := by simp [periods, List.replicate_succ]
    rw [e]
    rcases Nat.lt_or_ge i x.length with h1 | h1
    · rw [List.getElem?_append_left h1, Nat.mod_eq_of_lt h1]
    · rw [List.getElem?_append_right h1, ih _ (by rw [Nat.succ_mul] at h; omega), Nat.mod_eq_sub_mod h1]

theorem continued_length {α : Type} (n : Nat) {x : List α} (hx : x ≠ []) : (continued n x).length = x.length + n := by
  have h : 1 ≤ x.length := List.length_pos_iff.2 hx
  unfold continued
  rw [List.length_take, periods_length]
  have : x.length + n ≤ (n + 1) * x.length := by nlinarith
  omega

theorem continued_get {α : Type} (n : Nat) (x : List α) (i : Nat) (h : i < x.length + n) :
    (continued n x)[i]? = x[i % x.length]? := by
  rcases Nat.eq_zero_or_pos x.length with h0 | h0
  · obtain rfl := List.length_eq_zero_iff.1 h0
    simp [continued, periods]
  · unfold continued
    rw [List.getElem?_take, if_pos h, periods_get _ _ _ (lt_of_lt_of_le h (by nlinarith))]

theorem map_range_periods {α : Type} (m T : Nat) (f : Nat → α) :
    (List.range (m * T)).map (fun i => f (i % T)) = periods m ((List.range T).map f) := by
  apply List.ext_getElem?
  intro i
  rw [List.getElem?_map]
  rcases Nat.lt_or_ge i (m * T) with h | h
  · have hT : 0 < T := Nat.pos_of_ne_zero fun h0 => by subst h0; simp at h
    rw [List.getElem?_range h, periods_get _ _ _ (by simpa using h), List.length_map, List.length_range, List.getElem?_map,
      List.getElem?_range (Nat.mod_lt _ hT)]
    rfl
  · rw [List.getElem?_eq_none (by simpa using h), List.getElem?_eq_none (by rw [periods_length]; simpa using h)]
    rfl

theorem map_range_continued {α : Type} (n : Nat) {T : Nat} (hT : 1 ≤ T) (f : Nat → α) :
    (List.range (T + n)).map (fun i => f (i % T)) = continued n ((List.range T).map f) := by
  have hne : (List.range T).map f ≠ [] := by
    intro h
    have := congrArg List.length h
    simp at this
    omega
  apply List.ext_getElem?
  intro i
  rw [List.getElem?_map]
  rcases Nat.lt_or_ge i (T + n) with h | h
  · rw [List.getElem?_range h, continued_get _ _ _ (by simpa using h), List.length_map, List.length_range, List.getElem?_map,
      List.getElem?_range (Nat.mod_lt _ hT)]
    rfl
  · rw [List.getElem?_eq_none (by simpa using h), List.getElem?_eq_none (by rw [continued_length n hne]; simpa using h)]
    rfl

theorem window_periods {m : Nat} (hm : 1 ≤ m) (x : List K) (l d i : Nat) :
    window true (periods m x) l d i = window true x l d (i % x.length) := by
  unfold window
  apply List.map_congr_left
  intro j _
  rw [List.getD_eq_getElem?_getD, List.getD_eq_getElem?_getD]
  congr 1
  simp only [pos, if_true]
  rcases Nat.eq_zero_or_pos x.length with h0 | h0
  · obtain rfl := List.length_eq_zero_iff.1 h0
    simp [periods]
  · rw [periods_length, periods_get _ _ _ (Nat.mod_lt _ (Nat.mul_pos hm h0)), Nat.mod_mul_left_mod, Nat.mod_add_mod]

theorem window_continued (n : Nat) (x : List K) (l d i : Nat) (h : i + (l - 1) * d < x.length + n) :
    window false (continued n x) l d i = window true x l d (i % x.length) := by
  unfold window
  apply List.map_congr_left
  intro j hj
  have hj' : j * d ≤ (l - 1) * d := Nat.mul_le_mul_right d (by have := List.mem_range.1 hj; omega)
  rw [List.getD_eq_getElem?_getD, List.getD_eq_getElem?_getD]
  congr 1
  simp only [pos, if_true, Bool.false_eq_true, if_false]
  rw [continued_get _ _ _ (by omega), Nat.mod_add_mod]

theorem getD_map_ofNil {α : Type} (g : List α → List α) (hg : g [] = []) (x : List (List α)) (c : Nat) :
    (x.map g).getD c [] = g (x.getD c []) := by
  rw [List.getD_eq_getElem?_getD, List.getElem?_map, List.getD_eq_getElem?_getD]
  cases x[c]? <;> simp [hg]

theorem window_nil (phase phase' : Bool) (l d i i' : Nat) : window phase ([] : List K) l d i = window phase' [] l d i' := by
  simp [window]

theorem row_len {x : Mat K} (hx : x.WF) (c : Nat) : x.rows.getD c [] = [] ∨ (x.rows.getD c []).length = x.len := by
  rcases Nat.lt_or_ge c x.rows.length with hc | hc
  · right
    rw [List.getD_eq_getElem?_getD, List.getElem?_eq_getElem hc]
    exact hx _ (List.getElem_mem hc)
  · left
    rw [List.getD_eq_getElem?_getD, List.getElem?_eq_none hc]
    rfl

/-- **C133.** Phase invariance: the distances of a recording of `m` periods are those of one period, `m` times. -/
theorem C133_distances_periods {m : Nat} (hm : 1 ≤ m) (S : Shapelets K) {x : Mat K} (hx : x.WF) (k : Nat) :
    allDistances true S (periodsSeries m x).rows (periodsSeries m x).len k =
      periods m (allDistances true S x.rows x.len k) := by
  have hch : ∀ c, (x.rows.map (periods m)).getD c [] = periods m (x.rows.getD c []) :=
    getD_map_ofNil _ (by simp [periods]) _
  cases S with
  | u S =>
    simp only [allDistances, periodsSeries, uDistances, distances, hch, periods_length, nWin, if_true, window_periods hm]
    exact map_range_periods m _ fun i => l1 (seen _ (window true (x.rows.getD 0 []) _ _ i)) _
  | m S =>
    simp only [allDistances, periodsSeries, mDistances, nWin, if_true]
    rw [← map_range_periods m x.len]
    apply List.map_congr_left
    intro t _
    have hw : ∀ c l d, window true ((x.rows.map (periods m)).getD c []) l d t =
        window true (x.rows.getD c []) l d (t % x.len) := by
      intro c l d
      rw [hch, window_periods hm]
      rcases row_len hx c with h | h
      · rw [h]; exact window_nil _ _ _ _ _ _
      · rw [h]
    unfold mDist
    simp only [hw]

/-- **C133.** The distances found with phase invariance are those found without it in the recording continued
periodically by as many points as the shapelet reaches beyond its first point; with more points they start again. -/
theorem C133_distances_continued {n : Nat} (S : Shapelets K) {x : Mat K} (hx : x.WF) (hx0 : x.rows ≠ []) (hlen : 1 ≤ x.len)
    {k : Nat} (hn : spanOf S k ≤ n) :
    allDistances false S (continuedSeries n x).rows (continuedSeries n x).len k =
      continued (n - spanOf S k) (allDistances true S x.rows x.len k) := by
  have hch : ∀ c, (x.rows.map (continued n)).getD c [] = continued n (x.rows.getD c []) :=
    getD_map_ofNil _ (by simp [continued, periods]) _
  cases S with
  | u S =>
    have h0 : (x.rows.getD 0 []).length = x.len := by
      obtain ⟨r, rs, e⟩ := List.exists_cons_of_ne_nil hx0
      rw [e]
      exact hx r (by rw [e]; simp)
    have hne : x.rows.getD 0 [] ≠ [] := by
      intro h
      rw [h] at h0
      simp at h0
      omega
    replace hn : (S.lengths.getD k 0 - 1) * S.dilations.getD k 0 ≤ n := hn
    simp only [allDistances, continuedSeries, uDistances, distances, hch, continued_length n hne, nWin, if_true,
      Bool.false_eq_true, if_false, spanOf]
    rw [← map_range_continued _ (by rw [h0]; exact hlen), Nat.add_sub_assoc hn]
    apply List.map_congr_left
    intro t ht
    rw [window_continued _ _ _ _ _ (by have := List.mem_range.1 ht; omega)]
  | m S =>
    replace hn : (S.lengths.getD k 0 - 1) * S.dilations.getD k 0 ≤ n := hn
    simp only [allDistances, continuedSeries, mDistances, nWin, if_true, Bool.false_eq_true, if_false, spanOf]
    rw [← map_range_continued _ hlen, Nat.add_sub_assoc hn]
    apply List.map_congr_left
    intro t ht
    have hw : ∀ c, window false ((x.rows.map (continued n)).getD c []) (S.lengths.getD k 0) (S.dilations.getD k 0) t =
        window true (x.rows.getD c []) (S.lengths.getD k 0) (S.dilations.getD k 0) (t % x.len) := by
      intro c
      rw [hch]
      rcases row_len hx c with h | h
      · rw [h, show continued n ([] : List K) = [] by simp [continued, periods]]
        exact window_nil _ _ _ _ _ _
      · rw [window_continued _ _ _ _ _ (by have := List.mem_range.1 ht; omega), h]
    unfold mDist
    simp only [hw]

/-- Comparison is transitive among these numbers. -/
def TransOn (D : List K) : Prop :=
  ∀ u ∈ D, ∀ v ∈ D, ∀ w ∈ D, Scalar.ltb u v = true → Scalar.ltb v w = true → Scalar.ltb u w = true

theorem scanMin_append (D E : List K) (i : Nat) (m : K) (a : Nat) :
    scanMin (D ++ E) i m a = scanMin E (i + D.length) (scanMin D i m a).1 (scanMin D i m a).2 := by
  induction D generalizing i m a with
  | nil => rfl
  | cons v D ih =>
    rw [List.cons_append]
    conv_lhs => unfold scanMin
    have e : scanMin (v :: D) i m a = if (Scalar.ltb v m || Scalar.eqb m (-1)) = true then scanMin D (i + 1) v i
      else scanMin D (i + 1) m a := by conv_lhs => unfold scanMin
    rw [e, List.length_cons, show i + (D.length + 1) = i + 1 + D.length by omega]
    split <;> exact ih _ _ _

theorem scanMin_keep {E : List K} {m : K} (h : ∀ v ∈ E, Scalar.ltb v m = false) (hm : Scalar.eqb m (-1) = false) (i a : Nat) :
    scanMin E i m a = (m, a) := by
  induction E generalizing i with
  | nil => rfl
  | cons v E ih =>
    unfold scanMin
    rw [h v (by simp), hm]
    exact ih (fun w hw => h w (List.mem_cons_of_mem _ hw)) _

/-- What has been seen is not less than the minimum that is kept. -/
theorem scanMin_least {A : List K} (hA : ∀ v ∈ A, SoundDistance v) (ht : TransOn A) (D : List K) (hD : ∀ v ∈ D, v ∈ A)
    (P : List K) (hP : ∀ v ∈ P, v ∈ A) {m : K} (hm : m ∈ A) (hPm : ∀ v ∈ P, Scalar.ltb v m = false) (i a : Nat) :
    (scanMin D i m a).1 ∈ A ∧ ∀ v ∈ P ++ D, Scalar.ltb v (scanMin D i m a).1 = false := by
  induction D generalizing P m i a with
  | nil => exact ⟨hm, by rw [List.append_nil]; exact hPm⟩
  | cons v D ih =>
    have hv := hD v (by simp)
    have hD' : ∀ w ∈ D, w ∈ A := fun w hw => hD w (List.mem_cons_of_mem _ hw)
    have hP' : ∀ w ∈ P ++ [v], w ∈ A := by
      intro w hw
      rcases List.mem_append.1 hw with h | h
      · exact hP w h
      · rw [List.mem_singleton.1 h]; exact hv
    have e : P ++ v :: D = (P ++ [v]) ++ D := by simp
    rw [e]
    conv => unfold scanMin
    rw [(hA m hm).2, Bool.or_false]
    cases hc : Scalar.ltb v m with
    | true =>
      refine ih hD' (P ++ [v]) hP' hv ?_ _ _
      intro w hw
      rcases List.mem_append.1 hw with h | h
      · cases hwv : Scalar.ltb w v with
        | false => rfl
        | true => rw [← hPm w h]; exact (ht w (hP w h) v hv m hm hwv hc).symm
      · rw [List.mem_singleton.1 h]; exact (hA v hv).1
    | false =>
      refine ih hD' (P ++ [v]) hP' hm ?_ _ _
      intro w hw
      rcases List.mem_append.1 hw with h | h
      · exact hPm w h
      · rw [List.mem_singleton.1 h]; exact hc

/-- The same numbers once more after a list change neither the minimum nor its place. -/
theorem scanMin_again {D E : List K} (hD : ∀ v ∈ D, SoundDistance v) (ht : TransOn D) (hE : ∀ v ∈ E, v ∈ D)
    (hneg : Scalar.eqb (-1 : K) (-1) = true) :
    scanMin (D ++ E) 0 (-1) 0 = scanMin D 0 (-1) 0 := by
  cases D with
  | nil =>
    cases E with
    | nil => rfl
    | cons v E => exact absurd (hE v (by simp)) (by simp)
  | cons v D =>
    have e : scanMin (v :: D) 0 (-1 : K) 0 = scanMin D 1 v 0 := by
      conv_lhs => unfold scanMin
      rw [hneg, Bool.or_true]
      rfl
    rw [scanMin_append, e]
    obtain ⟨h1, h2⟩ := scanMin_least hD ht D (fun w hw => List.mem_cons_of_mem _ hw) [v] (by simp) (m := v) (by simp)
      (by simpa using (hD v (by simp)).1) 1 0
    exact scanMin_keep (fun w hw => h2 w (by simpa using hE w hw)) (hD _ h1).2 _ _

theorem periods_split {α : Type} {m : Nat} (hm : 1 ≤ m) (D : List α) :
    ∃ E, periods m D = D ++ E ∧ ∀ v ∈ E, v ∈ D := by
  obtain ⟨n, rfl⟩ : ∃ n, m = n + 1 := ⟨m - 1, by omega⟩
  refine ⟨periods n D, by simp [periods, List.replicate_succ], ?_⟩
  intro v hv
  obtain ⟨l, hl, hv⟩ := List.mem_flatten.1 hv
  rwa [List.eq_of_mem_replicate hl] at hv

theorem continued_split {α : Type} (n : Nat) (D : List α) : ∃ E, continued n D = D ++ E ∧ ∀ v ∈ E, v ∈ D := by
  obtain ⟨E, h1, h2⟩ := periods_split (m := n + 1) (by omega) D
  refine ⟨E.take n, ?_, fun v hv => h2 v (List.mem_of_mem_take hv)⟩
  unfold continued
  rw [h1, List.take_append, List.take_of_length_le (by omega), Nat.add_sub_cancel_left]

theorem countP_periods {α : Type} (m : Nat) (f : α → Bool) (D : List α) : (periods m D).countP f = m * D.countP f := by
  induction m with
  | zero => simp [periods]
  | succ m ih =>
    have e : periods (m + 1) D = D ++ periods m D := by simp [periods, List.replicate_succ]
    rw [e, List.countP_append, ih]
    ring

theorem objRow_threshold (S : Shapelets K) {k : Nat} (hk : k < numShapelets S) :
    ∃ thr : K, ∀ (phase : Bool) (x : Mat K),
      (objRow phase S x)[3 * k]? = some (features (allDistances phase S x.rows x.len k) thr).1 ∧
      (objRow phase S x)[3 * k + 1]? = some (features (allDistances phase S x.rows x.len k) thr).2.1 ∧
      (objRow phase S x)[3 * k + 2]? = some (features (allDistances phase S x.rows x.len k) thr).2.2 := by
  cases S with
  | u S =>
    refine ⟨S.threshold.getD k 0, fun phase x => ⟨?_, ?_, ?_⟩⟩
    · exact row_cells (fun k => uFeatures phase S (x.rows.getD 0 []) k) S.lengths.length k 0 hk (by omega)
    · exact row_cells (fun k => uFeatures phase S (x.rows.getD 0 []) k) S.lengths.length k 1 hk (by omega)
    · exact row_cells (fun k => uFeatures phase S (x.rows.getD 0 []) k) S.lengths.length k 2 hk (by omega)
  | m S =>
    refine ⟨S.threshold.getD k 0, fun phase x => ⟨?_, ?_, ?_⟩⟩
    · exact row_cells (fun k => mFeatures phase S x.rows x.len k) S.lengths.length k 0 hk (by omega)
    · exact row_cells (fun k => mFeatures phase S x.rows x.len k) S.lengths.length k 1 hk (by omega)
    · exact row_cells (fun k => mFeatures phase S x.rows x.len k) S.lengths.length k 2 hk (by omega)

theorem rows_again (hneg : Scalar.eqb (-1 : K) (-1) = true) {S : Shapelets K} {k : Nat} (hk : k < numShapelets S)
    {x y : Mat K} {phase : Bool} {E : List K}
    (hD : ∀ v ∈ allDistances true S x.rows x.len k, SoundDistance v) (ht : TransOn (allDistances true S x.rows x.len k))
    (he : allDistances phase S y.rows y.len k = allDistances true S x.rows x.len k ++ E)
    (hE : ∀ v ∈ E, v ∈ allDistances true S x.rows x.len k) :
    ∃ thr, SameMatch k (objRow true S x) (objRow phase S y)
      ((allDistances true S x.rows x.len k).countP fun v => Scalar.leb v thr)
      ((allDistances phase S y.rows y.len k).countP fun v => Scalar.leb v thr) := by
  obtain ⟨thr, h⟩ := objRow_threshold S hk
  obtain ⟨h0, h1, h2⟩ := h true x
  obtain ⟨h3, h4, h5⟩ := h phase y
  have hs := scanMin_again hD ht hE hneg
  rw [← he] at hs
  unfold features at h0 h1 h2 h3 h4 h5
  rw [hs] at h3 h4
  exact ⟨thr, _, _, h0, h1, h2, h3, h4, h5⟩

theorem trans_real (D : List ℝ) : TransOn D := by
  intro u _ v _ w _ h1 h2
  rw [real_ltb] at *
  exact h1.trans h2

theorem trans_ieee {F : FloatFormat} (D : List (Ieee F)) : TransOn D := by
  intro u _ v _ w _ h1 h2
  change Ieee.ltb u v = true at h1
  change Ieee.ltb v w = true at h2
  change Ieee.ltb u w = true
  rcases u with u | u | u <;> rcases v with v | v | v <;> rcases w with w | w | w <;> simp_all [Ieee.ltb]
  all_goals linarith

/-- The distances can be compared. -/
structure Orderly (K : Type) [Scalar K] : Prop where
  neg : Scalar.eqb (-1 : K) (-1) = true
  sound : ∀ (phase : Bool) (S : Shapelets K) (x : List (List K)) (T k : Nat), ∀ v ∈ allDistances phase S x T k, SoundDistance v
  trans : ∀ D : List K, TransOn D

theorem orderly_real : Orderly ℝ :=
  ⟨by rw [real_eqb], fun _ _ _ _ _ => sound_real, trans_real⟩

theorem orderly_ieee {F : FloatFormat} : Orderly (Ieee F) :=
  ⟨ieee_init, fun _ _ _ _ _ => sound_ieee, trans_ieee⟩

theorem rows_periods (hK : Orderly K) {m : Nat} (hm : 1 ≤ m) {S : Shapelets K} {x : Mat K} (hx : x.WF) {k : Nat}
    (hk : k < numShapelets S) : ∃ c, SameMatch k (objRow true S x) (objRow true S (periodsSeries m x)) c (m * c) := by
  have e := C133_distances_periods hm S hx k
  obtain ⟨E, h1, h2⟩ := periods_split hm (allDistances true S x.rows x.len k)
  obtain ⟨thr, h⟩ := rows_again hK.neg hk (hK.sound _ _ _ _ _) (hK.trans _) (e.trans h1) h2
  rw [e, countP_periods] at h
  exact ⟨_, h⟩

theorem rows_continued (hK : Orderly K) {n : Nat} {S : Shapelets K} {x : Mat K} (hx : x.WF) (hx0 : x.rows ≠ [])
    (hlen : 1 ≤ x.len) {k : Nat} (hk : k < numShapelets S) (hn : spanOf S k ≤ n) :
    ∃ c c', SameMatch k (objRow true S x) (objRow false S (continuedSeries n x)) c c' ∧ c ≤ c' ∧
      (spanOf S k = n → c' = c) := by
  have e := C133_distances_continued S hx hx0 hlen hn
  obtain ⟨E, h1, h2⟩ := continued_split (n - spanOf S k) (allDistances true S x.rows x.len k)
  obtain ⟨thr, h⟩ := rows_again hK.neg hk (hK.sound _ _ _ _ _) (hK.trans _) (e.trans h1) h2
  refine ⟨_, _, h, ?_, fun hs => ?_⟩
  · rw [e, h1, List.countP_append]
    omega
  · rw [e, ← hs, Nat.sub_self]
    congr 1
    unfold continued
    simp [periods]

theorem periods_transform {m : Nat} {o : Rdst K R} (hph : o.phase = true) {S : Shapelets K}
    (hS : o.shapelets = some S) {nf : Nat} (hwf : ShpWF S nf) {X X' : XIn K} (hX : X.WF) (hX' : X'.WF) {xs : List (Mat K)}
    (hxs : samples X = .ok xs) (hxs' : samples X' = .ok (xs.map (periodsSeries m)))
    (hnf : ∀ x ∈ xs, x.WF ∧ x.rows.length = nf) {M M' : List (List K)} (h : o.transform X = .ok M)
    (h' : o.transform X' = .ok M') :
    M = xs.map (objRow true S) ∧ M' = xs.map fun x => objRow true S (periodsSeries m x) := by
  obtain ⟨e1, -⟩ := transform_rows hS hwf hX hxs (fun x hx => (hnf x hx).2) h
  obtain ⟨e2, -⟩ := transform_rows hS hwf hX' hxs' (by
    intro x hx
    obtain ⟨z, hz, rfl⟩ := List.mem_map.1 hx
    simpa [periodsSeries] using (hnf z hz).2) h'
  rw [hph] at e1 e2
  exact ⟨e1, by rw [e2, List.map_map]; rfl⟩

theorem periods_cells (hK : Orderly K) {m : Nat} (hm : 1 ≤ m) {o : Rdst K R} (hph : o.phase = true) {S : Shapelets K}
    (hS : o.shapelets = some S) {nf : Nat} (hwf : ShpWF S nf) {X X' : XIn K} (hX : X.WF) (hX' : X'.WF) {xs : List (Mat K)}
    (hxs : samples X = .ok xs) (hxs' : samples X' = .ok (xs.map (periodsSeries m)))
    (hnf : ∀ x ∈ xs, x.WF ∧ x.rows.length = nf) {M M' : List (List K)} (h : o.transform X = .ok M)
    (h' : o.transform X' = .ok M') :
    M.length = xs.length ∧ M'.length = xs.length ∧ ∀ (i : Nat) row row', M[i]? = some row → M'[i]? = some row' →
      ∀ k, k < numShapelets S → ∃ c, SameMatch k row row' c (m * c) := by
  obtain ⟨e1, e2⟩ := periods_transform hph hS hwf hX hX' hxs hxs' hnf h h'
  refine ⟨by rw [e1, List.length_map], by rw [e2, List.length_map], fun i row row' hr hr' k hk => ?_⟩
  rw [e1, List.getElem?_map] at hr
  rw [e2, List.getElem?_map] at hr'
  cases hx : xs[i]? with
  | none => rw [hx] at hr; cases hr
  | some x =>
    rw [hx, Option.map_some, Option.some.injEq] at hr hr'
    rw [← hr, ← hr']
    exact rows_periods hK hm (hnf x (List.mem_of_getElem? hx)).1 hk

theorem continued_cells (hK : Orderly K) {n : Nat} {o : Rdst K R} (hph : o.phase = true) {S : Shapelets K}
    (hS : o.shapelets = some S) {nf : Nat} (hwf : ShpWF S nf) (hnf1 : 1 ≤ nf) {X X' : XIn K} (hX : X.WF) (hX' : X'.WF)
    {xs : List (Mat K)} (hxs : samples X = .ok xs) (hxs' : samples X' = .ok (xs.map (continuedSeries n)))
    (hnf : ∀ x ∈ xs, x.WF ∧ x.rows.length = nf ∧ 1 ≤ x.len) {M M' : List (List K)} (h : o.transform X = .ok M)
    (h' : Rdst.transform { o with phase := false } X' = .ok M') :
    M.length = xs.length ∧ M'.length = xs.length ∧ ∀ (i : Nat) row row', M[i]? = some row → M'[i]? = some row' →
      ∀ k, k < numShapelets S → spanOf S k ≤ n →
        ∃ c c', SameMatch k row row' c c' ∧ c ≤ c' ∧ (spanOf S k = n → c' = c) := by
  obtain ⟨e1, -⟩ := transform_rows hS hwf hX hxs (fun x hx => (hnf x hx).2.1) h
  obtain ⟨e2, -⟩ := transform_rows (o := { o with phase := false }) hS hwf hX' hxs' (by
    intro x hx
    obtain ⟨z, hz, rfl⟩ := List.mem_map.1 hx
    simpa [continuedSeries] using (hnf z hz).2.1) h'
  rw [hph] at e1
  refine ⟨by rw [e1, List.length_map], by rw [e2]; simp, fun i row row' hr hr' k hk hn => ?_⟩
  rw [e1, List.getElem?_map] at hr
  rw [e2, List.getElem?_map, List.getElem?_map] at hr'
  cases hx : xs[i]? with
  | none => rw [hx] at hr; cases hr
  | some x =>
    rw [hx, Option.map_some, Option.some.injEq] at hr
    rw [hx, Option.map_some, Option.map_some, Option.some.injEq] at hr'
    rw [← hr, ← hr']
    obtain ⟨w1, w2, w3⟩ := hnf x (List.mem_of_getElem? hx)
    exact rows_continued hK w1 (by intro h0; rw [h0] at w2; simp at w2; omega) w3 hk hn

/-- **C133.** With phase invariance, recordings of `m` periods instead of one: the same least distance at the same
position, `m` times as many occurrences. -/
theorem C133_periods {m : Nat} (hm : 1 ≤ m) {o : Rdst ℝ R} (hph : o.phase = true) {S : Shapelets ℝ}
    (hS : o.shapelets = some S) {nf : Nat} (hwf : ShpWF S nf) {X X' : XIn ℝ} (hX : X.WF) (hX' : X'.WF) {xs : List (Mat ℝ)}
    (hxs : samples X = .ok xs) (hxs' : samples X' = .ok (xs.map (periodsSeries m)))
    (hnf : ∀ x ∈ xs, x.WF ∧ x.rows.length = nf) {M M' : List (List ℝ)} (h : o.transform X = .ok M)
    (h' : o.transform X' = .ok M') :
    M.length = xs.length ∧ M'.length = xs.length ∧ ∀ (i : Nat) row row', M[i]? = some row → M'[i]? = some row' →
      ∀ k, k < numShapelets S → ∃ c, SameMatch k row row' c (m * c) :=
  periods_cells orderly_real hm hph hS hwf hX hX' hxs hxs' hnf h h'

/-- **C133.** The same in floating-point arithmetic, with missing and infinite values: equal numbers, not only up to
rounding. -/
theorem C133_periods_floating_point {F : FloatFormat} {m : Nat} (hm : 1 ≤ m) {o : Rdst (Ieee F) R} (hph : o.phase = true)
    {S : Shapelets (Ieee F)} (hS : o.shapelets = some S) {nf : Nat} (hwf : ShpWF S nf) {X X' : XIn (Ieee F)} (hX : X.WF)
    (hX' : X'.WF) {xs : List (Mat (Ieee F))} (hxs : samples X = .ok xs)
    (hxs' : samples X' = .ok (xs.map (periodsSeries m))) (hnf : ∀ x ∈ xs, x.WF ∧ x.rows.length = nf)
    {M M' : List (List (Ieee F))} (h : o.transform X = .ok M) (h' : o.transform X' = .ok M') :
    M.length = xs.length ∧ M'.length = xs.length ∧ ∀ (i : Nat) row row', M[i]? = some row → M'[i]? = some row' →
      ∀ k, k < numShapelets S → ∃ c, SameMatch k row row' c (m * c) :=
  periods_cells orderly_ieee hm hph hS hwf hX hX' hxs hxs' hnf h h'

/-- **C133.** What phase invariance computes: `transform` with `phase_invariance=True` finds for every shapelet that spans
at most `n` points the same least distance at the same position as `transform` without it in the recordings continued
periodically by `n` points.  For shapelets that span exactly `n` points the number of occurrences is the same too. -/
theorem C133_continued {n : Nat} {o : Rdst ℝ R} (hph : o.phase = true) {S : Shapelets ℝ}
    (hS : o.shapelets = some S) {nf : Nat} (hwf : ShpWF S nf) (hnf1 : 1 ≤ nf) {X X' : XIn ℝ} (hX : X.WF) (hX' : X'.WF)
    {xs : List (Mat ℝ)} (hxs : samples X = .ok xs) (hxs' : samples X' = .ok (xs.map (continuedSeries n)))
    (hnf : ∀ x ∈ xs, x.WF ∧ x.rows.length = nf ∧ 1 ≤ x.len) {M M' : List (List ℝ)} (h : o.transform X = .ok M)
    (h' : Rdst.transform { o with phase := false } X' = .ok M') :
    M.length = xs.length ∧ M'.length = xs.length ∧ ∀ (i : Nat) row row', M[i]? = some row → M'[i]? = some row' →
      ∀ k, k < numShapelets S → spanOf S k ≤ n →
        ∃ c c', SameMatch k row row' c c' ∧ c ≤ c' ∧ (spanOf S k = n → c' = c) :=
  continued_cells orderly_real hph hS hwf hnf1 hX hX' hxs hxs' hnf h h'

/-- **C133.** The same in floating-point arithmetic, with missing and infinite values. -/
theorem C133_continued_floating_point {F : FloatFormat} {n : Nat} {o : Rdst (Ieee F) R} (hph : o.phase = true)
    {S : Shapelets (Ieee F)} (hS : o.shapelets = some S) {nf : Nat} (hwf : ShpWF S nf) (hnf1 : 1 ≤ nf)
    {X X' : XIn (Ieee F)} (hX : X.WF) (hX' : X'.WF) {xs : List (Mat (Ieee F))} (hxs : samples X = .ok xs)
    (hxs' : samples X' = .ok (xs.map (continuedSeries n))) (hnf : ∀ x ∈ xs, x.WF ∧ x.rows.length = nf ∧ 1 ≤ x.len)
    {M M' : List (List (Ieee F))} (h : o.transform X = .ok M) (h' : Rdst.transform { o with phase := false } X' = .ok M') :
    M.length = xs.length ∧ M'.length = xs.length ∧ ∀ (i : Nat) row row', M[i]? = some row → M'[i]? = some row' →
      ∀ k, k < numShapelets S → spanOf S k ≤ n →
        ∃ c c', SameMatch k row row' c c' ∧ c ≤ c' ∧ (spanOf S k = n → c' = c) :=
  continued_cells orderly_ieee hph hS hwf hnf1 hX hX' hxs hxs' hnf h h'

/-- **C133.** Such recordings are accepted: for series of at least `T ≥ 3` points, with shapelets that fit in `T` points,
`transform` succeeds on the recordings, on their `m` periods and, without phase invariance, on their continuation, for the
four types of transformers. -/
theorem C133_accepted {m : Nat} (hm : 1 ≤ m) (n : Nat) {o : Rdst K R} {S : Shapelets K} (hS : o.shapelets = some S) {nf : Nat}
    (hnf1 : 1 ≤ nf) (hwf : ShpWF S nf) (hkind : KindOf o.transformType S) {xs : List (Mat K)} (hne : xs ≠ [])
    (hxs : ∀ x ∈ xs, x.WF ∧ x.rows.length = nf) {T : Nat} (hT : 3 ≤ T) (hlen : ∀ x ∈ xs, T ≤ x.len)
    (hk : ∀ k, k < numShapelets S → spanOf S k < T) :
    ((o.transformType = .uniVar ∨ o.transformType = .multiVar) → ∃ M M₁ M₂, o.transform (.list xs) = .ok M ∧
      o.transform (.list (xs.map (periodsSeries m))) = .ok M₁ ∧
      Rdst.transform { o with phase := false } (.list (xs.map (continuedSeries n))) = .ok M₂) ∧
    ((o.transformType = .uni ∨ o.transformType = .multi) → (∀ x ∈ xs, x.len = T) → ∀ dt, ∃ M M₁ M₂,
      o.transform (.array dt ⟨xs.map Mat.rows, nf, T⟩) = .ok M ∧
      o.transform (.array dt ⟨(xs.map (periodsSeries m)).map Mat.rows, nf, m * T⟩) = .ok M₁ ∧
      Rdst.transform { o with phase := false } (.array dt ⟨(xs.map (continuedSeries n)).map Mat.rows, nf, T + n⟩) =
        .ok M₂) := by
  have h1 : ∀ x ∈ xs.map (periodsSeries m), (x.WF ∧ x.rows.length = nf) ∧ m * T ≤ x.len ∧
      ((∀ x ∈ xs, x.len = T) → x.len = m * T) := by
    intro x hx
    obtain ⟨z, hz, rfl⟩ := List.mem_map.1 hx
    refine ⟨⟨fun row hrow => ?_, by simpa [periodsSeries] using (hxs z hz).2⟩, Nat.mul_le_mul_left m (hlen z hz), fun he => ?_⟩
    · obtain ⟨w, hw, rfl⟩ := List.mem_map.1 hrow
      rw [periods_length, (hxs z hz).1 w hw]
      rfl
    · rw [← he z hz]; rfl
  have h2 : ∀ x ∈ xs.map (continuedSeries n), (x.WF ∧ x.rows.length = nf) ∧ T + n ≤ x.len ∧
      ((∀ x ∈ xs, x.len = T) → x.len = T + n) := by
    intro x hx
    obtain ⟨z, hz, rfl⟩ := List.mem_map.1 hx
    refine ⟨⟨fun row hrow => ?_, by simpa [continuedSeries] using (hxs z hz).2⟩, Nat.add_le_add_right (hlen z hz) n,
      fun he => ?_⟩
    · obtain ⟨w, hw, rfl⟩ := List.mem_map.1 hrow
      have hwl := (hxs z hz).1 w hw
      rw [continued_length n (by intro h0; rw [h0] at hwl; simp at hwl; have := hlen z hz; omega), hwl]
      rfl
    · rw [← he z hz]; rfl
  have hmT : T ≤ m * T := Nat.le_mul_of_pos_left T hm
  obtain ⟨a1, a2⟩ := held_accept hS hnf1 hwf hkind hne hxs hT hlen hk
  obtain ⟨b1, b2⟩ := held_accept hS hnf1 hwf hkind (xs := xs.map (periodsSeries m)) (by simpa using hne)
    (fun x hx => (h1 x hx).1) (hT.trans hmT) (fun x hx => (h1 x hx).2.1) (fun k h => (hk k h).trans_le hmT)
  obtain ⟨c1, c2⟩ := held_accept (o := { o with phase := false }) hS hnf1 hwf hkind (xs := xs.map (continuedSeries n))
    (by simpa using hne) (fun x hx => (h2 x hx).1) (T := T + n) (by omega) (fun x hx => (h2 x hx).2.1)
    (fun k h => (hk k h).trans_le (by omega))
  refine ⟨fun hv => ?_, fun hv he dt => ?_⟩
  · obtain ⟨M, hM⟩ := a1 hv
    obtain ⟨M₁, hM₁⟩ := b1 hv
    obtain ⟨M₂, hM₂⟩ := c1 hv
    exact ⟨M, M₁, M₂, hM, hM₁, hM₂⟩
  · obtain ⟨M, hM⟩ := a2 hv he dt
    obtain ⟨M₁, hM₁⟩ := b2 hv (fun x hx => (h1 x hx).2.2 he) dt
    obtain ⟨M₂, hM₂⟩ := c2 hv (fun x hx => (h2 x hx).2.2 he) dt
    exact ⟨M, M₁, M₂, hM, hM₁, hM₂⟩

end

section
variable {G R L : Type} [Gen G ℝ] [LawfulGen G] [DecidableEq L]

/-- The factors of the columns: `m` for the numbers of occurrences. -/
noncomputable def countFactor (m j : Nat) : ℝ := if j % 3 = 2 then m else 1

theorem objRow_periods {m : Nat} (hm : 1 ≤ m) (S : Shapelets ℝ) {x : Mat ℝ} (hx : x.WF) :
    objRow true S (periodsSeries m x) = scaleRow (countFactor m) (objRow true S x) := by
  apply List.ext_getElem?
  intro j
  rcases Nat.lt_or_ge j (3 * numShapelets S) with h | h
  · obtain ⟨c, d, p, h0, h1, h2, h3, h4, h5⟩ := rows_periods orderly_real hm (S := S) hx (k := j / 3) (by omega)
    unfold scaleRow
    rw [List.getElem?_mapIdx]
    have hj : j = 3 * (j / 3) ∨ j = 3 * (j / 3) + 1 ∨ j = 3 * (j / 3) + 2 := by omega
    rcases hj with e | e | e
    · have hf : countFactor m j = 1 := if_neg (by omega)
      rw [hf, e, h3, h0]; simp
    · have hf : countFactor m j = 1 := if_neg (by omega)
      rw [hf, e, h4, h1]; simp
    · have hf : countFactor m j = m := if_pos (by omega)
      rw [hf, e, h5, h2]; simp
  · rw [List.getElem?_eq_none (by rw [objRow_len]; exact h),
      List.getElem?_eq_none (by unfold scaleRow; rw [List.length_mapIdx, objRow_len]; exact h)]

/-- **C133.** With phase invariance, the scaler and the linear classifier trained on recordings of `m` periods raise the
same exception or give the same predictions for recordings of `m` periods as those trained on one period do for one
period. -/
theorem C133_predictions (env : ClfEnv G ℝ R L) {m : Nat} (hm : 1 ≤ m) {o : Rdst ℝ R} (hph : o.phase = true)
    {S : Shapelets ℝ} (hS : o.shapelets = some S) {nf : Nat} (hwf : ShpWF S nf) {X X' Z Z' : XIn ℝ} (hX : X.WF)
    (hX' : X'.WF) (hZ : Z.WF) (hZ' : Z'.WF) {xs zs : List (Mat ℝ)} (hxs : samples X = .ok xs)
    (hxs' : samples X' = .ok (xs.map (periodsSeries m))) (hzs : samples Z = .ok zs)
    (hzs' : samples Z' = .ok (zs.map (periodsSeries m))) (hnf : ∀ x ∈ xs, x.WF ∧ x.rows.length = nf)
    (hnfz : ∀ z ∈ zs, z.WF ∧ z.rows.length = nf) {F F' M M' : List (List ℝ)} (hF : o.transform X = .ok F)
    (hF' : o.transform X' = .ok F') (hM : o.transform Z = .ok M) (hM' : o.transform Z' = .ok M') (y : List L) :
    (∃ e, fitPipeline env F y = .error e ∧ fitPipeline env F' y = .error e) ∨
    ∃ sm sm', fitPipeline env F y = .ok sm ∧ fitPipeline env F' y = .ok sm' ∧
      predictPipeline sm' M' = predictPipeline sm M := by
  obtain ⟨-, hne⟩ := transform_rows hS hwf hX hxs (fun x hx => (hnf x hx).2) hF
  obtain ⟨eF, eF'⟩ := periods_transform hph hS hwf hX hX' hxs hxs' hnf hF hF'
  obtain ⟨eM, eM'⟩ := periods_transform hph hS hwf hZ hZ' hzs hzs' hnfz hM hM'
  have key : ∀ ws : List (Mat ℝ), (∀ x ∈ ws, x.WF ∧ x.rows.length = nf) →
      (ws.map fun x => objRow true S (periodsSeries m x)) = (ws.map (objRow true S)).map (scaleRow (countFactor m)) := by
    intro ws h
    rw [List.map_map]
    exact List.map_congr_left fun x hx => objRow_periods hm S (h x hx).1
  have eF'' : F' = F.map (scaleRow (countFactor m)) := by rw [eF', eF]; exact key xs hnf
  have eM'' : M' = M.map (scaleRow (countFactor m)) := by rw [eM', eM]; exact key zs hnfz
  have hpos : ∀ j, 0 < countFactor m j := by
    intro j
    unfold countFactor
    split
    · exact_mod_cast hm
    · exact one_pos
  have hlen : ∀ ws : List (Mat ℝ), ∀ row ∈ ws.map (objRow true S), row.length = 3 * numShapelets S := by
    intro ws row hrow
    obtain ⟨x, -, rfl⟩ := List.mem_map.1 hrow
    exact objRow_len _ _ _
  obtain ⟨p1, p2⟩ := pipeline_scale env hpos (F := F) (by rw [eF]; simpa using hne) (eF ▸ hlen xs) y
  cases h : fitPipeline env F y with
  | error e => exact Or.inl ⟨e, rfl, by rw [eF'']; exact p1 e h⟩
  | ok sm =>
    obtain ⟨sm', h1, h2⟩ := p2 sm h
    exact Or.inr ⟨sm, sm', rfl, by rw [eF'']; exact h1, by rw [eM'']; exact h2 M (eM ▸ hlen zs)⟩

/-- The two series of five points and the three shapelets `exU`: three periods, and continued by six points. -/
example (env : ClfEnv G ℝ R L) {o : Rdst ℝ R} (ht : o.transformType = .uni) (hph : o.phase = true)
    (hS : o.shapelets = some (.u exU)) (y : List L) :
    ∃ M M₁ M₂, o.transform (.array .float64 ⟨exX, 1, 5⟩) = .ok M ∧
      o.transform (.array .float64 ⟨[[[0, 1, 2, 3, 4, 0, 1, 2, 3, 4, 0, 1, 2, 3, 4]],
        [[1, 1, 0, 0, 2, 1, 1, 0, 0, 2, 1, 1, 0, 0, 2]]], 1, 15⟩) = .ok M₁ ∧
      Rdst.transform { o with phase := false } (.array .float64 ⟨[[[0, 1, 2, 3, 4, 0, 1, 2, 3, 4, 0]],
        [[1, 1, 0, 0, 2, 1, 1, 0, 0, 2, 1]]], 1, 11⟩) = .ok M₂ ∧
      (∀ (i : Nat) row row', M[i]? = some row → M₁[i]? = some row' → ∀ k, k < 3 → ∃ c, SameMatch k row row' c (3 * c)) ∧
      (∀ (i : Nat) row row', M[i]? = some row → M₂[i]? = some row' → ∀ k, k < 3 →
        ∃ c c', SameMatch k row row' c c' ∧ c ≤ c') ∧
      ((∃ e, fitPipeline env M y = .error e ∧ fitPipeline env M₁ y = .error e) ∨
        ∃ sm sm', fitPipeline env M y = .ok sm ∧ fitPipeline env M₁ y = .ok sm' ∧
          predictPipeline sm' M₁ = predictPipeline sm M) := by
  have hw : ∀ x ∈ [(⟨[[0, 1, 2, 3, 4]], 5⟩ : Mat ℝ), ⟨[[1, 1, 0, 0, 2]], 5⟩], x.WF ∧ x.rows.length = 1 := by
    simp [Mat.WF]
  have hw' : ∀ x ∈ [(⟨[[0, 1, 2, 3, 4]], 5⟩ : Mat ℝ), ⟨[[1, 1, 0, 0, 2]], 5⟩], x.WF ∧ x.rows.length = 1 ∧ 1 ≤ x.len := by
    simp [Mat.WF]
  have hsp : ∀ k, k < 3 → spanOf (.u exU) k < 5 := by
    intro k hk
    interval_cases k <;> simp [spanOf, exU]
  obtain ⟨-, h⟩ := C133_accepted (m := 3) (by omega) 6 hS (nf := 1) le_rfl exU_wf (by rw [ht]; exact Or.inl rfl)
    (xs := [⟨[[0, 1, 2, 3, 4]], 5⟩, ⟨[[1, 1, 0, 0, 2]], 5⟩]) (by simp) hw (T := 5) (by omega) (by simp) hsp
  obtain ⟨M, M₁, M₂, h0, h1, h2⟩ := h (Or.inl ht) (by simp) .float64
  have w0 : (XIn.array DType.float64 (⟨exX, 1, 5⟩ : Arr3 ℝ)).WF := by
    intro s hs
    simp only [exX, List.mem_cons, List.not_mem_nil, or_false] at hs
    rcases hs with rfl | rfl <;> simp
  have w1 : (XIn.array DType.float64 (⟨[[[0, 1, 2, 3, 4, 0, 1, 2, 3, 4, 0, 1, 2, 3, 4]],
      [[1, 1, 0, 0, 2, 1, 1, 0, 0, 2, 1, 1, 0, 0, 2]]], 1, 15⟩ : Arr3 ℝ)).WF := by
    intro s hs
    simp only [List.mem_cons, List.not_mem_nil, or_false] at hs
    rcases hs with rfl | rfl <;> simp
  have w2 : (XIn.array DType.float64 (⟨[[[0, 1, 2, 3, 4, 0, 1, 2, 3, 4, 0]], [[1, 1, 0, 0, 2, 1, 1, 0, 0, 2, 1]]], 1, 11⟩ :
      Arr3 ℝ)).WF := by
    intro s hs
    simp only [List.mem_cons, List.not_mem_nil, or_false] at hs
    rcases hs with rfl | rfl <;> simp
  have p := (C133_periods (m := 3) (by omega) hph hS (nf := 1) exU_wf w0 w1
    (xs := [⟨[[0, 1, 2, 3, 4]], 5⟩, ⟨[[1, 1, 0, 0, 2]], 5⟩]) rfl rfl hw h0 h1).2.2
  have q := (C133_continued (n := 6) hph hS (nf := 1) exU_wf le_rfl w0 w2
    (xs := [⟨[[0, 1, 2, 3, 4]], 5⟩, ⟨[[1, 1, 0, 0, 2]], 5⟩]) rfl rfl hw' h0 h2).2.2
  refine ⟨M, M₁, M₂, h0, h1, h2, fun i row row' a b k hk => p i row row' a b k hk, fun i row row' a b k hk => ?_, ?_⟩
  · obtain ⟨c, c', e1, e2, -⟩ := q i row row' a b k hk ((hsp k hk).le.trans (by omega))
    exact ⟨c, c', e1, e2⟩
  · exact C133_predictions env (m := 3) (by omega) hph hS (nf := 1) exU_wf w0 w1 w0 w1
      (xs := [⟨[[0, 1, 2, 3, 4]], 5⟩, ⟨[[1, 1, 0, 0, 2]], 5⟩]) (zs := [⟨[[0, 1, 2, 3, 4]], 5⟩, ⟨[[1, 1, 0, 0, 2]], 5⟩])
      rfl rfl rfl rfl hw hw h0 h1 h0 h1 y

end
end Convst.Props
