import Verif.Spec.Hold
import Verif.Proofs.ObjectRows
import Verif.Proofs.Ieee
import Verif.Props.Stability

/-!
# C132: recordings at a multiple of the sampling rate
-/

set_option autoImplicit false
set_option linter.unusedSectionVars false

namespace Convst.Props
open Convst Spec

variable {K R : Type} [Scalar K]

theorem held_get {α : Type} {r : Nat} (hr : 1 ≤ r) (x : List α) (i : Nat) : (held r x)[i]? = x[i / r]? := by
  induction x generalizing i with
  | nil => simp [held]
  | cons a x ih =>
    have e : held r (a :: x) = List.replicate r a ++ held r x := rfl
    rw [e]
    rcases Nat.lt_or_ge i r with h | h
    · rw [List.getElem?_append_left (by simpa using h), List.getElem?_replicate, if_pos h, Nat.div_eq_of_lt h]
      rfl
    · rw [List.getElem?_append_right (by simpa using h), List.length_replicate, ih]
      obtain ⟨j, rfl⟩ := Nat.exists_eq_add_of_le h
      rw [Nat.add_sub_cancel_left, Nat.add_div_left _ (by omega)]
      rfl

theorem held_length {α : Type} (r : Nat) (x : List α) : (held r x).length = r * x.length := by
  induction x with
  | nil => simp [held]
  | cons a x ih =>
    have e : held r (a :: x) = List.replicate r a ++ held r x := rfl
    rw [e, List.length_append, ih, List.length_replicate, List.length_cons]
    ring

theorem held_getD {α : Type} {r : Nat} (hr : 1 ≤ r) (x : List α) (i : Nat) (z : α) :
    (held r x).getD i z = x.getD (i / r) z := by
  rw [List.getD_eq_getElem?_getD, held_get hr, List.getD_eq_getElem?_getD]

theorem map_range_held {α : Type} {r : Nat} (hr : 1 ≤ r) (n : Nat) (f : Nat → α) :
    (List.range (r * n)).map (fun i => f (i / r)) = held r ((List.range n).map f) := by
  apply List.ext_getElem?
  intro i
  rw [held_get hr, List.getElem?_map, List.getElem?_map]
  rcases Nat.lt_or_ge i (r * n) with h | h
  · rw [List.getElem?_range h, List.getElem?_range (Nat.div_lt_of_lt_mul h)]
    rfl
  · rw [List.getElem?_eq_none (by simpa using h),
      List.getElem?_eq_none (by simpa using (Nat.le_div_iff_mul_le (by omega)).2 (by rw [Nat.mul_comm]; exact h))]
    rfl

theorem nWin_held (phase : Bool) (r T l d : Nat) : nWin phase (r * T) l (r * d) = r * nWin phase T l d := by
  unfold nWin
  split
  · rfl
  · rw [Nat.mul_sub]
    congr 1
    ring

theorem window_held {r : Nat} (hr : 1 ≤ r) (phase : Bool) (x : List K) (l d i : Nat) :
    window phase (held r x) l (r * d) i = window phase x l d (i / r) := by
  unfold window
  apply List.map_congr_left
  intro j _
  rw [held_getD hr, held_length]
  congr 1
  unfold pos
  have e : (i + j * (r * d)) / r = i / r + j * d := by
    rw [show j * (r * d) = r * (j * d) by ring, Nat.add_mul_div_left _ _ (by omega)]
  split
  · rw [Nat.mod_mul_right_div_self, e]
  · exact e

theorem dilations_held (r : Nat) (ds : List Nat) (k : Nat) : (ds.map (r * ·)).getD k 0 = r * ds.getD k 0 := by
  rw [List.getD_eq_getElem?_getD, List.getElem?_map, List.getD_eq_getElem?_getD]
  cases ds[k]? <;> simp

/-- **C132.** Every distance appears `r` times in a row.  No law of arithmetic is needed. -/
theorem C132_distances {r : Nat} (hr : 1 ≤ r) (phase : Bool) (S : Shapelets K) (x : List (List K)) (T k : Nat) :
    allDistances phase (wider r S) (x.map (held r)) (r * T) k = held r (allDistances phase S x T k) := by
  have hch : ∀ c, (x.map (held r)).getD c [] = held r (x.getD c []) := by
    intro c
    rw [List.getD_eq_getElem?_getD, List.getElem?_map, List.getD_eq_getElem?_getD]
    cases x[c]? <;> simp [held]
  cases S with
  | u S =>
    simp only [allDistances, wider, uDistances, distances, dilations_held, hch, held_length, nWin_held]
    rw [← map_range_held hr]
    apply List.map_congr_left
    intro t _
    rw [window_held hr]
    rfl
  | m S =>
    simp only [allDistances, wider, mDistances, dilations_held, nWin_held]
    rw [← map_range_held hr]
    apply List.map_congr_left
    intro t _
    unfold mDist
    simp only [hch, dilations_held, window_held hr]
    rfl

theorem scanMin_replicate (n : Nat) (v : K) (rest : List K) (i : Nat) (m : K) (a : Nat)
    (h : (Scalar.ltb v m || Scalar.eqb m (-1)) = false) :
    scanMin (List.replicate n v ++ rest) i m a = scanMin rest (i + n) m a := by
  induction n generalizing i with
  | zero => rfl
  | succ n ih =>
    rw [List.replicate_succ, List.cons_append]
    conv_lhs => unfold scanMin
    rw [if_neg (by rw [h]; simp), ih, show i + 1 + n = i + (n + 1) by omega]

theorem scanMin_held {r : Nat} (hr : 1 ≤ r) {D : List K} (hD : ∀ v ∈ D, SoundDistance v) (i : Nat) (m : K) (a : Nat) :
    scanMin (held r D) (r * i) m (r * a) = ((scanMin D i m a).1, r * (scanMin D i m a).2) := by
  induction D generalizing i m a with
  | nil => rfl
  | cons v D ih =>
    have ih := ih (fun w hw => hD w (List.mem_cons_of_mem _ hw))
    obtain ⟨h1, h2⟩ := hD v (by simp)
    have e : held r (v :: D) = List.replicate r v ++ held r D := rfl
    rw [e]
    cases hc : (Scalar.ltb v m || Scalar.eqb m (-1)) with
    | false =>
      rw [scanMin_replicate _ _ _ _ _ _ hc, show r * i + r = r * (i + 1) by ring, ih]
      conv_rhs => unfold scanMin
      rw [hc]
      rfl
    | true =>
      obtain ⟨n, rfl⟩ : ∃ n, r = n + 1 := ⟨r - 1, by omega⟩
      rw [List.replicate_succ, List.cons_append]
      conv_lhs => unfold scanMin
      rw [if_pos hc, scanMin_replicate _ _ _ _ _ _ (by rw [h1, h2]; rfl),
        show (n + 1) * i + 1 + n = (n + 1) * (i + 1) by ring, ih]
      conv_rhs => unfold scanMin
      rw [if_pos hc]

theorem countP_held {α : Type} (r : Nat) (f : α → Bool) (D : List α) : (held r D).countP f = r * D.countP f := by
  induction D with
  | nil => simp [held]
  | cons v D ih =>
    have e : held r (v :: D) = List.replicate r v ++ held r D := rfl
    rw [e, List.countP_append, ih, List.countP_replicate, List.countP_cons]
    split <;> ring

theorem objRow_cell (phase : Bool) (S : Shapelets K) (x : Mat K) {k : Nat} (hk : k < numShapelets S) :
    ∃ thr : K, ∀ r : Nat, ∀ y : Mat K,
      (objRow phase S x)[3 * k]? = some (features (allDistances phase S x.rows x.len k) thr).1 ∧
      (objRow phase S x)[3 * k + 1]? = some (features (allDistances phase S x.rows x.len k) thr).2.1 ∧
      (objRow phase S x)[3 * k + 2]? = some (features (allDistances phase S x.rows x.len k) thr).2.2 ∧
      (objRow phase (wider r S) y)[3 * k]? = some (features (allDistances phase (wider r S) y.rows y.len k) thr).1 ∧
      (objRow phase (wider r S) y)[3 * k + 1]? = some (features (allDistances phase (wider r S) y.rows y.len k) thr).2.1 ∧
      (objRow phase (wider r S) y)[3 * k + 2]? = some (features (allDistances phase (wider r S) y.rows y.len k) thr).2.2 := by
  cases S with
  | u S =>
    refine ⟨S.threshold.getD k 0, fun r y => ⟨?_, ?_, ?_, ?_, ?_, ?_⟩⟩
    · exact row_cells (fun k => uFeatures phase S (x.rows.getD 0 []) k) S.lengths.length k 0 hk (by omega)
    · exact row_cells (fun k => uFeatures phase S (x.rows.getD 0 []) k) S.lengths.length k 1 hk (by omega)
    · exact row_cells (fun k => uFeatures phase S (x.rows.getD 0 []) k) S.lengths.length k 2 hk (by omega)
    all_goals
      first
      | exact row_cells (fun k => uFeatures phase { S with dilations := S.dilations.map (r * ·) } (y.rows.getD 0 []) k)
          S.lengths.length k 0 hk (by omega)
      | exact row_cells (fun k => uFeatures phase { S with dilations := S.dilations.map (r * ·) } (y.rows.getD 0 []) k)
          S.lengths.length k 1 hk (by omega)
      | exact row_cells (fun k => uFeatures phase { S with dilations := S.dilations.map (r * ·) } (y.rows.getD 0 []) k)
          S.lengths.length k 2 hk (by omega)
  | m S =>
    refine ⟨S.threshold.getD k 0, fun r y => ⟨?_, ?_, ?_, ?_, ?_, ?_⟩⟩
    · exact row_cells (fun k => mFeatures phase S x.rows x.len k) S.lengths.length k 0 hk (by omega)
    · exact row_cells (fun k => mFeatures phase S x.rows x.len k) S.lengths.length k 1 hk (by omega)
    · exact row_cells (fun k => mFeatures phase S x.rows x.len k) S.lengths.length k 2 hk (by omega)
    all_goals
      first
      | exact row_cells (fun k => mFeatures phase { S with dilations := S.dilations.map (r * ·) } y.rows y.len k)
          S.lengths.length k 0 hk (by omega)
      | exact row_cells (fun k => mFeatures phase { S with dilations := S.dilations.map (r * ·) } y.rows y.len k)
          S.lengths.length k 1 hk (by omega)
      | exact row_cells (fun k => mFeatures phase { S with dilations := S.dilations.map (r * ·) } y.rows y.len k)
          S.lengths.length k 2 hk (by omega)

theorem rows_held {r : Nat} (hr : 1 ≤ r) (phase : Bool) (S : Shapelets K) (x : Mat K) {k : Nat} (hk : k < numShapelets S)
    (hD : ∀ v ∈ allDistances phase S x.rows x.len k, SoundDistance v) :
    HeldAt r k (objRow phase S x) (objRow phase (wider r S) (heldSeries r x)) := by
  obtain ⟨thr, h⟩ := objRow_cell phase S x hk
  obtain ⟨h0, h1, h2, h3, h4, h5⟩ := h r (heldSeries r x)
  have e : allDistances phase (wider r S) (heldSeries r x).rows (heldSeries r x).len k =
      held r (allDistances phase S x.rows x.len k) := C132_distances hr phase S x.rows x.len k
  rw [e] at h3 h4 h5
  have hs := scanMin_held hr hD 0 (-1) 0
  rw [Nat.mul_zero] at hs
  unfold features at h0 h1 h2 h3 h4 h5
  rw [hs] at h3 h4
  rw [countP_held] at h5
  exact ⟨_, _, _, h0, h1, h2, h3, h4, h5⟩

theorem wider_wf {r nf : Nat} {S : Shapelets K} (h : ShpWF S nf) : ShpWF (wider r S) nf := by
  cases S with
  | u S =>
    have h : UWF S := h
    exact ⟨h.values, by simpa using h.dilations, h.threshold, h.normalize, h.pos, h.room⟩
  | m S =>
    have h : MWF S nf := h
    exact ⟨by simpa using h.dilations, h.threshold, h.normalize, h.nChannels, h.pos, h.values, h.channels, h.range⟩

/-- **C132.** `transform` of a data set and of the same recordings at `r` times the sampling rate, by an object and by the
same object with dilations `r` times as large, for any scalar type: cell by cell, for the shapelets and series whose
distances can be compared. -/
theorem C132_transform {r : Nat} (hr : 1 ≤ r) {o : Rdst K R} {S : Shapelets K} (hS : o.shapelets = some S) {nf : Nat}
    (hwf : ShpWF S nf) {X X' : XIn K} (hX : X.WF) (hX' : X'.WF) {xs : List (Mat K)} (hxs : samples X = .ok xs)
    (hxs' : samples X' = .ok (xs.map (heldSeries r))) (hnf : ∀ x ∈ xs, x.rows.length = nf) {M M' : List (List K)}
    (h : o.transform X = .ok M) (h' : Rdst.transform { o with shapelets := some (wider r S) } X' = .ok M') :
    M.length = xs.length ∧ M'.length = xs.length ∧
    ∀ (i : Nat) x row row', xs[i]? = some x → M[i]? = some row → M'[i]? = some row' → ∀ k, k < numShapelets S →
      (∀ v ∈ allDistances o.phase S x.rows x.len k, SoundDistance v) → HeldAt r k row row' := by
  obtain ⟨e1, -⟩ := transform_rows hS hwf hX hxs hnf h
  obtain ⟨e2, -⟩ := transform_rows (o := { o with shapelets := some (wider r S) }) rfl (wider_wf hwf) hX' hxs' (by
    intro x hx
    obtain ⟨z, hz, rfl⟩ := List.mem_map.1 hx
    simpa [heldSeries] using hnf z hz) h'
  refine ⟨by rw [e1, List.length_map], by rw [e2]; simp, ?_⟩
  intro i x row row' hx hrow hrow' k hk hD
  rw [e1, List.getElem?_map, hx, Option.map_some, Option.some.injEq] at hrow
  rw [e2, List.getElem?_map, List.getElem?_map, hx, Option.map_some, Option.map_some, Option.some.injEq] at hrow'
  rw [← hrow, ← hrow']
  exact rows_held hr o.phase S x hk hD

theorem sound_real {phase : Bool} {S : Shapelets ℝ} {x : List (List ℝ)} {T k : Nat} :
    ∀ v ∈ allDistances phase S x T k, SoundDistance v := by
  intro v hv
  have h0 : 0 ≤ v := shpDistances_nonneg phase S x T k v (by cases S <;> exact hv)
  refine ⟨?_, ?_⟩
  · rw [Bool.eq_false_iff, ne_eq, real_ltb]; exact lt_irrefl v
  · rw [Bool.eq_false_iff, ne_eq, real_eqb]; intro h; linarith

theorem sound_ieee {F : FloatFormat} {phase : Bool} {S : Shapelets (Ieee F)} {x : List (List (Ieee F))} {T k : Nat} :
    ∀ v ∈ allDistances phase S x T k, SoundDistance v := by
  intro v hv
  have ht : Tame v := by
    cases S with
    | u S =>
      obtain ⟨i, -, rfl⟩ := List.mem_map.1 hv
      exact tame_l1 _ _
    | m S =>
      obtain ⟨i, -, rfl⟩ := List.mem_map.1 hv
      exact tame_mDist _ _ _ _ _
  rcases ht with rfl | rfl | ⟨a, ha, -, rfl⟩
  · exact ⟨rfl, rfl⟩
  · exact ⟨rfl, rfl⟩
  · refine ⟨?_, ?_⟩
    · rw [ieee_ltb_fin]; simp
    · rw [ieee_eqb_neg]; simp; linarith

/-- **C132.** In exact arithmetic, for all shapelets and all series. -/
theorem C132_exact {r : Nat} (hr : 1 ≤ r) {o : Rdst ℝ R} {S : Shapelets ℝ} (hS : o.shapelets = some S) {nf : Nat}
    (hwf : ShpWF S nf) {X X' : XIn ℝ} (hX : X.WF) (hX' : X'.WF) {xs : List (Mat ℝ)} (hxs : samples X = .ok xs)
    (hxs' : samples X' = .ok (xs.map (heldSeries r))) (hnf : ∀ x ∈ xs, x.rows.length = nf) {M M' : List (List ℝ)}
    (h : o.transform X = .ok M) (h' : Rdst.transform { o with shapelets := some (wider r S) } X' = .ok M') :
    ∀ (i : Nat) x row row', xs[i]? = some x → M[i]? = some row → M'[i]? = some row' → ∀ k, k < numShapelets S →
      HeldAt r k row row' :=
  fun i x row row' h1 h2 h3 k hk => (C132_transform hr hS hwf hX hX' hxs hxs' hnf h h').2.2 i x row row' h1 h2 h3 k hk
    sound_real

/-- **C132.** In floating-point arithmetic, for all shapelets and all series, also with missing and infinite values: the
least distances are the same numbers, not only up to rounding. -/
theorem C132_floating_point {F : FloatFormat} {r : Nat} (hr : 1 ≤ r) {o : Rdst (Ieee F) R} {S : Shapelets (Ieee F)}
    (hS : o.shapelets = some S) {nf : Nat} (hwf : ShpWF S nf) {X X' : XIn (Ieee F)} (hX : X.WF) (hX' : X'.WF)
    {xs : List (Mat (Ieee F))} (hxs : samples X = .ok xs) (hxs' : samples X' = .ok (xs.map (heldSeries r)))
    (hnf : ∀ x ∈ xs, x.rows.length = nf) {M M' : List (List (Ieee F))} (h : o.transform X = .ok M)
    (h' : Rdst.transform { o with shapelets := some (wider r S) } X' = .ok M') :
    ∀ (i : Nat) x row row', xs[i]? = some x → M[i]? = some row → M'[i]? = some row' → ∀ k, k < numShapelets S →
      HeldAt r k row row' :=
  fun i x row row' h1 h2 h3 k hk => (C132_transform hr hS hwf hX hX' hxs hxs' hnf h h').2.2 i x row row' h1 h2 h3 k hk
    sound_ieee

theorem spanOf_wider (r : Nat) (S : Shapelets K) (k : Nat) : spanOf (wider r S) k = r * spanOf S k := by
  cases S <;> (simp only [spanOf, wider, dilations_held]; ring)

theorem held_accept {o : Rdst K R} {S : Shapelets K} (hS : o.shapelets = some S) {nf : Nat} (hnf1 : 1 ≤ nf) (hwf : ShpWF S nf)
    (hkind : KindOf o.transformType S) {xs : List (Mat K)} (hne : xs ≠ []) (hxs : ∀ x ∈ xs, x.WF ∧ x.rows.length = nf)
    {T : Nat} (hT : 3 ≤ T) (hlen : ∀ x ∈ xs, T ≤ x.len) (hk : ∀ k, k < numShapelets S → spanOf S k < T) :
    ((o.transformType = .uniVar ∨ o.transformType = .multiVar) → ∃ M, o.transform (.list xs) = .ok M) ∧
    ((o.transformType = .uni ∨ o.transformType = .multi) → (∀ x ∈ xs, x.len = T) → ∀ dt,
      ∃ M, o.transform (.array dt ⟨xs.map Mat.rows, nf, T⟩) = .ok M) := by
  have hA : (∀ x ∈ xs, x.len = T) → ∀ dt, (XIn.array dt (⟨xs.map Mat.rows, nf, T⟩ : Arr3 K)).WF := by
    intro he dt s hs
    obtain ⟨x, hx, rfl⟩ := List.mem_map.1 hs
    exact ⟨(hxs x hx).2, fun row hrow => by rw [← he x hx]; exact (hxs x hx).1 row hrow⟩
  cases S with
  | u S =>
    rcases hkind with ht | ht
    · refine ⟨fun h => by rw [ht] at h; simp at h, fun _ he dt => ⟨_, transform_array_uni ht hS hwf (hA he dt)
        (by simpa using hne) hnf1 hT hk⟩⟩
    · refine ⟨fun _ => ⟨_, transform_list_uni ht hS hwf (fun x hx => (hxs x hx).1) hne hnf1 (fun x hx => (hxs x hx).2) hT
        hlen hk⟩, fun h => by rw [ht] at h; simp at h⟩
  | m S =>
    rcases hkind with ht | ht
    · refine ⟨fun h => by rw [ht] at h; simp at h, fun _ he dt => ⟨_, transform_array_multi ht hS hwf (hA he dt)
        (by simpa using hne) hnf1 hT hk⟩⟩
    · refine ⟨fun _ => ⟨_, transform_list_multi ht hS hwf (fun x hx => (hxs x hx).1) hne hnf1 (fun x hx => (hxs x hx).2) hT
        hlen hk⟩, fun h => by rw [ht] at h; simp at h⟩

/-- **C132.** The recordings at `r` times the rate are accepted: for series of at least `T ≥ 3` points, with shapelets
that fit in `T` points, `transform` succeeds at both rates, for the four types of transformers. -/
theorem C132_accepted {r : Nat} (hr : 1 ≤ r) {o : Rdst K R} {S : Shapelets K} (hS : o.shapelets = some S) {nf : Nat}
    (hnf1 : 1 ≤ nf) (hwf : ShpWF S nf) (hkind : KindOf o.transformType S) {xs : List (Mat K)} (hne : xs ≠ [])
    (hxs : ∀ x ∈ xs, x.WF ∧ x.rows.length = nf) {T : Nat} (hT : 3 ≤ T) (hlen : ∀ x ∈ xs, T ≤ x.len)
    (hk : ∀ k, k < numShapelets S → spanOf S k < T) :
    ((o.transformType = .uniVar ∨ o.transformType = .multiVar) → ∃ M M', o.transform (.list xs) = .ok M ∧
      Rdst.transform { o with shapelets := some (wider r S) } (.list (xs.map (heldSeries r))) = .ok M') ∧
    ((o.transformType = .uni ∨ o.transformType = .multi) → (∀ x ∈ xs, x.len = T) → ∀ dt, ∃ M M',
      o.transform (.array dt ⟨xs.map Mat.rows, nf, T⟩) = .ok M ∧
      Rdst.transform { o with shapelets := some (wider r S) }
        (.array dt ⟨(xs.map (heldSeries r)).map Mat.rows, nf, r * T⟩) = .ok M') := by
  have hxs' : ∀ x ∈ xs.map (heldSeries r), x.WF ∧ x.rows.length = nf := by
    intro x hx
    obtain ⟨z, hz, rfl⟩ := List.mem_map.1 hx
    refine ⟨fun row hrow => ?_, by simpa [heldSeries] using (hxs z hz).2⟩
    obtain ⟨w, hw, rfl⟩ := List.mem_map.1 hrow
    rw [held_length, (hxs z hz).1 w hw]
    rfl
  have hkind' : KindOf o.transformType (wider r S) := by cases S <;> exact hkind
  have hnum : numShapelets (wider r S) = numShapelets S := by cases S <;> rfl
  have hT' : 3 ≤ r * T := by nlinarith
  have hlen' : ∀ x ∈ xs.map (heldSeries r), r * T ≤ x.len := by
    intro x hx
    obtain ⟨z, hz, rfl⟩ := List.mem_map.1 hx
    exact Nat.mul_le_mul_left r (hlen z hz)
  have hk' : ∀ k, k < numShapelets (wider r S) → spanOf (wider r S) k < r * T := by
    intro k hkk
    rw [spanOf_wider]
    exact Nat.mul_lt_mul_of_pos_left (hk k (hnum ▸ hkk)) (by omega)
  obtain ⟨a1, a2⟩ := held_accept hS hnf1 hwf hkind hne hxs hT hlen hk
  obtain ⟨b1, b2⟩ := held_accept (o := { o with shapelets := some (wider r S) }) rfl hnf1 (wider_wf hwf) hkind'
    (by simpa using hne) hxs' hT' hlen' hk'
  refine ⟨fun hv => ?_, fun hv he dt => ?_⟩
  · obtain ⟨M, hM⟩ := a1 hv
    obtain ⟨M', hM'⟩ := b1 hv
    exact ⟨M, M', hM, hM'⟩
  · obtain ⟨M, hM⟩ := a2 hv he dt
    obtain ⟨M', hM'⟩ := b2 hv (by
      intro x hx
      obtain ⟨z, hz, rfl⟩ := List.mem_map.1 hx
      show r * z.len = r * T
      rw [he z hz]) dt
    exact ⟨M, M', hM, hM'⟩

/-- Two series of five points at three times the rate, for the three shapelets `exU`. -/
example {o : Rdst ℝ R} (ht : o.transformType = .uni) (hS : o.shapelets = some (.u exU)) :
    ∃ M M' row row', o.transform (.array .float64 ⟨exX, 1, 5⟩) = .ok M ∧
      Rdst.transform { o with shapelets := some (wider 3 (.u exU)) } (.array .float64
        ⟨[[[0, 0, 0, 1, 1, 1, 2, 2, 2, 3, 3, 3, 4, 4, 4]], [[1, 1, 1, 1, 1, 1, 0, 0, 0, 0, 0, 0, 2, 2, 2]]], 1, 15⟩) = .ok M' ∧
      M[1]? = some row ∧ M'[1]? = some row' ∧ HeldAt 3 1 row row' := by
  have hw : ∀ x ∈ [(⟨[[0, 1, 2, 3, 4]], 5⟩ : Mat ℝ), ⟨[[1, 1, 0, 0, 2]], 5⟩], x.WF ∧ x.rows.length = 1 := by
    simp [Mat.WF]
  obtain ⟨-, h⟩ := C132_accepted (r := 3) (by omega) hS (nf := 1) le_rfl exU_wf (by rw [ht]; exact Or.inl rfl)
    (xs := [⟨[[0, 1, 2, 3, 4]], 5⟩, ⟨[[1, 1, 0, 0, 2]], 5⟩]) (by simp) hw (T := 5) (by omega) (by simp) (by
      intro k hk
      replace hk : k < 3 := hk
      interval_cases k <;> simp [spanOf, exU])
  obtain ⟨M, M', hM, hM'⟩ := h (Or.inl ht) (by simp) .float64
  have hc := C132_transform (r := 3) (by omega) hS (nf := 1) exU_wf (X := .array .float64 ⟨exX, 1, 5⟩) (by
    intro s hs
    simp only [exX, List.mem_cons, List.not_mem_nil, or_false] at hs
    rcases hs with rfl | rfl <;> simp) (X' := .array .float64 ⟨[[[0, 0, 0, 1, 1, 1, 2, 2, 2, 3, 3, 3, 4, 4, 4]],
      [[1, 1, 1, 1, 1, 1, 0, 0, 0, 0, 0, 0, 2, 2, 2]]], 1, 15⟩) (by
    intro s hs
    simp only [List.mem_cons, List.not_mem_nil, or_false] at hs
    rcases hs with rfl | rfl <;> simp) (xs := [⟨[[0, 1, 2, 3, 4]], 5⟩, ⟨[[1, 1, 0, 0, 2]], 5⟩]) rfl rfl (by simp) hM hM'
  have l1 : 1 < M.length := by rw [hc.1]; simp
  have l2 : 1 < M'.length := by rw [hc.2.1]; simp
  exact ⟨M, M', M[1], M'[1], hM, hM', List.getElem?_eq_getElem l1, List.getElem?_eq_getElem l2,
    hc.2.2 1 _ _ _ rfl (List.getElem?_eq_getElem l1) (List.getElem?_eq_getElem l2) 1
      (show 1 < 3 by omega) sound_real⟩

end Convst.Props
