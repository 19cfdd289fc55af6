import Verif.Props.EndToEnd

/-!
# `R_DST` objects: what `fit` passes to the fitter, and the rows of `transform`, in explicit form
-/

set_option autoImplicit false
set_option linter.unusedSectionVars false

namespace Convst.Props
open Convst Spec

/-- The call made by `fit` for a type of transform. -/
def callOf {K L : Type} (t : TType) (a : FitArgs K L) (mc m : Nat) (xLen : List Nat) : Call K L :=
  match t with
  | .uniVar => .uvl a m xLen
  | .multiVar => .mvl a mc m xLen
  | .multi => .msl a mc
  | _ => .usl a

/-- What `fit` does before calling the fitter, in explicit form. -/
theorem prepare_eq {G K R L : Type} [Scalar K] (env : Env G R L) (o : Rdst K R) (w : World R)
    {X : XIn K} (y : List L) {t : TType} (ht : t.Concrete) {m : Nat} {A : Arr3 K} {xLen : List Nat}
    {sizes : List Nat}
    (hset : setFitTransform o X = ({ o with transformType := t }, .ok ()))
    (hload : loadTrain { o with transformType := t } X =
      ({ o with transformType := t, minLen := some m }, .ok (A, xLen)))
    (hns : o.nSamples = none)
    (hcp : checkParams (setLengths o.lens o.bounds o.reduction m) m = .ok sizes) :
    ∃ rs' w' seed, drawSeed env { o with
        transformType := t, minLen := some m, maxChannels := some (o.maxChannels.getD A.nf),
        lens := setLengths o.lens o.bounds o.reduction m } w =
      ({ o with
        transformType := t, minLen := some m, maxChannels := some (o.maxChannels.getD A.nf),
        lens := setLengths o.lens o.bounds o.reduction m, rs := rs' }, w', seed) ∧
    o.prepare env w X y =
      ({ o with
        transformType := t, minLen := some m, maxChannels := some (o.maxChannels.getD A.nf),
        lens := setLengths o.lens o.bounds o.reduction m, rs := rs' }, w',
        .ok (callOf t
          { X := A.data, nf := A.nf, nt := A.nt, y := y, nShp := o.nShp, sizes := sizes,
            pNorm := o.pNorm, pMin := o.pMin, pMax := o.pMax, alpha := o.alpha,
            phase := o.phase, prime := o.prime } (o.maxChannels.getD A.nf) m xLen, seed)) := by
  have hsub : subsample env o.nSamples w A y = (w, .ok (A, y)) := by rw [hns]; rfl
  unfold Rdst.prepare
  have hds : ∃ rs' w1 seed, drawSeed env { o with transformType := t, minLen := some m, maxChannels := some (o.maxChannels.getD A.nf), lens := setLengths o.lens o.bounds o.reduction m } w =
      ({ o with transformType := t, minLen := some m, maxChannels := some (o.maxChannels.getD A.nf),
                lens := setLengths o.lens o.bounds o.reduction m, rs := rs' }, w1, seed) := by
    unfold drawSeed
    cases hrs : o.rs with
    | own r => exact ⟨_, _, _, rfl⟩
    | glob => exact ⟨.glob, _, _, rfl⟩
  obtain ⟨rs', w1, seed, hd⟩ := hds
  refine ⟨rs', w1, seed, hd, ?_⟩
  rw [hset]
  simp only
  rw [hload]
  simp only [hsub, Option.getD_some, hcp, hd]
  rcases ht with rfl | rfl | rfl | rfl <;> rfl

theorem fit_of_prepare {G K R L : Type} [Scalar K] [Gen G K] [DecidableEq L] {env : Env G R L} {gs : Nat → G}
    {order : Nat → List Nat} {o o' : Rdst K R} {w w' : World R} {X : XIn K} {y : List L} {c : Call K L}
    {seed : Nat} {S : Shapelets K} (h : o.prepare env w X y = (o', w', .ok (c, seed)))
    (hr : c.run (env.seedG seed) gs order = .ok S) :
    o.fit env gs order w X y = ({ o' with shapelets := some S }, w', .ok ()) := by
  unfold Rdst.fit
  rw [h]
  simp only [hr]

section
variable {K R : Type} [Scalar K]

theorem transform_array_uni {o : Rdst K R} {S : UShp K} (ht : o.transformType = .uni)
    (hS : o.shapelets = some (.u S)) (hwf : UWF S) {dt : DType} {B : Arr3 K} (hB : (XIn.array dt B).WF)
    (hne : B.data ≠ []) (hnf : 1 ≤ B.nf) (hnt : 3 ≤ B.nt)
    (hk : ∀ k, k < S.lengths.length → (S.lengths.getD k 0 - 1) * S.dilations.getD k 0 < B.nt) :
    o.transform (.array dt B) = .ok (B.data.map fun s => uRow o.phase S (s.getD 0 [])) := by
  unfold Rdst.transform
  simp only [ht, hS]
  rw [if_neg (by simp), toArr3_array hne hnf hnt]
  show uslApply B.data S o.phase = _
  have hlen : ∀ s ∈ B.data, s ≠ [] ∧ (s.getD 0 []).length = B.nt := by
    intro s hs
    obtain ⟨h1, h2⟩ := hB s hs
    have hs0 : 0 < s.length := by omega
    exact ⟨List.ne_nil_of_length_pos hs0, h2 _ (by rw [getD_lt _ hs0]; exact List.getElem_mem hs0)⟩
  exact C01_univariate_same_length hwf _ (fun s hs => (hlen s hs).1) fun s hs k hkl =>
    fits_of_lt (by rw [(hlen s hs).2]; exact hk k hkl)

theorem transform_array_multi {o : Rdst K R} {S : MShp K} (ht : o.transformType = .multi)
    (hS : o.shapelets = some (.m S)) {dt : DType} {B : Arr3 K} (hwf : MWF S B.nf) (hB : (XIn.array dt B).WF)
    (hne : B.data ≠ []) (hnf : 1 ≤ B.nf) (hnt : 3 ≤ B.nt)
    (hk : ∀ k, k < S.lengths.length → (S.lengths.getD k 0 - 1) * S.dilations.getD k 0 < B.nt) :
    o.transform (.array dt B) = .ok (B.data.map fun s => mRow o.phase S s B.nt) := by
  unfold Rdst.transform
  simp only [ht, hS]
  rw [if_neg (by simp), toArr3_array hne hnf hnt]
  show mslApply B.data B.nt S o.phase = _
  exact C03_multivariate_same_length hwf _ (fun s hs => hB s hs) fun k hkl => fits_of_lt (hk k hkl)

/-- The padded array made from a list of series. -/
theorem formatUneven_pad {xs : List (Mat K)} (hwf : ∀ x ∈ xs, x.WF) (hne : xs ≠ []) {nf : Nat}
    (hnf : ∀ x ∈ xs, x.rows.length = nf) (h0 : 1 ≤ nf) {m : Nat} (hm : 3 ≤ m) (hlen : ∀ x ∈ xs, m ≤ x.len) :
    ∃ nt, nmax (xs.map Mat.len) = .ok nt ∧ (∀ x ∈ xs, x.len ≤ nt) ∧
      formatUneven (.list xs) =
        .ok (⟨xs.map fun s => s.rows.map (padRow nt), nf, nt⟩, xs.map Mat.len) ∧
      (∀ s ∈ xs.map fun s => s.rows.map (padRow nt), Rect s nf nt) ∧
      ∃ Y, checkArray3D (Arr3.py (⟨xs.map fun s => s.rows.map (padRow nt), nf, nt⟩ : Arr3 K)) = .ok Y := by
  obtain ⟨A, h1, h2, h3, h4, h5, Y, hY⟩ := formatUneven_list hwf hne hnf h0 hm hlen
  cases xs with
  | nil => exact absurd rfl hne
  | cons x xs =>
    obtain ⟨nt, hn, hn1, -⟩ := nmax_spec (l := (x :: xs).map Mat.len) (by simp)
    have hall : (((x :: xs).map fun s => s.rows.length).all fun n => n == x.rows.length) = true := by
      simp only [List.all_map, List.all_eq_true, Function.comp_apply, beq_iff_eq]
      intro z hz
      rw [hnf z hz, hnf x (by simp)]
    have hf : formatUneven (.list (x :: xs)) =
        .ok (⟨(x :: xs).map fun s => s.rows.map (padRow nt), nf, nt⟩, (x :: xs).map Mat.len) := by
      unfold formatUneven
      simp only [samples, Res.bind_ok]
      rw [if_pos hall, hn, Res.bind_ok, hnf x (by simp)]
      rfl
    rw [h1, Except.ok.injEq, Prod.mk.injEq] at hf
    obtain ⟨rfl, -⟩ := hf
    refine ⟨nt, hn, fun z hz => hn1 _ (List.mem_map.2 ⟨z, hz, rfl⟩), h1, h5, Y, hY⟩

theorem padRow_take {nt : Nat} {r : List K} : (padRow nt r).take r.length = r := by
  simp [padRow]

theorem padRow_take' {x : Mat K} (hx : x.WF) {nt : Nat} {r : List K} (hr : r ∈ x.rows) :
    (padRow nt r).take x.len = r := by
  rw [← hx r hr]; exact padRow_take

theorem transform_list_uni {o : Rdst K R} {S : UShp K} (ht : o.transformType = .uniVar)
    (hS : o.shapelets = some (.u S)) (hwf : UWF S) {zs : List (Mat K)} (hz : ∀ z ∈ zs, z.WF) (hne : zs ≠ [])
    {nf : Nat} (hnf1 : 1 ≤ nf) (hnf : ∀ z ∈ zs, z.rows.length = nf) {m : Nat} (hm : 3 ≤ m)
    (hlen : ∀ z ∈ zs, m ≤ z.len)
    (hk : ∀ k, k < S.lengths.length → (S.lengths.getD k 0 - 1) * S.dilations.getD k 0 < m) :
    o.transform (.list zs) = .ok (zs.map fun z => uRow o.phase S (z.rows.getD 0 [])) := by
  obtain ⟨nt, -, hle, hf, hrect, Y, hY⟩ := formatUneven_pad hz hne hnf hnf1 hm hlen
  unfold Rdst.transform
  simp only [ht, hS]
  rw [if_pos (by simp), hf, Res.bind_ok]
  simp only
  rw [hY, Res.bind_ok]
  have hrow : ∀ i (hi : i < zs.length),
      ((((zs.map fun s => s.rows.map (padRow nt)).getD i []).getD 0 []).take ((zs.map Mat.len).getD i 0)) =
        zs[i].rows.getD 0 [] ∧ (zs[i].rows.getD 0 []).length = zs[i].len := by
    intro i hi
    have hzi := List.getElem_mem hi
    have h0 : 0 < zs[i].rows.length := by rw [hnf _ hzi]; exact hnf1
    have e1 : (zs.map fun s => s.rows.map (padRow nt)).getD i [] = zs[i].rows.map (padRow nt) := by
      rw [getD_lt _ (by simpa using hi), List.getElem_map]
    have e2 : (zs.map Mat.len).getD i 0 = zs[i].len := by
      rw [getD_lt _ (by simpa using hi), List.getElem_map]
    have e3 : (zs[i].rows.map (padRow nt)).getD 0 [] = padRow nt zs[i].rows[0] := by
      rw [getD_lt _ (by simpa using h0), List.getElem_map]
    rw [e1, e2, e3, getD_lt _ h0]
    exact ⟨padRow_take' (hz _ hzi) (List.getElem_mem h0), hz _ hzi _ (List.getElem_mem h0)⟩
  have h1 : ∀ s ∈ zs.map fun s => s.rows.map (padRow nt), s ≠ [] := by
    intro s hs
    have := (hrect s hs).1
    exact List.ne_nil_of_length_pos (by omega)
  rw [C02_univariate_variable_length hwf o.phase (xLen := zs.map Mat.len) h1 (by simp) ?_]
  · congr 1
    apply List.ext_getElem
    · simp
    · intro i h1 h2
      have hi : i < zs.length := by simpa using h1
      rw [List.getElem_map, List.getElem_range, List.getElem_map, (hrow i hi).1]
  · intro i hi k hkl
    have hi : i < zs.length := by simpa using hi
    apply fits_of_lt
    show _ < ((((zs.map fun s => s.rows.map (padRow nt)).getD i []).getD 0 []).take
      ((zs.map Mat.len).getD i 0)).length
    rw [(hrow i hi).1, (hrow i hi).2]
    exact (hk k hkl).trans_le (hlen _ (List.getElem_mem hi))

theorem transform_list_multi {o : Rdst K R} {S : MShp K} (ht : o.transformType = .multiVar)
    (hS : o.shapelets = some (.m S)) {nf : Nat} (hwf : MWF S nf) {zs : List (Mat K)} (hz : ∀ z ∈ zs, z.WF)
    (hne : zs ≠ []) (hnf1 : 1 ≤ nf) (hnf : ∀ z ∈ zs, z.rows.length = nf) {m : Nat} (hm : 3 ≤ m)
    (hlen : ∀ z ∈ zs, m ≤ z.len)
    (hk : ∀ k, k < S.lengths.length → (S.lengths.getD k 0 - 1) * S.dilations.getD k 0 < m) :
    o.transform (.list zs) = .ok (zs.map fun z => mRow o.phase S z.rows z.len) := by
  obtain ⟨nt, -, hle, hf, hrect, Y, hY⟩ := formatUneven_pad hz hne hnf hnf1 hm hlen
  unfold Rdst.transform
  simp only [ht, hS]
  rw [if_pos (by simp), hf, Res.bind_ok]
  simp only
  rw [hY, Res.bind_ok]
  rw [C04_multivariate_variable_length hwf o.phase (xLen := zs.map Mat.len) hrect (by simp) ?_]
  · congr 1
    apply List.ext_getElem
    · simp
    · intro i h1 h2
      have hi : i < zs.length := by simpa using h1
      have hzi := List.getElem_mem hi
      rw [List.getElem_map, List.getElem_range, List.getElem_map]
      rw [getD_lt _ (by simpa using hi), getD_lt _ (by simpa using hi), List.getElem_map, List.getElem_map]
      rw [min_eq_left (hle _ hzi)]
      congr 1
      rw [List.map_map]
      conv_rhs => rw [← List.map_id zs[i].rows]
      apply List.map_congr_left
      intro r hr
      exact padRow_take' (hz _ hzi) hr
  · intro i hi k hkl
    have hi : i < zs.length := by simpa using hi
    have hzi := List.getElem_mem hi
    apply fits_of_lt
    have e : (zs.map Mat.len).getD i 0 = zs[i].len := by
      rw [getD_lt _ (by simpa using hi), List.getElem_map]
    rw [e, min_eq_left (hle _ hzi)]
    exact (hk k hkl).trans_le (hlen _ hzi)

end

end Convst.Props
