import Verif.Proofs.Kernels
import Verif.Proofs.Object
import Verif.Props.Params
import Verif.Props.Transform

/-! # `transform` of an object, row by row -/

set_option autoImplicit false
set_option linter.unusedSectionVars false

namespace Convst
open Spec

variable {K R : Type} [Scalar K]

/-- The features of one series. -/
def objRow (phase : Bool) (S : Shapelets K) (x : Mat K) : List K :=
  match S with
  | .u S => uRow phase S (x.rows.getD 0 [])
  | .m S => mRow phase S x.rows x.len

/-- Well-formed fitted shapelets, for series of `nf` channels. -/
def ShpWF (S : Shapelets K) (nf : Nat) : Prop :=
  match S with
  | .u S => UWF S
  | .m S => MWF S nf

theorem samples_wf {X : XIn K} (hX : X.WF) {xs : List (Mat K)} (hxs : samples X = .ok xs) :
    ∀ x ∈ xs, x.WF := by
  cases X with
  | list Y => cases hxs; exact hX
  | objArray Y => cases hxs; exact hX
  | array dt A =>
    cases hxs
    intro x hx r hr
    obtain ⟨s, hs, rfl⟩ := List.mem_map.1 hx
    exact (hX s hs).2 r hr
  | arrayOther dt s => cases hxs

theorem toArr3_samples {X : XIn K} (hX : X.WF) {A : Arr3 K} (h : toArr3 X = .ok A) :
    samples X = .ok (A.data.map fun s => ⟨s, A.nt⟩) ∧ 0 < A.nf ∧ 2 < A.nt ∧ A.data ≠ [] ∧
      ∀ s ∈ A.data, Rect s A.nf A.nt := by
  unfold toArr3 at h
  rcases Props.C62_check_array_3D (asArray X) false 2 with ⟨-, hg, Y, hY, ⟨-, hd⟩, -⟩ | ⟨-, he⟩
  · rw [hY, Res.bind_ok, Res.pure_eq, Except.ok.injEq] at h
    obtain ⟨n, f, t, hsh, h1, h2, h3, h4, -⟩ := hg
    cases X with
    | list Y' =>
      cases Y' with
      | nil => simp [asArray] at hsh
      | cons x xs =>
        simp only [asArray] at hsh hd
        split at hsh
        · rename_i hall
          rw [if_pos hall] at hd
          simp only [Arr3.shape, List.cons.injEq, and_true] at hsh
          obtain ⟨e1, e2, e3⟩ := hsh
          have hA : A = ⟨(x :: xs).map Mat.rows, x.rows.length, x.len⟩ := by rw [← h, hd]
          subst hA
          have hall' : ∀ z ∈ x :: xs, z.rows.length = x.rows.length ∧ z.len = x.len := by
            intro z hz
            rcases List.mem_cons.1 hz with rfl | hz
            · exact ⟨rfl, rfl⟩
            · have := List.all_eq_true.1 hall z hz
              simpa using this
          refine ⟨?_, by simp only; omega, by simp only; omega, by simp, ?_⟩
          · simp only [samples, List.map_map]
            congr 1
            conv_lhs => rw [← List.map_id (x :: xs)]
            apply List.map_congr_left
            intro z hz
            simp only [id, Function.comp_apply, ← (hall' z hz).2]
          · intro s hs
            obtain ⟨z, hz, rfl⟩ := List.mem_map.1 hs
            refine ⟨(hall' z hz).1, ?_⟩
            intro r hr
            rw [hX z hz r hr]
            exact (hall' z hz).2
        · simp at hsh
    | objArray Y' => simp [asArray] at hsh
    | array dt B =>
      simp only [asArray, Arr3.py, Arr3.shape, List.cons.injEq, and_true] at hsh hd
      obtain ⟨e1, e2, e3⟩ := hsh
      have hA : A = B := by rw [← h, hd]
      subst hA
      refine ⟨rfl, by omega, by omega, ?_, ?_⟩
      · apply List.ne_nil_of_length_pos; omega
      · intro s hs; exact hX s hs
    | arrayOther dt s =>
      simp only [asArray] at hsh
      have : s.length ≠ 3 := hX
      rw [hsh] at this
      exact absurd rfl this
  · rw [he] at h; cases h

theorem formatUneven_samples {X : XIn K} {A : Arr3 K} {lens : List Nat}
    (h : formatUneven X = .ok (A, lens)) {xs : List (Mat K)} (hxs : samples X = .ok xs) :
    xs ≠ [] ∧ A.data = xs.map (fun s => s.rows.map (padRow A.nt)) ∧ lens = xs.map Mat.len ∧
      (∀ x ∈ xs, x.rows.length = A.nf) ∧ ∀ x ∈ xs, x.len ≤ A.nt := by
  unfold formatUneven at h
  rw [hxs, Res.bind_ok] at h
  cases xs with
  | nil => cases h
  | cons x xs =>
    simp only at h
    split at h
    · rename_i hall
      obtain ⟨m, hm, hm1, -⟩ := Props.nmax_spec (l := (x :: xs).map Mat.len) (by simp)
      rw [hm, Res.bind_ok, Res.pure_eq, Except.ok.injEq, Prod.mk.injEq] at h
      obtain ⟨rfl, rfl⟩ := h
      refine ⟨by simp, rfl, rfl, ?_, ?_⟩
      · intro z hz
        have := List.all_eq_true.1 hall z.rows.length (List.mem_map.2 ⟨z, hz, rfl⟩)
        simpa using this
      · intro z hz
        exact hm1 _ (List.mem_map.2 ⟨z, hz, rfl⟩)
    · cases h

theorem checkArray3D_py {A : Arr3 K} {Y : PyArr (Arr3 K)} (h : checkArray3D A.py = .ok Y) :
    A.data ≠ [] ∧ 0 < A.nf ∧ 2 < A.nt := by
  rcases Props.C62_check_array_3D A.py false 2 with ⟨-, hg, -⟩ | ⟨-, he⟩
  · obtain ⟨n, f, t, hsh, h1, h2, h3, h4, -⟩ := hg
    simp only [Arr3.py, Arr3.shape, List.cons.injEq, and_true] at hsh
    obtain ⟨e1, e2, e3⟩ := hsh
    exact ⟨List.ne_nil_of_length_pos (by omega), by omega, by omega⟩
  · rw [he] at h; cases h

theorem padRow_take {nt : Nat} {r : List K} : (padRow nt r).take r.length = r := by
  simp [padRow]

/-- A successful `transform` computes the row of each series from that series alone. -/
theorem transform_rows {o : Rdst K R} {S : Shapelets K} (hS : o.shapelets = some S) {nf : Nat}
    (hwf : ShpWF S nf) {X : XIn K} (hX : X.WF) {xs : List (Mat K)} (hxs : samples X = .ok xs)
    (hnf : ∀ x ∈ xs, x.rows.length = nf) {M : List (List K)} (h : o.transform X = .ok M) :
    M = xs.map (objRow o.phase S) ∧ xs ≠ [] := by
  unfold Rdst.transform at h
  rw [hS] at h
  simp only at h
  split at h
  · rw [Res.bind_eq_ok] at h
    obtain ⟨⟨A, lens⟩, hf, h⟩ := h
    simp only at h
    rw [Res.bind_eq_ok] at h
    obtain ⟨Y, hY, h⟩ := h
    obtain ⟨-, hnf0, -⟩ := checkArray3D_py hY
    obtain ⟨hne, hdata, rfl, hrows, hlen⟩ := formatUneven_samples hf hxs
    have hw := samples_wf hX hxs
    have hl : A.data.length = xs.length := by rw [hdata]; simp
    split at h
    · rename_i S' _
      have hA : ∀ s ∈ A.data, s ≠ [] := by
        intro s hs
        rw [hdata] at hs
        obtain ⟨z, hz, rfl⟩ := List.mem_map.1 hs
        have := hrows z hz
        apply List.ne_nil_of_length_pos
        rw [List.length_map]; omega
      rw [Props.C12_univariate_variable_length hwf o.phase hA (by simp [hl])] at h
      split at h
      · rw [Except.ok.injEq] at h
        refine ⟨?_, hne⟩
        rw [← h, hl]
        apply List.ext_getElem (by simp)
        intro i h1 h2
        have hi : i < xs.length := by simpa using h1
        have hz := List.getElem_mem hi
        have h0 : 0 < xs[i].rows.length := by rw [hrows _ hz]; exact hnf0
        simp only [List.getElem_map, List.getElem_range, objRow]
        congr 1
        unfold uPrefix
        rw [hdata]
        have e1 : (List.map (fun s => List.map (padRow A.nt) s.rows) xs).getD i [] =
            xs[i].rows.map (padRow A.nt) := by rw [getD_lt _ (by simpa using hi)]; simp
        have e2 : (xs.map Mat.len).getD i 0 = xs[i].len := by
          rw [getD_lt _ (by simpa using hi)]; simp
        have e3 : (xs[i].rows.map (padRow A.nt)).getD 0 [] = padRow A.nt (xs[i].rows[0]) := by
          rw [getD_lt _ (by simpa using h0)]; simp
        rw [e1, e2, e3, getD_lt _ h0, ← hw _ hz _ (List.getElem_mem h0)]
        exact padRow_take
      · cases h
    · rename_i S' _
      have hnfA : nf = A.nf := by
        obtain ⟨z, hz⟩ := List.exists_mem_of_ne_nil _ hne
        rw [← hnf z hz, hrows z hz]
      subst hnfA
      have hA : ∀ s ∈ A.data, Rect s A.nf A.nt := by
        intro s hs
        rw [hdata] at hs
        obtain ⟨z, hz, rfl⟩ := List.mem_map.1 hs
        refine ⟨by rw [List.length_map]; exact hrows z hz, ?_⟩
        intro r hr
        obtain ⟨r', hr', rfl⟩ := List.mem_map.1 hr
        have e1 := hw z hz r' hr'
        have e2 := hlen z hz
        simp only [padRow, List.length_append, List.length_replicate]
        omega
      rw [Props.C12_multivariate_variable_length hwf o.phase hA (by simp [hl])] at h
      split at h
      · rw [Except.ok.injEq] at h
        refine ⟨?_, hne⟩
        rw [← h, hl]
        apply List.ext_getElem (by simp)
        intro i h1 h2
        have hi : i < xs.length := by simpa using h1
        have hz := List.getElem_mem hi
        simp only [List.getElem_map, List.getElem_range, objRow]
        have e1 : (List.map (fun s => List.map (padRow A.nt) s.rows) xs).getD i [] =
            xs[i].rows.map (padRow A.nt) := by rw [getD_lt _ (by simpa using hi)]; simp
        have e2 : (xs.map Mat.len).getD i 0 = xs[i].len := by
          rw [getD_lt _ (by simpa using hi)]; simp
        rw [e2, Nat.min_eq_left (hlen _ hz)]
        congr 1
        unfold mPrefix
        rw [hdata, e1, e2, List.map_map]
        conv_rhs => rw [← List.map_id xs[i].rows]
        apply List.map_congr_left
        intro r hr
        simp only [Function.comp_apply, id]
        rw [← hw _ hz r hr]
        exact padRow_take
      · cases h
    · cases h
  · rw [Res.bind_eq_ok] at h
    obtain ⟨A, hA, h⟩ := h
    obtain ⟨hs, hnf0, -, hne, hrect⟩ := toArr3_samples hX hA
    rw [hs, Except.ok.injEq] at hxs
    subst hxs
    split at h
    · rename_i S' _
      have hA' : ∀ s ∈ A.data, s ≠ [] := by
        intro s hs
        apply List.ne_nil_of_length_pos
        rw [(hrect s hs).1]; exact hnf0
      rw [Props.C12_univariate_same_length hwf o.phase hA'] at h
      split at h
      · rw [Except.ok.injEq] at h
        refine ⟨?_, by simpa using hne⟩
        rw [← h, List.map_map]
        rfl
      · cases h
    · rename_i S' _
      have hnfA : nf = A.nf := by
        obtain ⟨z, hz⟩ := List.exists_mem_of_ne_nil _ hne
        rw [← hnf ⟨z, A.nt⟩ (List.mem_map.2 ⟨z, hz, rfl⟩)]
        exact (hrect z hz).1
      subst hnfA
      rw [Props.C12_multivariate_same_length hwf o.phase hrect hne] at h
      split at h
      · rw [Except.ok.injEq] at h
        refine ⟨?_, by simpa using hne⟩
        rw [← h, List.map_map]
        rfl
      · cases h
    · cases h

end Convst
