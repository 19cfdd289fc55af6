import Verif.Proofs.NbUnique

/-!
# `nb_unique` (C54)

Statements for matrices over any linearly ordered type of entries; `<` on rows is the lexicographic
order.
-/

set_option autoImplicit false
set_option linter.unusedSectionVars false

namespace Convst.Props
open Convst

variable {α : Type} [LinearOrder α]

/-- What `numpy.unique(data, axis=0, return_index=True, return_counts=True)` promises: the distinct rows
in lexicographic order, the first position of each and the number of occurrences of each. -/
def IsUnique (data : List (List α)) (out : List (List α) × List Nat × List Nat) : Prop :=
  out.1.Pairwise (· < ·) ∧ (∀ r, r ∈ out.1 ↔ r ∈ data) ∧
    out.2.1 = out.1.map (fun r => data.idxOf r) ∧ out.2.2 = out.1.map fun r => data.count r

/-- The promise determines the output. -/
theorem IsUnique.unique {data : List (List α)} {o o' : List (List α) × List Nat × List Nat}
    (h : IsUnique data o) (h' : IsUnique data o') : o = o' := by
  obtain ⟨r, i, c⟩ := o
  obtain ⟨r', i', c'⟩ := o'
  have hr : r = r' := by
    have hp : r.Perm r' := (List.perm_ext_iff_of_nodup (h.1.imp fun hlt => ne_of_lt hlt)
      (h'.1.imp fun hlt => ne_of_lt hlt)).2 fun x => (h.2.1 x).trans (h'.2.1 x).symm
    exact hp.eq_of_pairwise (fun _ _ _ _ h1 h2 => absurd h1 (lt_asymm h2)) h.1 h'.1
  subst hr
  obtain ⟨-, -, hi, hc⟩ := h
  obtain ⟨-, -, hi', hc'⟩ := h'
  simp only at hi hc hi' hc'
  rw [hi, hc, hi', hc']

theorem nbUnique_rows {data : List (List α)} {c : Nat} (h0 : 0 < data.length)
    (hc : ∀ r ∈ data, r.length = c) (axis : Nat) (input : List (List α)) (c0 : Nat)
    (hax : orient input c0 axis = .ok (data, c)) :
    ∃ out, nbUnique input c0 axis = .ok out ∧ IsUnique data out := by
  have hz1 : data.zipIdx.map Prod.fst = data := List.zipIdx_map_fst ..
  have hz2 : data.zipIdx.map Prod.snd = List.range data.length := by
    rw [List.zipIdx_map_snd, List.range_eq_range']
  have hlen : ∀ p ∈ data.zipIdx, p.1.length = c := fun p hp => by
    have := List.mem_zipIdx' hp
    rw [this.2]; exact hc _ (List.getElem_mem _)
  have hinit : data.zipIdx.Pairwise (RadixRel c) := by
    have h1 : data.zipIdx.Pairwise fun p q => p.2 < q.2 := by
      rw [← List.pairwise_map (f := Prod.snd), hz2]
      exact List.pairwise_lt_range
    refine List.Pairwise.imp_of_mem ?_ h1
    intro p q hp hq h
    right
    rw [List.drop_eq_nil_of_le (by rw [hlen p hp]), List.drop_eq_nil_of_le (by rw [hlen q hq])]
    exact ⟨rfl, h⟩
  obtain ⟨S, hS, hperm, hsort⟩ := radix_loop (le_refl c) hlen hinit
  rw [hz1, hz2] at hS
  set D := S.map Prod.fst with hD
  have hDlen : D.length = data.length := by
    rw [hD, List.length_map, hperm.length_eq, List.length_zipIdx]
  have hSlen : S.length = data.length := by rw [← hDlen, hD, List.length_map]
  have hDc : ∀ r ∈ D, r.length = c := by
    intro r hr
    obtain ⟨p, hp, rfl⟩ := List.mem_map.1 hr
    exact hlen p (hperm.mem_iff.1 hp)
  have hDle : D.Pairwise (· ≤ ·) := by
    rw [hD, List.pairwise_map]
    refine hsort.imp ?_
    rintro p q (h | ⟨h, -⟩)
    · simpa using le_of_lt h
    · simp only [List.drop_zero] at h; rw [h]
  have hDperm : D.Perm data := by
    have := hperm.map Prod.fst
    rwa [hz1] at this
  have hadd := additional_eq hDc
  have hidx : 0 :: (whereIdx (D.length - 1) fun i => isStart D (i + 1)).map (· + 1) =
      whereIdx D.length (isStart D) := by
    have : D.length = D.length - 1 + 1 := by omega
    rw [this, range_filter_succ _ _ rfl, ← this]
  set I := whereIdx D.length (isStart D) with hI
  have hIlt : ∀ k ∈ I, k < S.length := fun k hk => by
    have := (mem_whereIdx.1 hk).1
    omega
  refine ⟨(I.map fun j => D.getD j [], I.map fun j => (S.getD j ([], 0)).2,
    I.map fun j => D.count (D.getD j [])), ?_, ?_⟩
  · unfold nbUnique
    rw [hax, Res.bind_ok]
    simp only
    rw [hS, Res.bind_ok]
    simp only
    rw [hadd, Res.bind_ok]
    simp only [hidx]
    have hg := gather_map Prod.fst ([], 0) hIlt
    rw [← hD] at hg
    rw [hg, Res.bind_ok, gather_map _ ([], 0) hIlt, Res.bind_ok, run_counts hDle (by omega)]
    simp only [Res.pure_eq, List.map_map, Except.ok.injEq, Prod.mk.injEq]
    refine ⟨List.map_congr_left fun k hk => ?_, rfl, rfl⟩
    have := hIlt k hk
    simp [hD, this]
  · refine ⟨starts_rows_sorted hDle, fun r => (starts_rows_mem r).trans hDperm.mem_iff, ?_, ?_⟩
    · simp only [List.map_map]
      refine List.map_congr_left fun k hk => ?_
      have hk1 := hIlt k hk
      rw [getD_lt _ hk1, start_idx hperm hsort hk1 (mem_whereIdx.1 hk).2]
      simp [hD, hk1]
    · simp only [List.map_map]
      exact List.map_congr_left fun k _ => hDperm.count_eq _

/-- C54: on a non-empty array, `nb_unique` returns the distinct rows in lexicographic order, the index of
the first occurrence of each and the number of occurrences. -/
theorem C54_unique_rows (data : List (List α)) (c : Nat) (h0 : data ≠ [])
    (hc : ∀ r ∈ data, r.length = c) :
    ∃ out, nbUnique data c 0 = .ok out ∧ IsUnique data out :=
  nbUnique_rows (List.length_pos_iff.2 h0) hc 0 data c rfl

/-- C54: with `axis = 1` the same holds of the columns. -/
theorem C54_unique_columns (data : List (List α)) (c : Nat) (hc0 : 0 < c)
    (hc : ∀ r ∈ data, r.length = c) :
    ∃ cols out, (∀ j (hj : j < cols.length) i (hi : i < data.length),
        cols[j][i]? = data[i][j]?) ∧ cols.length = c ∧ (∀ col ∈ cols, col.length = data.length) ∧
      nbUnique data c 1 = .ok out ∧ IsUnique cols out := by
  have hcol : ∀ j, j < c → ∃ col : List α, data.mapM (fun r => aget r j) = (.ok col : Res _) ∧
      col.length = data.length ∧ ∀ i (hi : i < data.length), col[i]? = data[i][j]? := by
    intro j hj
    clear hc0
    induction data with
    | nil => exact ⟨[], by simp, rfl, fun i hi => absurd hi (by simp)⟩
    | cons r data ih =>
      obtain ⟨col, h1, h2, h3⟩ := ih fun r' hr' => hc r' (by simp [hr'])
      have hr : j < r.length := by rw [hc r (by simp)]; exact hj
      refine ⟨r[j] :: col, ?_, by simp [h2], ?_⟩
      · rw [List.mapM_cons, aget_ok hr, Res.bind_ok, h1]; rfl
      · intro i hi
        cases i with
        | zero => simp
        | succ i => exact h3 i (by simpa using hi)
  choose! f hf1 hf2 hf3 using hcol
  have ht : transposeM data c = .ok ((List.range c).map f) := by
    unfold transposeM
    exact mapM_ok fun j hj => hf1 j (List.mem_range.1 hj)
  have hlen : ∀ col ∈ (List.range c).map f, col.length = data.length := by
    intro col hcol
    obtain ⟨j, hj, rfl⟩ := List.mem_map.1 hcol
    exact hf2 j (List.mem_range.1 hj)
  obtain ⟨out, h1, h2⟩ := nbUnique_rows (data := (List.range c).map f) (c := data.length)
    (by simpa using hc0) hlen 1 data c (by unfold orient; rw [if_pos rfl, ht]; rfl)
  refine ⟨(List.range c).map f, out, ?_, by simp, hlen, h1, h2⟩
  intro j hj i hi
  rw [List.length_map, List.length_range] at hj
  rw [List.getElem_map, List.getElem_range]
  exact hf3 j hj i hi

/-- C54: the counts sum to the number of rows and there is one per distinct row. -/
theorem C54_counts_sum {data : List (List α)} {c : Nat} (h0 : data ≠ [])
    (hc : ∀ r ∈ data, r.length = c) {rows : List (List α)} {idx counts : List Nat}
    (h : nbUnique data c 0 = .ok (rows, idx, counts)) :
    counts.sum = data.length ∧ rows.length = counts.length ∧ idx.length = rows.length ∧
      (∀ k ∈ counts, 1 ≤ k) ∧ ∀ i ∈ idx, i < data.length := by
  obtain ⟨out, h1, h2, h3, h4, h5⟩ := C54_unique_rows data c h0 hc
  rw [h] at h1
  cases h1
  simp only at h2 h3 h4 h5
  have hnd : rows.Nodup := h2.imp fun hlt => ne_of_lt hlt
  refine ⟨?_, by rw [h5, List.length_map], by rw [h4, List.length_map], ?_, ?_⟩
  · rw [h5]
    have hperm : rows.Perm data.dedup := (List.perm_ext_iff_of_nodup hnd (List.nodup_dedup _)).2
      fun r => by rw [h3, List.mem_dedup]
    rw [(hperm.map _).sum_eq]
    refine Eq.trans ?_ (List.sum_map_count_dedup_eq_length data)
    refine congrArg List.sum (List.map_congr_left fun r _ => ?_)
    exact congrArg (fun b => @List.count _ b r data) (lawful_beq_subsingleton _ _)
  · intro k hk
    rw [h5] at hk
    obtain ⟨r, hr, rfl⟩ := List.mem_map.1 hk
    exact List.count_pos_iff.2 ((h3 r).1 hr)
  · intro i hi
    rw [h4] at hi
    obtain ⟨r, hr, rfl⟩ := List.mem_map.1 hi
    exact List.idxOf_lt_length_iff.2 ((h3 r).1 hr)

/-- C54: an array without rows makes `nb_unique` read out of bounds. -/
theorem C54_empty (c : Nat) : nbUnique ([] : List (List α)) c 0 = .error .oob := by
  have hloop : ∀ l : List Nat,
      l.foldlM sortByColumn (([] : List (List α)), ([] : List Nat)) = .ok ([], []) := by
    intro l
    induction l with
    | nil => rfl
    | cons i l ih =>
      rw [List.foldlM_cons]
      simpa [sortByColumn, argsortStable, gather] using ih
  unfold nbUnique
  have hor : orient ([] : List (List α)) c 0 = .ok ([], c) := rfl
  rw [hor, Res.bind_ok]
  simp only [List.length_nil, List.range_zero]
  rw [hloop, Res.bind_ok]
  by_cases h : c > 1
  · simp [additionalUniques, eqRows, h, npAllAxis1, gather, aget, whereIdx]
  · simp [additionalUniques, eqRows, h, nonzeroRows, gather, aget]

/-- C54: the replacement of `np.all(.., axis=1)` on at least two columns tells which rows are all true. -/
theorem C54_all_axis1 {arr : List (List Bool)} (h : ∀ r ∈ arr, 2 ≤ r.length) :
    ∃ out, npAllAxis1 arr = .ok out ∧ out.length = arr.length ∧
      ∀ i (hi : i < arr.length), (out[i]? = some true ↔ ∀ b ∈ arr[i], b = true) := by
  refine ⟨_, npAllAxis1_ok h, by simp, ?_⟩
  intro i hi
  simp [hi]

theorem row_fold (v out : List Bool) (h : out.length = v.length) :
    (List.range v.length).foldlM (init := out) (fun out idx => do
      let v2 ← aget v idx
      let o ← aget out idx
      aset out idx (v2 && o)) = (.ok (List.zipWith (fun a b => a && b) v out) : Res (List Bool)) := by
  obtain ⟨s, hs, hp⟩ := forRange_inv (n := v.length) (s := out)
    (f := fun out idx => do
      let v2 ← aget v idx
      let o ← aget out idx
      aset out idx (v2 && o))
    (P := fun i s => s.length = v.length ∧ ∀ j, j < v.length →
      s[j]? = some (if j < i then v.getD j false && out.getD j false else out.getD j false))
    ⟨h, fun j hj => by simp [h, hj]⟩ (by
    intro i s hi ⟨h1, h2⟩
    have h3 := h2 i hi
    rw [if_neg (by omega)] at h3
    refine ⟨s.set i (v.getD i false && out.getD i false), ?_, by simp [h1], ?_⟩
    · rw [aget_ok hi, Res.bind_ok, aget_eq_ok.2 h3, Res.bind_ok, aset_ok (by omega), getD_lt _ hi]
    · intro j hj
      rcases eq_or_ne i j with rfl | hne
      · rw [List.getElem?_set_self (by omega), if_pos (by omega)]
      · rw [List.getElem?_set_ne hne, h2 j hj]
        by_cases hc : j < i
        · rw [if_pos hc, if_pos (by omega)]
        · rw [if_neg hc, if_neg (by omega)])
  rw [hs]
  congr 1
  apply List.ext_getElem?
  intro j
  rcases Nat.lt_or_ge j v.length with hj | hj
  · rw [hp.2 j hj, if_pos hj, List.getElem?_zipWith, List.getElem?_eq_getElem hj,
      List.getElem?_eq_getElem (by omega)]
    simp only [getD_lt _ hj, getD_lt _ (show j < out.length by omega)]
  · rw [List.getElem?_eq_none (by omega), List.getElem?_eq_none (by simp; omega)]

/-- C54: the replacement of `np.all(.., axis=0)` on at least two rows tells which columns are all true. -/
theorem C54_all_axis0 {arr : List (List Bool)} {c : Nat} (h : 2 ≤ arr.length) (hc : ∀ r ∈ arr, r.length = c) :
    ∃ out, npAllAxis0 arr = .ok out ∧ out.length = c ∧
      ∀ j, j < c → (out[j]? = some true ↔ ∀ r ∈ arr, r[j]? = some true) := by
  match arr, h with
  | r0 :: r1 :: rest, _ =>
    have h0 : r0.length = c := hc r0 (by simp)
    have h1 : r1.length = c := hc r1 (by simp)
    have key : ∀ (l : List (List Bool)) (out : List Bool), out.length = c → (∀ r ∈ l, r.length = c) →
        ∃ s, l.foldlM (init := out) (fun out v => (List.range v.length).foldlM (init := out) fun out idx => do
          let v2 ← aget v idx
          let o ← aget out idx
          aset out idx (v2 && o)) = (.ok s : Res (List Bool)) ∧ s.length = c ∧
          ∀ j, j < c → (s[j]? = some true ↔ out[j]? = some true ∧ ∀ r ∈ l, r[j]? = some true) := by
      intro l
      induction l with
      | nil => intro out ho _; exact ⟨out, rfl, ho, fun j _ => by simp⟩
      | cons r l ih =>
        intro out ho hl
        have hr := hl r (by simp)
        obtain ⟨s, e1, e2, e3⟩ := ih (List.zipWith (fun a b => a && b) r out) (by simp [hr, ho])
          fun r' hr' => hl r' (by simp [hr'])
        refine ⟨s, ?_, e2, fun j hj => ?_⟩
        · rw [List.foldlM_cons, row_fold r out (by omega), Res.bind_ok]
          exact e1
        · rw [e3 j hj, List.getElem?_zipWith, List.getElem?_eq_getElem (show j < r.length by omega),
            List.getElem?_eq_getElem (show j < out.length by omega)]
          simp only [Option.some.injEq, Bool.and_eq_true, List.mem_cons, forall_eq_or_imp,
            List.getElem?_eq_getElem (show j < r.length by omega)]
          tauto
    obtain ⟨s, e1, e2, e3⟩ := key rest (List.zipWith (fun a b => a && b) r0 r1) (by simp [h0, h1])
      fun r hr => hc r (by simp [hr])
    refine ⟨s, ?_, e2, fun j hj => ?_⟩
    · exact e1
    · rw [e3 j hj, List.getElem?_zipWith, List.getElem?_eq_getElem (show j < r0.length by omega),
        List.getElem?_eq_getElem (show j < r1.length by omega)]
      simp only [Option.some.injEq, Bool.and_eq_true, List.mem_cons, forall_eq_or_imp,
        List.getElem?_eq_getElem (show j < r0.length by omega),
        List.getElem?_eq_getElem (show j < r1.length by omega)]
      tauto

/-- C54, violation: on an array with a single row (for `axis=0`) or with a row of a single column (for `axis=1`)
the replacement reads memory outside the array, where NumPy's `np.all` gives the row or the column. -/
theorem C54_violated_all_single (r : List Bool) (b : Bool) (rest : List (List Bool)) :
    npAllAxis0 [r] = .error .oob ∧ npAllAxis1 ([b] :: rest) = .error .oob := by
  constructor
  · rfl
  · unfold npAllAxis1
    rw [List.mapM_cons]
    rfl

example : ∃ out, npAllAxis0 [[true, true], [true, false], [true, true]] = .ok out ∧ out.length = 2 ∧
    ∀ j, j < 2 → (out[j]? = some true ↔ ∀ r ∈ [[true, true], [true, false], [true, true]], r[j]? = some true) :=
  C54_all_axis0 (by simp) (by simp)

/-- Non-trivial case: repeated rows, unsorted input. -/
example : nbUnique [[2, 1], [0, 3], [2, 1], [1, 1], [0, 3], [0, 3]] 2 0 =
    .ok ([[0, 3], [1, 1], [2, 1]], [1, 3, 0], [3, 1, 2]) := by
  obtain ⟨out, h1, h2⟩ := C54_unique_rows [[2, 1], [0, 3], [2, 1], [1, 1], [0, 3], [0, 3]] 2
    (by simp) (by simp)
  rw [h1, h2.unique (o' := ([[0, 3], [1, 1], [2, 1]], [1, 3, 0], [3, 1, 2]))
    ⟨by decide, by intro r; simp; tauto, by decide, by decide⟩]

end Convst.Props
