import Verif.Proofs.Combos

/-! # The grouping arrays partition the shapelets by (length, dilation) -/

set_option autoImplicit false

namespace Convst

theorem cumsumFrom_getElem? (acc : Nat) (l : List Nat) (i : Nat) (h : i < l.length) :
    (cumsumFrom acc l)[i]? = some (acc + (l.take (i + 1)).sum) := by
  induction l generalizing acc i with
  | nil => simp at h
  | cons a l ih =>
    cases i with
    | zero => simp [cumsumFrom]
    | succ i =>
      have := ih (acc + a) i (by simpa using h)
      simp only [cumsumFrom, List.getElem?_cons_succ, this, List.take_succ_cons, List.sum_cons]
      congr 1; omega

theorem cumsumFrom_length (acc : Nat) (l : List Nat) : (cumsumFrom acc l).length = l.length := by
  induction l generalizing acc with
  | nil => rfl
  | cons a l ih => simp [cumsumFrom, ih]

theorem slice_append_mid {α : Type} (a b c : List α) (n m : Nat) (hn : n = a.length)
    (hm : m = a.length + b.length) : slice (a ++ b ++ c) n m = b := by
  subst hn hm
  unfold slice
  rw [List.append_assoc, List.drop_left]
  simp

theorem sliceAssign_ok {α : Type} {a : List α} {s e : Nat} {v : List α} (he : e = s + v.length)
    (h : e ≤ a.length) : sliceAssign a s e v = .ok (a.take s ++ v ++ a.drop (s + v.length)) := by
  unfold sliceAssign
  rw [if_pos]
  rw [Nat.min_eq_left h, Nat.min_eq_left (by omega)]; omega

theorem mem_idxWith {lengths dilations : List Nat} {l d k : Nat} :
    k ∈ idxWith lengths dilations l d ↔ lengths[k]? = some l ∧ dilations[k]? = some d := by
  unfold idxWith
  rw [mem_whereIdx]
  simp only [Bool.and_eq_true, beq_iff_eq]
  constructor
  · exact fun h => h.2
  · exact fun h => ⟨(List.getElem?_eq_some_iff.1 h.1).1, h⟩

theorem nodup_idxWith (lengths dilations : List Nat) (l d : Nat) :
    (idxWith lengths dilations l d).Nodup := List.nodup_range.filter _

/-- All indices of the groups `ps`, concatenated. -/
def groupIdx (lengths dilations : List Nat) (ps : List (Nat × Nat)) : List Nat :=
  ps.flatMap fun p => idxWith lengths dilations p.1 p.2

theorem nodup_groupIdx {lengths dilations : List Nat} {ps : List (Nat × Nat)} (h : ps.Nodup) :
    (groupIdx lengths dilations ps).Nodup := by
  unfold groupIdx
  rw [List.nodup_flatMap]
  refine ⟨fun p _ => nodup_idxWith _ _ _ _, ?_⟩
  refine h.imp ?_
  intro p q hpq
  simp only [Function.onFun]
  intro k hk hk'
  rw [mem_idxWith] at hk hk'
  apply hpq
  have h1 := hk.1.symm.trans hk'.1
  have h2 := hk.2.symm.trans hk'.2
  exact Prod.ext (Option.some.inj h1) (Option.some.inj h2)

theorem groupIdx_length_le {lengths dilations : List Nat} {ps : List (Nat × Nat)} (h : ps.Nodup) :
    (groupIdx lengths dilations ps).length ≤ lengths.length := by
  have hsub : groupIdx lengths dilations ps ⊆ List.range lengths.length := by
    intro k hk
    obtain ⟨p, _, hp⟩ := List.mem_flatMap.1 hk
    rw [mem_idxWith] at hp
    exact List.mem_range.2 (List.getElem?_eq_some_iff.1 hp.1).1
  have := ((nodup_groupIdx h).subperm hsub).length_le
  simpa using this

/-- What the rest of the kernel relies on. -/
structure GroupsOK (lengths dilations : List Nat) (g : Groups) : Prop where
  nodup : g.params.Nodup
  mem : ∀ p, p ∈ g.params ↔ p ∈ lengths.zip dilations
  cumLen : g.cum.length = g.params.length + 1
  slices : ∀ i p, g.params[i]? = some p → ∃ lo hi, g.cum[i]? = some lo ∧ g.cum[i + 1]? = some hi ∧
    slice g.idxShp lo hi = idxWith lengths dilations p.1 p.2

theorem groupShapelets_ok {lengths dilations : List Nat} (hxy : lengths.length = dilations.length) :
    ∃ g, groupShapelets lengths dilations = .ok g ∧ GroupsOK lengths dilations g := by
  unfold groupShapelets
  rw [combinations1d_eq hxy, Res.bind_ok]
  set params := firstOcc (lengths.zip dilations) with hparams
  have hnd : params.Nodup := nodup_firstOcc _
  set ix : Nat × Nat → List Nat := fun p => idxWith lengths dilations p.1 p.2 with hix
  obtain ⟨⟨idx, cnt, a⟩, hloop, hP⟩ := forRange_inv (n := params.length)
    (f := fun (st : List Nat × List Nat × Nat) i => (do
      let p ← aget params i
      let ix := idxWith lengths dilations p.1 p.2
      let b := st.2.2 + ix.length
      let idx' ← sliceAssign st.1 st.2.2 b ix
      let cnt' ← aset st.2.1 (i + 1) ix.length
      pure (idx', cnt', b) : Res _))
    (s := (List.replicate lengths.length 0, List.replicate (params.length + 1) 0, 0))
    (P := fun i st =>
      (∃ r, st.1 = groupIdx lengths dilations (params.take i) ++ List.replicate r 0) ∧
      st.1.length = lengths.length ∧
      st.2.1 = 0 :: ((params.take i).map fun p => (ix p).length) ++
        List.replicate (params.length - i) 0 ∧
      st.2.2 = (groupIdx lengths dilations (params.take i)).length)
    (by
      refine ⟨⟨lengths.length, by simp [groupIdx]⟩, by simp, ?_, by simp [groupIdx]⟩
      simp [List.replicate_succ])
    (by
      rintro i ⟨idx, cnt, a⟩ hi ⟨⟨r, hidx⟩, hlen, hcnt, ha⟩
      simp only at hidx hlen hcnt ha
      have htake : params.take (i + 1) = params.take i ++ [params[i]] := by
        rw [List.take_add_one, List.getElem?_eq_getElem hi]; rfl
      have hgi : groupIdx lengths dilations (params.take (i + 1)) =
          groupIdx lengths dilations (params.take i) ++ ix params[i] := by
        rw [htake, groupIdx, List.flatMap_append]; simp only [List.flatMap_singleton]; rfl
      have hle : (groupIdx lengths dilations (params.take (i + 1))).length ≤ lengths.length :=
        groupIdx_length_le (hnd.sublist (List.take_sublist _ _))
      rw [hgi, List.length_append] at hle
      have hb : a + (ix params[i]).length ≤ idx.length := by rw [hlen, ha]; exact hle
      have hcl : cnt.length = params.length + 1 := by
        rw [hcnt]; simp [Nat.min_eq_left (Nat.le_of_lt hi)]; omega
      have h1 : sliceAssign idx a (a + (ix params[i]).length) (ix params[i]) = _ :=
        sliceAssign_ok rfl hb
      refine ⟨(idx.take a ++ ix params[i] ++ idx.drop (a + (ix params[i]).length),
        cnt.set (i + 1) (ix params[i]).length, a + (ix params[i]).length), ?_, ?_, ?_, ?_, ?_⟩
      · simp only [hix] at h1 ⊢
        rw [aget_ok hi, Res.bind_ok]
        simp only [h1, Res.bind_ok]
        rw [aset_ok (by omega)]
        rfl
      · refine ⟨r - (ix params[i]).length, ?_⟩
        simp only [hgi]
        rw [hidx, ha, List.take_left' rfl]
        congr 1
        rw [List.drop_append, List.drop_eq_nil_of_le (by omega)]; simp
      · simp only [List.length_append, List.length_take, List.length_drop]
        omega
      · simp only [hcnt, htake, List.map_append, List.map_cons, List.map_nil]
        rw [show params.length - i = (params.length - (i + 1)) + 1 by omega, List.replicate_succ]
        rw [List.cons_append, List.set_cons_succ, List.set_append_right _ _ (by simp)]
        simp [Nat.min_eq_left (Nat.le_of_lt hi)]
      · simp only [hgi, ha, List.length_append])
  obtain ⟨⟨r, hidx⟩, hlen, hcnt, ha⟩ := hP
  simp only [List.take_length] at hidx hcnt ha
  refine ⟨⟨params, idx, cumsum cnt⟩, ?_, hnd, fun p => mem_firstOcc, ?_, ?_⟩
  · rw [hloop]; rfl
  · simp only [cumsum, cumsumFrom_length, hcnt]; simp
  · intro i p hp
    simp only at hp
    have hi : i < params.length := (List.getElem?_eq_some_iff.1 hp).1
    have hcl : cnt.length = params.length + 1 := by rw [hcnt]; simp
    have hcum : ∀ j, j ≤ params.length →
        (cumsum cnt)[j]? = some (groupIdx lengths dilations (params.take j)).length := by
      intro j hj
      rw [cumsum, cumsumFrom_getElem? _ _ _ (by omega)]
      congr 1
      rw [hcnt]
      simp only [List.take_succ_cons, List.sum_cons, Nat.sub_self,
        List.replicate_zero, List.append_nil, groupIdx, List.length_flatMap, hix]
      rw [← List.map_take]
      simp
    refine ⟨_, _, hcum i (by omega), hcum (i + 1) (by omega), ?_⟩
    have hsplit : groupIdx lengths dilations params =
        groupIdx lengths dilations (params.take i) ++ ix p ++
          groupIdx lengths dilations (params.drop (i + 1)) := by
      conv_lhs => rw [← List.take_append_drop (i + 1) params, List.take_add_one, hp]
      simp [groupIdx, hix]
    have hgi : groupIdx lengths dilations (params.take (i + 1)) =
        groupIdx lengths dilations (params.take i) ++ ix p := by
      rw [List.take_add_one, hp]; simp [groupIdx, hix]
    rw [hidx, hsplit, List.append_assoc]
    apply slice_append_mid
    · rfl
    · rw [hgi, List.length_append]

end Convst
