import Verif.Proofs.MemoryFitSample

/-! # The stores and the parallel loop over the dilations in memory (for C112) -/

set_option autoImplicit false
set_option linter.unusedSectionVars false

namespace Convst.Mem
open Spec

variable {G K L : Type} [Gen G K] [Scalar K] {M R : Cells} {h : Heap (Cell K)}

/-! ## Stores -/

theorem set_of_get {C : Type} {h : Heap C} {a i : Nat} {v w : C} (hg : h.get a i = some v) :
    ∃ h', h.set a i w = some h' := by
  unfold Heap.get at hg
  cases hb : h.bufs[a]? with
  | none => rw [hb] at hg; cases hg
  | some b =>
    rw [hb] at hg
    have := (List.getElem?_eq_some_iff.1 hg).1
    unfold Heap.set
    rw [hb]
    simp only
    rw [if_pos this]
    exact ⟨_, rfl⟩

theorem wpc_storeRow {a : Nat} : ∀ (vs : List (Cell K)) (off : Nat) (h : Heap (Cell K))
    {Q : Unit → Heap (Cell K) → Prop}, (∀ k, k < vs.length → M a (off + k) ∧ ∃ v, h.get a (off + k) = some v) →
    (∀ h', (∀ x, x ≠ a → h'.bufs[x]? = h.bufs[x]?) →
      (∀ x j, h'.get x j = if x = a ∧ off ≤ j ∧ j < off + vs.length then vs[j - off]? else h.get x j) → Q () h') →
    wpc M R (storeRow a off vs) h Q := by
  intro vs
  induction vs with
  | nil =>
    intro off h Q _ hq
    refine hq h (fun _ _ => rfl) fun x j => ?_
    rw [if_neg]
    simp only [List.length_nil]; omega
  | cons v vs ih =>
    intro off h Q hM hq
    show wpc M R (store a off v >>= fun _ => storeRow a (off + 1) vs) h Q
    rw [wpc_bind]
    obtain ⟨hm, w, hg⟩ := hM 0 (by simp)
    rw [Nat.add_zero] at hm hg
    obtain ⟨h1, hs⟩ := set_of_get (w := v) hg
    refine wpc_store hm hs (ih (off + 1) h1 (fun k hk => ?_) fun h' hb hg' => hq h' (fun x hx => ?_) fun x j => ?_)
    · obtain ⟨h2, u, h3⟩ := hM (k + 1) (by simpa using hk)
      rw [show off + (k + 1) = off + 1 + k by omega] at h2 h3
      refine ⟨h2, ?_⟩
      rw [get_set hs]
      split
      · exact ⟨_, rfl⟩
      · exact ⟨_, h3⟩
    · rw [hb x hx, set_bufs_other hs hx]
    · rw [hg', get_set hs]
      simp only [List.length_cons]
      by_cases hx : x = a
      · subst hx
        by_cases h1 : off + 1 ≤ j ∧ j < off + 1 + vs.length
        · rw [if_pos ⟨rfl, h1⟩, if_pos ⟨rfl, by omega⟩, show j - off = (j - (off + 1)) + 1 by omega]
          simp
        · rw [if_neg (by tauto)]
          by_cases h2 : j = off
          · subst h2
            rw [if_pos ⟨rfl, rfl⟩, if_pos ⟨rfl, by omega⟩]
            simp
          · rw [if_neg (by tauto), if_neg (by omega)]
      · rw [if_neg (by tauto), if_neg (by tauto), if_neg (by tauto)]

/-- Result of a slice assignment, element by element. -/
theorem sliceAssign_get {α : Type} {a v r : List α} {s e : Nat} (h : sliceAssign a s e v = .ok r) :
    min e a.length - min s a.length = v.length ∧ r.length = a.length ∧ (0 < v.length → s + v.length ≤ a.length) ∧
      ∀ j, r[j]? = if s ≤ j ∧ j < s + v.length then v[j - s]? else a[j]? := by
  unfold sliceAssign at h
  split at h
  · rename_i hl
    cases h
    have h3 : 0 < v.length → s + v.length ≤ a.length := by omega
    refine ⟨hl, ?_, h3, fun j => ?_⟩
    · rw [List.length_append, List.length_append, List.length_take, List.length_drop]
      omega
    · by_cases hs : s ≤ a.length
      · have ht : (a.take s).length = s := by rw [List.length_take]; omega
        by_cases h1 : j < s
        · rw [if_neg (by omega), List.append_assoc, List.getElem?_append_left (by omega), List.getElem?_take, if_pos h1]
        · rw [List.append_assoc, List.getElem?_append_right (by omega), ht]
          by_cases h2 : j < s + v.length
          · rw [if_pos (by omega), List.getElem?_append_left (by omega)]
          · rw [if_neg (by omega), List.getElem?_append_right (by omega), List.getElem?_drop]
            congr 1; omega
      · have hv : v = [] := List.eq_nil_of_length_eq_zero (by omega)
        subst hv
        have hd : a.drop s = [] := List.drop_eq_nil_of_le (by omega)
        simp only [List.append_nil, List.length_nil, Nat.add_zero, hd]
        rw [if_neg (by omega), List.take_of_length_le (by omega)]
  · cases h

/-- A store in memory simulates one on values. -/
def WriteSim {A : Type} (AIs : A → Heap (Cell K) → Prop) (h0 : Heap (Cell K)) (mk : MaskBuf) (M R : Cells)
    (writeM : Option (Out K) → Prog (Cell K) Unit) (write : A → Option (Out K) → Res A) : Prop :=
  ∀ arr arr' o h, Unchanged h0 h → AIs arr h → write arr o = .ok arr' →
    wpc M R (writeM o) h fun _ h' => AIs arr' h' ∧ Unchanged h0 h' ∧ h'.bufs[mk.addr]? = h.bufs[mk.addr]?

/-- The univariate output arrays are `arr`. -/
structure UIs (o : UOut) (n : Nat) (arr : List (List K) × List K) (h : Heap (Cell K)) : Prop where
  rows : ∀ row ∈ arr.1, row.length = o.width
  len : arr.1.length = n
  num : arr.2.length = n
  thr : ∀ (i : Nat) (e : K), arr.2[i]? = some e → h.get o.threshold i = some (.num e)
  val : ∀ (i j : Nat) (row : List K) (e : K), arr.1[i]? = some row → row[j]? = some e →
    h.get o.values (i * o.width + j) = some (.num e)

/-- Elements written for shapelet `i`. -/
def UCells (o : UOut) (i : Nat) : Cells := fun a j =>
  (a = o.threshold ∧ j = i) ∨ (a = o.values ∧ ∃ k, k < o.width ∧ j = i * o.width + k)

theorem uWrite_sim {o : UOut} {n : Nat} {h0 : Heap (Cell K)} {mk : MaskBuf} {lengths : List Nat} {i : Nat}
    (hM : ∀ a j, UCells o i a j → M a j) (h1 : h0.bufs.length ≤ o.threshold) (h2 : h0.bufs.length ≤ o.values)
    (h3 : o.threshold ≠ o.values) (h4 : mk.addr ≠ o.threshold) (h5 : mk.addr ≠ o.values) :
    WriteSim (UIs o n) h0 mk M R (uWriteMem o lengths i) fun arr r => uWrite lengths arr i r := by
  intro arr arr' r h hu hA hw
  cases r with
  | none =>
    simp only [uWrite] at hw
    cases hw
    exact ⟨hA, hu, rfl⟩
  | some r =>
    simp only [uWrite] at hw
    obtain ⟨thr, e1, hw⟩ := Res.bind_eq_ok.1 hw
    obtain ⟨row, e2, hw⟩ := Res.bind_eq_ok.1 hw
    obtain ⟨l, e3, hw⟩ := Res.bind_eq_ok.1 hw
    obtain ⟨row', e4, hw⟩ := Res.bind_eq_ok.1 hw
    obtain ⟨vals, e5, hw⟩ := Res.bind_eq_ok.1 hw
    cases hw
    unfold aset at e1 e5
    split at e1
    case isFalse => cases e1
    rename_i hi
    cases e1
    split at e5
    case isFalse => cases e5
    rename_i hi'
    cases e5
    have e2' := aget_eq_ok.1 e2
    have hrow : row.length = o.width := hA.rows row (List.mem_of_getElem? e2')
    obtain ⟨s1, s2, s3, s4⟩ := sliceAssign_get e4
    simp only [uWriteMem]
    rw [wpc_bind]
    have hg : h.get o.threshold i = some (.num arr.2[i]) := hA.thr i _ (List.getElem?_eq_getElem hi)
    obtain ⟨ha, hsa⟩ := set_of_get (w := Cell.num r.threshold) hg
    refine wpc_store (hM _ _ (.inl ⟨rfl, rfl⟩)) hsa ?_
    rw [wpc_bind]
    refine wpc_ret e3 ?_
    unfold storeSlice
    rw [List.length_map, if_pos (by rw [← hrow]; exact s1)]
    refine wpc_storeRow _ _ _ (fun k hk => ?_) fun hb hb1 hb2 => ?_
    · rw [List.length_map] at hk
      have hkw : k < row.length := by have := s3 (by omega); omega
      refine ⟨hM _ _ (.inr ⟨rfl, k, by omega, by omega⟩), .num row[k], ?_⟩
      rw [get_set hsa, if_neg (by rintro ⟨h, -⟩; exact h3 h.symm)]
      exact hA.val i k row _ e2' (List.getElem?_eq_getElem hkw)
    · rw [Nat.add_zero] at hb2
      simp only [List.length_map] at hb2
      have hbufs : ∀ x, x ≠ o.threshold → x ≠ o.values → hb.bufs[x]? = h.bufs[x]? := fun x hx hx' => by
        rw [hb1 x hx', set_bufs_other hsa hx]
      refine ⟨⟨?_, ?_, ?_, ?_, ?_⟩, ?_, hbufs _ h4 h5⟩
      · intro row1 hr
        simp only at hr
        rcases List.mem_or_eq_of_mem_set hr with hr | rfl
        · exact hA.rows _ hr
        · rw [s2, hrow]
      · simp only [List.length_set]; exact hA.len
      · simp only [List.length_set]; exact hA.num
      · intro j e he
        simp only at he
        rw [hb2, if_neg (by rintro ⟨h, -⟩; exact h3 h), get_set hsa]
        by_cases hj : j = i
        · subst hj
          rw [List.getElem?_set_self hi] at he
          cases he
          rw [if_pos ⟨rfl, rfl⟩]
        · rw [List.getElem?_set_ne (Ne.symm hj)] at he
          rw [if_neg (by tauto)]
          exact hA.thr j e he
      · intro j k row1 e hr he
        simp only at hr
        by_cases hj : j = i
        · subst hj
          rw [List.getElem?_set_self hi'] at hr
          cases hr
          rw [s4 k] at he
          rw [hb2]
          by_cases hk : k < r.values.length
          · rw [if_pos ⟨rfl, by omega, by omega⟩, show j * o.width + k - j * o.width = k by omega, List.getElem?_map]
            rw [if_pos (by omega)] at he
            rw [show k - 0 = k by omega] at he
            rw [he]
            rfl
          · rw [if_neg (by omega), get_set hsa, if_neg (by rintro ⟨h, -⟩; exact h3 h.symm)]
            rw [if_neg (by omega)] at he
            exact hA.val j k row e e2' he
        · rw [List.getElem?_set_ne (Ne.symm hj)] at hr
          have hk1 : row1.length = o.width := hA.rows row1 (List.mem_of_getElem? hr)
          have hk : k < o.width := by rw [← hk1]; exact (List.getElem?_eq_some_iff.1 he).1
          rw [hb2, if_neg, get_set hsa, if_neg (by rintro ⟨h, -⟩; exact h3 h.symm)]
          · exact hA.val j k row1 e hr he
          · rintro ⟨-, h6, h7⟩
            by_cases hv : 0 < r.values.length
            · have h8 := s3 hv
              have : i * o.width + (j * o.width + k - i * o.width) = j * o.width + k := by omega
              exact hj (row_inj (by omega) hk this).1.symm
            · omega
      · intro a b hab
        have : a < h0.bufs.length := (List.getElem?_eq_some_iff.1 hab).1
        rw [hbufs a (by omega) (by omega)]
        exact hu a b hab

/-- The multivariate output arrays are `arr`. -/
structure MIs (o : MOut) (n : Nat) (arr : Convst.MArr K) (h : Heap (Cell K)) : Prop where
  nValues : arr.values.length = o.nValues
  nIds : arr.channelIds.length = o.nIds
  nThr : arr.threshold.length = n
  nRet : arr.maskReturn.length = n
  val : ∀ (i : Nat) (e : K), arr.values[i]? = some e → h.get o.values i = some (.num e)
  ids : ∀ (i e : Nat), arr.channelIds[i]? = some e → h.get o.channelIds i = some (.nat e)
  thr : ∀ (i : Nat) (e : K), arr.threshold[i]? = some e → h.get o.threshold i = some (.num e)
  ret : ∀ (i : Nat) (e : Bool), arr.maskReturn[i]? = some e → h.get o.maskReturn i = some (.flag e)

/-- Elements written for shapelet `i`. -/
def MCells (o : MOut) (a1 a2 : List Nat) (i : Nat) : Cells := fun a j =>
  (a = o.threshold ∧ j = i) ∨ (a = o.maskReturn ∧ j = i) ∨
    (a = o.values ∧ a1.getD i 0 ≤ j ∧ j < a1.getD (i + 1) 0) ∨
    (a = o.channelIds ∧ a2.getD i 0 ≤ j ∧ j < a2.getD (i + 1) 0)

/-- The addresses are different from each other and from that of the mask, and new. -/
structure MOut.Fresh (o : MOut) (mk : MaskBuf) (h0 : Heap (Cell K)) : Prop where
  thr : o.threshold = h0.bufs.length
  ids : o.channelIds = h0.bufs.length + 1
  val : o.values = h0.bufs.length + 2
  ret : o.maskReturn = h0.bufs.length + 3
  mask : mk.addr = h0.bufs.length + 4

theorem mWrite_sim {o : MOut} {n : Nat} {h0 : Heap (Cell K)} {mk : MaskBuf} {a1 a2 : List Nat} {i : Nat}
    (hM : ∀ a j, MCells o a1 a2 i a j → M a j) (hf : o.Fresh mk h0) :
    WriteSim (MIs o n) h0 mk M R (mWriteMem o a1 a2 i) fun arr r => mWrite a1 a2 arr i r := by
  obtain ⟨f1, f2, f3, f4, f5⟩ := hf
  intro arr arr' r h hu hA hw
  cases r with
  | none =>
    simp only [mWrite] at hw
    obtain ⟨mr, e1, hw⟩ := Res.bind_eq_ok.1 hw
    cases hw
    unfold aset at e1
    split at e1
    case isFalse => cases e1
    rename_i hi
    cases e1
    simp only [mWriteMem]
    obtain ⟨ha, hsa⟩ := set_of_get (w := Cell.flag false) (hA.ret i _ (List.getElem?_eq_getElem hi))
    refine wpc_store (hM _ _ (.inr (.inl ⟨rfl, rfl⟩))) hsa ⟨⟨hA.nValues, hA.nIds, hA.nThr, ?_, ?_, ?_, ?_, ?_⟩, ?_, ?_⟩
    · simp only [List.length_set]; exact hA.nRet
    · intro j e he
      rw [get_set hsa, if_neg (by omega)]; exact hA.val j e he
    · intro j e he
      rw [get_set hsa, if_neg (by omega)]; exact hA.ids j e he
    · intro j e he
      rw [get_set hsa, if_neg (by omega)]; exact hA.thr j e he
    · intro j e he
      simp only at he
      rw [get_set hsa]
      by_cases hj : j = i
      · subst hj
        rw [List.getElem?_set_self hi] at he
        cases he
        rw [if_pos ⟨rfl, rfl⟩]
      · rw [List.getElem?_set_ne (Ne.symm hj)] at he
        rw [if_neg (by tauto)]
        exact hA.ret j e he
    · intro a b hab
      have : a < h0.bufs.length := (List.getElem?_eq_some_iff.1 hab).1
      rw [set_bufs_other hsa (by omega)]
      exact hu a b hab
    · exact set_bufs_other hsa (by omega)
  | some r =>
    simp only [mWrite] at hw
    obtain ⟨v0, e1, hw⟩ := Res.bind_eq_ok.1 hw
    obtain ⟨v1, e2, hw⟩ := Res.bind_eq_ok.1 hw
    obtain ⟨vals, e3, hw⟩ := Res.bind_eq_ok.1 hw
    obtain ⟨c0, e4, hw⟩ := Res.bind_eq_ok.1 hw
    obtain ⟨c1, e5, hw⟩ := Res.bind_eq_ok.1 hw
    obtain ⟨ch, e6, hw⟩ := Res.bind_eq_ok.1 hw
    obtain ⟨thr, e7, hw⟩ := Res.bind_eq_ok.1 hw
    cases hw
    unfold aset at e7
    split at e7
    case isFalse => cases e7
    rename_i hi
    cases e7
    obtain ⟨s1, s2, s3, s4⟩ := sliceAssign_get e3
    obtain ⟨t1, t2, t3, t4⟩ := sliceAssign_get e6
    have hd : ∀ {l : List Nat} {k n : Nat}, aget l k = .ok n → l.getD k 0 = n := fun {l k n} hk => by
      simp [List.getD, aget_eq_ok.1 hk]
    simp only [mWriteMem]
    rw [wpc_bind]
    refine wpc_ret e1 ?_
    rw [wpc_bind]
    refine wpc_ret e2 ?_
    rw [wpc_bind]
    unfold storeSlice
    rw [List.length_map, if_pos (by rw [← hA.nValues]; exact s1)]
    refine wpc_storeRow _ _ _ (fun k hk => ?_) fun hb hb1 hb2 => ?_
    · rw [List.length_map] at hk
      have := s3 (by omega)
      refine ⟨hM _ _ (.inr (.inr (.inl ⟨rfl, by rw [hd e1]; omega, by rw [hd e2]; omega⟩))), .num arr.values[0 + v0 + k], ?_⟩
      exact hA.val _ _ (List.getElem?_eq_getElem _)
    simp only [List.length_map, Nat.zero_add] at hb2
    rw [wpc_bind]
    refine wpc_ret e4 ?_
    rw [wpc_bind]
    refine wpc_ret e5 ?_
    rw [wpc_bind]
    rw [List.length_map, if_pos (by rw [← hA.nIds]; exact t1)]
    refine wpc_storeRow _ _ _ (fun k hk => ?_) fun hc hc1 hc2 => ?_
    · rw [List.length_map] at hk
      have := t3 (by omega)
      refine ⟨hM _ _ (.inr (.inr (.inr ⟨rfl, by rw [hd e4]; omega, by rw [hd e5]; omega⟩))), .nat arr.channelIds[0 + c0 + k], ?_⟩
      rw [hb2, if_neg (by omega)]
      exact hA.ids _ _ (List.getElem?_eq_getElem _)
    simp only [List.length_map, Nat.zero_add] at hc2
    have hg : hc.get o.threshold i = some (.num arr.threshold[i]) := by
      rw [hc2, if_neg (by omega), hb2, if_neg (by omega)]
      exact hA.thr i _ (List.getElem?_eq_getElem hi)
    obtain ⟨ha, hsa⟩ := set_of_get (w := Cell.num r.threshold) hg
    have hbufs : ∀ x, x ≠ o.threshold → x ≠ o.values → x ≠ o.channelIds → ha.bufs[x]? = h.bufs[x]? :=
      fun x hx hx' hx'' => by rw [set_bufs_other hsa hx, hc1 x hx'', hb1 x hx']
    refine wpc_store (hM _ _ (.inl ⟨rfl, rfl⟩)) hsa ⟨⟨?_, ?_, ?_, hA.nRet, ?_, ?_, ?_, ?_⟩, ?_, ?_⟩
    · show vals.length = _; rw [s2]; exact hA.nValues
    · show ch.length = _; rw [t2]; exact hA.nIds
    · simp only [List.length_set]; exact hA.nThr
    · intro j e he
      simp only at he
      rw [s4] at he
      rw [get_set hsa, if_neg (by omega), hc2, if_neg (by omega), hb2]
      split at he
      · rename_i hj
        rw [if_pos ⟨rfl, hj⟩, List.getElem?_map, he]; rfl
      · rename_i hj
        rw [if_neg (by tauto)]
        exact hA.val j e he
    · intro j e he
      simp only at he
      rw [t4] at he
      rw [get_set hsa, if_neg (by omega), hc2]
      split at he
      · rename_i hj
        rw [if_pos ⟨rfl, hj⟩, List.getElem?_map, he]; rfl
      · rename_i hj
        rw [if_neg (by tauto), hb2, if_neg (by omega)]
        exact hA.ids j e he
    · intro j e he
      simp only at he
      rw [get_set hsa]
      by_cases hj : j = i
      · subst hj
        rw [List.getElem?_set_self hi] at he
        cases he
        rw [if_pos ⟨rfl, rfl⟩]
      · rw [List.getElem?_set_ne (Ne.symm hj)] at he
        rw [if_neg (by tauto), hc2, if_neg (by omega), hb2, if_neg (by omega)]
        exact hA.thr j e he
    · intro j e he
      simp only at he
      rw [get_set hsa, if_neg (by omega), hc2, if_neg (by omega), hb2, if_neg (by omega)]
      exact hA.ret j e he
    · intro a b hab
      have : a < h0.bufs.length := (List.getElem?_eq_some_iff.1 hab).1
      rw [hbufs a (by omega) (by omega) (by omega)]
      exact hu a b hab
    · exact hbufs _ (by omega) (by omega) (by omega)

/-! ## Iterations and workers -/

/-- A loop of a worker that does what a loop on values does. -/
theorem wpm_forPM {σ ι : Type} {F : σ → ι → RM G σ} {f : ι → PM G K Unit} (I : σ → Heap (Cell K) → Prop) :
    ∀ (l : List ι) (s s' : σ) (g g' : G) (h : Heap (Cell K)),
      (∀ i ∈ l, ∀ (s s' : σ) (g g' : G) (h : Heap (Cell K)), F s i g = .ok (s', g') → I s h →
        wpc M R (f i g) h fun r h' => r = ((), g') ∧ I s' h') → l.foldlM F s g = .ok (s', g') → I s h →
      wpc M R (forPM l f g) h fun r h' => r = ((), g') ∧ I s' h' := by
  intro l
  induction l with
  | nil => intro s s' g g' h _ hf hI; cases hf; exact ⟨rfl, hI⟩
  | cons i l ih =>
    intro s s' g g' h hs hf hI
    rw [List.foldlM_cons] at hf
    obtain ⟨s1, g1, h1, h2⟩ := RM.bind_eq_ok.1 hf
    show wpc M R ((f i >>= fun _ => forPM l f) g) h _
    refine wpm_bind (wpc_imp (hs i (by simp) s s1 g g1 h h1 hI) ?_)
    rintro r h' ⟨rfl, hI'⟩
    exact ih s1 s' g1 g' h' (fun i hi => hs i (by simp [hi])) h2 hI'

section
variable {A : Type} {AIs : A → Heap (Cell K) → Prop} {h0 : Heap (Cell K)} {mk : MaskBuf} {lengths dilations : List Nat}
  {sample : Nat → Nat → Nat → PM G K (Option (Out K))}
  {step : Nat → SubMask → Nat → RM G (SubMask × Option (Out K))}
  {writeM : Nat → Option (Out K) → Prog (Cell K) Unit} {write : A → Nat → Option (Out K) → Res A}
  {OutC : Nat → Cells}

/-- The memory is in the state `st` of the loop. -/
structure FitIs (AIs : A → Heap (Cell K) → Prop) (h0 : Heap (Cell K)) (mk : MaskBuf) (st : FitState A)
    (h : Heap (Cell K)) : Prop where
  un : Unchanged h0 h
  mask : MaskIs mk st.1 h
  arr : AIs st.2 h

/-- Elements written by iteration `iD`. -/
def GroupCells (mk : MaskBuf) (dilations : List Nat) (OutC : Nat → Cells) (iD : Nat) : Cells := fun a j =>
  (a = mk.addr ∧ ∃ norm s c t, mk.Valid iD s c t ∧ j = mk.pos norm iD s c t) ∨
    ∃ i ∈ groupIds dilations ((uniqueSorted dilations).getD iD 0), OutC i a j

theorem groupMem_sim (hnew : h0.bufs.length ≤ mk.addr) (hnd : mk.nDil = (uniqueSorted dilations).length)
    (hsam : ∀ iD M, iD < mk.nDil → MayMask M mk iD → SampleSim h0 mk iD M R (sample iD) step)
    (hwr : ∀ i M, (∀ a j, OutC i a j → M a j) → WriteSim AIs h0 mk M R (writeM i) fun arr r => write arr i r)
    (hAIs : ∀ arr h h', OnlyMask mk h h' → AIs arr h → AIs arr h') {iD : Nat}
    (hM : ∀ a j, GroupCells mk dilations OutC iD a j → M a j) {st st' : FitState A} {g g' : G}
    (hI : FitIs AIs h0 mk st h) (hr : fitGroup lengths dilations step write st iD g = .ok (st', g')) :
    wpc M R (groupMem lengths dilations sample writeM iD g) h fun r h' => r = ((), g') ∧ FitIs AIs h0 mk st' h' := by
  unfold fitGroup at hr
  unfold groupMem
  replace hr := RM.bind_eq_ok.1 hr
  obtain ⟨d, g1, e1, hr⟩ := hr
  refine wpm_rand e1 ?_
  have f1 := (ofRes_apply.1 e1).1
  replace hr := RM.bind_eq_ok.1 hr
  obtain ⟨ls, g2, e2, hr⟩ := hr
  refine wpm_rand e2 ?_
  replace hr := RM.bind_eq_ok.1 hr
  obtain ⟨minL, g3, e3, hr⟩ := hr
  refine wpm_rand e3 ?_
  have hiD : iD < mk.nDil := by rw [hnd]; exact (List.getElem?_eq_some_iff.1 (aget_eq_ok.1 f1)).1
  have hdd : (uniqueSorted dilations).getD iD 0 = d := by simp [List.getD, aget_eq_ok.1 f1]
  refine wpm_forPM (FitIs AIs h0 mk) _ st st' g3 g' h ?_ hr hI
  intro i hi st st' g g' h hs hI
  replace hs := RM.bind_eq_ok.1 hs
  obtain ⟨⟨m', o⟩, g1, e1, hs⟩ := hs
  replace hs := RM.bind_eq_ok.1 hs
  obtain ⟨arr, g2, e2, hs⟩ := hs
  have f2 := ofRes_apply.1 e2
  clear e2
  obtain ⟨f2, rfl⟩ := f2
  cases hs
  have hMM : MayMask M mk iD := fun norm s c t hv => hM _ _ (.inl ⟨rfl, norm, s, c, t, hv, rfl⟩)
  refine wpm_bind (wpc_imp (hsam iD M hiD hMM minL i (st.1 iD) m' o g g' st.1 h hI.un
    (by rw [Function.update_eq_self]; exact hI.mask) e1) ?_)
  rintro r h1 ⟨rfl, hm1, ho1⟩
  have hu1 := unchanged_of_onlyMask hI.un hnew ho1
  have hw := hwr i M (fun a j hc => hM a j (.inr ⟨i, by rw [hdd]; exact hi, hc⟩)) st.2 arr o h1 hu1
    (hAIs _ _ _ ho1 hI.arr) f2
  show wpc M R (writeM i o >>= fun a => pure (a, g')) h1 _
  rw [wpc_bind]
  refine wpc_imp hw fun _ h2 hq => ⟨rfl, hq.2.1, ?_, hq.1⟩
  intro norm iD' s c t hv
  have := hm1 norm iD' s c t hv
  unfold Heap.get at this ⊢
  rw [hq.2.2]
  exact this

theorem exists_chain {S : Type} {P : Nat → S → Prop} {T : Nat → S → S → Prop} {n : Nat} {s0 : S} (h0 : P 0 s0)
    (hstep : ∀ w s, w < n → P w s → ∃ s', P (w + 1) s' ∧ T w s s') :
    ∃ hs : Nat → S, hs 0 = s0 ∧ (∀ w, w ≤ n → P w (hs w)) ∧ ∀ w, w < n → T w (hs w) (hs (w + 1)) := by
  classical
  let f : Nat → S := fun w => Nat.rec s0 (fun w s => if hc : w < n ∧ P w s then (hstep w s hc.1 hc.2).choose else s) w
  have hf : ∀ w, f (w + 1) = if hc : w < n ∧ P w (f w) then (hstep w (f w) hc.1 hc.2).choose else f w := fun w => rfl
  have hP : ∀ w, w ≤ n → P w (f w) := by
    intro w
    induction w with
    | zero => intro _; exact h0
    | succ w ih =>
      intro hw
      have := ih (by omega)
      rw [hf, dif_pos ⟨by omega, this⟩]
      exact (hstep w (f w) (by omega) this).choose_spec.1
  refine ⟨f, rfl, hP, fun w hw => ?_⟩
  have := hP w (by omega)
  rw [hf, dif_pos ⟨hw, this⟩]
  exact (hstep w (f w) hw this).choose_spec.2

/-- The parallel loop over the dilations ends in the memory that the loop on values describes. -/
theorem fitLoop_parallel (hdil : dilations.length = lengths.length)
    (hnew : h0.bufs.length ≤ mk.addr) (hnd : mk.nDil = (uniqueSorted dilations).length)
    (hsam : ∀ iD M, iD < mk.nDil → MayMask M mk iD → SampleSim h0 mk iD M (fun a _ => a < h0.bufs.length) (sample iD) step)
    (hwr : ∀ i M, (∀ a j, OutC i a j → M a j) →
      WriteSim AIs h0 mk M (fun a _ => a < h0.bufs.length) (writeM i) fun arr r => write arr i r)
    (hAIs : ∀ arr h h', OnlyMask mk h h' → AIs arr h → AIs arr h')
    (hout : ∀ i a j, OutC i a j → a ≠ mk.addr ∧ h0.bufs.length ≤ a)
    (hinj : ∀ i i' a j, i < lengths.length → i' < lengths.length → OutC i a j → OutC i' a j → i = i')
    {ws : List (List Nat × G)} (hws : Divides ws (uniqueSorted dilations).length) {st : Nat → FitState A}
    (hst : ∀ (w : Nat) (l : List Nat) (g : G), ws[w]? = some (l, g) →
      ∃ g', l.foldlM (fitGroup lengths dilations step write) (st w) g = .ok (st (w + 1), g'))
    (hI : FitIs AIs h0 mk (st 0) h) :
    ∃ h', EndsIn h0 ⟨h, ws.map (workerMem lengths dilations sample writeM)⟩ h' ∧ FitIs AIs h0 mk (st ws.length) h' := by
  set Ms : Nat → Cells := fun w a j => ∃ iD ∈ (ws.map Prod.fst).getD w [], GroupCells mk dilations OutC iD a j with hMs
  have hgetl : ∀ (w : Nat) (l : List Nat) (g : G), ws[w]? = some (l, g) → (ws.map Prod.fst).getD w [] = l := by
    intro w l g hw
    simp [List.getD, List.getElem?_map, hw]
  have hmem : ∀ w iD, iD ∈ (ws.map Prod.fst).getD w [] → iD < (uniqueSorted dilations).length ∧ w < ws.length := by
    intro w iD hi
    have hw : w < ws.length := by
      by_contra hc
      have hn : (ws.map Prod.fst)[w]? = none := List.getElem?_eq_none (by simpa using hc)
      simp [List.getD, hn] at hi
    refine ⟨?_, hw⟩
    rw [getD_lt _ (by simpa using hw), List.getElem_map] at hi
    have := (hws.mem_iff (a := iD)).1 (List.mem_flatMap.2 ⟨_, List.getElem_mem hw, hi⟩)
    exact List.mem_range.1 this
  have hnodup : (ws.flatMap Prod.fst).Nodup := hws.nodup_iff.2 List.nodup_range
  have hdis : ∀ w w' iD, iD ∈ (ws.map Prod.fst).getD w [] → iD ∈ (ws.map Prod.fst).getD w' [] → w = w' := by
    intro w w' iD h1 h2
    have hw := (hmem w iD h1).2
    have hw' := (hmem w' iD h2).2
    rw [getD_lt _ (by simpa using hw), List.getElem_map] at h1
    rw [getD_lt _ (by simpa using hw'), List.getElem_map] at h2
    by_contra hne
    rw [List.nodup_flatMap] at hnodup
    have hp := List.pairwise_iff_getElem.1 hnodup.2
    rcases Nat.lt_or_gt_of_ne hne with hlt | hlt
    · exact hp w w' hw hw' hlt h1 h2
    · exact hp w' w hw' hw hlt h2 h1
  have hcell : ∀ iD iD' a j, iD < (uniqueSorted dilations).length → iD' < (uniqueSorted dilations).length →
      GroupCells mk dilations OutC iD a j → GroupCells mk dilations OutC iD' a j → iD = iD' := by
    rintro iD iD' a j h1 h2 (⟨e1, norm, s, c, t, hv, e2⟩ | ⟨i, hi, e1⟩) (⟨e3, norm', s', c', t', hv', e4⟩ | ⟨i', hi', e3⟩)
    · exact (pos_inj hv hv' (e2.symm.trans e4)).2.1
    · exact absurd e1 (hout _ _ _ e3).1
    · exact absurd e3 (hout _ _ _ e1).1
    · have := hinj i i' a j ((mem_group hdil _ i).1 hi).1 ((mem_group hdil _ i').1 hi').1 e1 e3
      subst this
      exact group_unique hdil h1 h2 hi hi'
  have hge : ∀ iD a j, GroupCells mk dilations OutC iD a j → h0.bufs.length ≤ a := by
    rintro iD a j (⟨rfl, -⟩ | ⟨i, -, e⟩)
    · exact hnew
    · exact (hout _ _ _ e).2
  obtain ⟨hs, hs0, hs1, hs2⟩ := exists_chain (n := ws.length) (s0 := h) (P := fun w h => FitIs AIs h0 mk (st w) h)
    (T := fun w h h' => ∀ p, (ws.map (workerMem lengths dilations sample writeM))[w]? = some p →
      wpc (Ms w) (fun a _ => a < h0.bufs.length) p h fun _ h'' => h'' = h') hI (by
    intro w h hw hI
    obtain ⟨⟨l, g⟩, hlg⟩ : ∃ x, ws[w]? = some x := ⟨_, List.getElem?_eq_getElem hw⟩
    obtain ⟨g', hrun⟩ := hst w l g hlg
    have hwp : wpc (Ms w) (fun a _ => a < h0.bufs.length) (workerMem lengths dilations sample writeM (l, g)) h
        fun _ h' => FitIs AIs h0 mk (st (w + 1)) h' := by
      unfold workerMem
      rw [wpc_bind]
      refine wpc_imp (wpm_forPM (FitIs AIs h0 mk) l (st w) (st (w + 1)) g g' h ?_ hrun hI) fun _ h' hq => hq.2
      intro iD hiD s s' g g' h hF hI
      exact groupMem_sim hnew hnd hsam hwr hAIs
        (fun a j hc => ⟨iD, by rw [hgetl w l _ hlg]; exact hiD, hc⟩) hI hF
    obtain ⟨u, h', h1, h2⟩ := wpc_exists hwp
    refine ⟨h', h1, fun p hp => ?_⟩
    rw [List.getElem?_map, hlg] at hp
    cases hp
    exact wpc_imp h2 fun _ _ hq => hq.2)
  have hlen : (ws.map (workerMem lengths dilations sample writeM)).length = ws.length := List.length_map _
  have := parallel_eq (Ms := Ms) (hs := hs) (R := fun a _ => a < h0.bufs.length)
    (progs := ws.map (workerMem lengths dilations sample writeM)) (h0 := h0)
    (by
      rintro w w' a j - - hne ⟨iD, h1, h2⟩ ⟨iD', h3, h4⟩
      have := hcell iD iD' a j (hmem w iD h1).1 (hmem w' iD' h3).1 h2 h4
      subst this
      exact hne (hdis w w' iD h1 h3))
    (by
      rintro w a j - ⟨iD, -, h2⟩ h3
      have := hge iD a j h2
      omega)
    (by
      intro w p hp
      have hw : w < ws.length := by rw [← hlen]; exact (List.getElem?_eq_some_iff.1 hp).1
      exact hs2 w hw p hp)
    (by
      rintro w a j - ⟨iD, -, h2⟩
      exact hge iD a j h2)
    (by rw [hs0]; exact hI.un)
  rw [hs0, hlen] at this
  exact ⟨_, this, hs1 _ le_rfl⟩

end

end Convst.Mem
