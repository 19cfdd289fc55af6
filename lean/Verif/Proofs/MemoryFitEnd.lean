import Verif.Proofs.MemoryFitLoop
import Verif.Proofs.MemoryArrays

/-! # The phases before and after the parallel loop over the dilations (for C112) -/

set_option autoImplicit false
set_option linter.unusedSectionVars false

namespace Convst.Mem
open Spec

variable {G K L : Type} [Gen G K] [Scalar K] [DecidableEq L] {M R : Cells} {h h0 : Heap (Cell K)}

/-! ## Allocation -/

theorem unchanged_add {C : Type} {h0 h : Heap C} (hu : Unchanged h0 h) (b : List C) : Unchanged h0 (h.add b) := by
  intro a c hc
  have := hu a c hc
  show (h.bufs ++ [b])[a]? = _
  rw [List.getElem?_append_left (List.getElem?_eq_some_iff.1 this).1]
  exact this

theorem unchanged_refl {C : Type} (h : Heap C) : Unchanged h h := fun _ _ h => h

theorem get_of_buf {C : Type} {h : Heap C} {a : Nat} {b : List C} (hb : h.bufs[a]? = some b) (i : Nat) :
    h.get a i = b[i]? := by
  unfold Heap.get; rw [hb]; rfl

theorem maskIs_true {mk : MaskBuf} (hb : h.bufs[mk.addr]? = some (List.replicate mk.size (.flag true))) :
    MaskIs mk (fun _ _ _ _ _ => true) h := by
  intro norm iD s c t hv
  rw [get_of_buf hb, List.getElem?_replicate, if_pos (pos_lt norm hv)]

theorem uAlloc_is (h : Heap (Cell K)) (P : UShp K) (ns nt : Nat) {n mx : Nat}
    (hval : P.values = List.replicate n (List.replicate mx 0)) (hthr : P.threshold.length = n) :
    FitIs (UIs (uAlloc h P ns nt).2.1 n) h (uAlloc h P ns nt).2.2 (fun _ _ _ _ _ => true, (P.values, P.threshold))
      (uAlloc h P ns nt).1 := by
  have hrows : ∀ row ∈ P.values, row.length = (uAlloc h P ns nt).2.1.width := by
    intro row hr
    show row.length = (P.values.head?.map List.length).getD 0
    cases n with
    | zero => rw [hval] at hr; simp at hr
    | succ n =>
      rw [hval] at hr ⊢
      rw [List.eq_of_mem_replicate hr]
      simp [List.replicate_succ]
  refine ⟨?_, ?_, ⟨hrows, by simp [hval], hthr, ?_, ?_⟩⟩
  · exact unchanged_add (unchanged_add (unchanged_add (unchanged_refl h) _) _) _
  · refine maskIs_true ?_
    show (((h.bufs ++ [_]) ++ [_]) ++ [_])[h.bufs.length + 2]? = _
    rw [List.getElem?_append_right (by simp)]
    simp
    rfl
  · intro i e he
    have : (uAlloc h P ns nt).1.bufs[h.bufs.length]? = some (P.threshold.map .num) := by
      show (((h.bufs ++ [_]) ++ [_]) ++ [_])[h.bufs.length]? = _
      rw [List.append_assoc, List.append_assoc, List.getElem?_append_right (by simp)]
      simp
    show (uAlloc h P ns nt).1.get h.bufs.length i = _
    rw [get_of_buf this, List.getElem?_map]
    simp only at he
    rw [he]; rfl
  · intro i j row e hr he
    have : (uAlloc h P ns nt).1.bufs[h.bufs.length + 1]? = some (P.values.flatten.map .num) := by
      show (((h.bufs ++ [_]) ++ [_]) ++ [_])[h.bufs.length + 1]? = _
      rw [List.append_assoc, List.append_assoc, List.getElem?_append_right (by simp)]
      simp
    show (uAlloc h P ns nt).1.get (h.bufs.length + 1) _ = _
    have hl := hrows row (List.mem_of_getElem? hr)
    rw [get_of_buf this, List.getElem?_map, flatten_get hrows hr (by rw [← hl]; exact (List.getElem?_eq_some_iff.1 he).1), he]
    rfl

theorem mAlloc_fresh (h : Heap (Cell K)) (P : MShp K) (nShp ns nf nt : Nat) :
    (mAlloc h P nShp ns nf nt).2.1.Fresh (mAlloc h P nShp ns nf nt).2.2 h := ⟨rfl, rfl, rfl, rfl, rfl⟩

theorem mAlloc_is (h : Heap (Cell K)) (P : MShp K) (nShp ns nf nt : Nat) (hthr : P.threshold.length = nShp) :
    FitIs (MIs (mAlloc h P nShp ns nf nt).2.1 nShp) h (mAlloc h P nShp ns nf nt).2.2
      (fun _ _ _ _ _ => true, mArr0 P nShp) (mAlloc h P nShp ns nf nt).1 := by
  have hb : (mAlloc h P nShp ns nf nt).1.bufs = h.bufs ++ [P.threshold.map .num, P.channelIds.map .nat,
      P.values.map .num, List.replicate nShp (.flag true),
      List.replicate (mAlloc h P nShp ns nf nt).2.2.size (.flag true)] := by
    show ((((h.bufs ++ [_]) ++ [_]) ++ [_]) ++ [_]) ++ [_] = _
    simp
    rfl
  have hg : ∀ k, k < 5 → (mAlloc h P nShp ns nf nt).1.bufs[h.bufs.length + k]? =
      ([P.threshold.map .num, P.channelIds.map .nat,
      P.values.map .num, List.replicate nShp (.flag true),
      List.replicate (mAlloc h P nShp ns nf nt).2.2.size (.flag true)] : List (List (Cell K)))[k]? := by
    intro k _
    rw [hb, List.getElem?_append_right (by omega)]
    congr 1; omega
  refine ⟨?_, maskIs_true (hg 4 (by omega)), ⟨rfl, rfl, hthr, by simp [mArr0], ?_, ?_, ?_, ?_⟩⟩
  · intro a c hc
    rw [hb, List.getElem?_append_left (List.getElem?_eq_some_iff.1 hc).1]
    exact hc
  · intro i e he
    have : P.values[i]? = some e := he
    show (mAlloc h P nShp ns nf nt).1.get (h.bufs.length + 2) i = _
    rw [get_of_buf (hg 2 (by omega)), List.getElem?_map, this]; rfl
  · intro i e he
    have : P.channelIds[i]? = some e := he
    show (mAlloc h P nShp ns nf nt).1.get (h.bufs.length + 1) i = _
    rw [get_of_buf (hg 1 (by omega)), List.getElem?_map, this]; rfl
  · intro i e he
    have : P.threshold[i]? = some e := he
    show (mAlloc h P nShp ns nf nt).1.get (h.bufs.length + 0) i = _
    rw [get_of_buf (hg 0 (by omega)), List.getElem?_map, this]; rfl
  · intro i e he
    have : (List.replicate nShp true)[i]? = some e := he
    show (mAlloc h P nShp ns nf nt).1.get (h.bufs.length + 3) i = _
    rw [get_of_buf (hg 3 (by omega))]
    rw [List.getElem?_replicate] at this
    split at this
    · rename_i hi
      cases this
      exact (List.getElem?_replicate ..).trans (if_pos hi)
    · cases this

/-! ## The points beyond the end of a series -/

/-- The elements of the mask exist. -/
def MaskExists (mk : MaskBuf) (h : Heap (Cell K)) : Prop :=
  ∀ norm iD s c t, mk.Valid iD s c t → ∃ v, h.get mk.addr (mk.pos norm iD s c t) = some v

/-- Between `h` and `h'` some elements beyond the end of series `i` have become false. -/
def Filled (mk : MaskBuf) (i n : Nat) (h h' : Heap (Cell K)) : Prop :=
  OnlyMask mk h h' ∧ ∀ norm iD s c t, mk.Valid iD s c t →
    h'.get mk.addr (mk.pos norm iD s c t) = h.get mk.addr (mk.pos norm iD s c t) ∨
      s = i ∧ n ≤ t ∧ h'.get mk.addr (mk.pos norm iD s c t) = some (.flag false)

theorem Filled.refl (mk : MaskBuf) (i n : Nat) (h : Heap (Cell K)) : Filled mk i n h h :=
  ⟨.refl _ _, fun _ _ _ _ _ _ => .inl rfl⟩

theorem Filled.trans {mk : MaskBuf} {i n : Nat} {h h' h'' : Heap (Cell K)} (a : Filled mk i n h h')
    (b : Filled mk i n h' h'') : Filled mk i n h h'' := by
  refine ⟨a.1.trans b.1, fun norm iD s c t hv => ?_⟩
  rcases b.2 norm iD s c t hv with e | e
  · rw [e]; exact a.2 norm iD s c t hv
  · exact .inr e

theorem Filled.false {mk : MaskBuf} {i n : Nat} {h h' : Heap (Cell K)} (a : Filled mk i n h h') {norm : Bool}
    {iD s c t : Nat} (hv : mk.Valid iD s c t) (hf : h.get mk.addr (mk.pos norm iD s c t) = some (.flag false)) :
    h'.get mk.addr (mk.pos norm iD s c t) = some (.flag false) := by
  rcases a.2 norm iD s c t hv with e | e
  · rw [e, hf]
  · exact e.2.2

theorem Filled.exists {mk : MaskBuf} {i n : Nat} {h h' : Heap (Cell K)} (a : Filled mk i n h h')
    (he : MaskExists mk h) : MaskExists mk h' := by
  intro norm iD s c t hv
  rcases a.2 norm iD s c t hv with e | e
  · rw [e]; exact he norm iD s c t hv
  · exact ⟨_, e.2.2⟩

theorem wpc_forEach_filled {ι : Type} {mk : MaskBuf} {i n : Nat} {f : ι → Prog (Cell K) Unit}
    {Done : ι → Heap (Cell K) → Prop} (hst : ∀ x h h', Filled mk i n h h' → Done x h → Done x h') :
    ∀ (xs : List ι), (∀ x ∈ xs, ∀ h, MaskExists mk h → wpc M R (f x) h fun _ h' => Filled mk i n h h' ∧ Done x h') →
      ∀ h, MaskExists mk h → wpc M R (forEach xs f) h fun _ h' => Filled mk i n h h' ∧ ∀ x ∈ xs, Done x h' := by
  intro xs
  induction xs with
  | nil => intro _ h _; exact ⟨.refl _ _ _ _, by simp⟩
  | cons x xs ih =>
    intro hf h he
    show wpc M R (f x >>= fun _ => forEach xs f) h _
    rw [wpc_bind]
    refine wpc_imp (hf x (by simp) h he) fun _ h1 h2 => ?_
    refine wpc_imp (ih (fun y hy => hf y (by simp [hy])) h1 (h2.1.exists he)) fun _ h3 h4 => ⟨h2.1.trans h4.1, ?_⟩
    intro y hy
    rw [List.mem_cons] at hy
    rcases hy with rfl | hy
    · exact hst _ _ _ h4.1 h2.2
    · exact h4.2 y hy

/-- Elements of the mask belonging to series `i`. -/
def SampleCells (mk : MaskBuf) (i : Nat) : Cells := fun a j =>
  a = mk.addr ∧ ∃ norm iD c t, mk.Valid iD i c t ∧ j = mk.pos norm iD i c t

theorem fillMask_sim {mk : MaskBuf} {xLen : List Nat} {i n : Nat} (hn : aget xLen i = .ok n) (hi : i < mk.ns)
    (hM : ∀ a j, SampleCells mk i a j → M a j) {m : Nat → SubMask} (hm : MaskIs mk m h) {Q : Unit → Heap (Cell K) → Prop}
    (hq : ∀ h', MaskIs mk (fun iD norm s c t => m iD norm s c t && !(decide (s = i) && decide (n ≤ t))) h' →
      OnlyMask mk h h' → Q () h') : wpc M R (fillMask mk xLen i) h Q := by
  unfold fillMask
  rw [wpc_bind]
  refine wpc_ret hn ?_
  have he : MaskExists mk h := fun norm iD s c t hv => ⟨_, hm norm iD s c t hv⟩
  have key : wpc M R (forEach [false, true] fun norm => forEach (List.range mk.nDil) fun iD =>
      forEach (List.range mk.nc) fun c => forEach (List.range' n (mk.nt - n)) fun t =>
        store mk.addr (mk.pos norm iD i c t) (.flag false)) h fun _ h' => Filled mk i n h h' ∧
      ∀ norm ∈ [false, true], ∀ iD ∈ List.range mk.nDil, ∀ c ∈ List.range mk.nc, ∀ t ∈ List.range' n (mk.nt - n),
        mk.Valid iD i c t ∧ h'.get mk.addr (mk.pos norm iD i c t) = some (.flag false) := by
    refine wpc_forEach_filled (fun norm h h' hf hd iD hiD c hc t ht => ?_) _ (fun norm _ h he => ?_) h he
    · exact ⟨(hd iD hiD c hc t ht).1, hf.false (hd iD hiD c hc t ht).1 (hd iD hiD c hc t ht).2⟩
    refine wpc_forEach_filled (fun iD h h' hf hd c hc t ht => ?_) _ (fun iD hiD h he => ?_) h he
    · exact ⟨(hd c hc t ht).1, hf.false (hd c hc t ht).1 (hd c hc t ht).2⟩
    refine wpc_forEach_filled (fun c h h' hf hd t ht => ?_) _ (fun c hc h he => ?_) h he
    · exact ⟨(hd t ht).1, hf.false (hd t ht).1 (hd t ht).2⟩
    refine wpc_forEach_filled (fun t h h' hf hd => ?_) _ (fun t ht h he => ?_) h he
    · exact ⟨hd.1, hf.false hd.1 hd.2⟩
    rw [List.mem_range'_1] at ht
    have hv : mk.Valid iD i c t := ⟨List.mem_range.1 hiD, hi, List.mem_range.1 hc, by omega⟩
    obtain ⟨v, hg⟩ := he norm iD i c t hv
    obtain ⟨h1, hs⟩ := set_of_get (w := Cell.flag false) hg
    refine wpc_store (hM _ _ ⟨rfl, norm, iD, c, t, hv, rfl⟩) hs ⟨⟨fun a ha => set_bufs_other hs ha, ?_⟩, hv, ?_⟩
    · intro norm' iD' s' c' t' hv'
      rw [get_set hs]
      split
      · rename_i e
        obtain ⟨-, -, rfl, -, rfl⟩ := pos_inj hv' hv e.2
        exact .inr ⟨rfl, by omega, rfl⟩
      · exact .inl rfl
    · rw [get_set hs, if_pos ⟨rfl, rfl⟩]
  refine wpc_imp key fun _ h' hf => hq h' ?_ hf.1.1
  intro norm iD s c t hv
  by_cases hc : s = i ∧ n ≤ t
  · obtain ⟨rfl, hnt⟩ := hc
    have := (hf.2 norm (by cases norm <;> simp) iD (List.mem_range.2 hv.iD) c (List.mem_range.2 hv.c) t
      (by rw [List.mem_range'_1]; have := hv.t; omega)).2
    rw [this]
    simp [hnt]
  · rcases hf.1.2 norm iD s c t hv with e | e
    · rw [e, hm norm iD s c t hv]
      have : (decide (s = i) && decide (n ≤ t)) = false := by
        rw [← Bool.not_eq_true, Bool.and_eq_true, decide_eq_true_iff, decide_eq_true_iff]
        exact hc
      show _ = some (Cell.flag (m iD norm s c t && !(decide (s = i) && decide (n ≤ t))))
      rw [this]
      simp
    · exact absurd ⟨e.1, e.2.1⟩ hc

/-- The mask after the first `k` series have been treated. -/
def filledTo (xLen : List Nat) (k : Nat) : Nat → SubMask := fun _ _ s _ t => !(decide (s < k)) || decide (t < xLen.getD s 0)

theorem filledTo_succ (xLen : List Nat) (k n : Nat) (hn : xLen.getD k 0 = n) :
    (fun iD norm s c t => filledTo xLen k iD norm s c t && !(decide (s = k) && decide (n ≤ t))) =
      filledTo xLen (k + 1) := by
  funext iD norm s c t
  unfold filledTo
  by_cases h1 : s < k
  · have h2 : s ≠ k := by omega
    have h3 : s < k + 1 := by omega
    simp [h1, h2, h3]
  · by_cases h2 : s = k
    · subst h2
      rw [hn]
      by_cases h3 : n ≤ t
      · simp [h3]
      · have : t < n := by omega
        simp [this]
    · have h3 : ¬ s < k + 1 := by omega
      simp [h1, h2, h3]

theorem filledTo_zero (xLen : List Nat) : filledTo xLen 0 = fun _ _ _ _ _ => true := by
  funext iD norm s c t
  simp [filledTo]

theorem maskIs_filled {mk : MaskBuf} {xLen : List Nat} (hm : MaskIs mk (filledTo xLen mk.ns) h) :
    MaskIs mk (fun _ _ s _ t => decide (t < xLen.getD s 0)) h := by
  intro norm iD s c t hv
  rw [hm norm iD s c t hv]
  unfold filledTo
  simp [hv.s]

theorem get_of_bufs {C : Type} {h h' : Heap C} {a : Nat} (hb : h'.bufs[a]? = h.bufs[a]?) (i : Nat) :
    h'.get a i = h.get a i := by
  unfold Heap.get; rw [hb]

section
variable {A : Type} {AIs : A → Heap (Cell K) → Prop} {mk : MaskBuf} {xLen : List Nat} {arr : A}

/-- `U_VL`: the loop over the samples. -/
theorem uvlFill_ends (hnew : h0.bufs.length ≤ mk.addr) (hx : ∀ s, s < mk.ns → aget xLen s = .ok (xLen.getD s 0))
    (hAIs : ∀ arr h h', OnlyMask mk h h' → AIs arr h → AIs arr h')
    (hI : FitIs AIs h0 mk (fun _ _ _ _ _ => true, arr) h) :
    ∃ h', EndsIn h0 ⟨h, uvlFill mk xLen⟩ h' ∧
      FitIs AIs h0 mk (fun _ _ s _ t => decide (t < xLen.getD s 0), arr) h' := by
  have hw : wpc (fun a _ => a = mk.addr) (fun a _ => a < h0.bufs.length)
      (forEach (List.range mk.ns) (fillMask mk xLen)) h
      fun _ h' => MaskIs mk (filledTo xLen mk.ns) h' ∧ OnlyMask mk h h' := by
    refine wpc_forEach (fun pre h1 => MaskIs mk (filledTo xLen pre.length) h1 ∧ OnlyMask mk h h1)
      ⟨by rw [List.length_nil, filledTo_zero]; exact hI.mask, .refl _ _⟩ ?_
      fun h1 hi => by rw [List.length_range] at hi; exact hi
    intro pre s post hl h1 hi
    have hs : s = pre.length := by
      have := congrArg (fun l => l[pre.length]?) hl
      have hlt : pre.length < mk.ns := by
        have := congrArg List.length hl
        simp at this; omega
      rw [List.getElem?_range hlt] at this
      simp at this
      exact this.symm
    have hlt : s < mk.ns := by
      have := congrArg List.length hl
      simp at this; omega
    refine fillMask_sim (hx s hlt) hlt (fun a j hc => hc.1) hi.1 fun h2 hm2 ho2 => ⟨?_, hi.2.trans ho2⟩
    rw [hs] at hm2
    rw [filledTo_succ _ _ _ rfl] at hm2
    rw [List.length_append, List.length_singleton]
    exact hm2
  obtain ⟨u, h', h1, h2⟩ := wpc_exists hw
  refine ⟨h', ?_, unchanged_of_onlyMask hI.un hnew h1.2, maskIs_filled h1.1, hAIs _ _ _ h1.2 hI.arr⟩
  have := parallel_eq (Ms := fun _ a _ => a = mk.addr) (hs := fun w => if w = 0 then h else h')
    (R := fun a _ => a < h0.bufs.length) (progs := uvlFill mk xLen) (h0 := h0)
    (by
      intro w w' a j h1 h2 h3
      simp only [uvlFill, List.length_singleton] at h1 h2
      omega)
    (by intro w a j _ h1 h2; omega)
    (by
      intro w p hp
      have hw0 : w = 0 := by
        have := (List.getElem?_eq_some_iff.1 hp).1
        simp only [uvlFill, List.length_singleton] at this
        omega
      subst hw0
      simp only [uvlFill, List.getElem?_cons_zero, Option.some.injEq] at hp
      subst hp
      simp only [if_pos rfl]
      exact wpc_imp h2 fun _ _ hq => hq.2)
    (by intro w a j _ h1; omega)
    (by simp only [if_pos rfl]; exact hI.un)
  exact this

/-- `M_VL`: the parallel loop over the samples. -/
theorem mvlFill_ends (hnew : h0.bufs.length ≤ mk.addr) (hx : ∀ s, s < mk.ns → aget xLen s = .ok (xLen.getD s 0))
    (hAIs : ∀ arr h h', OnlyMask mk h h' → AIs arr h → AIs arr h')
    (hI : FitIs AIs h0 mk (fun _ _ _ _ _ => true, arr) h) :
    ∃ h', EndsIn h0 ⟨h, mvlFill mk xLen⟩ h' ∧
      FitIs AIs h0 mk (fun _ _ s _ t => decide (t < xLen.getD s 0), arr) h' := by
  obtain ⟨hs, hs0, hs1, hs2⟩ := exists_chain (n := mk.ns) (s0 := h)
    (P := fun w h1 => MaskIs mk (filledTo xLen w) h1 ∧ OnlyMask mk h h1)
    (T := fun w h1 h2 => wpc (SampleCells mk w) (fun a _ => a < h0.bufs.length) (fillMask mk xLen w) h1
      fun _ h'' => h'' = h2) ⟨by rw [filledTo_zero]; exact hI.mask, .refl _ _⟩ (by
    intro w h1 hw hi
    have hwp : wpc (SampleCells mk w) (fun a _ => a < h0.bufs.length) (fillMask mk xLen w) h1
        fun _ h2 => MaskIs mk (filledTo xLen (w + 1)) h2 ∧ OnlyMask mk h h2 := by
      refine fillMask_sim (hx w hw) hw (fun a j hc => hc) hi.1 fun h2 hm2 ho2 => ⟨?_, hi.2.trans ho2⟩
      rw [filledTo_succ _ _ _ rfl] at hm2
      exact hm2
    obtain ⟨u, h', h1, h2⟩ := wpc_exists hwp
    exact ⟨h', h1, wpc_imp h2 fun _ _ hq => hq.2⟩)
  have hlen : (mvlFill mk xLen : List (Prog (Cell K) Unit)).length = mk.ns := by simp [mvlFill]
  have := parallel_eq (Ms := SampleCells mk) (hs := hs)
    (R := fun a _ => a < h0.bufs.length) (progs := mvlFill mk xLen) (h0 := h0)
    (by
      rintro w w' a j - - hne ⟨-, norm, iD, c, t, hv, e⟩ ⟨-, norm', iD', c', t', hv', e'⟩
      exact hne (pos_inj hv hv' (e.symm.trans e')).2.2.1)
    (by rintro w a j - ⟨rfl, -⟩ h2; omega)
    (by
      intro w p hp
      have hw : w < mk.ns := by rw [← hlen]; exact (List.getElem?_eq_some_iff.1 hp).1
      have := hs2 w hw
      unfold mvlFill at hp
      rw [List.getElem?_map, List.getElem?_range hw] at hp
      cases hp
      exact this)
    (by rintro w a j - ⟨rfl, -⟩; exact hnew)
    (by rw [hs0]; exact hI.un)
  rw [hs0, hlen] at this
  have hend := hs1 mk.ns le_rfl
  exact ⟨_, this, unchanged_of_onlyMask hI.un hnew hend.2, maskIs_filled hend.1, hAIs _ _ _ hend.2 hI.arr⟩

end

/-! ## The end of the univariate functions -/

/-- The array `values` and `threshold` read back. -/
theorem UIs.congr {o : UOut} {n : Nat} {arr : List (List K) × List K} {h h' : Heap (Cell K)} (hA : UIs o n arr h)
    (h1 : h'.bufs[o.threshold]? = h.bufs[o.threshold]?) (h2 : h'.bufs[o.values]? = h.bufs[o.values]?) :
    UIs o n arr h' :=
  ⟨hA.rows, hA.len, hA.num, fun i e he => by rw [get_of_bufs h1]; exact hA.thr i e he,
    fun i j row e hr he => by rw [get_of_bufs h2]; exact hA.val i j row e hr he⟩

theorem wpc_readRow {o : UOut} {n : Nat} {arr : List (List K) × List K} (hA : UIs o n arr h) (hR : ∀ j, R o.values j)
    {i : Nat} {row : List K} (hr : arr.1[i]? = some row) {Q : List K → Heap (Cell K) → Prop} (hq : Q row h) :
    wpc M R (collect (List.range o.width) fun j => loadNum o.values (i * o.width + j)) h Q := by
  have hl := hA.rows row (List.mem_of_getElem? hr)
  refine wpc_collect (ys := fun j => row.getD j 0) (fun j hj => ?_) ?_
  · have hj : j < row.length := by rw [hl]; exact List.mem_range.1 hj
    exact wpc_loadNum (.inr (hR _)) (hA.val i j row _ hr (by rw [getD_lt _ hj, List.getElem?_eq_getElem hj])) ⟨rfl, rfl⟩
  · rw [← hl, ← eq_range_map]
    exact hq

theorem keep_ends {o : UOut} {n : Nat} {arr : List (List K) × List K} (hA : UIs o n arr h)
    (hu : Unchanged h0 h) (hle : h0.bufs.length ≤ h.bufs.length) (h1 : o.threshold < h.bufs.length)
    (h2 : o.values < h.bufs.length) :
    ∃ h', EndsIn h0 ⟨h.add (List.replicate n (.flag true)), keepThreads o h.bufs.length n⟩ h' ∧ UIs o n arr h' ∧
      ∀ i, i < n → h'.get h.bufs.length i = some (.flag ((keepNonZero arr.1).getD i false)) := by
  have hold : ∀ a, a < h.bufs.length → (h.add (List.replicate n (.flag true))).bufs[a]? = h.bufs[a]? := fun a ha =>
    List.getElem?_append_left ha
  have hmv : (h.add (List.replicate n (.flag true))).bufs[h.bufs.length]? = some (List.replicate n (.flag true)) := by
    show (h.bufs ++ [_])[h.bufs.length]? = _
    simp
  have hA0 : UIs o n arr (h.add (List.replicate n (.flag true))) := hA.congr (hold _ h1) (hold _ h2)
  obtain ⟨hs, hs0, hs1, hs2⟩ := exists_chain (n := n) (s0 := h.add (List.replicate n (.flag true)))
    (P := fun w h' => UIs o n arr h' ∧ ∀ i, i < n → h'.get h.bufs.length i =
      some (.flag (if i < w then (keepNonZero arr.1).getD i false else true)))
    (T := fun w h1 h2 => wpc (fun a j => a = h.bufs.length ∧ j = w) (fun a _ => a ≠ h.bufs.length)
      (keepTask o h.bufs.length w) h1 fun _ h'' => h'' = h2) ⟨hA0, by
      intro i hi
      rw [get_of_buf hmv, List.getElem?_replicate, if_pos hi, if_neg (by omega)]⟩ (by
    intro w h1' hw hi
    have hwl : w < arr.1.length := by rw [hA.len]; exact hw
    have hwp : wpc (fun a j => a = h.bufs.length ∧ j = w) (fun a _ => a ≠ h.bufs.length) (keepTask o h.bufs.length w) h1'
        fun _ h' => UIs o n arr h' ∧ ∀ i, i < n → h'.get h.bufs.length i =
          some (.flag (if i < w + 1 then (keepNonZero arr.1).getD i false else true)) := by
      unfold keepTask
      rw [wpc_bind]
      refine wpc_readRow hi.1 (fun _ => by omega) (List.getElem?_eq_getElem hwl) ?_
      have hk : (keepNonZero arr.1).getD w false = !((arr.1[w]).all fun v => Scalar.eqb v 0) := by
        unfold keepNonZero
        rw [getD_lt _ (by simpa using hwl), List.getElem_map]
      split
      · rename_i hz
        rw [hz] at hk
        have hg := hi.2 w hw
        obtain ⟨h2', hset⟩ := set_of_get (w := Cell.flag false) hg
        refine wpc_store ⟨rfl, rfl⟩ hset ⟨hi.1.congr (set_bufs_other hset (by omega)) (set_bufs_other hset (by omega)), ?_⟩
        intro i hin
        rw [get_set hset]
        by_cases hiw : i = w
        · subst hiw
          rw [if_pos ⟨rfl, rfl⟩, if_pos (by omega), hk]
          rfl
        · rw [if_neg (by tauto), hi.2 i hin]
          by_cases h3 : i < w
          · rw [if_pos h3, if_pos (by omega)]
          · rw [if_neg h3, if_neg (by omega)]
      · rename_i hz
        refine ⟨hi.1, fun i hin => ?_⟩
        rw [hi.2 i hin]
        by_cases hiw : i = w
        · subst hiw
          rw [if_neg (by omega), if_pos (by omega), hk]
          simp only [Bool.not_eq_true] at hz
          rw [hz]
          rfl
        · by_cases h3 : i < w
          · rw [if_pos h3, if_pos (by omega)]
          · rw [if_neg h3, if_neg (by omega)]
    obtain ⟨u, h', e1, e2⟩ := wpc_exists hwp
    exact ⟨h', e1, wpc_imp e2 fun _ _ hq => hq.2⟩)
  have hlen : (keepThreads o h.bufs.length n : List (Prog (Cell K) Unit)).length = n := by simp [keepThreads]
  have := parallel_eq (Ms := fun w a j => a = h.bufs.length ∧ j = w) (hs := hs)
    (R := fun a _ => a ≠ h.bufs.length) (progs := keepThreads o h.bufs.length n) (h0 := h0)
    (by rintro w w' a j - - hne ⟨-, rfl⟩ ⟨-, rfl⟩; exact hne rfl)
    (by rintro w a j - ⟨rfl, -⟩ hc; exact hc rfl)
    (by
      intro w p hp
      have hw : w < n := by rw [← hlen]; exact (List.getElem?_eq_some_iff.1 hp).1
      have := hs2 w hw
      unfold keepThreads at hp
      rw [List.getElem?_map, List.getElem?_range hw] at hp
      cases hp
      exact this)
    (by rintro w a j - ⟨rfl, -⟩; exact hle)
    (by rw [hs0]; exact unchanged_add hu _)
  rw [hs0, hlen] at this
  refine ⟨_, this, (hs1 n le_rfl).1, fun i hi => ?_⟩
  rw [(hs1 n le_rfl).2 i hi, if_pos hi]

theorem uEnd_run {o : UOut} {n mv : Nat} {arr : List (List K) × List K} {P : UShp K} (hn : P.lengths.length = n)
    (hA : UIs o n arr h)
    (hk : ∀ i, i < n → h.get mv i = some (.flag ((keepNonZero arr.1).getD i false))) :
    ((uEndMem P o mv).run h).2 = .ok (uFinish P arr) := by
  have hw : wpc (fun _ _ => False) (fun _ _ => True) (uEndMem P o mv) h fun S _ => S = uFinish P arr := by
    unfold uEndMem
    rw [hn, wpc_bind]
    refine wpc_collect (ys := fun i => (keepNonZero arr.1).getD i false)
      (fun i hi => wpc_loadFlag (.inr trivial) (hk i (List.mem_range.1 hi)) ⟨rfl, rfl⟩) ?_
    rw [wpc_bind]
    refine wpc_collect (ys := fun i => arr.1.getD i []) (fun i hi => ?_) ?_
    · have hil : i < arr.1.length := by rw [hA.len]; exact List.mem_range.1 hi
      exact wpc_readRow hA (fun _ => trivial) (List.getElem?_eq_getElem hil) ⟨(getD_lt _ hil).symm, rfl⟩
    rw [wpc_bind]
    refine wpc_collect (ys := fun i => arr.2.getD i 0) (fun i hi => ?_) ?_
    · have hil : i < arr.2.length := by rw [hA.num]; exact List.mem_range.1 hi
      exact wpc_loadNum (.inr trivial) (hA.thr i _ (List.getElem?_eq_getElem hil)) ⟨(getD_lt _ hil).symm, rfl⟩
    have e1 : (List.range n).map (fun i => (keepNonZero arr.1).getD i false) = keepNonZero arr.1 := by
      have : (keepNonZero arr.1).length = n := by unfold keepNonZero; rw [List.length_map]; exact hA.len
      rw [← this, ← eq_range_map]
    have e2 : (List.range n).map (fun i => arr.1.getD i []) = arr.1 := by rw [← hA.len, ← eq_range_map]
    have e3 : (List.range n).map (fun i => arr.2.getD i 0) = arr.2 := by rw [← hA.num, ← eq_range_map]
    rw [e1, e2, e3]
    rfl
  obtain ⟨S, h', hr, hS⟩ := run_of_wpc hw
  rw [hr, ← hS]

theorem mEnd_run {o : MOut} {n : Nat} {arr : Convst.MArr K} {P S : MShp K} (hn : P.lengths.length = n)
    (hA : MIs o n arr h) (hS : mFinish P arr = .ok S) : ((mEndMem P o).run h).2 = .ok S := by
  have hw : wpc (fun _ _ => False) (fun _ _ => True) (mEndMem P o) h fun S' _ => S' = S := by
    unfold mEndMem
    rw [hn, wpc_bind]
    refine wpc_collect (ys := fun i => arr.maskReturn.getD i false) (fun i hi => ?_) ?_
    · have hil : i < arr.maskReturn.length := by rw [hA.nRet]; exact List.mem_range.1 hi
      exact wpc_loadFlag (.inr trivial) (hA.ret i _ (List.getElem?_eq_getElem hil)) ⟨(getD_lt _ hil).symm, rfl⟩
    rw [wpc_bind]
    refine wpc_collect (ys := fun i => arr.values.getD i 0) (fun i hi => ?_) ?_
    · have hil : i < arr.values.length := by rw [hA.nValues]; exact List.mem_range.1 hi
      exact wpc_loadNum (.inr trivial) (hA.val i _ (List.getElem?_eq_getElem hil)) ⟨(getD_lt _ hil).symm, rfl⟩
    rw [wpc_bind]
    refine wpc_collect (ys := fun i => arr.channelIds.getD i 0) (fun i hi => ?_) ?_
    · have hil : i < arr.channelIds.length := by rw [hA.nIds]; exact List.mem_range.1 hi
      exact wpc_loadNat (.inr trivial) (hA.ids i _ (List.getElem?_eq_getElem hil)) ⟨(getD_lt _ hil).symm, rfl⟩
    rw [wpc_bind]
    refine wpc_collect (ys := fun i => arr.threshold.getD i 0) (fun i hi => ?_) ?_
    · have hil : i < arr.threshold.length := by rw [hA.nThr]; exact List.mem_range.1 hi
      exact wpc_loadNum (.inr trivial) (hA.thr i _ (List.getElem?_eq_getElem hil)) ⟨(getD_lt _ hil).symm, rfl⟩
    rw [← hA.nValues, ← hA.nIds, ← eq_range_map, ← eq_range_map]
    have e1 : (List.range n).map (fun i => arr.maskReturn.getD i false) = arr.maskReturn := by
      rw [← hA.nRet, ← eq_range_map]
    have e2 : (List.range n).map (fun i => arr.threshold.getD i 0) = arr.threshold := by
      rw [← hA.nThr, ← eq_range_map]
    rw [e1, e2]
    exact wpc_ret hS rfl
  obtain ⟨S', h', hr, hS'⟩ := run_of_wpc hw
  rw [hr, ← hS']

end Convst.Mem
