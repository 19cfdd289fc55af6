import Verif.Proofs.MemoryRace
import Verif.Proofs.MemoryFitValue
import Verif.Proofs.NbUnique
import Mathlib.Tactic.Ring

/-! # The sampling mask and the series in memory (for C112) -/

set_option autoImplicit false
set_option linter.unusedSectionVars false

namespace Convst.Mem
open Spec

variable {G K L α β : Type}

/-! ## Positions -/

theorem row_inj {n q q' r r' : Nat} (hr : r < n) (hr' : r' < n) (h : q * n + r = q' * n + r') : q = q' ∧ r = r' := by
  have hn : 0 < n := by omega
  have h1 : q = q' := by
    have e : (q * n + r) / n = q := by rw [Nat.mul_comm, Nat.mul_add_div hn, Nat.div_eq_of_lt hr, Nat.add_zero]
    have e' : (q' * n + r') / n = q' := by rw [Nat.mul_comm, Nat.mul_add_div hn, Nat.div_eq_of_lt hr', Nat.add_zero]
    rw [← e, ← e', h]
  subst h1
  exact ⟨rfl, by omega⟩

theorem row_lt {n N q r : Nat} (hq : q < N) (hr : r < n) : q * n + r < N * n := by
  have : (q + 1) * n ≤ N * n := Nat.mul_le_mul_right n hq
  rw [Nat.add_mul] at this
  omega

/-- `mask_sampling[norm, i_d, s, c, t]` exists. -/
structure MaskBuf.Valid (mk : MaskBuf) (iD s c t : Nat) : Prop where
  iD : iD < mk.nDil
  s : s < mk.ns
  c : c < mk.nc
  t : t < mk.nt

theorem pos_inj {mk : MaskBuf} {norm norm' : Bool} {iD iD' s s' c c' t t' : Nat} (h : mk.Valid iD s c t)
    (h' : mk.Valid iD' s' c' t') (he : mk.pos norm iD s c t = mk.pos norm' iD' s' c' t') :
    norm = norm' ∧ iD = iD' ∧ s = s' ∧ c = c' ∧ t = t' := by
  unfold MaskBuf.pos at he
  obtain ⟨h1, rfl⟩ := row_inj h.t h'.t he
  obtain ⟨h2, rfl⟩ := row_inj h.c h'.c h1
  obtain ⟨h3, rfl⟩ := row_inj h.s h'.s h2
  obtain ⟨h4, rfl⟩ := row_inj h.iD h'.iD h3
  refine ⟨?_, rfl, rfl, rfl, rfl⟩
  cases norm <;> cases norm' <;> simp_all

theorem pos_lt {mk : MaskBuf} (norm : Bool) {iD s c t : Nat} (h : mk.Valid iD s c t) :
    mk.pos norm iD s c t < mk.size := by
  unfold MaskBuf.pos MaskBuf.size
  refine row_lt (row_lt (row_lt (row_lt ?_ h.iD) h.s) h.c) h.t
  cases norm <;> simp

/-! ## Rules for workers -/

variable {M R : Cells} {h : Heap (Cell K)} [Scalar K]

theorem wpm_rand {m : RM G α} {f : α → PM G K β} {g g1 : G} {a : α} {Q : β × G → Heap (Cell K) → Prop}
    (hm : m g = .ok (a, g1)) (hq : wpc M R (f a g1) h Q) : wpc M R ((rand m >>= f) g) h Q := by
  show wpc M R (Prog.bind (.ret (m g)) _) h Q
  rw [hm]
  exact hq

theorem wpm_mem {p : Prog (Cell K) α} {f : α → PM G K β} {g : G} {Q : β × G → Heap (Cell K) → Prop}
    (hp : wpc M R p h fun a h' => wpc M R (f a g) h' Q) : wpc M R ((mem p >>= f) g) h Q := by
  show wpc M R ((p >>= fun a => pure (a, g)) >>= fun x => f x.1 x.2) h Q
  rw [wpc_bind, wpc_bind]
  exact hp

theorem wpm_bind {m : PM G K α} {f : α → PM G K β} {g : G} {Q : β × G → Heap (Cell K) → Prop}
    (hp : wpc M R (m g) h fun a h' => wpc M R (f a.1 a.2) h' Q) : wpc M R ((m >>= f) g) h Q := by
  show wpc M R (m g >>= fun x => f x.1 x.2) h Q
  rw [wpc_bind]
  exact hp

theorem RM.bind_eq_ok {m : RM G α} {f : α → RM G β} {g : G} {r : β × G} :
    (m >>= f) g = .ok r ↔ ∃ a g1, m g = .ok (a, g1) ∧ f a g1 = .ok r := by
  rw [RM.bind_apply]
  cases hm : m g with
  | error e =>
    constructor
    · intro h; cases h
    · rintro ⟨a, g1, h, -⟩; cases h
  | ok p =>
    constructor
    · intro h; exact ⟨p.1, p.2, rfl, h⟩
    · rintro ⟨a, g1, h, h'⟩; cases h; exact h'

theorem ofRes_apply {r : Res α} {a : α} {g g1 : G} : ofRes r g = .ok (a, g1) ↔ r = .ok a ∧ g1 = g := by
  unfold ofRes
  cases r with
  | error e => exact ⟨fun h => (by cases h), fun h => (by cases h.1)⟩
  | ok b =>
    constructor
    · intro h; cases h; exact ⟨rfl, rfl⟩
    · rintro ⟨h, rfl⟩; cases h; rfl

theorem wpc_loadNum {a i : Nat} {x : K} {Q : K → Heap (Cell K) → Prop} (hm : M a i ∨ R a i)
    (hv : h.get a i = some (.num x)) (hq : Q x h) : wpc M R (loadNum a i) h Q := by
  unfold loadNum
  rw [wpc_bind]
  exact wpc_load hm hv hq

theorem wpc_loadFlag {a i : Nat} {x : Bool} {Q : Bool → Heap (Cell K) → Prop} (hm : M a i ∨ R a i)
    (hv : h.get a i = some (.flag x)) (hq : Q x h) : wpc M R (loadFlag a i) h Q := by
  unfold loadFlag
  rw [wpc_bind]
  exact wpc_load hm hv hq

theorem wpc_loadNat {a i : Nat} {x : Nat} {Q : Nat → Heap (Cell K) → Prop} (hm : M a i ∨ R a i)
    (hv : h.get a i = some (.nat x)) (hq : Q x h) : wpc M R (loadNat a i) h Q := by
  unfold loadNat
  rw [wpc_bind]
  exact wpc_load hm hv hq

/-- A loop of a worker that does what a loop on values does. -/
theorem wpc_forEach_foldlM {σ ι : Type} {F : σ → ι → Res σ} {f : ι → Prog (Cell K) Unit}
    (I : σ → Heap (Cell K) → Prop) :
    ∀ (l : List ι) (s s' : σ) (h : Heap (Cell K)), (∀ i ∈ l, ∀ (s s' : σ) (h : Heap (Cell K)), F s i = .ok s' → I s h →
      wpc M R (f i) h fun _ h' => I s' h') → l.foldlM F s = .ok s' → I s h →
      wpc M R (forEach l f) h fun _ h' => I s' h' := by
  intro l
  induction l with
  | nil => intro s s' h _ hf hI; cases hf; exact hI
  | cons i l ih =>
    intro s s' h hs hf hI
    rw [List.foldlM_cons, Res.bind_eq_ok] at hf
    obtain ⟨s1, h1, h2⟩ := hf
    show wpc M R (f i >>= fun _ => forEach l f) h _
    rw [wpc_bind]
    exact wpc_imp (hs i (by simp) s s1 h h1 hI) fun _ h' hI' => ih s1 s' h' (fun i hi => hs i (by simp [hi])) h2 hI'

/-! ## The mask -/

/-- The mask in memory is `masks`. -/
def MaskIs (mk : MaskBuf) (masks : Nat → SubMask) (h : Heap (Cell K)) : Prop :=
  ∀ norm iD s c t, mk.Valid iD s c t → h.get mk.addr (mk.pos norm iD s c t) = some (.flag (masks iD norm s c t))

/-- All buffers other than the mask are the same. -/
def OnlyMask (mk : MaskBuf) (h h' : Heap (Cell K)) : Prop := ∀ a, a ≠ mk.addr → h'.bufs[a]? = h.bufs[a]?

theorem OnlyMask.refl (mk : MaskBuf) (h : Heap (Cell K)) : OnlyMask mk h h := fun _ _ => rfl

theorem OnlyMask.trans {mk : MaskBuf} {h h' h'' : Heap (Cell K)} (a : OnlyMask mk h h') (b : OnlyMask mk h' h'') :
    OnlyMask mk h h'' := fun x hx => (b x hx).trans (a x hx)

/-- The elements of the mask belonging to dilation `iD` may be written. -/
def MayMask (M : Cells) (mk : MaskBuf) (iD : Nat) : Prop :=
  ∀ norm s c t, mk.Valid iD s c t → M mk.addr (mk.pos norm iD s c t)

theorem wpc_readMask {mk : MaskBuf} {masks : Nat → SubMask} (hm : MaskIs mk masks h) {iD : Nat}
    (hM : MayMask M mk iD) (hiD : iD < mk.nDil) (norm : Bool) {s c stop : Nat} (hs : s < mk.ns) (hc : c < mk.nc)
    (hstop : stop ≤ mk.nt) {Q : List Bool → Heap (Cell K) → Prop}
    (hq : Q ((List.range stop).map (masks iD norm s c)) h) : wpc M R (readMask mk norm iD s c stop) h Q := by
  unfold readMask
  refine wpc_collect (ys := masks iD norm s c) (fun t ht => ?_) hq
  have hv : mk.Valid iD s c t := ⟨hiD, hs, hc, by have := List.mem_range.1 ht; omega⟩
  exact wpc_loadFlag (.inl (hM norm s c t hv)) (hm norm iD s c t hv) ⟨rfl, rfl⟩

theorem unmark_sim {mk : MaskBuf} {masks : Nat → SubMask} {iD : Nat} {m m' : SubMask}
    (hm : MaskIs mk (Function.update masks iD m) h) (hM : MayMask M mk iD) (hiD : iD < mk.nDil) {norm : Bool} {s c t : Nat}
    (hu : unmark ⟨mk.ns, mk.nc, mk.nt⟩ m norm s c t = .ok m') {Q : Unit → Heap (Cell K) → Prop}
    (hq : ∀ h', MaskIs mk (Function.update masks iD m') h' → OnlyMask mk h h' → Q () h') :
    wpc M R (store mk.addr (mk.pos norm iD s c t) (.flag false)) h Q := by
  unfold unmark at hu
  split at hu
  · rename_i hr
    have hv : mk.Valid iD s c t := ⟨hiD, hr.1, hr.2.1, hr.2.2⟩
    have hg := hm norm iD s c t hv
    have : ∃ h', h.set mk.addr (mk.pos norm iD s c t) (.flag false) = some h' := by
      unfold Heap.get at hg
      cases hb : h.bufs[mk.addr]? with
      | none => rw [hb] at hg; cases hg
      | some b =>
        rw [hb] at hg
        have := (List.getElem?_eq_some_iff.1 hg).1
        unfold Heap.set
        rw [hb]
        simp only
        rw [if_pos this]
        exact ⟨_, rfl⟩
    obtain ⟨h', hset⟩ := this
    refine wpc_store (hM norm s c t hv) hset (hq h' ?_ fun a ha => set_bufs_other hset ha)
    intro norm' iD' s' c' t' hv'
    rw [get_set hset]
    cases hu
    split
    · rename_i he
      obtain ⟨rfl, rfl, rfl, rfl, rfl⟩ := pos_inj hv' hv he.2
      rw [Function.update_self]
      simp
    · rename_i he
      rw [hm norm' iD' s' c' t' hv']
      by_cases hD : iD' = iD
      · subst hD
        rw [Function.update_self, Function.update_self, if_neg]
        rintro ⟨rfl, rfl, rfl, rfl⟩
        exact he ⟨rfl, rfl⟩
      · rw [Function.update_of_ne hD, Function.update_of_ne hD]
  · cases hu

theorem markLoop_sim {mk : MaskBuf} {masks : Nat → SubMask} {iD : Nat} {m m' : SubMask}
    (hm : MaskIs mk (Function.update masks iD m) h) (hM : MayMask M mk iD) (hiD : iD < mk.nDil) {norm : Bool}
    {s c index d n : Nat} {size : Int} (hu : markLoop ⟨mk.ns, mk.nc, mk.nt⟩ m norm s c index d n size = .ok m')
    {Q : Unit → Heap (Cell K) → Prop}
    (hq : ∀ h', MaskIs mk (Function.update masks iD m') h' → OnlyMask mk h h' → Q () h') :
    wpc M R (markLoopMem mk norm iD s c index d n size) h Q := by
  unfold markLoop at hu
  unfold markLoopMem
  refine wpc_imp (wpc_forEach_foldlM
    (fun m1 h1 => MaskIs mk (Function.update masks iD m1) h1 ∧ OnlyMask mk h h1) _ _ _ h ?_ hu ⟨hm, .refl _ _⟩)
    fun _ h' hI => hq h' hI.1 hI.2
  intro j _ m1 m2 h1 hf hI
  obtain ⟨t1, e1, hf⟩ := Res.bind_eq_ok.1 hf
  obtain ⟨m3, e2, hf⟩ := Res.bind_eq_ok.1 hf
  obtain ⟨t2, e3, hf⟩ := Res.bind_eq_ok.1 hf
  rw [wpc_bind]
  refine wpc_ret e1 ?_
  rw [wpc_bind]
  refine unmark_sim hI.1 hM hiD e2 fun h2 hm2 ho2 => ?_
  rw [wpc_bind]
  refine wpc_ret e3 ?_
  exact unmark_sim hm2 hM hiD hf fun h3 hm3 ho3 => ⟨hm3, (hI.2.trans ho2).trans ho3⟩

/-! ## The series -/

theorem get_unchanged {C : Type} {h0 h : Heap C} (hu : Unchanged h0 h) {a i : Nat} {v : C} (hg : h0.get a i = some v) :
    h.get a i = some v ∧ a < h0.bufs.length := by
  unfold Heap.get at hg ⊢
  cases hb : h0.bufs[a]? with
  | none => rw [hb] at hg; cases hg
  | some b =>
    rw [hb] at hg
    rw [hu a b hb]
    exact ⟨hg, (List.getElem?_eq_some_iff.1 hb).1⟩

theorem unchanged_of_onlyMask {h0 h h' : Heap (Cell K)} {mk : MaskBuf} (hu : Unchanged h0 h)
    (hnew : h0.bufs.length ≤ mk.addr) (ho : OnlyMask mk h h') : Unchanged h0 h' := by
  intro a b hb
  have : a < h0.bufs.length := (List.getElem?_eq_some_iff.1 hb).1
  rw [ho a (by omega)]
  exact hu a b hb

theorem wpc_readSeries {h0 : Heap (Cell K)} {b : FitIn K L} {a : FitArgs K L} (hb : FitHeld h0 b a)
    (hu : Unchanged h0 h) (hR : ∀ x i, x < h0.bufs.length → R x i) {s c n : Nat} {x : List K}
    (hx : aget2 a.X s c = .ok x) (hn : n ≤ x.length) {Q : List K → Heap (Cell K) → Prop} (hq : Q (x.take n) h) :
    wpc M R (readSeries b.X s c n) h Q := by
  obtain ⟨rows, h1, h2⟩ := aget2_eq_ok.1 hx
  have hs : s < b.X.length := by
    rw [hb.samples]; exact (List.getElem?_eq_some_iff.1 h1).1
  unfold readSeries
  rw [wpc_bind]
  refine wpc_ret (a := b.X[s]) (aget_eq_ok.2 (List.getElem?_eq_getElem hs)) ?_
  refine wpc_collect (ys := fun t => x.getD t 0) (fun t ht => ?_) ?_
  · have ht : t < x.length := by have := List.mem_range.1 ht; omega
    obtain ⟨e1, e2⟩ := get_unchanged hu (hb.series s c t _ rows x (x.getD t 0) (List.getElem?_eq_getElem hs) h1 h2
      (by rw [getD_lt _ ht, List.getElem?_eq_getElem ht]))
    exact wpc_loadNum (.inr (hR _ _ e2)) e1 ⟨rfl, rfl⟩
  · convert hq using 1
    refine List.ext_getElem (by simp [hn]) fun t ht1 ht2 => ?_
    have ht : t < x.length := by simp at ht1; omega
    simp only [List.getElem_map, List.getElem_range, List.getElem_take]
    rw [getD_lt _ ht]

/-- Channels of the training data have `nt` points. -/
theorem row_length {a : FitArgs K L} (hnt : ∀ s ∈ a.X, ∀ x ∈ s, x.length = a.nt) {s c : Nat} {x : List K}
    (hx : aget2 a.X s c = .ok x) : x.length = a.nt := by
  obtain ⟨rows, h1, h2⟩ := aget2_eq_ok.1 hx
  exact hnt rows (List.mem_of_getElem? h1) x (List.mem_of_getElem? h2)

/-! ## The loop over the channels -/

theorem channelLoop_sim {mk : MaskBuf} {masks : Nat → SubMask} {h0 : Heap (Cell K)} {iD : Nat}
    {m m' : SubMask} {D V : List K}
    (hnew : h0.bufs.length ≤ mk.addr) (hu : Unchanged h0 h)
    (hm : MaskIs mk (Function.update masks iD m) h) (hM : MayMask M mk iD) (hiD : iD < mk.nDil) {norm phase : Bool}
    {s index l d n : Nat} {size : Int} {xs xt : Nat → Res (List K)} {ps pt : Nat → Prog (Cell K) (List K)}
    {channels : List Nat} {dist0 : List K}
    (hps : ∀ c x h', Unchanged h0 h' → xs c = .ok x → wpc M R (ps c) h' fun r h'' => r = x ∧ h'' = h')
    (hpt : ∀ c x h', Unchanged h0 h' → xt c = .ok x → wpc M R (pt c) h' fun r h'' => r = x ∧ h'' = h')
    (hc : channelLoop ⟨mk.ns, mk.nc, mk.nt⟩ xs xt channels m norm phase s index l d n size dist0 = .ok (m', D, V))
    {Q : List K × List K → Heap (Cell K) → Prop}
    (hq : ∀ h', MaskIs mk (Function.update masks iD m') h' → OnlyMask mk h h' → Q (D, V) h') :
    wpc M R (channelLoopMem mk iD ps pt channels norm phase s index l d n size dist0) h Q := by
  unfold channelLoop at hc
  unfold channelLoopMem
  obtain ⟨r, hr, he⟩ := Res.bind_eq_ok.1 hc
  rw [wpc_bind]
  generalize hinit : (dist0, List.replicate (channels.length * l) (0 : K), 0) = init at hr ⊢
  have key : ∀ (ks : List Nat) (m : SubMask) (st : List K × List K × Nat) (h1 : Heap (Cell K)) (r : _),
      MaskIs mk (Function.update masks iD m) h1 → OnlyMask mk h h1 →
      ks.foldlM (init := (m, st)) (fun (m, dist, vals, a3) k => do
        let c ← aget channels k
        let m' ← markLoop ⟨mk.ns, mk.nc, mk.nt⟩ m norm s c index d n size
        let b3 := a3 + l
        let x ← xs c
        let v ← getSubsequence x index l d norm phase
        let x' ← xt c
        let D ← computeShapeletDistVector x' v l d norm phase
        let dist' ← addInto dist D
        let vals' ← sliceAssign vals a3 b3 v
        pure (m', dist', vals', b3)) = (.ok r : Res (SubMask × List K × List K × Nat)) →
      wpc M R (ks.foldlM (init := st) fun (dist, vals, a3) k => do
        let c ← .ret (aget channels k)
        markLoopMem mk norm iD s c index d n size
        let b3 := a3 + l
        let x ← ps c
        let v ← .ret (getSubsequence x index l d norm phase)
        let x' ← pt c
        let D ← .ret (computeShapeletDistVector x' v l d norm phase)
        let dist' ← .ret (addInto dist D)
        let vals' ← .ret (sliceAssign vals a3 b3 v)
        pure (dist', vals', b3)) h1 fun st' h' => st' = r.2 ∧ MaskIs mk (Function.update masks iD r.1) h' ∧
          OnlyMask mk h h' := by
    intro ks
    induction ks with
    | nil =>
      intro m st h1 r hm ho hr
      cases hr
      exact ⟨rfl, hm, ho⟩
    | cons k ks ih =>
      intro m st h1 r hm ho hr
      obtain ⟨dist, vals, a3⟩ := st
      rw [List.foldlM_cons] at hr
      obtain ⟨r1, hr1, hr2⟩ := Res.bind_eq_ok.1 hr
      simp only at hr1
      obtain ⟨c, e1, hr1⟩ := Res.bind_eq_ok.1 hr1
      obtain ⟨m1, e2, hr1⟩ := Res.bind_eq_ok.1 hr1
      obtain ⟨x, e3, hr1⟩ := Res.bind_eq_ok.1 hr1
      obtain ⟨v, e4, hr1⟩ := Res.bind_eq_ok.1 hr1
      obtain ⟨x', e5, hr1⟩ := Res.bind_eq_ok.1 hr1
      obtain ⟨D1, e6, hr1⟩ := Res.bind_eq_ok.1 hr1
      obtain ⟨dist1, e7, hr1⟩ := Res.bind_eq_ok.1 hr1
      obtain ⟨vals1, e8, hr1⟩ := Res.bind_eq_ok.1 hr1
      cases hr1
      rw [List.foldlM_cons, wpc_bind]
      simp only
      rw [wpc_bind]
      refine wpc_ret e1 ?_
      rw [wpc_bind]
      refine markLoop_sim hm hM hiD e2 fun h2 hm2 ho2 => ?_
      have hu2 : Unchanged h0 h2 := unchanged_of_onlyMask hu hnew (ho.trans ho2)
      rw [wpc_bind]
      refine wpc_imp (hps c x h2 hu2 e3) ?_
      rintro _ _ ⟨rfl, rfl⟩
      rw [wpc_bind]
      refine wpc_ret e4 ?_
      rw [wpc_bind]
      refine wpc_imp (hpt c x' _ hu2 e5) ?_
      rintro _ _ ⟨rfl, rfl⟩
      rw [wpc_bind]
      refine wpc_ret e6 ?_
      rw [wpc_bind]
      refine wpc_ret e7 ?_
      rw [wpc_bind]
      refine wpc_ret e8 ?_
      exact ih m1 (dist1, vals1, a3 + l) _ r hm2 (ho.trans ho2) hr2
  subst hinit
  refine wpc_imp (key _ m _ h r hm (.refl _ _) hr) ?_
  rintro st' h' ⟨rfl, hm', ho'⟩
  cases he
  exact hq h' hm' ho'

end Convst.Mem
