import Verif.Spec.MemoryFit
import Verif.Proofs.Memory

/-!
# Threads that share no written element

`wpc M R p h Q`: the program `p`, executed alone from the memory `h`, writes elements in `M` only, reads elements in `M`
or `R` only, allocates nothing, does not fail, and ends with a result and a memory satisfying `Q`.

If the programs of several threads, executed one after the other, do this with disjoint sets `M`, then every parallel
execution ends in the memory in which the sequential one ends.
-/

set_option autoImplicit false
set_option linter.unusedSectionVars false

namespace Convst.Mem
open Spec

variable {C α β : Type} [Zero C]

/-- A set of elements of the memory. -/
abbrev Cells := Nat → Nat → Prop

/-- See the head of the file. -/
def wpc (M R : Cells) : Prog C α → Heap C → (α → Heap C → Prop) → Prop
  | .ret (.ok a), h, Q => Q a h
  | .ret (.error _), _, _ => False
  | .alloc _ _, _, _ => False
  | .read a i k, h, Q => (M a i ∨ R a i) ∧ ∃ v, h.get a i = some v ∧ wpc M R (k v) h Q
  | .write a i v k, h, Q => M a i ∧ ∃ h', h.set a i v = some h' ∧ wpc M R k h' Q

variable {M R : Cells}

theorem wpc_bind (p : Prog C α) (f : α → Prog C β) (h : Heap C) (Q : β → Heap C → Prop) :
    wpc M R (p >>= f) h Q ↔ wpc M R p h fun a h' => wpc M R (f a) h' Q := by
  show wpc M R (p.bind f) h Q ↔ _
  induction p generalizing h with
  | ret r =>
    cases r with
    | ok a => exact Iff.rfl
    | error e => exact Iff.rfl
  | alloc n k ih => exact Iff.rfl
  | read a i k ih => simp only [Prog.bind, wpc, ih]
  | write a i v k ih => simp only [Prog.bind, wpc, ih]

theorem wpc_mono {M' R' : Cells} {p : Prog C α} {h : Heap C} {Q Q' : α → Heap C → Prop} (hp : wpc M R p h Q)
    (hM : ∀ a i, M a i → M' a i) (hR : ∀ a i, R a i → R' a i) (hQ : ∀ a h, Q a h → Q' a h) : wpc M' R' p h Q' := by
  induction p generalizing h with
  | ret r =>
    cases r with
    | ok a => exact hQ _ _ hp
    | error e => exact hp
  | alloc n k ih => exact hp
  | read a i k ih =>
    obtain ⟨h1, v, h2, h3⟩ := hp
    exact ⟨h1.imp (hM _ _) (hR _ _), v, h2, ih v h3⟩
  | write a i v k ih =>
    obtain ⟨h1, h', h2, h3⟩ := hp
    exact ⟨hM _ _ h1, h', h2, ih h3⟩

theorem wpc_imp {p : Prog C α} {h : Heap C} {Q Q' : α → Heap C → Prop} (hp : wpc M R p h Q)
    (hQ : ∀ a h, Q a h → Q' a h) : wpc M R p h Q' := wpc_mono hp (fun _ _ h => h) (fun _ _ h => h) hQ

theorem wpc_pure {a : α} {h : Heap C} {Q : α → Heap C → Prop} (hq : Q a h) : wpc M R (pure a : Prog C α) h Q := hq

theorem wpc_ret {r : Res α} {a : α} (hr : r = .ok a) {h : Heap C} {Q : α → Heap C → Prop} (hq : Q a h) :
    wpc M R (.ret r : Prog C α) h Q := by
  subst hr; exact hq

theorem wpc_load {a i : Nat} {v : C} {h : Heap C} {Q : C → Heap C → Prop} (hm : M a i ∨ R a i) (hv : h.get a i = some v)
    (hq : Q v h) : wpc M R (load a i) h Q := ⟨hm, v, hv, hq⟩

theorem wpc_store {a i : Nat} {v : C} {h h' : Heap C} {Q : Unit → Heap C → Prop} (hm : M a i)
    (hs : h.set a i v = some h') (hq : Q () h') : wpc M R (store a i v) h Q := ⟨hm, h', hs, hq⟩

theorem wpc_collect {ι : Type} {xs : List ι} {f : ι → Prog C β} {ys : ι → β} {h : Heap C}
    {Q : List β → Heap C → Prop} (hf : ∀ x ∈ xs, wpc M R (f x) h fun b h' => b = ys x ∧ h' = h)
    (hQ : Q (xs.map ys) h) : wpc M R (collect xs f) h Q := by
  induction xs generalizing Q with
  | nil => exact hQ
  | cons x xs ih =>
    show wpc M R (f x >>= fun y => collect xs f >>= fun ys => pure (y :: ys)) h Q
    rw [wpc_bind]
    refine wpc_imp (hf x (by simp)) ?_
    rintro b h' ⟨rfl, rfl⟩
    rw [wpc_bind]
    exact ih (fun x hx => hf x (by simp [hx])) (wpc_pure hQ)

theorem wpc_forEach {ι : Type} {xs : List ι} {f : ι → Prog C Unit} {h : Heap C} {Q : Unit → Heap C → Prop}
    (I : List ι → Heap C → Prop) (h0 : I [] h)
    (hs : ∀ pre x post, xs = pre ++ x :: post → ∀ h, I pre h → wpc M R (f x) h fun _ h' => I (pre ++ [x]) h')
    (hQ : ∀ h, I xs h → Q () h) : wpc M R (forEach xs f) h Q := by
  have key : ∀ (post pre : List ι), xs = pre ++ post → ∀ h, I pre h → wpc M R (forEach post f) h Q := by
    intro post
    induction post with
    | nil =>
      intro pre e h hI
      rw [List.append_nil] at e
      subst e
      exact hQ _ hI
    | cons x post ih =>
      intro pre e h hI
      show wpc M R (f x >>= fun _ => forEach post f) h Q
      rw [wpc_bind]
      exact wpc_imp (hs pre x post e h hI) fun _ h' hI' => ih (pre ++ [x]) (by rw [e]; simp) h' hI'
  exact key xs [] rfl h h0

/-! ## Elements and buffers -/

/-- The same buffers with the same sizes. -/
def SameShape (h h' : Heap C) : Prop := ∀ a : Nat, (h.bufs[a]?).map List.length = (h'.bufs[a]?).map List.length

theorem SameShape.refl (h : Heap C) : SameShape h h := fun _ => rfl

theorem SameShape.trans {h h' h'' : Heap C} (a : SameShape h h') (b : SameShape h' h'') : SameShape h h'' :=
  fun x => (a x).trans (b x)

theorem SameShape.symm {h h' : Heap C} (a : SameShape h h') : SameShape h' h := fun x => (a x).symm

theorem set_spec {h h' : Heap C} {a i : Nat} {v : C} (hs : h.set a i v = some h') :
    ∃ b, h.bufs[a]? = some b ∧ i < b.length ∧ h' = ⟨h.bufs.set a (b.set i v)⟩ := by
  unfold Heap.set at hs
  cases hb : h.bufs[a]? with
  | none => rw [hb] at hs; cases hs
  | some b =>
    rw [hb] at hs
    simp only at hs
    split at hs
    · rename_i hi
      exact ⟨b, rfl, hi, (Option.some.inj hs).symm⟩
    · cases hs

theorem set_shape {h h' : Heap C} {a i : Nat} {v : C} (hs : h.set a i v = some h') : SameShape h h' := by
  obtain ⟨b, hb, hi, rfl⟩ := set_spec hs
  intro x
  show _ = ((h.bufs.set a (b.set i v))[x]?).map _
  by_cases hx : a = x
  · subst hx
    rw [set_self hb, hb]
    simp
  · rw [set_other hx]

theorem set_bufs_other {h h' : Heap C} {a i x : Nat} {v : C} (hs : h.set a i v = some h') (hx : x ≠ a) :
    h'.bufs[x]? = h.bufs[x]? := by
  obtain ⟨b, hb, hi, rfl⟩ := set_spec hs
  exact set_other (Ne.symm hx)

theorem set_bufs_self {h h' : Heap C} {a i : Nat} {v : C} {b : List C} (hs : h.set a i v = some h')
    (hb : h.bufs[a]? = some b) : h'.bufs[a]? = some (b.set i v) := by
  obtain ⟨b', hb', hi, rfl⟩ := set_spec hs
  rw [hb] at hb'
  cases hb'
  exact set_self hb

theorem get_set {h h' : Heap C} {a i : Nat} {v : C} (hs : h.set a i v = some h') (x j : Nat) :
    h'.get x j = if x = a ∧ j = i then some v else h.get x j := by
  obtain ⟨b, hb, hi, rfl⟩ := set_spec hs
  unfold Heap.get
  show ((h.bufs.set a (b.set i v))[x]?).bind _ = _
  by_cases hx : x = a
  · subst hx
    rw [set_self hb, hb]
    by_cases hj : j = i
    · subst hj
      rw [if_pos ⟨rfl, rfl⟩]
      simp [hi]
    · rw [if_neg (fun h => hj h.2)]
      show (b.set i v)[j]? = b[j]?
      rw [List.getElem?_set_ne (Ne.symm hj)]
  · rw [set_other (Ne.symm hx), if_neg (fun h => hx h.1)]

theorem set_of_shape {h h' H : Heap C} {a i : Nat} {v : C} (hs : h.set a i v = some h') (hsh : SameShape h H) :
    ∃ H', H.set a i v = some H' := by
  obtain ⟨b, hb, hi, rfl⟩ := set_spec hs
  have := hsh a
  rw [hb] at this
  cases hB : H.bufs[a]? with
  | none => rw [hB] at this; cases this
  | some b' =>
    rw [hB] at this
    simp only [Option.map_some, Option.some.injEq] at this
    exact ⟨_, Heap.set_some hB (by omega)⟩

theorem bufs_eq {h h' : Heap C} (hsh : SameShape h h') {a : Nat} (hg : ∀ i, h.get a i = h'.get a i) :
    h.bufs[a]? = h'.bufs[a]? := by
  have := hsh a
  cases hB : h.bufs[a]? with
  | none =>
    rw [hB] at this
    cases hB' : h'.bufs[a]? with
    | none => rfl
    | some b' => rw [hB'] at this; cases this
  | some b =>
    rw [hB] at this
    cases hB' : h'.bufs[a]? with
    | none => rw [hB'] at this; cases this
    | some b' =>
      congr 1
      apply List.ext_getElem?
      intro i
      have := hg i
      unfold Heap.get at this
      rw [hB, hB'] at this
      exact this

theorem heap_eq {h h' : Heap C} (hsh : SameShape h h') (hg : ∀ a i, h.get a i = h'.get a i) : h = h' := by
  have : h.bufs = h'.bufs := List.ext_getElem? fun a => bufs_eq hsh (hg a)
  cases h; cases h'; simpa using this

theorem wpc_frame {p : Prog C α} {h : Heap C} {Q : α → Heap C → Prop} (hp : wpc M R p h Q) :
    wpc M R p h fun r h' => Q r h' ∧ (∀ a i, ¬ M a i → h'.get a i = h.get a i) ∧ SameShape h h' := by
  induction p generalizing h with
  | ret r =>
    cases r with
    | ok a => exact ⟨hp, fun _ _ _ => rfl, .refl _⟩
    | error e => exact hp
  | alloc n k ih => exact hp
  | read a i k ih =>
    obtain ⟨h1, v, h2, h3⟩ := hp
    exact ⟨h1, v, h2, ih v h3⟩
  | write a i v k ih =>
    obtain ⟨h1, h', h2, h3⟩ := hp
    refine ⟨h1, h', h2, wpc_imp (ih h3) ?_⟩
    rintro r h'' ⟨hq, hf, hs⟩
    refine ⟨hq, fun b j hbj => ?_, (set_shape h2).trans hs⟩
    rw [hf b j hbj, get_set h2, if_neg]
    rintro ⟨rfl, rfl⟩
    exact hbj h1

theorem wpc_exists {p : Prog C α} {h : Heap C} {Q : α → Heap C → Prop} (hp : wpc M R p h Q) :
    ∃ r h', Q r h' ∧ wpc M R p h fun r' h'' => r' = r ∧ h'' = h' := by
  induction p generalizing h with
  | ret r =>
    cases r with
    | ok a => exact ⟨a, h, hp, rfl, rfl⟩
    | error e => exact absurd hp id
  | alloc n k ih => exact absurd hp id
  | read a i k ih =>
    obtain ⟨h1, v, h2, h3⟩ := hp
    obtain ⟨r, h', hq, hw⟩ := ih v h3
    exact ⟨r, h', hq, h1, v, h2, hw⟩
  | write a i v k ih =>
    obtain ⟨h1, h', h2, h3⟩ := hp
    obtain ⟨r, h'', hq, hw⟩ := ih h3
    exact ⟨r, h'', hq, h1, h', h2, hw⟩

theorem run_of_wpc {p : Prog C α} {h : Heap C} {Q : α → Heap C → Prop} (hp : wpc M R p h Q) :
    ∃ r h', p.run h = (h', .ok r) ∧ Q r h' := by
  induction p generalizing h with
  | ret r =>
    cases r with
    | ok a => exact ⟨a, h, rfl, hp⟩
    | error e => exact absurd hp id
  | alloc n k ih => exact absurd hp id
  | read a i k ih =>
    obtain ⟨h1, v, h2, h3⟩ := hp
    obtain ⟨r, h', hq, hw⟩ := ih v h3
    exact ⟨r, h', by simp only [Prog.run, h2, hq], hw⟩
  | write a i v k ih =>
    obtain ⟨h1, h', h2, h3⟩ := hp
    obtain ⟨r, h'', hq, hw⟩ := ih h3
    exact ⟨r, h'', by simp only [Prog.run, h2, hq], hw⟩

/-! ## Parallel executions -/

/-- Invariant: thread `w` sees what it would see in the sequential execution. -/
structure PInv (Ms : Nat → Cells) (R : Cells) (hs : Nat → Heap C) (n : Nat) (c : Conf C) (Hs : Nat → Heap C) :
    Prop where
  len : c.threads.length = n
  safe : ∀ w p, c.threads[w]? = some p → wpc (Ms w) R p (Hs w) fun _ h' => h' = hs (w + 1)
  agree : ∀ w, w < n → ∀ a i, Ms w a i ∨ R a i → c.heap.get a i = (Hs w).get a i
  rest : ∀ a i, (∀ w, w < n → ¬ Ms w a i) → c.heap.get a i = (hs 0).get a i
  shape : ∀ w, w < n → SameShape c.heap (Hs w)
  shape0 : SameShape c.heap (hs 0)

theorem PInv.step {Ms : Nat → Cells} {hs : Nat → Heap C} {n : Nat} {c c' : Conf C} {Hs : Nat → Heap C}
    (hdisj : ∀ w w' a i, w < n → w' < n → w ≠ w' → Ms w a i → ¬ Ms w' a i)
    (hR : ∀ w a i, w < n → Ms w a i → ¬ R a i) (hI : PInv Ms R hs n c Hs) (hst : Conf.Step c c') :
    ∃ Hs', PInv Ms R hs n c' Hs' := by
  obtain ⟨hi, hst⟩ := hst
  rename_i h h' ts t p p'
  have hlen : ts.length = n := hI.len
  have ht : t < n := by rw [← hlen]; exact (List.getElem?_eq_some_iff.1 hi).1
  have hsafe := hI.safe t p hi
  have hagree : ∀ w, w < n → ∀ a i, Ms w a i ∨ R a i → h.get a i = (Hs w).get a i := hI.agree
  have hshape : ∀ w, w < n → SameShape h (Hs w) := hI.shape
  have hshape0 : SameShape h (hs 0) := hI.shape0
  have hrest : ∀ a i, (∀ w, w < n → ¬ Ms w a i) → h.get a i = (hs 0).get a i := hI.rest
  have safe' : ∀ H', wpc (Ms t) R p' H' (fun _ h' => h' = hs (t + 1)) → ∀ w q, (ts.set t p')[w]? = some q →
      wpc (Ms w) R q (Function.update Hs t H' w) fun _ h' => h' = hs (w + 1) := by
    intro H' hw w q hq
    by_cases hc : w = t
    · subst hc
      rw [List.getElem?_set_self (by omega)] at hq
      cases hq
      rw [Function.update_self]
      exact hw
    · rw [List.getElem?_set_ne (Ne.symm hc)] at hq
      rw [Function.update_of_ne hc]
      exact hI.safe w q hq
  cases p with
  | ret r => simp [Prog.step] at hst
  | alloc n k => exact absurd hsafe id
  | read a i k =>
    obtain ⟨h1, v, h2, h3⟩ := hsafe
    have hv : h.get a i = some v := by rw [hagree t ht a i h1, h2]
    simp only [Prog.step, hv, Option.some.injEq, Prod.mk.injEq] at hst
    obtain ⟨rfl, rfl⟩ := hst
    refine ⟨Hs, by simpa using hlen, ?_, hagree, hrest, hshape, hshape0⟩
    have := safe' _ h3
    rwa [Function.update_eq_self] at this
  | write a i v k =>
    obtain ⟨h1, H', h2, h3⟩ := hsafe
    obtain ⟨h1', hset⟩ := set_of_shape h2 (hshape t ht).symm
    simp only [Prog.step, hset, Option.some.injEq, Prod.mk.injEq] at hst
    obtain ⟨rfl, rfl⟩ := hst
    refine ⟨Function.update Hs t H', by simpa using hlen, safe' _ h3, ?_, ?_, ?_, (set_shape hset).symm.trans hshape0⟩
    · intro w hw b j hbj
      show h1'.get b j = _
      rw [get_set hset]
      by_cases hc : w = t
      · subst hc
        rw [Function.update_self, get_set h2]
        split
        · rfl
        · exact hagree w hw b j hbj
      · rw [Function.update_of_ne hc, if_neg, hagree w hw b j hbj]
        rintro ⟨rfl, rfl⟩
        rcases hbj with hbj | hbj
        · exact hdisj w t _ _ hw ht hc hbj h1
        · exact hR t _ _ ht h1 hbj
    · intro b j hbj
      show h1'.get b j = _
      rw [get_set hset, if_neg, hrest b j hbj]
      rintro ⟨rfl, rfl⟩
      exact hbj t ht h1
    · intro w hw
      by_cases hc : w = t
      · subst hc
        rw [Function.update_self]
        exact ((set_shape hset).symm.trans (hshape w hw)).trans (set_shape h2)
      · rw [Function.update_of_ne hc]
        exact (set_shape hset).symm.trans (hshape w hw)

theorem PInv.reaches {Ms : Nat → Cells} {hs : Nat → Heap C} {n : Nat} {c c' : Conf C} {Hs : Nat → Heap C}
    (hdisj : ∀ w w' a i, w < n → w' < n → w ≠ w' → Ms w a i → ¬ Ms w' a i)
    (hR : ∀ w a i, w < n → Ms w a i → ¬ R a i) (hI : PInv Ms R hs n c Hs) (hst : Reaches c c') :
    ∃ Hs', PInv Ms R hs n c' Hs' := by
  induction hst with
  | refl => exact ⟨Hs, hI⟩
  | tail _ hstep ih =>
    obtain ⟨H, h⟩ := ih
    exact h.step hdisj hR hstep

/-- Threads that write to disjoint sets of elements, and read only what they write or nobody writes, end in the memory
in which their sequential execution ends. -/
theorem parallel_eq {Ms : Nat → Cells} {hs : Nat → Heap C} {progs : List (Prog C Unit)} {h0 : Heap C}
    (hdisj : ∀ w w' a i, w < progs.length → w' < progs.length → w ≠ w' → Ms w a i → ¬ Ms w' a i)
    (hR : ∀ w a i, w < progs.length → Ms w a i → ¬ R a i)
    (hseq : ∀ w p, progs[w]? = some p → wpc (Ms w) R p (hs w) fun _ h' => h' = hs (w + 1))
    (hold : ∀ w a i, w < progs.length → Ms w a i → h0.bufs.length ≤ a) (hun : Unchanged h0 (hs 0)) :
    EndsIn h0 ⟨hs 0, progs⟩ (hs progs.length) := by
  -- the sequential execution
  have hfr : ∀ w, w < progs.length → (∀ a i, ¬ Ms w a i → (hs (w + 1)).get a i = (hs w).get a i) ∧
      SameShape (hs w) (hs (w + 1)) := by
    intro w hw
    obtain ⟨-, h', ⟨rfl, h2, h3⟩, -⟩ := wpc_exists (wpc_frame (hseq w _ (List.getElem?_eq_getElem hw)))
    exact ⟨h2, h3⟩
  have hfrom : ∀ k w, w + k ≤ progs.length → SameShape (hs w) (hs (w + k)) ∧
      ∀ a i, (∀ v, w ≤ v → v < w + k → ¬ Ms v a i) → (hs (w + k)).get a i = (hs w).get a i := by
    intro k
    induction k with
    | zero => exact fun w _ => ⟨.refl _, fun _ _ _ => rfl⟩
    | succ k ih =>
      intro w hw
      obtain ⟨h1, h2⟩ := ih w (by omega)
      obtain ⟨h3, h4⟩ := hfr (w + k) (by omega)
      refine ⟨h1.trans h4, fun a i hv => ?_⟩
      rw [show w + (k + 1) = w + k + 1 by omega, h3 a i (hv _ (by omega) (by omega)),
        h2 a i fun v hv1 hv2 => hv v hv1 (by omega)]
  have hI : PInv Ms R hs progs.length ⟨hs 0, progs⟩ hs := by
    refine ⟨rfl, hseq, ?_, fun _ _ _ => rfl, ?_, .refl _⟩
    · intro w hw a i hai
      obtain ⟨-, h2⟩ := hfrom w 0 (by omega)
      rw [Nat.zero_add] at h2
      refine (h2 a i fun v _ hv hm => ?_).symm
      rcases hai with hai | hai
      · exact hdisj v w a i (by omega) hw (by omega) hm hai
      · exact hR v a i (by omega) hm hai
    · intro w hw
      have := (hfrom w 0 (by omega)).1
      rwa [Nat.zero_add] at this
  have hnc : ∀ c', Reaches ⟨hs 0, progs⟩ c' → ¬ Crashed c' := by
    intro c' hc
    obtain ⟨Hs, hI'⟩ := hI.reaches hdisj hR hc
    rintro ⟨p, hp, e, rfl⟩
    obtain ⟨t, ht⟩ := List.mem_iff_getElem?.1 hp
    exact hI'.safe t _ ht
  refine ⟨terminates _, hnc, ?_, ?_, ?_⟩
  · intro c' hc
    rcases progress c' with h | h | h
    · exact .inl h
    · exact absurd h (hnc c' hc)
    · exact .inr h
  · intro c' hc a b hab
    obtain ⟨Hs, hI'⟩ := hI.reaches hdisj hR hc
    have ha : a < h0.bufs.length := (List.getElem?_eq_some_iff.1 hab).1
    rw [bufs_eq hI'.shape0 fun i => hI'.rest a i fun w hw hm => by have := hold w a i hw hm; omega]
    exact hun a b hab
  · intro c' hc hd
    obtain ⟨Hs, hI'⟩ := hI.reaches hdisj hR hc
    have hlen := hI'.len
    have hH : ∀ w, w < progs.length → Hs w = hs (w + 1) := by
      intro w hw
      have hg := List.getElem?_eq_getElem (l := c'.threads) (i := w) (by omega)
      have := hI'.safe w _ hg
      rw [hd _ (List.getElem_mem _)] at this
      exact this
    have hend := hfrom progs.length 0 (by omega)
    rw [Nat.zero_add] at hend
    refine heap_eq (hI'.shape0.trans hend.1) fun a i => ?_
    by_cases hex : ∃ w, w < progs.length ∧ Ms w a i
    · obtain ⟨w, hw, hm⟩ := hex
      rw [hI'.agree w hw a i (.inl hm), hH w hw]
      obtain ⟨-, h2⟩ := hfrom (progs.length - (w + 1)) (w + 1) (by omega)
      rw [show w + 1 + (progs.length - (w + 1)) = progs.length by omega] at h2
      exact (h2 a i fun v hv1 hv2 hmv => hdisj w v a i hw (by omega) (by omega) hm hmv).symm
    · push Not at hex
      rw [hI'.rest a i hex]
      exact (hend.2 a i fun v _ hv => hex v (by omega)).symm

end Convst.Mem
