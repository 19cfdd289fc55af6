import Verif.Spec.Memory
import Verif.Proofs.Basics
import Mathlib.Logic.Hydra

/-!
# Programs and threads: generic part

`wp E p own out Q`: run on its own, with the shared read-only buffers `E.ro` and the private buffers `own`, the program
`p` reads only these, writes only to its private buffers and, in the order `out`, to the shared output `E.xn`, does not
fail, and ends in a state satisfying `Q`.
-/

set_option autoImplicit false
set_option linter.unusedSectionVars false

namespace Convst.Mem
open Spec

variable {K α β : Type}

/-- Private buffers. -/
abbrev Own (K : Type) := Nat → Option (List K)

/-- What the threads share. -/
structure Shared (K : Type) where
  ro : Nat → Option (List K)
  xn : Option Nat

/-- Writes to the output. -/
abbrev Outs (K : Type) := List (Nat × K)

section
variable [Zero K]

/-- See the head of the file. -/
def wp (E : Shared K) : Prog K α → Own K → Outs K → (α → Own K → Outs K → Prop) → Prop
  | .ret (.ok a), own, out, Q => Q a own out
  | .ret (.error _), _, _, _ => False
  | .alloc n k, own, out, Q => ∀ a, own a = none → E.ro a = none → E.xn ≠ some a →
      wp E (k a) (Function.update own a (some (List.replicate n 0))) out Q
  | .read a i k, own, out, Q => ∃ l v, (own a = some l ∨ E.ro a = some l) ∧ l[i]? = some v ∧ wp E (k v) own out Q
  | .write a i v k, own, out, Q =>
      (∃ l, own a = some l ∧ i < l.length ∧ wp E k (Function.update own a (some (l.set i v))) out Q) ∨
      (E.xn = some a ∧ ∃ out', out = (i, v) :: out' ∧ wp E k own out' Q)

variable {E : Shared K}

theorem wp_bind (p : Prog K α) (f : α → Prog K β) (own : Own K) (out : Outs K) (Q : β → Own K → Outs K → Prop) :
    wp E (p >>= f) own out Q ↔ wp E p own out fun a own' out' => wp E (f a) own' out' Q := by
  show wp E (p.bind f) own out Q ↔ _
  induction p generalizing own out with
  | ret r =>
    cases r with
    | ok a => exact Iff.rfl
    | error e => exact Iff.rfl
  | alloc n k ih =>
    simp only [Prog.bind, wp]
    exact forall_congr' fun a => forall_congr' fun _ => forall_congr' fun _ => forall_congr' fun _ => ih a _ _
  | read a i k ih =>
    simp only [Prog.bind, wp, ih]
  | write a i v k ih =>
    simp only [Prog.bind, wp, ih]

theorem wp_mono {p : Prog K α} {own : Own K} {out : Outs K} {Q Q' : α → Own K → Outs K → Prop}
    (h : wp E p own out Q) (hQ : ∀ a o o', Q a o o' → Q' a o o') : wp E p own out Q' := by
  induction p generalizing own out with
  | ret r =>
    cases r with
    | ok a => exact hQ _ _ _ h
    | error e => exact h
  | alloc n k ih => exact fun a h1 h2 h3 => ih a (h a h1 h2 h3)
  | read a i k ih =>
    obtain ⟨l, v, h1, h2, h3⟩ := h
    exact ⟨l, v, h1, h2, ih v h3⟩
  | write a i v k ih =>
    rcases h with ⟨l, h1, h2, h3⟩ | ⟨h1, o', h2, h3⟩
    · exact Or.inl ⟨l, h1, h2, ih h3⟩
    · exact Or.inr ⟨h1, o', h2, ih h3⟩

theorem wp_pure {a : α} {own : Own K} {out : Outs K} {Q : α → Own K → Outs K → Prop} (h : Q a own out) :
    wp E (pure a) own out Q := h

theorem wp_ret {r : Res α} {a : α} (hr : r = .ok a) {own : Own K} {out : Outs K} {Q : α → Own K → Outs K → Prop}
    (h : Q a own out) : wp E (.ret r) own out Q := by
  subst hr; exact h

theorem wp_zeros {n : Nat} {own : Own K} {out : Outs K} {Q : Nat → Own K → Outs K → Prop}
    (h : ∀ a, own a = none → E.ro a = none → E.xn ≠ some a →
      Q a (Function.update own a (some (List.replicate n 0))) out) : wp E (zeros n) own out Q := h

theorem wp_load {a i : Nat} {l : List K} {v : K} {own : Own K} {out : Outs K} {Q : K → Own K → Outs K → Prop}
    (hl : own a = some l ∨ E.ro a = some l) (hv : l[i]? = some v) (h : Q v own out) : wp E (load a i) own out Q :=
  ⟨l, v, hl, hv, h⟩

theorem wp_store {a i : Nat} {l : List K} {v : K} {own : Own K} {out : Outs K} {Q : Unit → Own K → Outs K → Prop}
    (hl : own a = some l) (hi : i < l.length) (h : Q () (Function.update own a (some (l.set i v))) out) :
    wp E (store a i v) own out Q :=
  Or.inl ⟨l, hl, hi, h⟩

theorem wp_store_out {a i : Nat} {v : K} {own : Own K} {out : Outs K} {Q : Unit → Own K → Outs K → Prop}
    (ha : E.xn = some a) (h : Q () own out) : wp E (store a i v) own ((i, v) :: out) Q :=
  Or.inr ⟨ha, out, rfl, h⟩

theorem wp_forEach_range {n : Nat} {f : Nat → Prog K Unit} {own : Own K} {out : Outs K}
    {Q : Unit → Own K → Outs K → Prop} (I : Nat → Own K → Outs K → Prop) (h0 : I 0 own out)
    (hs : ∀ i, i < n → ∀ own out, I i own out → wp E (f i) own out fun _ => I (i + 1))
    (hQ : ∀ own out, I n own out → Q () own out) : wp E (forEach (List.range n) f) own out Q := by
  have key : ∀ m s, s + m = n → ∀ own out, I s own out → wp E (forEach (List.range' s m) f) own out Q := by
    intro m
    induction m with
    | zero =>
      intro s hs' own out hI
      have : s = n := by omega
      subst this
      exact hQ _ _ hI
    | succ m ih =>
      intro s hs' own out hI
      rw [List.range'_succ]
      show wp E (f s >>= fun _ => forEach (List.range' (s + 1) m) f) own out Q
      rw [wp_bind]
      exact wp_mono (hs s (by omega) own out hI) fun _ o o' hI' => ih (s + 1) (by omega) o o' hI'
  rw [List.range_eq_range']
  exact key n 0 (by omega) own out h0

theorem wp_loadRow {a off n : Nat} {l d r e : List K} {own : Own K} {out : Outs K}
    {Q : List K → Own K → Outs K → Prop} (hl : own a = some l ∨ E.ro a = some l) (hd : l = d ++ r ++ e)
    (ho : off = d.length) (hn : n = r.length) (h : Q r own out) : wp E (loadRow a off n) own out Q := by
  induction r generalizing off n d Q with
  | nil => subst hn; exact h
  | cons v r ih =>
    subst hn
    show wp E (load a off >>= fun v => loadRow a (off + 1) r.length >>= fun vs => pure (v :: vs)) own out Q
    rw [wp_bind]
    refine wp_load hl (v := v) (by rw [hd, ho]; simp) ?_
    rw [wp_bind]
    exact ih (d := d ++ [v]) (Q := fun vs o o' => wp E (pure (v :: vs)) o o' Q) (by rw [hd]; simp)
      (by rw [ho]; simp) rfl (wp_pure h)

theorem wp_storeRow {a off : Nat} {d r e vs : List K} {own : Own K} {out : Outs K}
    {Q : Unit → Own K → Outs K → Prop} (hl : own a = some (d ++ r ++ e)) (ho : off = d.length)
    (hn : vs.length = r.length) (h : Q () (Function.update own a (some (d ++ vs ++ e))) out) :
    wp E (storeRow a off vs) own out Q := by
  induction vs generalizing off r d own with
  | nil =>
    cases r with
    | nil =>
      have : Function.update own a (some (d ++ [] ++ e)) = own := by rw [← hl]; exact Function.update_eq_self _ _
      rw [this] at h
      exact h
    | cons v r => simp at hn
  | cons v vs ih =>
    cases r with
    | nil => simp at hn
    | cons u r =>
      show wp E (store a off v >>= fun _ => storeRow a (off + 1) vs) own out Q
      rw [wp_bind]
      refine wp_store hl (by rw [ho]; simp) ?_
      have e1 : (d ++ u :: r ++ e).set off v = (d ++ [v]) ++ r ++ e := by
        rw [ho]; simp
      rw [e1]
      refine ih (d := d ++ [v]) (r := r) (by simp) (by rw [ho]; simp) (by simpa using hn) ?_
      rw [Function.update_idem]
      simpa using h

theorem wp_collect {ι : Type} {xs : List ι} {f : ι → Prog K β} {ys : List β} {own : Own K} {out : Outs K}
    {Q : List β → Own K → Outs K → Prop}
    (h : List.Forall₂ (fun x y => wp E (f x) own out fun b o o' => b = y ∧ o = own ∧ o' = out) xs ys)
    (hQ : Q ys own out) : wp E (collect xs f) own out Q := by
  induction h generalizing Q with
  | nil => exact hQ
  | cons h1 h2 ih =>
    rename_i x y xs ys
    show wp E (f x >>= fun y => collect xs f >>= fun ys => pure (y :: ys)) own out Q
    rw [wp_bind]
    refine wp_mono h1 ?_
    rintro b o o' ⟨rfl, rfl, rfl⟩
    rw [wp_bind]
    exact ih (wp_pure hQ)

/-! ## Sequential execution -/

theorem Heap.get_some {h : Heap K} {a i : Nat} {l : List K} {v : K} (h1 : h.bufs[a]? = some l) (h2 : l[i]? = some v) :
    h.get a i = some v := by
  simp [Heap.get, h1, h2]

theorem Heap.set_some {h : Heap K} {a i : Nat} {l : List K} {v : K} (h1 : h.bufs[a]? = some l) (h2 : i < l.length) :
    h.set a i v = some ⟨h.bufs.set a (l.set i v)⟩ := by
  simp [Heap.set, h1, h2]

theorem push_old {h : Heap K} {n a : Nat} {l : List K} (h1 : h.bufs[a]? = some l) : (h.push n).bufs[a]? = some l := by
  have := (List.getElem?_eq_some_iff.1 h1).1
  simp only [Heap.push]
  rw [List.getElem?_append_left this]
  exact h1

theorem push_new {h : Heap K} {n : Nat} : (h.push n).bufs[h.bufs.length]? = some (List.replicate n 0) := by
  simp [Heap.push]

theorem set_self {bufs : List (List K)} {a : Nat} {l l' : List K} (h : bufs[a]? = some l) :
    (bufs.set a l')[a]? = some l' := by
  have := (List.getElem?_eq_some_iff.1 h).1
  simp [this]

theorem set_other {bufs : List (List K)} {a b : Nat} {l' : List K} (h : a ≠ b) :
    (bufs.set a l')[b]? = bufs[b]? := List.getElem?_set_ne h

/-- A program that is safe runs to its end, changes no shared buffer, and its private buffers are as described. -/
theorem run_of_wp (hxn : E.xn = none) {p : Prog K α} {own : Own K} {h : Heap K} {Q : α → Own K → Outs K → Prop}
    (hro : ∀ a l, E.ro a = some l → h.bufs[a]? = some l)
    (hown : ∀ a l, own a = some l → h.bufs[a]? = some l ∧ E.ro a = none) (hp : wp E p own [] Q) :
    ∃ h' r own', p.run h = (h', .ok r) ∧ Q r own' [] ∧ (∀ a l, E.ro a = some l → h'.bufs[a]? = some l) ∧
      (∀ a l, own' a = some l → h'.bufs[a]? = some l ∧ E.ro a = none) := by
  induction p generalizing own h with
  | ret r =>
    cases r with
    | ok a => exact ⟨h, a, own, rfl, hp, hro, hown⟩
    | error e => exact absurd hp id
  | alloc n k ih =>
    have hfresh : ∀ l, h.bufs[h.bufs.length]? ≠ some l := by intro l; simp
    have h1 : own h.bufs.length = none := by
      cases hc : own h.bufs.length with
      | none => rfl
      | some l => exact absurd (hown _ _ hc).1 (hfresh l)
    have h2 : E.ro h.bufs.length = none := by
      cases hc : E.ro h.bufs.length with
      | none => rfl
      | some l => exact absurd (hro _ _ hc) (hfresh l)
    refine ih h.bufs.length (fun a l ha => push_old (hro a l ha)) ?_ (hp _ h1 h2 (by rw [hxn]; simp))
    intro a l ha
    by_cases hc : a = h.bufs.length
    · subst hc
      rw [Function.update_self] at ha
      cases ha
      exact ⟨push_new, h2⟩
    · rw [Function.update_of_ne hc] at ha
      exact ⟨push_old (hown a l ha).1, (hown a l ha).2⟩
  | read a i k ih =>
    obtain ⟨l, v, h1, h2, h3⟩ := hp
    have hl : h.bufs[a]? = some l := h1.elim (fun h1 => (hown _ _ h1).1) (hro _ _)
    obtain ⟨h', r, own', e, rest⟩ := ih v hro hown h3
    refine ⟨h', r, own', ?_, rest⟩
    simp only [Prog.run, Heap.get_some hl h2, e]
  | write a i v k ih =>
    rcases hp with ⟨l, h1, h2, h3⟩ | ⟨h1, -⟩
    · obtain ⟨hl, hr⟩ := hown a l h1
      have hne : ∀ b l', E.ro b = some l' → a ≠ b := by
        rintro b l' hb rfl
        rw [hr] at hb; cases hb
      obtain ⟨h', r, own', e, rest⟩ := ih (h := ⟨h.bufs.set a (l.set i v)⟩)
        (fun b l' hb => by rw [show (⟨h.bufs.set a (l.set i v)⟩ : Heap K).bufs[b]? = h.bufs[b]? from set_other (hne b l' hb)]; exact hro b l' hb)
        (fun b l' hb => by
          by_cases hc : b = a
          · subst hc
            rw [Function.update_self] at hb
            cases hb
            exact ⟨set_self hl, hr⟩
          · rw [Function.update_of_ne hc] at hb
            refine ⟨?_, (hown b l' hb).2⟩
            show (h.bufs.set a _)[b]? = _
            rw [set_other (Ne.symm hc)]
            exact (hown b l' hb).1) h3
      refine ⟨h', r, own', ?_, rest⟩
      simp only [Prog.run, Heap.set_some hl h2, e]
    · rw [hxn] at h1; cases h1

/-! ## Threads -/

/-- Invariant of the parallel executions. -/
structure Inv (E : Shared K) (xn : Nat) (target : List K) (c : Conf K) (owns : Nat → Own K) (outs : Nat → Outs K) :
    Prop where
  exn : E.xn = some xn
  roxn : E.ro xn = none
  ro : ∀ a l, E.ro a = some l → c.heap.bufs[a]? = some l
  out : ∃ x, c.heap.bufs[xn]? = some x ∧ x.length = target.length ∧
    ∀ i, i < target.length → x[i]? = target[i]? ∨ ∃ t v, t < c.threads.length ∧ (i, v) ∈ outs t
  own : ∀ t a l, owns t a = some l → c.heap.bufs[a]? = some l ∧ E.ro a = none ∧ a ≠ xn
  disj : ∀ t t' a l l', t ≠ t' → owns t a = some l → owns t' a = some l' → False
  safe : ∀ t p, c.threads[t]? = some p → wp E p (owns t) (outs t) fun _ _ o => o = []
  cons : ∀ t i v, (i, v) ∈ outs t → target[i]? = some v

theorem Inv.step {xn : Nat} {target : List K} {c c' : Conf K} {owns : Nat → Own K} {outs : Nat → Outs K}
    (hI : Inv E xn target c owns outs) (hs : Conf.Step c c') : ∃ owns' outs', Inv E xn target c' owns' outs' := by
  obtain ⟨hi, hst⟩ := hs
  rename_i h h' ts t p p'
  have hsafe := hI.safe t p hi
  have ht : t < ts.length := (List.getElem?_eq_some_iff.1 hi).1
  obtain ⟨x, hx, hxl, hxv⟩ := hI.out
  have hro : ∀ a l, E.ro a = some l → h.bufs[a]? = some l := hI.ro
  have hown : ∀ t a l, owns t a = some l → h.bufs[a]? = some l ∧ E.ro a = none ∧ a ≠ xn := hI.own
  have hx' : h.bufs[xn]? = some x := hx
  -- the new programs are safe
  have safe' : ∀ (owns' : Nat → Own K) (outs' : Nat → Outs K), (∀ s, s ≠ t → owns' s = owns s) →
      (∀ s, s ≠ t → outs' s = outs s) → wp E p' (owns' t) (outs' t) (fun _ _ o => o = []) →
      ∀ s q, (ts.set t p')[s]? = some q → wp E q (owns' s) (outs' s) fun _ _ o => o = [] := by
    intro owns' outs' e1 e2 hw s q hq
    by_cases hc : s = t
    · subst hc
      rw [List.getElem?_set_self ht] at hq
      cases hq
      exact hw
    · rw [List.getElem?_set_ne (Ne.symm hc)] at hq
      rw [e1 s hc, e2 s hc]
      exact hI.safe s q hq
  cases p with
  | ret r => simp [Prog.step] at hst
  | alloc n k =>
    simp only [Prog.step, Option.some.injEq, Prod.mk.injEq] at hst
    obtain ⟨rfl, rfl⟩ := hst
    have hfresh : ∀ l, h.bufs[h.bufs.length]? ≠ some l := by intro l; simp
    have hnone : ∀ s, owns s h.bufs.length = none := by
      intro s
      cases hc : owns s h.bufs.length with
      | none => rfl
      | some l => exact absurd (hown _ _ _ hc).1 (hfresh l)
    have h2 : E.ro h.bufs.length = none := by
      cases hc : E.ro h.bufs.length with
      | none => rfl
      | some l => exact absurd (hro _ _ hc) (hfresh l)
    have h3 : h.bufs.length ≠ xn := by
      rintro rfl
      exact hfresh _ hx'
    refine ⟨Function.update owns t (Function.update (owns t) h.bufs.length (some (List.replicate n 0))), outs,
      hI.exn, hI.roxn, fun a l ha => push_old (hro a l ha), ⟨x, push_old hx', hxl, ?_⟩, ?_, ?_, ?_, hI.cons⟩
    · intro i hi'
      rcases hxv i hi' with h1 | ⟨s, v, h1, h4⟩
      · exact Or.inl h1
      · exact Or.inr ⟨s, v, by simpa using h1, h4⟩
    · intro s a l hl
      by_cases hc : s = t
      · subst hc
        rw [Function.update_self] at hl
        by_cases ha : a = h.bufs.length
        · subst ha
          rw [Function.update_self] at hl
          cases hl
          exact ⟨push_new, h2, h3⟩
        · rw [Function.update_of_ne ha] at hl
          exact ⟨push_old (hown _ _ _ hl).1, (hown _ _ _ hl).2⟩
      · rw [Function.update_of_ne hc] at hl
        exact ⟨push_old (hown _ _ _ hl).1, (hown _ _ _ hl).2⟩
    · intro s s' a l l' hne hl hl'
      have key : ∀ s l, Function.update owns t (Function.update (owns t) h.bufs.length (some (List.replicate n 0))) s a = some l →
          (∃ l0, owns s a = some l0) ∨ (s = t ∧ a = h.bufs.length) := by
        intro s l hl
        by_cases hc : s = t
        · subst hc
          rw [Function.update_self] at hl
          by_cases ha : a = h.bufs.length
          · exact Or.inr ⟨rfl, ha⟩
          · rw [Function.update_of_ne ha] at hl
            exact Or.inl ⟨l, hl⟩
        · rw [Function.update_of_ne hc] at hl
          exact Or.inl ⟨l, hl⟩
      rcases key s l hl with ⟨l0, h5⟩ | ⟨h5, h6⟩ <;> rcases key s' l' hl' with ⟨l1, h7⟩ | ⟨h7, h8⟩
      · exact hI.disj s s' a l0 l1 hne h5 h7
      · rw [h8, hnone s] at h5; cases h5
      · rw [h6, hnone s'] at h7; cases h7
      · exact hne (h5.trans h7.symm)
    · refine safe' _ _ (fun s hs => Function.update_of_ne hs _ _) (fun s hs => rfl) ?_
      rw [Function.update_self]
      exact hsafe _ (hnone t) h2 (by rw [hI.exn]; intro hc; exact h3 (Option.some.inj hc).symm)
  | read a i k =>
    obtain ⟨l, v, h1, h2, h3⟩ := hsafe
    have hl : h.bufs[a]? = some l := h1.elim (fun h1 => (hown _ _ _ h1).1) (hro _ _)
    simp only [Prog.step, Heap.get_some hl h2, Option.some.injEq, Prod.mk.injEq] at hst
    obtain ⟨rfl, rfl⟩ := hst
    refine ⟨owns, outs, hI.exn, hI.roxn, hro, ⟨x, hx', hxl, ?_⟩, hown, hI.disj,
      safe' _ _ (fun _ _ => rfl) (fun _ _ => rfl) h3, hI.cons⟩
    intro j hj
    rcases hxv j hj with h4 | ⟨s, u, h4, h5⟩
    · exact Or.inl h4
    · exact Or.inr ⟨s, u, by simpa using h4, h5⟩
  | write a i v k =>
    rcases hsafe with ⟨l, h1, h2, h3⟩ | ⟨h1, out', h2, h3⟩
    · obtain ⟨hl, hr, hax⟩ := hown t a l h1
      simp only [Prog.step, Heap.set_some hl h2, Option.some.injEq, Prod.mk.injEq] at hst
      obtain ⟨rfl, rfl⟩ := hst
      refine ⟨Function.update owns t (Function.update (owns t) a (some (l.set i v))), outs, hI.exn, hI.roxn, ?_,
        ⟨x, ?_, hxl, ?_⟩, ?_, ?_, ?_, hI.cons⟩
      · intro b l' hb
        show (h.bufs.set a _)[b]? = _
        rw [set_other (by rintro rfl; rw [hr] at hb; cases hb)]
        exact hro b l' hb
      · show (h.bufs.set a _)[xn]? = _
        rw [set_other hax]; exact hx'
      · intro j hj
        rcases hxv j hj with h4 | ⟨s, u, h4, h5⟩
        · exact Or.inl h4
        · exact Or.inr ⟨s, u, by simpa using h4, h5⟩
      · intro s b l' hb
        show (h.bufs.set a _)[b]? = _ ∧ _
        by_cases hc : s = t
        · subst hc
          rw [Function.update_self] at hb
          by_cases hba : b = a
          · subst hba
            rw [Function.update_self] at hb
            cases hb
            exact ⟨set_self hl, hr, hax⟩
          · rw [Function.update_of_ne hba] at hb
            rw [set_other (Ne.symm hba)]
            exact hown _ _ _ hb
        · rw [Function.update_of_ne hc] at hb
          rw [set_other (by rintro rfl; exact hI.disj _ _ _ _ _ hc hb h1)]
          exact hown _ _ _ hb
      · intro s s' b l1 l2 hne hl1 hl2
        have key : ∀ s l', Function.update owns t (Function.update (owns t) a (some (l.set i v))) s b = some l' →
            ∃ l0, owns s b = some l0 := by
          intro s l' hl'
          by_cases hc : s = t
          · subst hc
            rw [Function.update_self] at hl'
            by_cases hba : b = a
            · subst hba; exact ⟨l, h1⟩
            · rw [Function.update_of_ne hba] at hl'
              exact ⟨l', hl'⟩
          · rw [Function.update_of_ne hc] at hl'
            exact ⟨l', hl'⟩
        obtain ⟨m1, hm1⟩ := key s l1 hl1
        obtain ⟨m2, hm2⟩ := key s' l2 hl2
        exact hI.disj s s' b m1 m2 hne hm1 hm2
      · refine safe' _ _ (fun s hs => Function.update_of_ne hs _ _) (fun s hs => rfl) ?_
        rw [Function.update_self]
        exact h3
    · have ha : a = xn := by rw [hI.exn] at h1; exact (Option.some.inj h1).symm
      subst ha
      have hiv : target[i]? = some v := hI.cons t i v (by rw [h2]; simp)
      have hil : i < x.length := by rw [hxl]; exact (List.getElem?_eq_some_iff.1 hiv).1
      simp only [Prog.step, Heap.set_some hx' hil, Option.some.injEq, Prod.mk.injEq] at hst
      obtain ⟨rfl, rfl⟩ := hst
      refine ⟨owns, Function.update outs t out', hI.exn, hI.roxn, ?_, ⟨x.set i v, set_self hx', by simpa using hxl, ?_⟩,
        ?_, hI.disj, ?_, ?_⟩
      · intro b l' hb
        show (h.bufs.set a _)[b]? = _
        rw [set_other (by rintro rfl; rw [hI.roxn] at hb; cases hb)]
        exact hro b l' hb
      · intro j hj
        by_cases hji : j = i
        · subst hji
          left
          rw [List.getElem?_set_self hil, hiv]
        · rw [List.getElem?_set_ne (Ne.symm hji)]
          rcases hxv j hj with h4 | ⟨s, u, h4, h5⟩
          · exact Or.inl h4
          · refine Or.inr ⟨s, u, by simpa using h4, ?_⟩
            by_cases hc : s = t
            · subst hc
              rw [Function.update_self]
              rw [h2, List.mem_cons] at h5
              rcases h5 with h5 | h5
              · cases h5; exact absurd rfl hji
              · exact h5
            · rw [Function.update_of_ne hc]; exact h5
      · intro s b l' hb
        obtain ⟨h6, h7, h8⟩ := hown s b l' hb
        refine ⟨?_, h7, h8⟩
        show (h.bufs.set a _)[b]? = _
        rw [set_other (Ne.symm h8)]; exact h6
      · refine safe' _ _ (fun s hs => rfl) (fun s hs => Function.update_of_ne hs _ _) ?_
        rw [Function.update_self]
        exact h3
      · intro s j u hju
        by_cases hc : s = t
        · subst hc
          rw [Function.update_self] at hju
          exact hI.cons s j u (by rw [h2]; exact List.mem_cons_of_mem _ hju)
        · rw [Function.update_of_ne hc] at hju
          exact hI.cons s j u hju

theorem Inv.reaches {xn : Nat} {target : List K} {c c' : Conf K} {owns : Nat → Own K} {outs : Nat → Outs K}
    (hI : Inv E xn target c owns outs) (hs : Reaches c c') : ∃ owns' outs', Inv E xn target c' owns' outs' := by
  induction hs with
  | refl => exact ⟨owns, outs, hI⟩
  | tail _ hstep ih =>
    obtain ⟨o, u, h⟩ := ih
    exact h.step hstep

theorem Inv.not_crashed {xn : Nat} {target : List K} {c : Conf K} {owns : Nat → Own K} {outs : Nat → Outs K}
    (hI : Inv E xn target c owns outs) : ¬ Crashed c := by
  rintro ⟨p, hp, e, rfl⟩
  obtain ⟨t, ht⟩ := List.mem_iff_getElem?.1 hp
  exact hI.safe t _ ht

theorem Inv.finished {xn : Nat} {target : List K} {c : Conf K} {owns : Nat → Own K} {outs : Nat → Outs K}
    (hI : Inv E xn target c owns outs) (hf : AllDone c) : c.heap.bufs[xn]? = some target := by
  obtain ⟨x, hx, hxl, hxv⟩ := hI.out
  rw [hx]
  congr 1
  apply List.ext_getElem?
  intro i
  by_cases hi : i < target.length
  · rcases hxv i hi with h | ⟨t, v, ht, hv⟩
    · exact h
    · exfalso
      have hg := List.getElem?_eq_getElem ht
      have hs := hI.safe t _ hg
      rw [hf _ (List.getElem_mem ht)] at hs
      have : outs t = [] := hs
      rw [this] at hv
      cases hv
  · rw [List.getElem?_eq_none (by omega), List.getElem?_eq_none (by omega)]

/-! ## Termination -/

/-- `p'` is what remains of `p` after one operation, in some memory. -/
def Child (p' p : Prog K Unit) : Prop := ∃ h h' : Heap K, p.step h = some (h', p')

theorem child_wf : WellFounded (Child (K := K)) := by
  constructor
  intro p
  induction p with
  | ret r => exact ⟨_, fun q ⟨h, h', hq⟩ => by simp [Prog.step] at hq⟩
  | alloc n k ih =>
    refine ⟨_, ?_⟩
    rintro q ⟨h, h', hq⟩
    simp only [Prog.step, Option.some.injEq, Prod.mk.injEq] at hq
    rw [← hq.2]; exact ih _
  | read a i k ih =>
    refine ⟨_, ?_⟩
    rintro q ⟨h, h', hq⟩
    simp only [Prog.step] at hq
    split at hq
    · simp only [Option.some.injEq, Prod.mk.injEq] at hq
      rw [← hq.2]; exact ih _
    · simp only [Option.some.injEq, Prod.mk.injEq] at hq
      rw [← hq.2]
      exact ⟨_, fun q ⟨h, h', hq⟩ => by simp [Prog.step] at hq⟩
  | write a i v k ih =>
    refine ⟨_, ?_⟩
    rintro q ⟨h, h', hq⟩
    simp only [Prog.step] at hq
    split at hq
    · simp only [Option.some.injEq, Prod.mk.injEq] at hq
      rw [← hq.2]; exact ih
    · simp only [Option.some.injEq, Prod.mk.injEq] at hq
      rw [← hq.2]
      exact ⟨_, fun q ⟨h, h', hq⟩ => by simp [Prog.step] at hq⟩

theorem set_coe {ts : List (Prog K Unit)} {i : Nat} {p p' : Prog K Unit} (hi : ts[i]? = some p) :
    (((ts.set i p' : List (Prog K Unit)) : Multiset (Prog K Unit)) + {p}) = (ts : Multiset (Prog K Unit)) + {p'} := by
  induction ts generalizing i with
  | nil => simp at hi
  | cons q ts ih =>
    cases i with
    | zero =>
      simp only [List.getElem?_cons_zero, Option.some.injEq] at hi
      subst hi
      simp only [List.set_cons_zero, ← Multiset.cons_coe, ← Multiset.singleton_add]
      abel
    | succ i =>
      simp only [List.getElem?_cons_succ] at hi
      simp only [List.set_cons_succ, ← Multiset.cons_coe, ← Multiset.singleton_add, add_assoc, ih hi]

theorem terminates (c : Conf K) : Terminates c := by
  rintro ⟨f, -, hf⟩
  have wf := (child_wf (K := K)).cutExpand
  have hstep : ∀ n, Relation.CutExpand Child ((f (n + 1)).threads : Multiset (Prog K Unit)) (f n).threads := by
    intro n
    have hn := hf n
    generalize f n = a at hn
    generalize f (n + 1) = b at hn
    obtain ⟨hi, hs⟩ := hn
    rename_i h h' ts i p p'
    refine ⟨{p'}, p, ?_, ?_⟩
    · intro q hq
      rw [Multiset.mem_singleton] at hq
      subst hq
      exact ⟨h, h', hs⟩
    · exact set_coe hi
  have key : ∀ (m : Multiset (Prog K Unit)) (n : Nat), ((f n).threads : Multiset (Prog K Unit)) = m → False := by
    intro m
    induction m using wf.induction with
    | _ m ih =>
      intro n hn
      exact ih _ (hn ▸ hstep n) (n + 1) rfl
  exact key _ 0 rfl

/-- A configuration without error is finished or some thread can go on. -/
theorem progress (c : Conf K) : AllDone c ∨ Crashed c ∨ ∃ c', Conf.Step c c' := by
  by_cases h : ∃ p ∈ c.threads, ∀ r, p ≠ .ret r
  · obtain ⟨p, hp, hr⟩ := h
    obtain ⟨i, hi⟩ := List.mem_iff_getElem?.1 hp
    obtain ⟨heap, ts⟩ := c
    have : ∃ q, p.step heap = some q := by
      cases p with
      | ret r => exact absurd rfl (hr r)
      | alloc n k => exact ⟨_, rfl⟩
      | read a i k => simp only [Prog.step]; split <;> exact ⟨_, rfl⟩
      | write a i v k => simp only [Prog.step]; split <;> exact ⟨_, rfl⟩
    obtain ⟨⟨h', p'⟩, hq⟩ := this
    exact Or.inr (Or.inr ⟨_, .mk hi hq⟩)
  · push Not at h
    by_cases hc : Crashed c
    · exact Or.inr (Or.inl hc)
    · left
      intro p hp
      obtain ⟨r, rfl⟩ := h p hp
      cases r with
      | ok a => rfl
      | error e => exact absurd ⟨_, hp, e, rfl⟩ hc

end

end Convst.Mem
