import Verif.Model.Apply

/-! # Generic lemmas about the error monad, array access and loops -/

set_option autoImplicit false

namespace Convst

section Monad
variable {ε α β σ : Type}

@[simp] theorem Res.bind_ok (a : α) (f : α → Except ε β) :
    ((Except.ok a : Except ε α) >>= f) = f a := rfl

@[simp] theorem Res.bind_error (e : ε) (f : α → Except ε β) :
    ((Except.error e : Except ε α) >>= f) = .error e := rfl

@[simp] theorem Res.pure_eq (a : α) : (pure a : Except ε α) = .ok a := rfl

theorem Res.bind_eq_ok {x : Except ε α} {f : α → Except ε β} {b : β} :
    (x >>= f) = .ok b ↔ ∃ a, x = .ok a ∧ f a = .ok b := by
  cases x with
  | ok a => exact ⟨fun h => ⟨a, rfl, h⟩, fun ⟨_, h, h'⟩ => by cases h; exact h'⟩
  | error e => exact ⟨fun h => (by cases h), fun ⟨_, h, _⟩ => by cases h⟩

theorem mapM_ok {f : α → Except ε β} {g : α → β} {l : List α}
    (h : ∀ a ∈ l, f a = .ok (g a)) : l.mapM f = .ok (l.map g) := by
  induction l with
  | nil => simp
  | cons a l ih =>
    rw [List.mapM_cons, h a (by simp), ih (fun b hb => h b (by simp [hb]))]
    simp

theorem mapM_eq_ok {f : α → Except ε β} {l : List α} {r : List β} :
    l.mapM f = .ok r ↔ List.Forall₂ (fun a b => f a = .ok b) l r := by
  induction l generalizing r with
  | nil =>
    simp only [List.mapM_nil, Res.pure_eq, List.forall₂_nil_left_iff]
    exact ⟨fun h => (by cases h; rfl), fun h => by rw [h]⟩
  | cons a l ih =>
    rw [List.mapM_cons, Res.bind_eq_ok, List.forall₂_cons_left_iff]
    constructor
    · rintro ⟨b, hb, h⟩
      rw [Res.bind_eq_ok] at h
      obtain ⟨bs, hbs, h⟩ := h
      cases h
      exact ⟨b, bs, hb, ih.1 hbs, rfl⟩
    · rintro ⟨b, bs, hb, hbs, rfl⟩
      refine ⟨b, hb, ?_⟩
      rw [ih.2 hbs]; rfl

theorem mapM_error {f : α → Except ε β} {l : List α} {e : ε}
    (hex : ∃ a ∈ l, f a = .error e) (hall : ∀ a ∈ l, f a = .error e ∨ ∃ b, f a = .ok b) :
    l.mapM f = .error e := by
  induction l with
  | nil => simp at hex
  | cons a l ih =>
    rw [List.mapM_cons]
    rcases hall a (by simp) with h | ⟨b, h⟩
    · rw [h]; rfl
    · rw [h, Res.bind_ok]
      have : ∃ a ∈ l, f a = .error e := by
        obtain ⟨c, hc, hce⟩ := hex
        rcases List.mem_cons.1 hc with rfl | hc
        · rw [h] at hce; cases hce
        · exact ⟨c, hc, hce⟩
      rw [ih this (fun c hc => hall c (by simp [hc]))]
      rfl

/-- A loop whose body never fails under an invariant is a pure fold. -/
theorem foldlM_inv {f : σ → α → Except ε σ} {P : List α → σ → Prop} {l : List α} {s : σ}
    (h0 : P [] s)
    (hstep : ∀ (pre : List α) (a : α) (post : List α) (s : σ), l = pre ++ a :: post → P pre s →
      ∃ s', f s a = .ok s' ∧ P (pre ++ [a]) s') :
    ∃ s', l.foldlM f s = .ok s' ∧ P l s' := by
  suffices H : ∀ (post pre : List α) (s : σ), l = pre ++ post → P pre s →
      ∃ s', post.foldlM f s = .ok s' ∧ P l s' from H l [] s rfl h0
  intro post
  induction post with
  | nil => intro pre s hl hp; exact ⟨s, by simp, by simpa [hl] using hp⟩
  | cons a post ih =>
    intro pre s hl hp
    obtain ⟨s1, h1, hp1⟩ := hstep pre a post s hl hp
    obtain ⟨s2, h2, hp2⟩ := ih (pre ++ [a]) s1 (by simp [hl]) hp1
    exact ⟨s2, by rw [List.foldlM_cons, h1, Res.bind_ok, h2], hp2⟩

theorem foldlM_ok {f : σ → α → Except ε σ} {g : σ → α → σ} {l : List α} {s : σ}
    (h : ∀ s, ∀ a ∈ l, f s a = .ok (g s a)) : l.foldlM f s = .ok (l.foldl g s) := by
  induction l generalizing s with
  | nil => simp
  | cons a l ih =>
    rw [List.foldlM_cons, h s a (by simp), Res.bind_ok, ih (fun s b hb => h s b (by simp [hb]))]
    rfl

/-- Loop over `range n` with an invariant indexed by the number of iterations done. -/
theorem forRange_inv {f : σ → Nat → Except ε σ} {P : Nat → σ → Prop} {n : Nat} {s : σ}
    (h0 : P 0 s)
    (hstep : ∀ i s, i < n → P i s → ∃ s', f s i = .ok s' ∧ P (i + 1) s') :
    ∃ s', (List.range n).foldlM f s = .ok s' ∧ P n s' := by
  induction n with
  | zero => exact ⟨s, by simp, h0⟩
  | succ n ih =>
    obtain ⟨s1, h1, hp1⟩ := ih (fun i s hi hp => hstep i s (by omega) hp)
    obtain ⟨s2, h2, hp2⟩ := hstep n s1 (by omega) hp1
    refine ⟨s2, ?_, hp2⟩
    rw [List.range_succ, List.foldlM_append, h1, Res.bind_ok]
    simp [h2]

end Monad

section Access
variable {α : Type}

theorem aget_ok {a : List α} {i : Nat} (h : i < a.length) : aget a i = .ok a[i] := by
  simp [aget, h]

theorem aget_eq_ok {a : List α} {i : Nat} {v : α} : aget a i = .ok v ↔ a[i]? = some v := by
  unfold aget
  cases h : a[i]? <;> simp

theorem aget_error {a : List α} {i : Nat} (h : a.length ≤ i) : aget a i = .error .oob := by
  simp [aget, h]

theorem getD_lt {a : List α} {i : Nat} (d : α) (h : i < a.length) : a.getD i d = a[i] := by
  simp [List.getD, h]

theorem getD_range_map {β : Type} {n i : Nat} {f : Nat → β} (d : β) (h : i < n) :
    ((List.range n).map f).getD i d = f i := by
  rw [getD_lt d (by simpa using h)]; simp

theorem aget_getD {a : List α} {i : Nat} (d : α) (h : i < a.length) :
    aget a i = .ok (a.getD i d) := by
  simp [aget, List.getD, h]

theorem aget_range_map {β : Type} {n i : Nat} {f : Nat → β} (h : i < n) :
    aget ((List.range n).map f) i = .ok (f i) := by
  rw [aget_ok (by simpa using h)]; simp

theorem aset_ok {a : List α} {i : Nat} {v : α} (h : i < a.length) :
    aset a i v = .ok (a.set i v) := by
  simp [aset, h]

theorem mem_whereIdx {n : Nat} {p : Nat → Bool} {i : Nat} :
    i ∈ whereIdx n p ↔ i < n ∧ p i = true := by
  simp [whereIdx]

theorem dim_ok {n : Int} (h : 0 ≤ n) : dim n = .ok n.toNat := by
  simp [dim, Int.not_lt.2 h]

theorem dim_neg {n : Int} (h : n < 0) : dim n = .error .valueError := by
  simp [dim, h]

/-- Value of an in-bounds 2D read. -/
theorem aget2_eq_ok {m : List (List α)} {i j : Nat} {v : α} :
    aget2 m i j = .ok v ↔ ∃ r, m[i]? = some r ∧ r[j]? = some v := by
  unfold aget2
  rw [Res.bind_eq_ok]
  simp only [aget_eq_ok]

/-- Rectangular shape. -/
def Rect (m : List (List α)) (r c : Nat) : Prop := m.length = r ∧ ∀ row ∈ m, row.length = c

theorem Rect.row {m : List (List α)} {r c i : Nat} (h : Rect m r c) (hi : i < r) :
    ∃ row, m[i]? = some row ∧ row.length = c := by
  have hi' : i < m.length := h.1 ▸ hi
  exact ⟨m[i], by simp [hi'], h.2 _ (List.getElem_mem hi')⟩

theorem Rect.get {m : List (List α)} {r c i j : Nat} (h : Rect m r c) (hi : i < r) (hj : j < c) :
    ∃ v, aget2 m i j = .ok v := by
  obtain ⟨row, hr, hl⟩ := h.row hi
  have hj' : j < row.length := hl ▸ hj
  exact ⟨row[j], aget2_eq_ok.2 ⟨row, hr, by simp [hj']⟩⟩

theorem aset2_ok {m : List (List α)} {r c i j : Nat} {v : α} (h : Rect m r c) (hi : i < r)
    (hj : j < c) : ∃ m', aset2 m i j v = .ok m' ∧ Rect m' r c ∧
      ∀ i' j', aget2 m' i' j' = if i' = i ∧ j' = j then .ok v else aget2 m i' j' := by
  obtain ⟨row, hr, hl⟩ := h.row hi
  have hi' : i < m.length := h.1 ▸ hi
  have hrow : m[i] = row := by
    have := List.getElem?_eq_getElem hi'
    rw [hr] at this; exact (Option.some.inj this).symm
  refine ⟨m.set i (row.set j v), ?_, ⟨by simp [h.1], ?_⟩, ?_⟩
  · unfold aset2
    rw [aget_eq_ok.2 hr, Res.bind_ok, aset_ok (hl ▸ hj), Res.bind_ok, aset_ok hi']
  · intro row' hmem
    rcases List.mem_or_eq_of_mem_set hmem with h' | h'
    · exact h.2 _ h'
    · rw [h']; simp [hl]
  · intro i' j'
    unfold aget2
    by_cases hii : i' = i
    · subst hii
      rw [aget_ok (by simpa using hi'), Res.bind_ok, aget_ok hi', Res.bind_ok, hrow]
      simp only [List.getElem_set_self, true_and]
      by_cases hjj : j' = j
      · subst hjj
        rw [aget_ok (by simpa [hl] using hj)]; simp
      · simp only [hjj, if_false]
        unfold aget
        rw [List.getElem?_set_ne (fun hc => hjj hc.symm)]
    · simp only [hii, false_and, if_false]
      congr 1
      unfold aget
      rw [List.getElem?_set_ne (fun hc => hii hc.symm)]

end Access

end Convst
