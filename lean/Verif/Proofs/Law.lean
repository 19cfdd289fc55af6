import Verif.Spec.Law
import Verif.Proofs.Random
import Mathlib.MeasureTheory.Integral.Lebesgue.Countable

/-!
# Probabilities of the outcomes of random computations

`HasProb μ c E w`: run from a state of law `μ`, `c` returns a value satisfying `E` with probability `w`, independently
of the final state, which has law `μ` again.
-/

set_option autoImplicit false
set_option linter.unusedSectionVars false

namespace Convst
open Spec MeasureTheory
open scoped ENNReal

variable {G α β γ : Type}

/-- The initial states from which `c` returns a value satisfying `E` and a state in `A`. -/
def Ev (c : RM G α) (E : α → Prop) (A : Set G) : Set G := {g | ∃ a g', c g = .ok (a, g') ∧ E a ∧ g' ∈ A}

/-- `c` returns a value satisfying `E` with probability `w`, independently of the final state. -/
def HasProb [MeasurableSpace G] (μ : Measure G) (c : RM G α) (E : α → Prop) (w : ℝ≥0∞) : Prop :=
  ∀ A, MeasurableSet A → MeasurableSet (Ev c E A) ∧ μ (Ev c E A) = w * μ A

theorem ev_pure (a : α) (E : α → Prop) (A : Set G) [Decidable (E a)] :
    Ev (pure a : RM G α) E A = if E a then A else ∅ := by
  ext g
  split
  · rename_i h
    constructor
    · rintro ⟨b, g', e, h1, h2⟩; cases e; exact h2
    · intro h2; exact ⟨a, g, rfl, h, h2⟩
  · rename_i h
    constructor
    · rintro ⟨b, g', e, h1, h2⟩; cases e; exact absurd h1 h
    · intro h2; exact absurd h2 (Set.notMem_empty _)

theorem mem_ev_bind {c : RM G α} {f : α → RM G β} {E : β → Prop} {A : Set G} {g : G} :
    g ∈ Ev (c >>= f) E A ↔ ∃ a g', c g = .ok (a, g') ∧ g' ∈ Ev (f a) E A := by
  constructor
  · rintro ⟨b, g', e, h1, h2⟩
    rw [RM.bind_apply, Res.bind_eq_ok] at e
    obtain ⟨⟨a, g1⟩, e1, e2⟩ := e
    exact ⟨a, g1, e1, b, g', e2, h1, h2⟩
  · rintro ⟨a, g1, e1, b, g', e2, h1, h2⟩
    exact ⟨b, g', by rw [RM.bind_apply, e1]; exact e2, h1, h2⟩

section
variable [MeasurableSpace G] {μ : Measure G}

theorem HasProb.congr {c : RM G α} {E E' : α → Prop} {w : ℝ≥0∞} (h : HasProb μ c E w)
    (he : ∀ g a g', c g = .ok (a, g') → (E a ↔ E' a)) : HasProb μ c E' w := by
  intro A hA
  have : Ev c E' A = Ev c E A := by
    ext g
    constructor
    · rintro ⟨a, g', e, h1, h2⟩; exact ⟨a, g', e, (he g a g' e).2 h1, h2⟩
    · rintro ⟨a, g', e, h1, h2⟩; exact ⟨a, g', e, (he g a g' e).1 h1, h2⟩
  rw [this]
  exact h A hA

theorem HasProb.pure {a : α} {E : α → Prop} (h : E a) : HasProb μ (pure a) E 1 := by
  classical
  intro A hA
  rw [ev_pure, if_pos h, one_mul]
  exact ⟨hA, rfl⟩

theorem HasProb.never {c : RM G α} {E : α → Prop} (h : ∀ g a g', c g = .ok (a, g') → ¬ E a) :
    HasProb μ c E 0 := by
  intro A _
  have : Ev c E A = ∅ := by
    ext g
    constructor
    · rintro ⟨a, g', e, h1, h2⟩; exact absurd h1 (h g a g' e)
    · intro h; exact absurd h (Set.notMem_empty _)
  rw [this]
  exact ⟨MeasurableSet.empty, by simp⟩

/-- What happens after a first stage: `E` requires `E1` of the first stage, and then only depends on `c0`. -/
theorem HasProb.bind {c : RM G α} {f : α → RM G β} {c0 : RM G γ} {E1 : α → Prop} {E : β → Prop} {E0 : γ → Prop}
    {w1 w2 : ℝ≥0∞} (h1 : HasProb μ c E1 w1) (h2 : HasProb μ c0 E0 w2)
    (hs : ∀ g a g' A, c g = .ok (a, g') → E1 a → Ev (f a) E A = Ev c0 E0 A)
    (hn : ∀ g a g' A, c g = .ok (a, g') → ¬ E1 a → Ev (f a) E A = ∅) :
    HasProb μ (c >>= f) E (w1 * w2) := by
  intro A hA
  have : Ev (c >>= f) E A = Ev c E1 (Ev c0 E0 A) := by
    ext g
    rw [mem_ev_bind]
    constructor
    · rintro ⟨a, g', e, h⟩
      by_cases ha : E1 a
      · rw [hs g a g' A e ha] at h; exact ⟨a, g', e, ha, h⟩
      · rw [hn g a g' A e ha] at h; exact absurd h (Set.notMem_empty _)
    · rintro ⟨a, g', e, ha, h⟩
      exact ⟨a, g', e, by rw [hs g a g' A e ha]; exact h⟩
  obtain ⟨m2, p2⟩ := h2 A hA
  obtain ⟨m1, p1⟩ := h1 _ m2
  rw [this]
  exact ⟨m1, by rw [p1, p2, mul_assoc]⟩

/-- The first stage must return `a0`. -/
theorem HasProb.bindEq {c : RM G α} {f : α → RM G β} {a0 : α} {E : β → Prop}
    {w1 w2 : ℝ≥0∞} (h1 : HasProb μ c (· = a0) w1) (h2 : HasProb μ (f a0) E w2)
    (hn : ∀ g0 a g b g', c g0 = .ok (a, g) → a ≠ a0 → f a g = .ok (b, g') → ¬ E b) :
    HasProb μ (c >>= f) E (w1 * w2) := by
  intro A hA
  have : Ev (c >>= f) E A = Ev c (· = a0) (Ev (f a0) E A) := by
    ext g
    rw [mem_ev_bind]
    constructor
    · rintro ⟨a, g', e, h⟩
      by_cases ha : a = a0
      · subst ha; exact ⟨a, g', e, rfl, h⟩
      · obtain ⟨b, g2, e2, h3, -⟩ := h
        exact absurd h3 (hn g a g' b g2 e ha e2)
    · rintro ⟨a, g', e, ha, h⟩
      exact ⟨a, g', e, by rw [ha]; exact h⟩
  obtain ⟨m2, p2⟩ := h2 A hA
  obtain ⟨m1, p1⟩ := h1 _ m2
  rw [this]
  exact ⟨m1, by rw [p1, p2, mul_assoc]⟩

/-- A function of the result. -/
theorem HasProb.map {c : RM G α} {f : α → β} {E : β → Prop} {w : ℝ≥0∞}
    (h : HasProb μ c (fun a => E (f a)) w) : HasProb μ (c >>= fun a => Pure.pure (f a)) E w := by
  classical
  intro A hA
  have : Ev (c >>= fun a => Pure.pure (f a)) E A = Ev c (fun a => E (f a)) A := by
    ext g
    rw [mem_ev_bind]
    constructor
    · rintro ⟨a, g', e, b, g2, e2, h1, h2⟩
      cases e2
      exact ⟨a, g', e, h1, h2⟩
    · rintro ⟨a, g', e, h1, h2⟩
      exact ⟨a, g', e, f a, g', rfl, h1, h2⟩
  rw [this]
  exact h A hA

/-- Finitely many exclusive ways of satisfying `E`. -/
theorem HasProb.sum {ι : Type} {s : Finset ι} {c : RM G α} {E : α → Prop} {F : ι → α → Prop} {w : ι → ℝ≥0∞}
    (h : ∀ j ∈ s, HasProb μ c (F j) (w j)) (hE : ∀ a, E a ↔ ∃ j ∈ s, F j a)
    (hd : ∀ a, ∀ j ∈ s, ∀ k ∈ s, F j a → F k a → j = k) : HasProb μ c E (∑ j ∈ s, w j) := by
  intro A hA
  have e : Ev c E A = ⋃ j ∈ s, Ev c (F j) A := by
    ext g
    simp only [Set.mem_iUnion]
    constructor
    · rintro ⟨a, g', e, h1, h2⟩
      obtain ⟨j, hj, hF⟩ := (hE a).1 h1
      exact ⟨j, hj, a, g', e, hF, h2⟩
    · rintro ⟨j, hj, a, g', e, hF, h2⟩
      exact ⟨a, g', e, (hE a).2 ⟨j, hj, hF⟩, h2⟩
  rw [e]
  refine ⟨Finset.measurableSet_biUnion s fun j hj => (h j hj A hA).1, ?_⟩
  rw [measure_biUnion_finset _ fun j hj => (h j hj A hA).1, Finset.sum_mul]
  · exact Finset.sum_congr rfl fun j hj => (h j hj A hA).2
  · intro j hj k hk hjk
    rw [Function.onFun, Set.disjoint_left]
    rintro g ⟨a, g', e1, h1, _⟩ ⟨b, g'', e2, h2, _⟩
    rw [e1] at e2
    cases e2
    exact hjk (hd a j hj k hk h1 h2)

theorem HasProb.ofRes {r : Res α} {a : α} {E : α → Prop} (h : r = .ok a) (hE : E a) :
    HasProb μ (ofRes r) E 1 := by
  subst h
  exact HasProb.pure hE

/-- Total probability 1 of a computation that cannot fail. -/
theorem HasProb.of_wp {c : RM G α} {E : α → Prop} (h : Wp c E) {w : ℝ≥0∞} [IsProbabilityMeasure μ]
    (hp : HasProb μ c E w) : w = 1 := by
  have := (hp Set.univ MeasurableSet.univ).2
  rw [measure_univ, mul_one] at this
  rw [← this]
  have e : Ev c E Set.univ = Set.univ := by
    ext g
    obtain ⟨a, g', h1, h2⟩ := h g
    exact ⟨fun _ => trivial, fun _ => ⟨a, g', h1, h2, trivial⟩⟩
  rw [e, measure_univ]

/-- Several independent runs: the first must satisfy `E 0`, the second `E 1`, ... -/
theorem HasProb.mapM {f : α → RM G β} {l : List α} {bs : List γ} {R : γ → β → Prop} {w : α → γ → ℝ≥0∞}
    (hl : l.length = bs.length)
    (h : ∀ i (h1 : i < l.length) (h2 : i < bs.length), HasProb μ (f l[i]) (R bs[i]) (w l[i] bs[i])) :
    HasProb μ (l.mapM f) (List.Forall₂ R bs) ((List.zipWith w l bs).prod) := by
  induction l generalizing bs with
  | nil =>
    cases bs with
    | nil => rw [List.mapM_nil]; exact HasProb.pure .nil
    | cons b bs => simp at hl
  | cons a l ih =>
    cases bs with
    | nil => simp at hl
    | cons b bs =>
      rw [List.mapM_cons, List.zipWith_cons_cons, List.prod_cons]
      have h0 := h 0 (by simp) (by simp)
      have ht := ih (bs := bs) (by simpa using hl) fun i h1 h2 => by
        have := h (i + 1) (by simpa using h1) (by simpa using h2)
        simpa using this
      refine HasProb.bind (E1 := R b) (by simpa using h0) ht ?_ ?_
      · intro g0 x g1 A _ hx
        ext g
        rw [mem_ev_bind]
        constructor
        · rintro ⟨xs, g', e, y, g2, e2, h1, h2⟩
          cases e2
          rw [List.forall₂_cons] at h1
          exact ⟨xs, g', e, h1.2, h2⟩
        · rintro ⟨xs, g', e, h1, h2⟩
          exact ⟨xs, g', e, x :: xs, g', rfl, .cons hx h1, h2⟩
      · intro g0 x g1 A _ hx
        ext g
        rw [mem_ev_bind]
        constructor
        · rintro ⟨xs, g', e, y, g2, e2, h1, h2⟩
          cases e2
          rw [List.forall₂_cons] at h1
          exact absurd h1.1 hx
        · intro h; exact absurd h (Set.notMem_empty _)

end

/-! ## The primitives -/

section
variable [Gen G ℝ] [MeasurableSpace G] {μ : Measure G}

theorem Spec.Fair.draw (hf : Fair G μ) {lo hi j : Nat} (h1 : lo ≤ j) (h2 : j < hi) :
    HasProb μ (draw lo hi) (· = j) ((hi - lo : Nat) : ℝ≥0∞)⁻¹ := by
  intro A hA
  have e : Ev (Convst.draw lo hi) (· = j) A =
      {g : G | (Gen.randint lo hi g).1 = j ∧ (Gen.randint lo hi g).2 ∈ A} := by
    ext g
    unfold Ev Convst.draw
    rw [Set.mem_setOf_eq, Set.mem_setOf_eq]
    simp only [if_pos (lt_of_le_of_lt h1 h2)]
    constructor
    · rintro ⟨a, g', e, rfl, h⟩
      injection e with e
      rw [e]; exact ⟨rfl, h⟩
    · rintro ⟨e, h⟩
      exact ⟨_, _, rfl, e, h⟩
  rw [e]
  exact hf.randint lo hi j h1 h2 A hA

theorem Spec.Fair.unitM (hf : Fair G μ) {B : Set ℝ} (hB : MeasurableSet B) :
    HasProb μ (Convst.unitM : RM G ℝ) (· ∈ B) (volume (B ∩ Set.Ico 0 1)) := by
  intro A hA
  have e : Ev (Convst.unitM : RM G ℝ) (· ∈ B) A = {g : G | (Gen.unit g).1 ∈ B ∧ (Gen.unit g).2 ∈ A} := by
    ext g
    unfold Ev Convst.unitM
    rw [Set.mem_setOf_eq, Set.mem_setOf_eq]
    constructor
    · rintro ⟨a, g', e, h1, h⟩
      injection e with e
      rw [e]; exact ⟨h1, h⟩
    · rintro ⟨e, h⟩
      exact ⟨_, _, rfl, e, h⟩
  rw [e]
  exact hf.unit B A hB hA

end

end Convst
