import Verif.Spec.Interpreter
import Verif.Proofs.Classifiers

/-! # Lemmas about the interpreters -/

set_option autoImplicit false
set_option linter.unusedSectionVars false

namespace Convst
open Spec

/-! ## Indexing -/

theorem npGet_nat {α : Type} {a : List α} {i : Nat} (h : i < a.length) : npGet a (i : Int) = .ok a[i] := by
  unfold npGet
  rw [if_pos (by omega), Int.toNat_natCast, pyGet_ok h]

theorem npGet_error {α : Type} {a : List α} {i : Int} (h : (a.length : Int) ≤ i ∨ i < -(a.length : Int)) :
    npGet a i = .error .indexError := by
  unfold npGet
  split
  · exact pyGet_error (by omega)
  · rw [if_neg (by omega)]

theorem npGet_neg {α : Type} {a : List α} {i : Nat} (h1 : 1 ≤ i) (h2 : i ≤ a.length) :
    npGet a (-(i : Int)) = npGet a ((a.length - i : Nat) : Int) := by
  unfold npGet
  rw [if_neg (by omega), if_pos (by omega), if_pos (by omega)]
  congr 1
  omega

/-! ## `argmin` -/

theorem argminFrom_spec (l pre : List ℝ) (bi : Nat) (h : FirstMin pre bi) :
    FirstMin (pre ++ l) (argminFrom (pre.getD bi 0) bi pre.length l) := by
  induction l generalizing pre bi with
  | nil => simpa [argminFrom] using h
  | cons a l ih =>
    have hlast : (pre ++ [a]).getD pre.length 0 = a := by simp
    have hlen : (pre ++ [a]).length = pre.length + 1 := by simp
    have happ : pre ++ a :: l = (pre ++ [a]) ++ l := by simp
    obtain ⟨h1, h2⟩ := h
    unfold argminFrom
    by_cases hlt : a < pre.getD bi 0
    · rw [if_pos (by rw [real_ltb]; simpa using hlt), happ, ← hlen]
      have : FirstMin (pre ++ [a]) pre.length := by
        refine ⟨by simp, fun j hj => ?_⟩
        rw [hlast]
        by_cases hjp : j < pre.length
        · rw [getD_append_left hjp]
          have := hlt.trans_le (h2 j hjp).1
          exact ⟨this.le, fun _ => this⟩
        · have : j = pre.length := by omega
          subst this
          rw [hlast]
          exact ⟨le_refl _, fun h => absurd h (lt_irrefl _)⟩
      have key := ih (pre ++ [a]) pre.length this
      rw [hlast] at key
      exact key
    · rw [if_neg (by rw [real_ltb]; simpa using hlt), happ, ← hlen]
      have : FirstMin (pre ++ [a]) bi := by
        refine ⟨by omega, fun j hj => ?_⟩
        rw [getD_append_left h1]
        by_cases hjp : j < pre.length
        · rw [getD_append_left hjp]
          exact h2 j hjp
        · have : j = pre.length := by omega
          subst this
          rw [hlast]
          exact ⟨not_lt.1 hlt, fun h => absurd h (by omega)⟩
      have key := ih (pre ++ [a]) bi this
      rw [getD_append_left h1] at key
      exact key

theorem argmin_spec {l : List ℝ} (h : l ≠ []) : ∃ p, argmin l = .ok p ∧ FirstMin l p := by
  cases l with
  | nil => exact absurd rfl h
  | cons a l =>
    refine ⟨_, rfl, ?_⟩
    have := argminFrom_spec l [a] 0 ⟨by simp, fun j hj => by
      have : j = 0 := by simpa using hj
      subst this
      exact ⟨le_refl _, fun h => absurd h (lt_irrefl _)⟩⟩
    simpa using this

theorem FirstMin.unique {s : List ℝ} {i j : Nat} (hi : FirstMin s i) (hj : FirstMin s j) : i = j := by
  rcases lt_trichotomy i j with h | h | h
  · have := (hj.2 i hi.1).2 h
    have := (hi.2 j hj.1).1
    linarith
  · exact h
  · have := (hi.2 j hj.1).2 h
    have := (hj.2 i hi.1).1
    linarith

/-! ## Assignment -/

section
variable {K : Type} [Scalar K]

theorem assign_fold (ids : List Nat) (vals c : List K) (hl : ids.length = vals.length) (hnd : ids.Nodup)
    (hr : ∀ i ∈ ids, i < c.length) :
    ∃ c', ((ids.zip vals).foldlM (init := c) fun c p =>
        if p.1 < c.length then .ok (c.set p.1 p.2) else .error .indexError : Res (List K)) = .ok c' ∧
      c'.length = c.length ∧ (∀ j d, j < ids.length → c'.getD (ids.getD j 0) d = vals.getD j d) ∧
      ∀ i d, i ∉ ids → c'.getD i d = c.getD i d := by
  induction ids generalizing vals c with
  | nil => exact ⟨c, rfl, rfl, fun j d h => absurd h (by simp), fun _ _ _ => rfl⟩
  | cons a ids ih =>
    cases vals with
    | nil => simp at hl
    | cons v vals =>
      rw [List.nodup_cons] at hnd
      have ha : a < c.length := hr a (by simp)
      obtain ⟨c', h1, h2, h3, h4⟩ := ih vals (c.set a v) (by simpa using hl) hnd.2 (by
        intro i hi
        rw [List.length_set]
        exact hr i (by simp [hi]))
      refine ⟨c', ?_, by simpa using h2, ?_, ?_⟩
      · rw [List.zip_cons_cons, List.foldlM_cons, if_pos ha]
        exact h1
      · intro j d hj
        cases j with
        | zero =>
          have := h4 a d hnd.1
          simp only [List.getD_cons_zero]
          rw [this, getD_lt _ (by simpa using ha)]
          simp
        | succ j =>
          simpa using h3 j d (by simpa using hj)
      · intro i d hi
        simp only [List.mem_cons, not_or] at hi
        rw [h4 i d hi.2]
        simp [List.getD_eq_getElem?_getD, Ne.symm hi.1]

theorem assignAt_ok {ids : List Nat} {vals c : List K} (hl : ids.length = vals.length) (hnd : ids.Nodup)
    (hr : ∀ i ∈ ids, i < c.length) :
    ∃ c', assignAt c ids vals = .ok c' ∧ c'.length = c.length ∧
      (∀ j d, j < ids.length → c'.getD (ids.getD j 0) d = vals.getD j d) ∧
      ∀ i d, i ∉ ids → c'.getD i d = c.getD i d := by
  unfold assignAt
  rw [if_pos hl]
  exact assign_fold ids vals c hl hnd hr

end

/-! ## The greedy selection -/

/-- The selection without a limit on the number of shapelets. -/
def pickAll : List Nat → List Nat → List Nat
  | [], ids => ids
  | a :: idx, ids => if ids.contains a then pickAll idx ids else pickAll idx (ids ++ [a])

theorem pickAll_prefix (l ids : List Nat) : ids <+: pickAll l ids := by
  induction l generalizing ids with
  | nil => exact List.prefix_refl _
  | cons a l ih =>
    unfold pickAll
    split
    · exact ih ids
    · exact (List.prefix_append ids [a]).trans (ih _)

theorem pickLoop_eq (n : Int) (l ids : List Nat) (h : (ids.length : Int) ≤ n ∨ ids = [] ∧ n < 0) :
    pickLoop n l ids = (pickAll l ids).take n.toNat := by
  induction l generalizing ids with
  | nil =>
    unfold pickLoop pickAll
    rw [List.take_of_length_le]
    rcases h with h | ⟨rfl, -⟩
    · omega
    · simp
  | cons a l ih =>
    by_cases hlt : (ids.length : Int) < n
    · unfold pickLoop pickAll
      rw [if_pos hlt]
      split
      · exact ih ids (Or.inl (by omega))
      · exact ih _ (Or.inl (by simp; omega))
    · unfold pickLoop
      rw [if_neg hlt]
      obtain ⟨t, ht⟩ := pickAll_prefix (a :: l) ids
      rw [← ht]
      rcases h with h | ⟨rfl, h⟩
      · rw [List.take_left' (by omega)]
      · have : n.toNat = 0 := by omega
        simp [this]

theorem pickAll_mem (l ids : List Nat) (s : Nat) : s ∈ pickAll l ids ↔ s ∈ ids ∨ s ∈ l := by
  induction l generalizing ids with
  | nil => simp [pickAll]
  | cons a l ih =>
    unfold pickAll
    split
    · rename_i h
      rw [ih, List.mem_cons]
      have ha : a ∈ ids := by simpa using h
      constructor
      · rintro (h | h)
        · exact Or.inl h
        · exact Or.inr (Or.inr h)
      · rintro (h | rfl | h)
        · exact Or.inl h
        · exact Or.inl ha
        · exact Or.inr h
    · rw [ih, List.mem_append, List.mem_singleton, List.mem_cons, or_assoc]

theorem pickAll_nodup (l ids : List Nat) (h : ids.Nodup) : (pickAll l ids).Nodup := by
  induction l generalizing ids with
  | nil => exact h
  | cons a l ih =>
    unfold pickAll
    split
    · exact ih ids h
    · rename_i hc
      refine ih _ (List.nodup_append.2 ⟨h, by simp, ?_⟩)
      intro x hx y hy
      rw [List.mem_singleton] at hy
      subst hy
      rintro rfl
      exact hc (by simpa using hx)

theorem bestCoef_le {coefs : List ℝ} {s : Nat} {v : ℝ} :
    bestCoef coefs s ≤ v ↔ ∀ r, r < 3 → coefs.getD (3 * s + r) 0 ≤ v := by
  unfold bestCoef
  rw [max_le_iff, max_le_iff]
  constructor
  · rintro ⟨h0, h1, h2⟩ r hr
    match r, hr with
    | 0, _ => exact h0
    | 1, _ => exact h1
    | 2, _ => exact h2
  · intro h
    exact ⟨h 0 (by omega), h 1 (by omega), h 2 (by omega)⟩

theorem le_bestCoef (coefs : List ℝ) (e : Nat) : coefs.getD e 0 ≤ bestCoef coefs (e / 3) := by
  have h := (bestCoef_le (coefs := coefs) (s := e / 3)).1 le_rfl (e % 3) (Nat.mod_lt _ (by omega))
  rwa [Nat.div_add_mod] at h

theorem pickAll_sorted (coefs : List ℝ) (n : Nat) (rem ids : List Nat)
    (hs : rem.Pairwise fun i j => coefs.getD j 0 ≤ coefs.getD i 0) (hn : ∀ e ∈ rem, e / 3 < n)
    (h1 : ids.Pairwise fun s t => bestCoef coefs t ≤ bestCoef coefs s)
    (h2 : ∀ s ∈ ids, ∀ e ∈ rem, coefs.getD e 0 ≤ bestCoef coefs s)
    (h3 : ∀ s, s < n → s ∉ ids → ∀ r, r < 3 → 3 * s + r ∈ rem) :
    (pickAll (rem.map (· / 3)) ids).Pairwise fun s t => bestCoef coefs t ≤ bestCoef coefs s := by
  induction rem generalizing ids with
  | nil => exact h1
  | cons e rem ih =>
    rw [List.map_cons]
    unfold pickAll
    rw [List.pairwise_cons] at hs
    split
    · rename_i hc
      have hc : e / 3 ∈ ids := by simpa using hc
      refine ih ids hs.2 (fun e he => hn e (by simp [he])) h1 (fun s hs e he => h2 s hs e (by simp [he])) ?_
      intro s hsn hsi r hr
      rcases List.mem_cons.1 (h3 s hsn hsi r hr) with h | h
      · have : e / 3 = s := by omega
        rw [this] at hc
        exact absurd hc hsi
      · exact h
    · rename_i hc
      have hc : e / 3 ∉ ids := by simpa using hc
      refine ih _ hs.2 (fun e he => hn e (by simp [he])) ?_ ?_ ?_
      · rw [List.pairwise_append]
        refine ⟨h1, by simp, ?_⟩
        intro s hs t ht
        rw [List.mem_singleton] at ht
        subst ht
        rw [bestCoef_le]
        intro r hr
        exact h2 s hs _ (h3 _ (hn e (by simp)) hc r hr)
      · intro s hs' e' he'
        rw [List.mem_append, List.mem_singleton] at hs'
        rcases hs' with hs' | rfl
        · exact h2 s hs' e' (by simp [he'])
        · exact (hs.1 e' he').trans (le_bestCoef coefs e)
      · intro s hsn hsi r hr
        rw [List.mem_append, List.mem_singleton, not_or] at hsi
        rcases List.mem_cons.1 (h3 s hsn hsi.1 r hr) with h | h
        · exact absurd (show s = e / 3 by omega) hsi.2
        · exact h

end Convst
