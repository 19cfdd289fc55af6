import Verif.Proofs.Kernels
import Mathlib.Algebra.BigOperators.Group.Finset.Basic
import Mathlib.Algebra.Order.BigOperators.Group.Finset

/-! # Exact-arithmetic facts about distances and features -/

set_option autoImplicit false

namespace Convst
open Spec

theorem foldl_range_sum (f : Nat → ℝ) (n : Nat) :
    (List.range n).foldl (fun s j => s + f j) 0 = ∑ j ∈ Finset.range n, f j := by
  induction n with
  | zero => simp
  | succ n ih => rw [List.range_succ, List.foldl_append, ih, Finset.sum_range_succ]; rfl

theorem l1_eq_sum (w v : List ℝ) :
    l1 w v = ∑ j ∈ Finset.range w.length, |w.getD j 0 - v.getD j 0| :=
  foldl_range_sum (fun j => |w.getD j 0 - v.getD j 0|) w.length

theorem l1_nonneg (w v : List ℝ) : 0 ≤ l1 w v := by
  rw [l1_eq_sum]
  exact Finset.sum_nonneg fun _ _ => abs_nonneg _

theorem l1_self (w : List ℝ) : l1 w w = 0 := by
  rw [l1_eq_sum]; simp

theorem distances_nonneg (phase norm : Bool) (x v : List ℝ) (l d : Nat) :
    ∀ r ∈ distances phase norm x v l d, 0 ≤ r := by
  intro r hr
  obtain ⟨i, _, rfl⟩ := List.mem_map.1 hr
  exact l1_nonneg _ _

theorem mDist_eq_sum (phase : Bool) (S : MShp ℝ) (x : List (List ℝ)) (k i : Nat) :
    mDist phase S x k i = ∑ c ∈ Finset.range (mChannels S k).length,
      l1 (seen (S.normalize.getD k false)
          (window phase (x.getD ((mChannels S k).getD c 0) []) (S.lengths.getD k 0)
            (S.dilations.getD k 0) i)) (mValues S k c) := by
  unfold mDist
  exact foldl_range_sum _ _

theorem mDistances_nonneg (phase : Bool) (S : MShp ℝ) (x : List (List ℝ)) (T k : Nat) :
    ∀ r ∈ mDistances phase S x T k, 0 ≤ r := by
  intro r hr
  obtain ⟨i, _, rfl⟩ := List.mem_map.1 hr
  rw [mDist_eq_sum]
  exact Finset.sum_nonneg fun _ _ => l1_nonneg _ _

theorem scanMin_nonneg (D : List ℝ) (i : Nat) (m : ℝ) (a : Nat) (hm : 0 ≤ m)
    (hD : ∀ x ∈ D, 0 ≤ x) :
    (scanMin D i m a = (m, a) ∧ ∀ x ∈ D, m ≤ x) ∨
    (∃ p : Nat, D[p]? = some (scanMin D i m a).1 ∧ (scanMin D i m a).2 = i + p ∧
      (scanMin D i m a).1 < m ∧ (∀ x ∈ D, (scanMin D i m a).1 ≤ x) ∧
      ∀ (q : Nat) (x : ℝ), q < p → D[q]? = some x → (scanMin D i m a).1 < x) := by
  induction D generalizing i m a with
  | nil => left; simp [scanMin]
  | cons y D ih =>
    have hy : 0 ≤ y := hD y (by simp)
    have hD' : ∀ x ∈ D, 0 ≤ x := fun x hx => hD x (by simp [hx])
    have hne : m ≠ -1 := by linarith
    by_cases hlt : y < m
    · have e : scanMin (y :: D) i m a = scanMin D (i + 1) y i := by
        simp [scanMin, hlt]
      rw [e]
      right
      rcases ih (i + 1) y i hy hD' with ⟨h1, h2⟩ | ⟨p, h1, h2, h3, h4, h5⟩
      · refine ⟨0, by simp [h1], by simp [h1], by rw [h1]; exact hlt, ?_, by simp⟩
        rw [h1]
        intro x hx
        rcases List.mem_cons.1 hx with rfl | hx
        · exact le_refl _
        · exact h2 x hx
      · refine ⟨p + 1, by simpa using h1, by rw [h2]; omega, by linarith, ?_, ?_⟩
        · intro x hx
          rcases List.mem_cons.1 hx with rfl | hx
          · exact h3.le
          · exact h4 x hx
        · intro q x hq hx
          cases q with
          | zero => simp only [List.getElem?_cons_zero, Option.some.injEq] at hx; subst hx; exact h3
          | succ q => exact h5 q x (by omega) (by simpa using hx)
    · have e : scanMin (y :: D) i m a = scanMin D (i + 1) m a := by
        simp [scanMin, hlt, hne]
      rw [e]
      rcases ih (i + 1) m a hm hD' with ⟨h1, h2⟩ | ⟨p, h1, h2, h3, h4, h5⟩
      · left
        refine ⟨h1, ?_⟩
        intro x hx
        rcases List.mem_cons.1 hx with rfl | hx
        · exact not_lt.1 hlt
        · exact h2 x hx
      · right
        refine ⟨p + 1, by simpa using h1, by rw [h2]; omega, h3, ?_, ?_⟩
        · intro x hx
          rcases List.mem_cons.1 hx with rfl | hx
          · linarith [not_lt.1 hlt]
          · exact h4 x hx
        · intro q x hq hx
          cases q with
          | zero =>
            simp only [List.getElem?_cons_zero, Option.some.injEq] at hx; subst hx
            linarith [not_lt.1 hlt]
          | succ q => exact h5 q x (by omega) (by simpa using hx)

/-- The operational features of non-negative distances satisfy the declarative definition. -/
theorem features_isFeatures {D : List ℝ} {thr : ℝ} (hne : D ≠ []) (hD : ∀ x ∈ D, 0 ≤ x) :
    IsFeatures D thr (features D thr) := by
  cases D with
  | nil => exact absurd rfl hne
  | cons y D =>
    have hy : 0 ≤ y := hD y (by simp)
    have hD' : ∀ x ∈ D, 0 ≤ x := fun x hx => hD x (by simp [hx])
    have e : scanMin (y :: D) 0 (-1 : ℝ) 0 = scanMin D 1 y 0 := by simp [scanMin]
    have hcount : (features (y :: D) thr).2.2 =
        (((y :: D).countP fun x => decide (x ≤ thr) : Nat) : ℝ) := rfl
    unfold IsFeatures
    refine ⟨?_, ?_, hcount⟩
    all_goals
      simp only [features, e]
      rcases scanMin_nonneg D 1 y 0 hy hD' with ⟨h1, h2⟩ | ⟨p, h1, h2, h3, h4, h5⟩
    · rw [h1]
      refine ⟨by simp, ?_⟩
      intro x hx
      rcases List.mem_cons.1 hx with rfl | hx
      · exact le_refl _
      · exact h2 x hx
    · refine ⟨List.mem_cons_of_mem _ (List.mem_of_getElem? h1), ?_⟩
      intro x hx
      rcases List.mem_cons.1 hx with rfl | hx
      · exact h3.le
      · exact h4 x hx
    · rw [h1]; exact ⟨0, by simp, by simp, by simp⟩
    · refine ⟨p + 1, by simp [h2]; ring, by simpa using h1, ?_⟩
      intro q x hq hx
      cases q with
      | zero => simp only [List.getElem?_cons_zero, Option.some.injEq] at hx; subst hx; exact h3
      | succ q => exact h5 q x (by omega) (by simpa using hx)

/-- Features of a given list of distances are unique. -/
theorem isFeatures_unique {D : List ℝ} {thr : ℝ} {f g : Feat ℝ} (hf : IsFeatures D thr f)
    (hg : IsFeatures D thr g) : f = g := by
  obtain ⟨⟨f1, f2⟩, ⟨p, fp, f3, f4⟩, f5⟩ := hf
  obtain ⟨⟨g1, g2⟩, ⟨q, gq, g3, g4⟩, g5⟩ := hg
  have h1 : f.1 = g.1 := le_antisymm (f2 _ g1) (g2 _ f1)
  have hpq : p = q := by
    rcases lt_trichotomy p q with h | h | h
    · have := g4 p _ h f3; linarith
    · exact h
    · have := f4 q _ h g3; linarith
  refine Prod.ext h1 (Prod.ext ?_ ?_)
  · rw [fp, gq, hpq]
  · rw [f5, g5]

end Convst
