import Verif.Spec.Digital
import Verif.Proofs.Rounded

set_option autoImplicit false
set_option linter.unusedSectionVars false

namespace Convst.Props

open Convst Spec

theorem digital_zero (e : Int) (B : Nat) : Digital e B 0 := ⟨0, by simp, by simp⟩

theorem digital_sub {e : Int} {B : Nat} {x y : ℝ} (hx : Digital e B x) (hy : Digital e B y) :
    Digital e (2 * B) (x - y) := by
  obtain ⟨N, rfl, hN⟩ := hx
  obtain ⟨M, rfl, hM⟩ := hy
  refine ⟨N - M, by push_cast; ring, ?_⟩
  rw [abs_le] at *
  push_cast
  constructor <;> omega

theorem digital_abs {e : Int} {B : Nat} {x : ℝ} (hx : Digital e B x) : Digital e B |x| := by
  obtain ⟨N, rfl, hN⟩ := hx
  refine ⟨|N|, ?_, by rwa [abs_abs]⟩
  rw [abs_mul, abs_of_pos (zpow_pos (by norm_num : (0 : ℝ) < 2) e), Int.cast_abs]

theorem digital_rnd {r : Rounding} (hr : ExactDigits r) {e : Int} {B : Nat} (hB : B ≤ 2 ^ 53) {x : ℝ}
    (hx : Digital e B x) : r.rnd x = x := by
  obtain ⟨N, rfl, hN⟩ := hx
  exact hr N e (hN.trans (by exact_mod_cast hB))

theorem exactDigits_nat {r : Rounding} (hr : ExactDigits r) {n : Nat} (h : n ≤ 2 ^ 53) : r.rnd n = n := by
  have := hr n 0 (by rw [abs_of_nonneg (by omega)]; exact_mod_cast h)
  simpa using this

/-- Sums of digitised numbers in any order are exact, and digitised. -/
theorem sumsTo_exact {r : Rounding} (hr : ExactDigits r) {e : Int} {C : Nat} {h : Nat} {ts : List ℝ} {v : ℝ}
    (hs : SumsTo r h ts v) (hd : ∀ t ∈ ts, Digital e C t) (hC : ts.length * C ≤ 2 ^ 53) :
    v = ts.sum ∧ Digital e (ts.length * C) v := by
  induction hs with
  | zero => exact ⟨rfl, digital_zero _ _⟩
  | one t => exact ⟨by simp, by simpa using hd t (by simp)⟩
  | @add h k ts us v w hv hw ih1 ih2 =>
    rw [List.length_append, Nat.add_mul] at hC
    obtain ⟨e1, d1⟩ := ih1 (fun t ht => hd t (List.mem_append_left _ ht)) (by omega)
    obtain ⟨e2, d2⟩ := ih2 (fun t ht => hd t (List.mem_append_right _ ht)) (by omega)
    have key : Digital e ((ts ++ us).length * C) (v + w) := by
      obtain ⟨N, hN, aN⟩ := d1
      obtain ⟨M, hM, aM⟩ := d2
      refine ⟨N + M, by rw [hN, hM]; push_cast; ring, ?_⟩
      rw [List.length_append, Nat.add_mul]
      have := abs_add_le N M
      push_cast at *
      omega
    have hround : r.rnd (v + w) = v + w :=
      digital_rnd hr (by rw [List.length_append, Nat.add_mul]; exact hC) key
    rw [hround]
    exact ⟨by rw [List.sum_append, e1, e2], key⟩
  | perm hv hp ih =>
    obtain ⟨e1, d1⟩ := ih (fun t ht => hd t (hp.subset ht)) (by rw [hp.length_eq]; exact hC)
    exact ⟨e1.trans hp.sum_eq, by rw [← hp.length_eq]; exact d1⟩
  | weaken hv hk ih => exact ih hd hC

/-- The terms of a distance, channel by channel. -/
theorem shpTerms_eq (rnd : ℝ → ℝ) (phase : Bool) (S : Shapelets ℝ) (s : List (List ℝ)) (k i : Nat) :
    shpTerms rnd phase S s k i = (List.range (shpChannels S k).length).flatMap fun c =>
      (List.range (shpLength S k)).map fun j =>
        |rnd ((shpWindow phase S s k c i).getD j 0 - (shpValues S k c).getD j 0)| := by
  cases S with
  | u S =>
    show _ = (List.range 1).flatMap _
    rw [List.range_one, List.flatMap_cons, List.flatMap_nil, List.append_nil]
    rfl
  | m S => rfl

theorem shpTerms_length (rnd : ℝ → ℝ) (phase : Bool) (S : Shapelets ℝ) (s : List (List ℝ)) (k i : Nat) :
    (shpTerms rnd phase S s k i).length = (shpChannels S k).length * shpLength S k := by
  rw [shpTerms_eq, List.length_flatMap]
  simp

theorem digital_getD {e : Int} {B : Nat} {l : List ℝ} (h : ∀ x ∈ l, Digital e B x) (j : Nat) :
    Digital e B (l.getD j 0) := by
  by_cases hj : j < l.length
  · rw [getD_lt _ hj]
    exact h _ (List.getElem_mem hj)
  · rw [List.getD_eq_getElem?_getD, List.getElem?_eq_none (by omega), Option.getD_none]
    exact digital_zero _ _

theorem digital_window {e : Int} {B : Nat} {x : List ℝ} (h : ∀ a ∈ x, Digital e B a) (phase : Bool) (l d i : Nat) :
    ∀ a ∈ window phase x l d i, Digital e B a := by
  intro a ha
  obtain ⟨j, -, rfl⟩ := List.mem_map.1 ha
  exact digital_getD h _

theorem digital_channel {e : Int} {B : Nat} {s : List (List ℝ)} (h : DigitalSeries e B s) (c : Nat) :
    ∀ a ∈ s.getD c [], Digital e B a := by
  by_cases hc : c < s.length
  · rw [getD_lt _ hc]
    exact h _ (List.getElem_mem hc)
  · rw [List.getD_eq_getElem?_getD, List.getElem?_eq_none (by omega), Option.getD_none]
    simp

theorem digital_diff {e : Int} {B : Nat} {phase : Bool} {S : Shapelets ℝ} {s : List (List ℝ)} {k i c j : Nat}
    (hs : DigitalSeries e B s) (hS : DigitalShapelet e B S k) (hc : c < (shpChannels S k).length) :
    Digital e (2 * B) ((shpWindow phase S s k c i).getD j 0 - (shpValues S k c).getD j 0) :=
  digital_sub (digital_getD (digital_window (digital_channel hs _) _ _ _ _) _) (digital_getD (hS c hc) _)

theorem shpTerms_digital {r : Rounding} (hr : ExactDigits r) {e : Int} {B : Nat} (hB : 2 * B ≤ 2 ^ 53)
    {phase : Bool} {S : Shapelets ℝ} {s : List (List ℝ)} {k : Nat} (i : Nat)
    (hs : DigitalSeries e B s) (hS : DigitalShapelet e B S k) :
    shpTerms r.rnd phase S s k i = shpTerms id phase S s k i ∧
      ∀ t ∈ shpTerms id phase S s k i, Digital e (2 * B) t := by
  rw [shpTerms_eq, shpTerms_eq]
  constructor
  · rw [List.flatMap_def, List.flatMap_def]
    congr 1
    apply List.map_congr_left
    intro c hc
    apply List.map_congr_left
    intro j _
    rw [digital_rnd hr hB (digital_diff hs hS (List.mem_range.1 hc)), id]
  · intro t ht
    obtain ⟨c, hc, ht⟩ := List.mem_flatMap.1 ht
    obtain ⟨j, -, rfl⟩ := List.mem_map.1 ht
    exact digital_abs (digital_diff hs hS (List.mem_range.1 hc))

theorem scanMin_le (D : List ℝ) (i : Nat) (m : ℝ) (a : Nat) (h : a ≤ i) : (scanMin D i m a).2 ≤ i + D.length := by
  induction D generalizing i m a with
  | nil => simpa [scanMin] using h
  | cons y D ih =>
    rw [scanMin, List.length_cons]
    split
    · have := ih (i + 1) y i (by omega); omega
    · have := ih (i + 1) m a (by omega); omega

theorem features_le {D : List ℝ} {thr a : ℝ} {p n : Nat} (h : features D thr = (a, (p : ℝ), (n : ℝ))) :
    p ≤ D.length ∧ n ≤ D.length := by
  unfold features at h
  rw [Prod.mk.injEq, Prod.mk.injEq] at h
  obtain ⟨-, h1, h2⟩ := h
  have e1 : (scanMin D 0 (-1) 0).2 = p := Nat.cast_injective (R := ℝ) h1
  have e2 : (D.countP fun x => Scalar.leb x thr) = n := Nat.cast_injective (R := ℝ) h2
  refine ⟨?_, ?_⟩
  · rw [← e1]
    have := scanMin_le D 0 (-1) 0 le_rfl
    omega
  · rw [← e2]; exact List.countP_le_length

end Convst.Props
