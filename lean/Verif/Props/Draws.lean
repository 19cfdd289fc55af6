import Verif.Proofs.Reach
import Mathlib.Analysis.SpecialFunctions.Pow.Real

/-!
# Properties of the random draws: dilations and log-weighted choice

`∀ G lawful` statements hold for every random generator; `∃ g : Script` statements say that some
sequence of draws produces the value (`Script` is the generator that reads its draws from arbitrary
streams).
-/

set_option autoImplicit false
set_option linter.unusedSectionVars false

namespace Convst.Props
open Convst Spec

/-! ## C29 -/

/-- Dilations that may be drawn for a shapelet of length `l` on series of `n` points. -/
def Drawable (prime : Bool) (n l d : Nat) : Prop :=
  if prime then (l - 1) * d ≤ n - 1 ∧ (d = 1 ∨ d.Prime)
  else 1 ≤ d ∧ (d < (n - 1) / (l - 1) ∨ d = 1)

theorem drawable_iff {prime : Bool} {n l d : Nat} (hl : 2 ≤ l) :
    (if prime then DilPrime n else DilPlain n) l d ↔ Drawable prime n l d := by
  unfold Drawable DilPrime DilPlain
  cases prime with
  | true => rfl
  | false =>
    simp only [Bool.false_eq_true, if_false]
    refine and_congr_right fun _ => or_congr_left ?_
    rw [← le_dilBound_iff hl]
    exact Nat.succ_le_iff

theorem forall₂_drawable {prime : Bool} {n : Nat} {lengths ds : List Nat}
    (hl : ∀ l ∈ lengths, 2 ≤ l ∧ l ≤ n) :
    List.Forall₂ (if prime then DilPrime n else DilPlain n) lengths ds ↔
      List.Forall₂ (Drawable prime n) lengths ds := by
  rw [List.forall₂_iff_get, List.forall₂_iff_get]
  refine and_congr_right fun _ => forall_congr' fun i => forall_congr' fun h1 => forall_congr' fun _ =>
    drawable_iff (hl _ (List.get_mem _ _)).1

/-- **C29.** For every generator, drawing the dilations of shapelets of lengths between 2 and the
number `n` of points succeeds, every dilation is at least 1 and the dilated shapelet fits in `n`
points. -/
theorem C29_dilations_fit {G : Type} [Gen G ℝ] [LawfulGen G] {n : Nat} {lengths : List Nat}
    (prime : Bool) (hne : lengths ≠ []) (hl : ∀ l ∈ lengths, 2 ≤ l ∧ l ≤ n) (g : G) :
    ∃ ds g', drawDilations n lengths prime g = .ok (ds, g') ∧
      List.Forall₂ (fun l d => 1 ≤ d ∧ (l - 1) * d ≤ n - 1) lengths ds := by
  obtain ⟨ds, g', h, h'⟩ := wp_drawDilations (G := G) prime hne hl g
  exact ⟨ds, g', h, h'.imp fun l d hd => ⟨hd.1, hd.2.1⟩⟩

/-- **C29.** Exactly which dilations are drawn.  With `prime_dilations=True`: 1 and every prime for
which the shapelet fits.  Otherwise: 1 and every dilation strictly below the largest one that fits. -/
theorem C29_dilations_exact {n : Nat} {lengths ds : List Nat} (prime : Bool) (hne : lengths ≠ [])
    (hl : ∀ l ∈ lengths, 2 ≤ l ∧ l ≤ n) :
    (∃ g g' : Script, drawDilations n lengths prime g = .ok (ds, g')) ↔
      List.Forall₂ (Drawable prime n) lengths ds := by
  rw [← forall₂_drawable hl]
  constructor
  · rintro ⟨g, g', h⟩
    obtain ⟨ds', g2, h1, h2⟩ := wp_drawDilations_exact (G := Script) (prime := prime) hne hl g
    rw [h] at h1
    cases h1
    exact h2
  · intro h
    obtain ⟨g, hg⟩ := reach_drawDilations hne hl h ⟨fun _ => 0, fun _ => 0⟩
    exact ⟨g, _, hg⟩

/-- **C29 (violated expectation).** The largest dilation that fits, when it is at least 2, is never
drawn by the default scheme, by any generator. -/
theorem C29_largest_never_drawn {G : Type} [Gen G ℝ] [LawfulGen G] {n l : Nat} (hl : 2 ≤ l)
    (hn : l ≤ n) (hq : 2 ≤ (n - 1) / (l - 1)) (g : G) :
    ∃ d g', drawDilations n [l] false g = .ok ([d], g') ∧ d ≠ (n - 1) / (l - 1) := by
  obtain ⟨ds, g', h1, h2⟩ := wp_drawDilations_exact (G := G) (prime := false) (n := n)
    (lengths := [l]) (by simp) (by simpa using ⟨hl, hn⟩) g
  rw [forall₂_drawable (by simpa using ⟨hl, hn⟩)] at h2
  cases h2 with
  | cons h h' =>
    cases h'
    refine ⟨_, g', h1, ?_⟩
    unfold Drawable at h
    simp only [Bool.false_eq_true, if_false] at h
    omega

/-- 5 points, length 3: dilation 2 fits but only dilation 1 is drawn by the default scheme; the prime
scheme draws both. -/
example : (∀ d, Drawable false 5 3 d ↔ d = 1) ∧ Drawable true 5 3 2 ∧ Drawable true 5 3 1 := by
  refine ⟨fun d => ?_, ?_, ?_⟩
  · simp only [Drawable, Bool.false_eq_true, if_false]; omega
  · exact ⟨by norm_num, Or.inr Nat.prime_two⟩
  · exact ⟨by norm_num, Or.inl rfl⟩

/-! ## C30 -/

/-- Weight of index `i` in the log-weighted choice: `1 / 2 ^ ln(i+1)`. -/
noncomputable def logWeight (i : Nat) : ℝ := 1 / (2 : ℝ) ^ Real.log ((i + 1 : Nat) : ℝ)

/-- Total weight of the indices below `j`. -/
noncomputable def weightBelow (j : Nat) : ℝ := ∑ i ∈ Finset.range j, logWeight i

/-- The draw `u` in `[0,1)` selects index `j` among `n`: `u` times the total weight lies above the
weight of the smaller indices and not above the weight of the indices up to `j`. -/
def Selects (n : Nat) (u : ℝ) (j : Nat) : Prop :=
  j < n ∧ (j = 0 ∨ weightBelow j < u * weightBelow n) ∧ u * weightBelow n ≤ weightBelow (j + 1)

theorem logWeight_pos (i : Nat) : 0 < logWeight i := by
  unfold logWeight; positivity

theorem weightBelow_mono {i j : Nat} (h : i ≤ j) : weightBelow i ≤ weightBelow j :=
  Finset.sum_le_sum_of_subset_of_nonneg (Finset.range_mono h) fun k _ _ => (logWeight_pos k).le

theorem logWeights_take_sum {n j : Nat} (h : j ≤ n) :
    ((logWeights n : List ℝ).take j).sum = weightBelow j := by
  unfold logWeights weightBelow
  rw [← List.map_take, List.take_range, Nat.min_eq_left h, Finset.sum_range, ← List.sum_ofFn]
  congr 1
  apply List.ext_getElem
  · simp
  · intro i h1 h2
    rw [List.getElem_ofFn, List.getElem_map, List.getElem_range]
    rfl

theorem logWeights_sum (n : Nat) : (logWeights n : List ℝ).sum = weightBelow n := by
  rw [← logWeights_take_sum (le_refl n), List.take_of_length_le (by rw [logWeights_length])]

theorem logPick_iff {n : Nat} {u : ℝ} {j : Nat} : LogPick n u j ↔ Selects n u j := by
  unfold LogPick Selects
  rw [logWeights_sum]
  refine and_congr_right fun hj => and_congr ?_ ?_
  · constructor
    · intro h
      rcases Nat.eq_zero_or_pos j with h0 | h0
      · exact Or.inl h0
      · right
        have := h (j - 1) (by omega)
        rw [logWeights_take_sum (by omega)] at this
        rwa [Nat.sub_add_cancel h0] at this
    · intro h i hi
      rw [logWeights_take_sum (by omega)]
      rcases h with h | h
      · omega
      · exact (weightBelow_mono (by omega)).trans_lt h
  · rw [logWeights_take_sum (by omega)]

variable {G : Type} [Gen G ℝ]

/-- The first `m` uniform draws of a generator. -/
def unitDraws : Nat → G → List ℝ
  | 0, _ => []
  | m + 1, g => (Gen.unit g).1 :: unitDraws m (Gen.unit g).2

/-- The state of a generator after `m` uniform draws. -/
def afterDraws : Nat → G → G
  | 0, g => g
  | m + 1, g => afterDraws m (Gen.unit g).2

theorem choiceLog_run {n : Nat} (hn : 1 < n) (m : Nat) (g g' : G) (r : List Nat)
    (l : List Nat) (hl : l.length = m)
    (h : l.mapM (fun _ => (do let u ← unitM; ofRes (firstGe (logCdf n) u) : RM G Nat)) g
      = .ok (r, g')) :
    List.Forall₂ (Selects n) (unitDraws m g) r ∧ g' = afterDraws m g := by
  induction l generalizing m g r with
  | nil =>
    subst hl
    rw [List.mapM_nil] at h
    cases h
    exact ⟨List.Forall₂.nil, rfl⟩
  | cons a l ih =>
    subst hl
    rw [List.mapM_cons, RM.bind_apply] at h
    have hu : (do let u ← unitM; ofRes (firstGe (logCdf n) u) : RM G Nat) g =
        ofRes (firstGe (logCdf n) (Gen.unit g).1) (Gen.unit g).2 := rfl
    rw [hu] at h
    cases hf : firstGe (logCdf n) (Gen.unit g).1 with
    | error e => rw [hf] at h; cases h
    | ok j =>
      rw [hf] at h
      change (l.mapM (fun _ => (do let u ← unitM; ofRes (firstGe (logCdf n) u) : RM G Nat)) >>=
        fun b => (pure (j :: b) : RM G (List Nat))) (Gen.unit g).2 = _ at h
      rw [RM.bind_apply] at h
      cases hr : l.mapM (fun _ => (do let u ← unitM; ofRes (firstGe (logCdf n) u) : RM G Nat))
        (Gen.unit g).2 with
      | error e => rw [hr] at h; cases h
      | ok p =>
        rw [hr] at h
        cases h
        obtain ⟨h1, h2⟩ := ih l.length (Gen.unit g).2 p.1 rfl (by rw [hr])
        exact ⟨List.Forall₂.cons (logPick_iff.1 ((firstGe_iff (by omega)).1 hf)) h1, h2⟩

/-- **C30.** `choice_log(n, m)` never fails for `n >= 1`, whatever the draws, and returns `m` indices
below `n`. -/
theorem C30_choice_log_range [LawfulGen G] {n m : Nat} (hn : 1 ≤ n) (g : G) :
    ∃ r g', choiceLog n m g = .ok (r, g') ∧ r.length = m ∧ ∀ j ∈ r, j < n :=
  wp_choiceLog hn g

/-- **C30.** The `i`-th index returned is the one selected by the `i`-th uniform draw according to the
weights `1/2**ln(i+1)`. -/
theorem C30_choice_log_law {n m : Nat} (hn : 1 < n) {g g' : G} {r : List Nat}
    (h : choiceLog n m g = .ok (r, g')) :
    List.Forall₂ (Selects n) (unitDraws m g) r ∧ g' = afterDraws m g := by
  unfold choiceLog at h
  rw [if_pos hn] at h
  exact choiceLog_run hn m g g' r _ (by simp) h

/-- **C30.** Larger draws select larger (or equal) indices; in particular a draw selects only one
index. -/
theorem C30_choice_log_monotone {n : Nat} {u u' : ℝ} {j j' : Nat} (hu : u ≤ u') (h : Selects n u j)
    (h' : Selects n u' j') : j ≤ j' := by
  by_contra hc
  obtain ⟨-, h1, -⟩ := h
  obtain ⟨-, -, h2⟩ := h'
  have h3 := h1.resolve_left (by omega)
  have hW : 0 ≤ weightBelow n := Finset.sum_nonneg fun i _ => (logWeight_pos i).le
  have := weightBelow_mono (show j' + 1 ≤ j by omega)
  have := mul_le_mul_of_nonneg_right hu hW
  linarith

/-- **C30.** Every list of `m` indices below `n` is the result of some draws. -/
theorem C30_choice_log_complete {n m : Nat} {r : List Nat} (hr : r.length = m) (h : ∀ j ∈ r, j < n) :
    ∃ g g' : Script, choiceLog n m g = .ok (r, g') := by
  obtain ⟨g, hg⟩ := reach_choiceLog hr h ⟨fun _ => 0, fun _ => 0⟩
  exact ⟨g, _, hg⟩

/-- With two choices, the draw 0 selects the first index, a draw of 9/10 the second one. -/
example : Selects 2 0 0 ∧ Selects 2 (9 / 10) 1 := by
  have h0 : logWeight 0 = 1 := by simp [logWeight]
  have h1 : logWeight 1 < 1 := by
    unfold logWeight
    rw [div_lt_one (by positivity)]
    exact Real.one_lt_rpow (by norm_num) (Real.log_pos (by norm_num))
  have p1 := logWeight_pos 1
  refine ⟨⟨by norm_num, Or.inl rfl, ?_⟩, ⟨by norm_num, Or.inr ?_, ?_⟩⟩ <;>
    simp only [weightBelow, Finset.sum_range_succ, Finset.sum_range_zero, h0, Nat.zero_add]
  · norm_num
  · have : (1 : ℝ) / 4 < logWeight 1 := by
      unfold logWeight
      rw [lt_div_iff₀ (by positivity)]
      have h2 : (2 : ℝ) ^ Real.log ((1 + 1 : Nat) : ℝ) ≤ 2 ^ (1 : ℝ) := by
        refine Real.rpow_le_rpow_of_exponent_le (by norm_num) ?_
        have := Real.log_le_sub_one_of_pos (x := 2) (by norm_num)
        push_cast
        linarith
      rw [Real.rpow_one] at h2
      generalize (2 : ℝ) ^ Real.log ((1 + 1 : Nat) : ℝ) = x at h2 ⊢
      linarith
    linarith
  · linarith

end Convst.Props
