import Verif.Spec.DoubleVote
import Verif.Proofs.ScalerDouble
import Verif.Proofs.LinearAny
import Verif.Proofs.Ensemble

/-!
# Softmax and weighted vote in double precision
-/

set_option autoImplicit false
set_option linter.unusedSectionVars false

namespace Convst
open Spec Ieee

variable {F : FloatFormat}

theorem maxOf_fin {l : List ℝ} (hne : l ≠ []) :
    ∃ m ∈ l, (∀ x ∈ l, x ≤ m) ∧ maxOf (l.map (fin : ℝ → Ieee F)) = fin m := by
  cases l with
  | nil => exact absurd rfl hne
  | cons a l =>
    have key : ∀ (l : List ℝ) (a : ℝ), ∃ m ∈ a :: l, (∀ x ∈ a :: l, x ≤ m) ∧
        (l.map (fin : ℝ → Ieee F)).foldl (fun m v => if Scalar.ltb m v then v else m) (fin a) = fin m := by
      intro l
      induction l with
      | nil => intro a; exact ⟨a, by simp, by simp, rfl⟩
      | cons b l ih =>
        intro a
        rw [List.map_cons, List.foldl_cons]
        have hlt : (Scalar.ltb (fin a : Ieee F) (fin b)) = decide (a < b) := by
          show Ieee.ltb _ _ = _
          simp [Ieee.ltb]
        rw [hlt]
        by_cases h : a < b
        · obtain ⟨m, h1, h2, h3⟩ := ih b
          refine ⟨m, by simp at h1 ⊢; tauto, ?_, ?_⟩
          · intro x hx
            rcases List.mem_cons.1 hx with rfl | hx
            · exact h.le.trans (h2 b (by simp))
            · exact h2 x hx
          · rw [decide_eq_true h, if_pos rfl]; exact h3
        · obtain ⟨m, h1, h2, h3⟩ := ih a
          refine ⟨m, by simp at h1 ⊢; tauto, ?_, ?_⟩
          · intro x hx
            rcases List.mem_cons.1 hx with rfl | hx
            · exact h2 x (by simp)
            · rcases List.mem_cons.1 hx with rfl | hx
              · exact (not_lt.1 h).trans (h2 a (by simp))
              · exact h2 x (by simp [hx])
          · rw [decide_eq_false h, if_neg (by simp)]; exact h3
    obtain ⟨m, h1, h2, h3⟩ := key l a
    exact ⟨m, h1, h2, h3⟩

/-- Exponential of a difference to the maximum. -/
noncomputable def expDiff (F : FloatFormat) (m x : ℝ) : ℝ :=
  open Classical in if F.r.rnd (x - m) ≤ -F.top then 0 else F.r.exp (F.r.rnd (x - m))

theorem expDiff_eq (hE : SoundExp F) {m x : ℝ} (hm : m ∈ F.grid) (hx : x ∈ F.grid) (h : x ≤ m) :
    Scalar.exp ((fin x : Ieee F) - fin m) = fin (expDiff F m x) := by
  have hd : F.r.rnd (x - m) ≤ 0 := by
    rw [← F.r.zero]; exact F.r.mono (by linarith)
  have e1 : ((fin x : Ieee F) - fin m) = Ieee.over (F.r.rnd (x - m)) := by
    show Ieee.over (F.rnd (x + -m)) = _
    rw [F.rnd_add x hx (-m) (F.grid_neg m hm), sub_eq_add_neg]
  have htop := F.top_gt
  rw [e1]
  unfold expDiff Ieee.over
  rw [if_neg (by linarith)]
  by_cases h1 : F.r.rnd (x - m) ≤ -F.top
  · rw [if_pos h1, if_pos h1]; rfl
  · rw [if_neg h1, if_neg h1]
    show Ieee.over (F.r.exp _) = _
    apply over_fin
    have h2 := hE.nonneg _ hd
    have h3 := hE.mono _ _ hd le_rfl
    rw [hE.zero] at h3
    rw [abs_of_nonneg h2]
    linarith

theorem expDiff_bounds (hE : SoundExp F) {m x : ℝ} (h : x ≤ m) : 0 ≤ expDiff F m x ∧ expDiff F m x ≤ 1 := by
  have hd : F.r.rnd (x - m) ≤ 0 := by
    rw [← F.r.zero]; exact F.r.mono (by linarith)
  unfold expDiff
  split
  · exact ⟨le_rfl, zero_le_one⟩
  · refine ⟨hE.nonneg _ hd, ?_⟩
    have h3 := hE.mono _ _ hd le_rfl
    rwa [hE.zero] at h3

theorem expDiff_self (hE : SoundExp F) (m : ℝ) : expDiff F m m = 1 := by
  have htop := F.top_gt
  unfold expDiff
  rw [sub_self, F.r.zero, if_neg (by linarith), hE.zero]

theorem expDiff_mono (hE : SoundExp F) {m x y : ℝ} (hxy : x ≤ y) (hy : y ≤ m) : expDiff F m x ≤ expDiff F m y := by
  have h1 : F.r.rnd (x - m) ≤ F.r.rnd (y - m) := F.r.mono (by linarith)
  have hd : F.r.rnd (y - m) ≤ 0 := by
    rw [← F.r.zero]; exact F.r.mono (by linarith)
  unfold expDiff
  split
  · split
    · exact le_rfl
    · exact hE.nonneg _ hd
  · rename_i h2
    rw [if_neg (by intro h3; exact h2 (h1.trans h3))]
    exact hE.mono _ _ h1 hd

/-- The matrix with entries `f q j`. -/
def mat {K : Type} (n nc : Nat) (f : Nat → Nat → K) : List (List K) :=
  (List.range n).map fun q => (List.range nc).map (f q)

theorem mat_congr {K : Type} {n nc : Nat} {f g : Nat → Nat → K} (h : ∀ q, q < n → ∀ j, j < nc → f q j = g q j) :
    mat n nc f = mat n nc g := by
  unfold mat
  apply List.map_congr_left
  intro q hq
  apply List.map_congr_left
  intro j hj
  exact h q (List.mem_range.1 hq) j (List.mem_range.1 hj)

theorem zipWith_map_same {α β γ δ : Type} (f : β → γ → δ) (g : α → β) (h : α → γ) (l : List α) :
    List.zipWith f (l.map g) (l.map h) = l.map fun a => f (g a) (h a) := by
  induction l with
  | nil => rfl
  | cons a l ih => rw [List.map_cons, List.map_cons, List.zipWith_cons_cons, ih, List.map_cons]

theorem addMat_mat {K : Type} [Scalar K] (n nc : Nat) (f g : Nat → Nat → K) :
    addMat (mat n nc f) (mat n nc g) = .ok (mat n nc fun q j => f q j + g q j) := by
  unfold addMat mat
  rw [if_pos]
  · rw [zipWith_map_same]
    congr 1
    apply List.map_congr_left
    intro q _
    rw [zipWith_map_same]
  · refine ⟨by simp, ?_⟩
    rw [zipWith_map_same]
    simp

theorem add_grid {a b : Ieee F} {x : ℝ} (h : a + b = fin x) : x ∈ F.grid := by
  have hov : ∀ y : ℝ, (Ieee.over (F.rnd y) : Ieee F) = fin x → x ∈ F.grid := by
    intro y hy
    unfold Ieee.over at hy
    split at hy
    · cases hy
    · split at hy
      · cases hy
      · cases hy; exact F.rnd_grid y
  have h' : Ieee.add a b = fin x := h
  cases a with
  | nan => simp [Ieee.add] at h'
  | inf s =>
    cases b with
    | nan => simp [Ieee.add] at h'
    | inf t => simp only [Ieee.add] at h'; split at h' <;> cases h'
    | fin y => simp [Ieee.add] at h'
  | fin y =>
    cases b with
    | nan => simp [Ieee.add] at h'
    | inf t => simp [Ieee.add] at h'
    | fin z => exact hov _ h'

theorem mem_zipWith {α β γ : Type} {f : α → β → γ} : ∀ {l : List α} {l' : List β} {c : γ}, c ∈ List.zipWith f l l' →
    ∃ a b, f a b = c := by
  intro l
  induction l with
  | nil => intro l' c h; simp at h
  | cons a l ih =>
    intro l' c h
    cases l' with
    | nil => simp at h
    | cons b l' =>
      rw [List.zipWith_cons_cons] at h
      rcases List.mem_cons.1 h with rfl | h
      · exact ⟨a, b, rfl⟩
      · exact ih h

/-- Finite scores are numbers of the format. -/
theorem scores_grid {L : Type} {m : Linear (Ieee F) L} {z sc : List (Ieee F)} (h : m.scores z = .ok sc) :
    ∀ x, (fin x : Ieee F) ∈ sc → x ∈ F.grid := by
  intro x hx
  unfold Linear.scores at h
  split at h
  · cases h
    obtain ⟨a, b, hab⟩ := mem_zipWith hx
    exact add_grid hab
  · cases h

theorem twoScores_grid {sc : List (Ieee F)} (h : ∀ x, (fin x : Ieee F) ∈ sc → x ∈ F.grid) :
    ∀ x, (fin x : Ieee F) ∈ twoScores sc → x ∈ F.grid := by
  intro x hx
  unfold twoScores at hx
  split at hx
  · rename_i v
    rcases List.mem_cons.1 hx with hx | hx
    · cases v with
      | nan => cases hx
      | inf s => cases hx
      | fin y =>
        have : (fin x : Ieee F) = fin (-y) := hx
        cases this
        exact F.grid_neg y (h y (by simp))
    · exact h x hx
  · exact h x hx

section
variable (hD : Double F)
include hD

theorem Spec.Double.unit_foldl : ∀ (l : List ℝ) (x : ℝ) (k : Nat), (∀ t ∈ l, 0 ≤ t ∧ t ≤ 1) → k + l.length ≤ 2 ^ 40 →
    0 ≤ x → x ≤ k → ∃ v, (l.map (fin : ℝ → Ieee F)).foldl (· + ·) (fin x) = fin v ∧ 0 ≤ v ∧ v ≤ (k + l.length : Nat) ∧
      ((1 ≤ x ∨ 1 ∈ l) → 1 ≤ v) := by
  intro l
  induction l with
  | nil => intro x k _ _ h0 h1; exact ⟨x, rfl, h0, by simpa using h1, by simp⟩
  | cons t l ih =>
    intro x k hl hk h0 h1
    obtain ⟨t0, t1⟩ := hl t (by simp)
    rw [List.length_cons] at hk
    have hxt : |x + t| ≤ (k + 1 : Nat) * (2 : ℝ) ^ (0 : Int) := by
      rw [abs_of_nonneg (by linarith)]; push_cast; simp; linarith
    have hr := hD.rnd_le_nat (by omega) (by omega) (by norm_num) hxt
    have hs := hD.sign (x + t) (by linarith)
    rw [abs_of_nonneg hs, zpow_zero, mul_one] at hr
    have hov : (fin x + fin t : Ieee F) = fin (F.rnd (x + t)) := by
      show Ieee.over (F.rnd (x + t)) = _
      apply over_fin
      rw [hD.top, abs_of_nonneg hs]
      refine hr.trans_lt ?_
      have h40 : ((k + 1 : Nat) : ℝ) ≤ ((2 ^ 40 : Nat) : ℝ) := by exact_mod_cast (by omega : k + 1 ≤ 2 ^ 40)
      calc ((k + 1 : Nat) : ℝ) ≤ (2 : ℝ) ^ (40 : Int) := h40.trans (by norm_num)
        _ < _ := two_lt (by norm_num)
    rw [List.map_cons, List.foldl_cons, hov]
    obtain ⟨v, a1, a2, a3, a4⟩ := ih (F.rnd (x + t)) (k + 1) (fun b hb => hl b (by simp [hb])) (by omega) hs hr
    refine ⟨v, a1, a2, ?_, ?_⟩
    · rw [List.length_cons, show k + (l.length + 1) = k + 1 + l.length by omega]; exact a3
    · intro hc
      have hge : 1 ≤ x + t → 1 ≤ F.rnd (x + t) := by
        intro h
        rw [hD.normal]
        · rw [← F.r.one]; exact F.r.mono h
        · rw [abs_of_nonneg (by linarith)]
          refine le_trans ?_ h
          calc (2 : ℝ) ^ (-1022 : Int) ≤ (2 : ℝ) ^ (0 : Int) := two_le (by norm_num)
            _ = 1 := by norm_num
      rcases hc with hc | hc
      · exact a4 (Or.inl (hge (by linarith)))
      · rcases List.mem_cons.1 hc with rfl | hc
        · exact a4 (Or.inl (hge (by linarith)))
        · exact a4 (Or.inr hc)

/-- Rounding a number that is not tiny, and one at most half as great. -/
theorem Spec.Double.halve (hmono : MonoRound F) (h2 : TwoRound F) {e : Int} (he : -1000 ≤ e) {y : ℝ}
    (hy : (2 : ℝ) ^ e ≤ y) : (2 : ℝ) ^ e ≤ F.rnd y ∧ ∀ x, 0 ≤ x → 2 * x ≤ y → 2 * F.rnd x ≤ F.rnd y := by
  have hy0 : 0 < y := (two_pos _).trans_le hy
  have e1 : F.rnd y = F.r.rnd y := hD.normal y (by
    rw [abs_of_pos hy0]; exact (two_le (by omega)).trans hy)
  have e2 : F.rnd (y / 2) = F.r.rnd (y / 2) := hD.normal _ (by
    rw [abs_of_pos (by linarith)]
    calc (2 : ℝ) ^ (-1022 : Int) ≤ (2 : ℝ) ^ (e - 1) := two_le (by omega)
      _ = (2 : ℝ) ^ e / 2 := by rw [zpow_sub₀ (by norm_num), zpow_one]
      _ ≤ y / 2 := by linarith)
  refine ⟨?_, ?_⟩
  · rw [e1]
    have := F.r.mono hy
    have hf := hD.fix 1 e (by norm_num)
    rw [Int.cast_one, one_mul] at hf
    rwa [hf] at this
  · intro x hx hxy
    have h3 : F.r.rnd y = 2 * F.r.rnd (y / 2) := by
      rw [← h2]; congr 1; ring
    rw [e1, h3, ← e2]
    have := hmono x (y / 2) hx (by linarith)
    linarith

/-- Softmax of finite numbers: finite numbers between 0 and 1, ordered as the scores. -/
theorem Spec.Double.softmax (hE : SoundExp F) {l : List ℝ} (hne : l ≠ []) (hg : ∀ x ∈ l, x ∈ F.grid)
    (hn : l.length ≤ 2 ^ 40) : ∃ f : ℝ → ℝ, softmaxRow (l.map (fin : ℝ → Ieee F)) = l.map (fun x => fin (f x)) ∧
      (∀ x ∈ l, 0 ≤ f x ∧ f x ≤ 1) ∧ (MonoRound F → ∀ x ∈ l, ∀ y ∈ l, x ≤ y → f x ≤ f y) ∧
      (MonoRound F → TwoRound F → ∀ k ∈ l, (∀ y ∈ l, y ≤ k) →
        (2 : ℝ) ^ (-40 : Int) ≤ f k ∧ ∀ x ∈ l, x + 1 ≤ k → 2 * f x ≤ f k) := by
  obtain ⟨m, hm, hmax, hmo⟩ := maxOf_fin (F := F) hne
  have e1 : (l.map (fin : ℝ → Ieee F)).map (fun v => Scalar.exp (v - maxOf (l.map (fin : ℝ → Ieee F)))) =
      (l.map (expDiff F m)).map fin := by
    rw [List.map_map, List.map_map, hmo]
    apply List.map_congr_left
    intro x hx
    exact expDiff_eq hE (hg m hm) (hg x hx) (hmax x hx)
  obtain ⟨S, hS, -, hS1, hS2⟩ := hD.unit_foldl (l.map (expDiff F m)) 0 0 (by
    intro t ht
    obtain ⟨x, hx, rfl⟩ := List.mem_map.1 ht
    exact expDiff_bounds hE (hmax x hx)) (by simpa using hn) le_rfl (by simp)
  have hS3 : 1 ≤ S := hS2 (Or.inr (List.mem_map.2 ⟨m, hm, expDiff_self hE m⟩))
  have hsum : Convst.ssum ((l.map (expDiff F m)).map (fin : ℝ → Ieee F)) = fin S := hS
  refine ⟨fun x => F.rnd (expDiff F m x / S), ?_, ?_, ?_, ?_⟩
  · unfold softmaxRow
    simp only
    rw [e1, hsum, List.map_map, List.map_map]
    apply List.map_congr_left
    intro x hx
    show (if S = 0 then _ else Ieee.over (F.rnd (expDiff F m x / S))) = _
    rw [if_neg (by linarith)]
    apply over_fin
    obtain ⟨b0, b1⟩ := expDiff_bounds hE (hmax x hx)
    have : |expDiff F m x / S| ≤ (2 : ℝ) ^ (0 : Int) := by
      rw [abs_of_nonneg (div_nonneg b0 (by linarith)), zpow_zero, div_le_one (by linarith)]
      linarith
    rw [hD.top]
    exact (hD.rnd_le (by norm_num) this).trans_lt (two_lt (by norm_num))
  · intro x hx
    obtain ⟨b0, b1⟩ := expDiff_bounds hE (hmax x hx)
    have h0 : 0 ≤ expDiff F m x / S := div_nonneg b0 (by linarith)
    have : |expDiff F m x / S| ≤ (2 : ℝ) ^ (0 : Int) := by
      rw [abs_of_nonneg h0, zpow_zero, div_le_one (by linarith)]
      linarith
    have h1 := hD.rnd_le (by norm_num) this
    have h2 := hD.sign _ h0
    rw [abs_of_nonneg h2, zpow_zero] at h1
    exact ⟨h2, h1⟩
  · intro hmono x hx y hy hxy
    obtain ⟨b0, b1⟩ := expDiff_bounds hE (hmax x hx)
    refine hmono _ _ (div_nonneg b0 (by linarith)) ?_
    exact div_le_div_of_nonneg_right (expDiff_mono hE hxy (hmax y hy)) (by linarith)
  · intro hmono h2 k hk hkmax
    have hkm : k = m := le_antisymm (hmax k hk) (hkmax m hm)
    subst hkm
    have hS0 : 0 < S := by linarith
    have hS40 : S ≤ (2 : ℝ) ^ (40 : Int) := by
      refine hS1.trans ?_
      have : ((0 + (l.map (expDiff F k)).length : Nat) : ℝ) ≤ ((2 ^ 40 : Nat) : ℝ) := by
        exact_mod_cast (by simpa using hn)
      exact this.trans (by norm_num)
    have hlow : (2 : ℝ) ^ (-40 : Int) ≤ 1 / S := by
      rw [le_div_iff₀ hS0]
      calc (2 : ℝ) ^ (-40 : Int) * S ≤ (2 : ℝ) ^ (-40 : Int) * (2 : ℝ) ^ (40 : Int) :=
            mul_le_mul_of_nonneg_left hS40 (two_pos _).le
        _ = 1 := by rw [← two_add]; norm_num
    obtain ⟨r1, r2⟩ := hD.halve hmono h2 (e := -40) (by norm_num) hlow
    simp only
    rw [expDiff_self hE]
    refine ⟨r1, ?_⟩
    intro x hx hxk
    obtain ⟨b0, b1⟩ := expDiff_bounds hE (hmax x hx)
    refine r2 _ (div_nonneg b0 hS0.le) ?_
    have hd : F.r.rnd (x - k) ≤ -1 := by
      have := F.r.mono (show x - k ≤ ((-1 : Int) : ℝ) * (2 : ℝ) ^ (0 : Int) by push_cast; rw [zpow_zero]; linarith)
      rw [hD.fix (-1) 0 (by norm_num)] at this
      simpa using this
    have : expDiff F k x ≤ 1 / 2 := by
      unfold expDiff
      split
      · norm_num
      · exact (hE.mono _ _ hd (by norm_num)).trans hE.half
    rw [← mul_div_assoc]
    exact div_le_div_of_nonneg_right (by linarith) hS0.le

/-- A member's weighted probabilities. -/
theorem Spec.Double.weighted (hE : SoundExp F) {R : Type} {m : Member (Ieee F) R} {X : XIn (Ieee F)} {n nc : Nat}
    {s : Nat → Nat → ℝ} (hs : ScoresOn m X n nc s) (hnc : 1 ≤ nc) (hnc' : nc ≤ 2 ^ 40) {w : ℝ} (hw0 : 0 ≤ w) (hw1 : w ≤ 1) :
    ∃ g : Nat → Nat → ℝ, m.weighted (fin w) X = .ok (mat n nc fun q j => (fin (g q j) : Ieee F)) ∧
      (∀ q, q < n → ∀ j, j < nc → 0 ≤ g q j ∧ g q j ≤ 1 ∧ g q j ∈ F.grid) ∧
      (MonoRound F → ∀ q, q < n → ∀ j k, j < nc → k < nc → s q j ≤ s q k → g q j ≤ g q k) ∧
      (MonoRound F → TwoRound F → (w = 0 ∨ (2 : ℝ) ^ (-900 : Int) ≤ w) → ∀ q, q < n → ∀ k, k < nc →
        (∀ j, j < nc → j ≠ k → s q j + 1 ≤ s q k) →
        ((2 : ℝ) ^ (-900 : Int) ≤ w → (2 : ℝ) ^ (-940 : Int) ≤ g q k) ∧
        ∀ j, j < nc → j ≠ k → 2 * g q j ≤ g q k) := by
  obtain ⟨X', M, Z, h1, h2, h3, h4, h5⟩ := hs
  have key : ∀ q (hq : q < n), ∃ f : ℝ → ℝ,
      (do let sc ← m.lin.scores (Z[q]'(by omega)); pure (softmaxRow (twoScores sc)) : Res (List (Ieee F))) =
        .ok ((List.range nc).map fun j => fin (f (s q j))) ∧
      (∀ j, j < nc → 0 ≤ f (s q j) ∧ f (s q j) ≤ 1) ∧
      (MonoRound F → ∀ j k, j < nc → k < nc → s q j ≤ s q k → f (s q j) ≤ f (s q k)) ∧
      (MonoRound F → TwoRound F → ∀ k, k < nc → (∀ j, j < nc → j ≠ k → s q j + 1 ≤ s q k) →
        (2 : ℝ) ^ (-40 : Int) ≤ f (s q k) ∧ ∀ j, j < nc → j ≠ k → 2 * f (s q j) ≤ f (s q k)) := by
    intro q hq
    obtain ⟨sc, e1, e2⟩ := h5 q _ (List.getElem?_eq_getElem (by omega))
    have hl : ((List.range nc).map fun j => (fin (s q j) : Ieee F)) = ((List.range nc).map (s q)).map fin := by
      rw [List.map_map]; rfl
    have hg : ∀ x ∈ (List.range nc).map (s q), x ∈ F.grid := by
      intro x hx
      have : (fin x : Ieee F) ∈ twoScores sc := by rw [e2, hl]; exact List.mem_map_of_mem hx
      exact twoScores_grid (scores_grid e1) x this
    obtain ⟨f, f1, f2, f3, f4⟩ := hD.softmax hE (l := (List.range nc).map (s q)) (by simp; omega) hg (by simpa using hnc')
    refine ⟨f, ?_, ?_, ?_, ?_⟩
    · rw [e1, Res.bind_ok, e2, hl, f1, List.map_map]; rfl
    · intro j hj
      exact f2 _ (List.mem_map.2 ⟨j, List.mem_range.2 hj, rfl⟩)
    · intro hmono j k hj hk
      exact f3 hmono _ (List.mem_map.2 ⟨j, List.mem_range.2 hj, rfl⟩) _ (List.mem_map.2 ⟨k, List.mem_range.2 hk, rfl⟩)
    · intro hmono h2 k hk hgap
      have hmax : ∀ y ∈ (List.range nc).map (s q), y ≤ s q k := by
        intro y hy
        obtain ⟨j, hj, rfl⟩ := List.mem_map.1 hy
        by_cases hjk : j = k
        · rw [hjk]
        · have := hgap j (List.mem_range.1 hj) hjk; linarith
      obtain ⟨c1, c2⟩ := f4 hmono h2 _ (List.mem_map.2 ⟨k, List.mem_range.2 hk, rfl⟩) hmax
      exact ⟨c1, fun j hj hjk => c2 _ (List.mem_map.2 ⟨j, List.mem_range.2 hj, rfl⟩) (hgap j hj hjk)⟩
  choose! f f1 f2 f3 f4 using key
  have hround : ∀ x, 0 ≤ x → x ≤ 1 → 0 ≤ F.rnd (x * w) ∧ F.rnd (x * w) ≤ 1 := by
    intro x x0 x1
    have h0 : 0 ≤ x * w := mul_nonneg x0 hw0
    have : |x * w| ≤ (2 : ℝ) ^ (0 : Int) := by
      rw [abs_of_nonneg h0, zpow_zero]; nlinarith
    have b1 := hD.rnd_le (by norm_num) this
    have b2 := hD.sign _ h0
    rw [abs_of_nonneg b2, zpow_zero] at b1
    exact ⟨b2, b1⟩
  refine ⟨fun q j => F.rnd (f q (s q j) * w), ?_, ?_, ?_, ?_⟩
  · unfold Member.weighted
    rw [h1, Res.bind_ok, h2, Res.bind_ok]
    have hP : predictProba m.scaler m.lin M =
        .ok (mat n nc fun q j => (fin (f q (s q j)) : Ieee F)) := by
      unfold predictProba
      rw [h3, Res.bind_ok]
      rw [mapM_eq_ok, List.forall₂_iff_get]
      refine ⟨by simp [mat, h4], ?_⟩
      intro q hq hq'
      simp only [List.get_eq_getElem]
      rw [f1 q (by omega)]
      simp [mat]
    rw [hP, Res.bind_ok, Res.pure_eq]
    congr 1
    unfold mat
    rw [List.map_map]
    apply List.map_congr_left
    intro q hq
    simp only [Function.comp, List.map_map]
    apply List.map_congr_left
    intro j hj
    have hq := List.mem_range.1 hq
    have hj := List.mem_range.1 hj
    show Ieee.over (F.rnd (f q (s q j) * w)) = _
    apply over_fin
    obtain ⟨x0, x1⟩ := f2 q hq j hj
    obtain ⟨b0, b1⟩ := hround _ x0 x1
    have htop := F.top_gt
    rw [abs_of_nonneg b0]; linarith
  · intro q hq j hj
    obtain ⟨x0, x1⟩ := f2 q hq j hj
    obtain ⟨y0, y1⟩ := hround _ x0 x1
    exact ⟨y0, y1, F.rnd_grid _⟩
  · intro hmono q hq j k hj hk hjk
    refine hmono _ _ (mul_nonneg (f2 q hq j hj).1 hw0) ?_
    exact mul_le_mul_of_nonneg_right (f3 q hq hmono j k hj hk hjk) hw0
  · intro hmono h2 hw q hq k hk hgap
    obtain ⟨c1, c2⟩ := f4 q hq hmono h2 k hk hgap
    rcases hw with rfl | hw
    · refine ⟨fun h => absurd h (not_le.2 (two_pos _)), ?_⟩
      intro j hj hjk
      have h0 : F.rnd 0 = 0 := by
        have := F.rnd_add 0 F.grid_zero 0 F.grid_zero
        rw [add_zero, F.r.zero] at this
        exact this
      simp only [mul_zero, h0, le_refl]
    · have hy : (2 : ℝ) ^ (-940 : Int) ≤ f q (s q k) * w := by
        calc (2 : ℝ) ^ (-940 : Int) = (2 : ℝ) ^ (-40 : Int) * (2 : ℝ) ^ (-900 : Int) := by rw [← two_add]; norm_num
          _ ≤ _ := mul_le_mul c1 hw (two_pos _).le ((two_pos _).le.trans c1)
      obtain ⟨r1, r2⟩ := hD.halve hmono h2 (e := -940) (by norm_num) hy
      refine ⟨fun _ => r1, ?_⟩
      intro j hj hjk
      refine r2 _ (mul_nonneg (f2 q hq j hj).1 hw0) ?_
      rw [← mul_assoc]
      exact mul_le_mul_of_nonneg_right (c2 j hj hjk) hw0

/-- Sum over the members. -/
theorem Spec.Double.vote_foldl : ∀ (l : List (Nat → Nat → ℝ)) (n nc : Nat) (a : Nat → Nat → ℝ) (k : Nat),
    (∀ g ∈ l, ∀ q, q < n → ∀ j, j < nc → 0 ≤ g q j ∧ g q j ≤ 1 ∧ g q j ∈ F.grid) → k + l.length ≤ 2 ^ 40 →
    (∀ q, q < n → ∀ j, j < nc → 0 ≤ a q j ∧ a q j ≤ k ∧ a q j ∈ F.grid) →
    ∃ v : Nat → Nat → ℝ, (l.map fun g => mat n nc fun q j => (fin (g q j) : Ieee F)).foldlM addMat
        (mat n nc fun q j => (fin (a q j) : Ieee F)) = .ok (mat n nc fun q j => fin (v q j)) ∧
      (∀ q, q < n → ∀ j, j < nc → 0 ≤ v q j ∧ v q j ≤ (k + l.length : Nat)) ∧
      (MonoRound F → ∀ q, q < n → ∀ i j, i < nc → j < nc → a q i ≤ a q j → (∀ g ∈ l, g q i ≤ g q j) → v q i ≤ v q j) ∧
      (TwoRound F → ∀ q, q < n → ∀ i j, i < nc → j < nc → 2 * a q i ≤ a q j → (∀ g ∈ l, 2 * g q i ≤ g q j) →
        2 * v q i ≤ v q j) ∧
      (∀ q, q < n → ∀ j, j < nc → ((2 : ℝ) ^ (-940 : Int) ≤ a q j ∨ ∃ g ∈ l, (2 : ℝ) ^ (-940 : Int) ≤ g q j) →
        (2 : ℝ) ^ (-940 : Int) ≤ v q j) := by
  intro l
  induction l with
  | nil =>
    intro n nc a k _ _ ha
    refine ⟨a, rfl, ?_, fun _ q hq i j hi hj h _ => h, fun _ q hq i j hi hj h _ => h, ?_⟩
    · intro q hq j hj
      obtain ⟨x0, x1, -⟩ := ha q hq j hj
      exact ⟨x0, by simpa using x1⟩
    · intro q hq j hj h
      rcases h with h | ⟨g, hg, -⟩
      · exact h
      · cases hg
  | cons g l ih =>
    intro n nc a k hl hk ha
    rw [List.length_cons] at hk
    have hcell : ∀ q, q < n → ∀ j, j < nc → (fin (a q j) + fin (g q j) : Ieee F) = fin (F.rnd (a q j + g q j)) ∧
        0 ≤ F.rnd (a q j + g q j) ∧ F.rnd (a q j + g q j) ≤ (k + 1 : Nat) ∧ F.rnd (a q j + g q j) ∈ F.grid := by
      intro q hq j hj
      obtain ⟨x0, x1, -⟩ := ha q hq j hj
      obtain ⟨t0, t1, -⟩ := hl g (by simp) q hq j hj
      have hxt : |a q j + g q j| ≤ (k + 1 : Nat) * (2 : ℝ) ^ (0 : Int) := by
        rw [abs_of_nonneg (by linarith)]; push_cast; simp; linarith
      have hr := hD.rnd_le_nat (by omega) (by omega) (by norm_num) hxt
      have hs := hD.sign (a q j + g q j) (by linarith)
      rw [abs_of_nonneg hs, zpow_zero, mul_one] at hr
      refine ⟨?_, hs, hr, F.rnd_grid _⟩
      show Ieee.over (F.rnd (a q j + g q j)) = _
      apply over_fin
      rw [hD.top, abs_of_nonneg hs]
      refine hr.trans_lt ?_
      have h40 : ((k + 1 : Nat) : ℝ) ≤ ((2 ^ 40 : Nat) : ℝ) := by exact_mod_cast (by omega : k + 1 ≤ 2 ^ 40)
      calc ((k + 1 : Nat) : ℝ) ≤ (2 : ℝ) ^ (40 : Int) := h40.trans (by norm_num)
        _ < _ := two_lt (by norm_num)
    have hsame : ∀ q, q < n → ∀ j, j < nc → F.rnd (a q j + g q j) = F.r.rnd (a q j + g q j) := fun q hq j hj =>
      F.rnd_add _ (ha q hq j hj).2.2 _ (hl g (by simp) q hq j hj).2.2
    obtain ⟨v, v1, v2, v3, v4, v5⟩ := ih n nc (fun q j => F.rnd (a q j + g q j)) (k + 1) (fun b hb => hl b (by simp [hb]))
      (by omega) (fun q hq j hj => (hcell q hq j hj).2)
    refine ⟨v, ?_, ?_, ?_, ?_, ?_⟩
    · rw [List.map_cons, List.foldlM_cons, addMat_mat, Res.bind_ok, ← v1]
      congr 1
      apply mat_congr
      intro q hq j hj
      exact (hcell q hq j hj).1
    · rw [List.length_cons, show k + (l.length + 1) = k + 1 + l.length by omega]
      exact v2
    · intro hmono q hq i j hi hj hij hg
      refine v3 hmono q hq i j hi hj ?_ (fun g' hg' => hg g' (by simp [hg']))
      refine hmono _ _ (add_nonneg (ha q hq i hi).1 (hl g (by simp) q hq i hi).1) ?_
      exact add_le_add hij (hg g (by simp))
    · intro h2 q hq i j hi hj hij hg
      refine v4 h2 q hq i j hi hj ?_ (fun g' hg' => hg g' (by simp [hg']))
      rw [hsame q hq i hi, hsame q hq j hj, ← h2]
      refine F.r.mono ?_
      have := hg g (by simp)
      linarith
    · intro q hq j hj h
      refine v5 q hq j hj ?_
      have hge : (2 : ℝ) ^ (-940 : Int) ≤ a q j + g q j → (2 : ℝ) ^ (-940 : Int) ≤ F.rnd (a q j + g q j) := by
        intro h
        have h := F.r.mono h
        have hf := hD.fix 1 (-940) (by norm_num)
        rw [Int.cast_one, one_mul] at hf
        rw [hf] at h
        rwa [hsame q hq j hj]
      have x0 := (ha q hq j hj).1
      have t0 := (hl g (by simp) q hq j hj).1
      rcases h with h | ⟨g', hg', h⟩
      · exact Or.inl (hge (by linarith))
      · rcases List.mem_cons.1 hg' with rfl | hg'
        · exact Or.inl (hge (by linarith))
        · exact Or.inr ⟨g', hg', h⟩

/-- The scaler of the ensemble on features of moderate magnitude. -/
theorem Spec.Double.plain {n : Nat} {M : List (List (Ieee F))} (hne : M ≠ []) (hn1 : 1 ≤ n)
    (hM : ∀ r ∈ M, r.length = n ∧ ∀ a ∈ r, Bd 409 a) (hl : M.length ≤ 2 ^ 40) :
    ∃ sc, fitPlainScaler M = .ok sc ∧ ∀ M' : List (List (Ieee F)), (∀ r ∈ M', r.length = n ∧ ∀ a ∈ r, Bd 409 a) →
      ∃ Z, plainTransform sc M' = .ok Z ∧ Z.length = M'.length ∧
        ∀ row ∈ Z, row.length = n ∧ ∀ a ∈ row, IsFinite a := by
  have hnc : nCols M = n := by
    cases M with
    | nil => exact absurd rfl hne
    | cons r M => exact (hM r (by simp)).1
  have hcols : (List.range (nCols M)).mapM (fun j => column M j) = .ok ((List.range n).map (colAt M)) := by
    rw [hnc]
    apply mapM_ok
    intro j hj
    apply column_any
    intro r hr
    rw [(hM r hr).1]
    exact List.mem_range.1 hj
  have hfit : fitPlainScaler M = .ok ((List.range n).map (fun j => Convst.mean (colAt M j)),
      (List.range n).map (fun j => Convst.handleZero (Convst.std (colAt M j)))) := by
    unfold fitPlainScaler
    rw [if_neg, hcols, Res.bind_ok, Res.pure_eq, List.map_map, List.map_map]
    · rfl
    · rw [hnc]
      rintro (h | h)
      · exact hne (List.isEmpty_iff.1 h)
      · omega
  refine ⟨_, hfit, ?_⟩
  intro M' hM'
  refine ⟨M'.map fun row => standardRow ((List.range n).map (fun j => Convst.mean (colAt M j)))
      ((List.range n).map (fun j => Convst.handleZero (Convst.std (colAt M j)))) row, ?_, by simp, ?_⟩
  · unfold plainTransform
    apply mapM_ok
    intro r hr
    rw [if_pos (by simpa using (hM' r hr).1)]
  · intro row hrow
    obtain ⟨r, hr, rfl⟩ := List.mem_map.1 hrow
    refine ⟨by simp [standardRow, (hM' r hr).1], ?_⟩
    intro a ha
    have er : r = (List.range n).map fun j => r.getD j 0 := by
      apply List.ext_getElem
      · simp [(hM' r hr).1]
      · intro j h1 h2
        rw [List.getElem_map, List.getElem_range, getD_lt _ h1]
    rw [er] at ha
    obtain ⟨j, hj, rfl⟩ := standardRow_mem ha
    have hj' := List.mem_range.1 hj
    have hcne : colAt M j ≠ [] := by simpa [colAt] using hne
    have hcl : (colAt M j).length ≤ 2 ^ 40 := by simpa [colAt] using hl
    have hcb : ∀ a ∈ colAt M j, Bd 409 a := by
      intro a ha
      obtain ⟨r, hr, har⟩ := colAt_mem (fun r hr => (hM r hr).1) hj' ha
      exact (hM r hr).2 a har
    obtain ⟨m, hm, -, hm2, -⟩ := hD.bd_mean (by norm_num) (by norm_num) hcne hcb hcl
    obtain ⟨y, hy, hy2⟩ := hD.bd_std (by norm_num) (by norm_num) hcne hcb hcl
    obtain ⟨z, hz, hz2⟩ := hD.handleZero hy2
    rw [hm, hy, hz]
    refine hD.finite_scaled ?_ hm2 hz2
    refine (hM' r hr).2 _ ?_
    rw [getD_lt _ (by rw [(hM' r hr).1]; exact hj')]
    exact List.getElem_mem _

end

/-- `argmax` of finite numbers. -/
theorem argmax_fin (l : List ℝ) : argmax (l.map (fin : ℝ → Ieee F)) = argmax (K := ℝ) l := by
  have key : ∀ (l : List ℝ) (b : ℝ) (bi i : Nat),
      argmaxFrom (fin b : Ieee F) bi i (l.map fin) = argmaxFrom (K := ℝ) b bi i l := by
    intro l
    induction l with
    | nil => intro b bi i; rfl
    | cons a l ih =>
      intro b bi i
      rw [List.map_cons, argmaxFrom, argmaxFrom, ih, ih]
      have h1 : (Scalar.ltb (fin b : Ieee F) (fin a)) = decide (b < a) := by
        show Ieee.ltb _ _ = _
        simp [Ieee.ltb]
      have h2 : (Scalar.ltb b a) = decide (b < a) := rfl
      rw [h1, h2]
  cases l with
  | nil => rfl
  | cons a l => exact key l a 0 1

end Convst
