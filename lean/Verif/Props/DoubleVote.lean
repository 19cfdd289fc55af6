import Verif.Proofs.DoubleVote
import Verif.Props.DoubleRidge

/-!
# C122: the vote of `R_DST_Ensemble` in double precision
-/

set_option autoImplicit false
set_option linter.unusedSectionVars false

namespace Convst.Props
open Convst Spec

section
variable {F : FloatFormat} {R : Type}

/-- **C122.** Probabilities of a member.  In double precision the softmax of finite scores is a list of numbers between 0 and 1
(no overflow, no division by 0, whatever the scores), and a class with a greater score has a probability at
least as great. -/
theorem C122_probabilities (hD : Double F) (hE : SoundExp F) (hm : MonoRound F) {l : List ℝ} (hne : l ≠ [])
    (hg : ∀ x ∈ l, x ∈ F.grid) (hn : l.length ≤ 2 ^ 40) :
    ∃ f : ℝ → ℝ, softmaxRow (l.map (Ieee.fin : ℝ → Ieee F)) = l.map (fun x => Ieee.fin (f x)) ∧
      ∀ x ∈ l, 0 ≤ f x ∧ f x ≤ 1 ∧ ∀ y ∈ l, x ≤ y → f x ≤ f y := by
  obtain ⟨f, f1, f2, f3, -⟩ := hD.softmax hE hne hg hn
  exact ⟨f, f1, fun x hx => ⟨(f2 x hx).1, (f2 x hx).2, f3 hm x hx⟩⟩

/-- The votes behind `predict`. -/
theorem votes_of_scores (hD : Double F) (hE : SoundExp F) {e : Ensemble (Ieee F) R} {ws : List ℝ}
    (hw : e.weights = some (ws.map Ieee.fin)) (hw01 : ∀ w ∈ ws, 0 ≤ w ∧ w ≤ 1) (hne : ws ≠ [])
    (hlen : e.models.length = ws.length) (h40 : ws.length ≤ 2 ^ 40) {X : XIn (Ieee F)} {n nc : Nat} (hnc : 1 ≤ nc)
    (hnc' : nc ≤ 2 ^ 40) {s : Nat → Nat → Nat → ℝ}
    (hs : ∀ (i : Nat) m, e.models[i]? = some m → ScoresOn m X n nc (s i)) :
    ∃ (v : Nat → Nat → ℝ) (P : List Nat), e.predict X = .ok P ∧ P.length = n ∧
      (∀ q p, P[q]? = some p → FirstMax ((List.range nc).map (v q)) p) ∧
      (∀ q, q < n → ∀ j, j < nc → 0 ≤ v q j ∧ v q j ≤ ws.length) ∧
      (MonoRound F → ∀ q, q < n → ∀ j k, j < nc → k < nc → (∀ i, i < ws.length → s i q j ≤ s i q k) → v q j ≤ v q k) ∧
      (MonoRound F → TwoRound F → (∀ w ∈ ws, w = 0 ∨ (2 : ℝ) ^ (-900 : Int) ≤ w) → (∃ w ∈ ws, w ≠ 0) → ∀ q, q < n →
        ∀ k, k < nc → (∀ i, i < ws.length → ∀ j, j < nc → j ≠ k → s i q j + 1 ≤ s i q k) →
        ∀ j, j < nc → j ≠ k → v q j < v q k) := by
  have hmem : ∀ i (hi : i < ws.length), ∃ g : Nat → Nat → ℝ,
      (do let m ← pyGet e.models i; let wt ← pyGet (ws.map Ieee.fin) i; m.weighted wt X : Res (List (List (Ieee F)))) =
        .ok (mat n nc fun q j => (Ieee.fin (g q j) : Ieee F)) ∧
      (∀ q, q < n → ∀ j, j < nc → 0 ≤ g q j ∧ g q j ≤ 1 ∧ g q j ∈ F.grid) ∧
      (MonoRound F → ∀ q, q < n → ∀ j k, j < nc → k < nc → s i q j ≤ s i q k → g q j ≤ g q k) ∧
      (MonoRound F → TwoRound F → (ws[i] = 0 ∨ (2 : ℝ) ^ (-900 : Int) ≤ ws[i]) → ∀ q, q < n → ∀ k, k < nc →
        (∀ j, j < nc → j ≠ k → s i q j + 1 ≤ s i q k) →
        ((2 : ℝ) ^ (-900 : Int) ≤ ws[i] → (2 : ℝ) ^ (-940 : Int) ≤ g q k) ∧
        ∀ j, j < nc → j ≠ k → 2 * g q j ≤ g q k) := by
    intro i hi
    obtain ⟨w0, w1⟩ := hw01 _ (List.getElem_mem hi)
    obtain ⟨g, g1, g2, g3, g4⟩ := hD.weighted hE (hs i _ (List.getElem?_eq_getElem (by omega))) hnc hnc' w0 w1
    refine ⟨g, ?_, g2, g3, g4⟩
    rw [pyGet_ok (by omega), Res.bind_ok, pyGet_ok (by simpa using hi), Res.bind_ok, List.getElem_map, g1]
  choose! g g1 g2 g3 g4 using hmem
  have hpos : 0 < ws.length := List.length_pos_of_ne_nil hne
  obtain ⟨k, hk⟩ : ∃ k, ws.length = k + 1 := ⟨ws.length - 1, by omega⟩
  have hpreds : ((List.range ws.length).mapM fun i => do
      let m ← pyGet e.models i
      let wt ← pyGet (ws.map Ieee.fin) i
      m.weighted wt X : Res _) =
      .ok ((List.range ws.length).map fun i => mat n nc fun q j => (Ieee.fin (g i q j) : Ieee F)) :=
    mapM_ok fun i hi => g1 i (List.mem_range.1 hi)
  have hsplit : List.range ws.length = 0 :: (List.range k).map (· + 1) := by
    rw [hk, List.range_succ_eq_map]
  have hlt : ∀ i, i ∈ (List.range k).map (· + 1) → i < ws.length := by
    intro i hi
    obtain ⟨j, hj, rfl⟩ := List.mem_map.1 hi
    have := List.mem_range.1 hj
    omega
  obtain ⟨v, v1, v2, v3, v4, v5⟩ := hD.vote_foldl (((List.range k).map (· + 1)).map g) n nc (g 0) 1 (by
    intro g' hg'
    obtain ⟨i, hi, rfl⟩ := List.mem_map.1 hg'
    exact g2 i (hlt i hi)) (by simp; omega) (by
    intro q hq j hj
    obtain ⟨x0, x1, x2⟩ := g2 0 hpos q hq j hj
    exact ⟨x0, by simpa using x1, x2⟩)
  have hsum : sumMats ((List.range ws.length).map fun i => mat n nc fun q j => (Ieee.fin (g i q j) : Ieee F)) =
      .ok (mat n nc fun q j => Ieee.fin (v q j)) := by
    rw [hsplit, List.map_cons]
    show List.foldlM addMat _ _ = _
    rw [← v1]
    simp only [List.map_map, Function.comp_def]
  refine ⟨v, (mat n nc fun q j => (Ieee.fin (v q j) : Ieee F)).map argmax, ?_, ?_, ?_, ?_, ?_, ?_⟩
  · unfold Ensemble.predict
    rw [hw]
    simp only [List.length_map]
    rw [hpreds, Res.bind_ok, hsum, Res.bind_ok, Res.pure_eq]
  · simp [mat]
  · intro q p hp
    rw [List.getElem?_map] at hp
    obtain ⟨row, hrow, rfl⟩ := Option.map_eq_some_iff.1 hp
    unfold mat at hrow
    rw [List.getElem?_map] at hrow
    obtain ⟨q', hq', rfl⟩ := Option.map_eq_some_iff.1 hrow
    have : q' = q := by
      obtain ⟨h1, h2⟩ := List.getElem?_eq_some_iff.1 hq'
      rw [← h2]; simp
    subst this
    have e2 : ((List.range nc).map fun j => (Ieee.fin (v q' j) : Ieee F)) = ((List.range nc).map (v q')).map Ieee.fin := by
      rw [List.map_map]; rfl
    rw [e2, argmax_fin]
    exact argmax_spec (by simp; omega)
  · intro q hq j hj
    obtain ⟨x0, x1⟩ := v2 q hq j hj
    refine ⟨x0, x1.trans (le_of_eq ?_)⟩
    simp [hk, add_comm]
  · intro hm q hq j k' hj hk' hle
    refine v3 hm q hq j k' hj hk' (g3 0 hpos hm q hq j k' hj hk' (hle 0 hpos)) ?_
    intro g' hg'
    obtain ⟨i, hi, rfl⟩ := List.mem_map.1 hg'
    exact g3 i (hlt i hi) hm q hq j k' hj hk' (hle i (hlt i hi))
  · intro hm h2 hw0 hw1 q hq c hc hgap j hj hjc
    have hboth : ∀ i (hi : i < ws.length), ((2 : ℝ) ^ (-900 : Int) ≤ ws[i] → (2 : ℝ) ^ (-940 : Int) ≤ g i q c) ∧
        ∀ j, j < nc → j ≠ c → 2 * g i q j ≤ g i q c := fun i hi =>
      g4 i hi hm h2 (hw0 _ (List.getElem_mem hi)) q hq c hc (hgap i hi)
    have hle : 2 * v q j ≤ v q c := by
      refine v4 h2 q hq j c hj hc ((hboth 0 hpos).2 j hj hjc) ?_
      intro g' hg'
      obtain ⟨i, hi, rfl⟩ := List.mem_map.1 hg'
      exact (hboth i (hlt i hi)).2 j hj hjc
    have hlow : (2 : ℝ) ^ (-940 : Int) ≤ v q c := by
      refine v5 q hq c hc ?_
      obtain ⟨w, hw, hwne⟩ := hw1
      obtain ⟨i, hi, rfl⟩ := List.mem_iff_getElem.1 hw
      have hgi := (hboth i hi).1 ((hw0 _ hw).resolve_left hwne)
      cases i with
      | zero => exact Or.inl hgi
      | succ i =>
        refine Or.inr ⟨g (i + 1), ?_, hgi⟩
        refine List.mem_map.2 ⟨i + 1, List.mem_map.2 ⟨i, List.mem_range.2 (by omega), rfl⟩, rfl⟩
    have := two_pos (-940)
    have := (v2 q hq j hj).1
    linarith

/-- **C122.** `predict` of the ensemble in double precision, for members that give finite scores and weights
between 0 and 1.  The call succeeds and returns, for each series, the first class of greatest vote; the votes are finite numbers
between 0 and the number of members.  Rounding respects unanimity: a class to which every member gives a score at least as great as
to another has a vote at least as great. -/
theorem C122_predict (hD : Double F) (hE : SoundExp F) (hm : MonoRound F) {e : Ensemble (Ieee F) R} {ws : List ℝ}
    (hw : e.weights = some (ws.map Ieee.fin)) (hw01 : ∀ w ∈ ws, 0 ≤ w ∧ w ≤ 1) (hne : ws ≠ [])
    (hlen : e.models.length = ws.length) (h40 : ws.length ≤ 2 ^ 40) {X : XIn (Ieee F)} {n nc : Nat} (hnc : 1 ≤ nc)
    (hnc' : nc ≤ 2 ^ 40) {s : Nat → Nat → Nat → ℝ}
    (hs : ∀ (i : Nat) m, e.models[i]? = some m → ScoresOn m X n nc (s i)) :
    ∃ (v : Nat → Nat → ℝ) (P : List Nat), e.predict X = .ok P ∧ P.length = n ∧
      ∀ q p, P[q]? = some p → FirstMax ((List.range nc).map (v q)) p ∧
        (∀ j, j < nc → 0 ≤ v q j ∧ v q j ≤ ws.length) ∧
        ∀ j k, j < nc → k < nc → (∀ i, i < ws.length → s i q j ≤ s i q k) → v q j ≤ v q k := by
  obtain ⟨v, P, h1, h2, h3, h4, h5, -⟩ := votes_of_scores hD hE hw hw01 hne hlen h40 hnc hnc' hs
  refine ⟨v, P, h1, h2, ?_⟩
  intro q p hp
  have hq : q < n := by
    obtain ⟨hq, -⟩ := List.getElem?_eq_some_iff.1 hp
    omega
  exact ⟨h3 q p hp, h4 q hq, h5 hm q hq⟩

/-- **C122.** Unanimity.  If every member gives class `k` a score at least as great as to the other classes, the predicted
class is `k` or an earlier one that ties with it after rounding.  If every member gives it a score greater by
at least 1, and the weights are 0 or at least `2 ^ -900` and not all 0, the predicted class is `k`. -/
theorem C122_unanimous (hD : Double F) (hE : SoundExp F) (hm : MonoRound F) (h2 : TwoRound F) {e : Ensemble (Ieee F) R}
    {ws : List ℝ} (hw : e.weights = some (ws.map Ieee.fin)) (hw01 : ∀ w ∈ ws, 0 ≤ w ∧ w ≤ 1) (hne : ws ≠ [])
    (hlen : e.models.length = ws.length) (h40 : ws.length ≤ 2 ^ 40) {X : XIn (Ieee F)} {n nc : Nat} (hnc : 1 ≤ nc)
    (hnc' : nc ≤ 2 ^ 40) {s : Nat → Nat → Nat → ℝ}
    (hs : ∀ (i : Nat) m, e.models[i]? = some m → ScoresOn m X n nc (s i)) :
    ∃ P, e.predict X = .ok P ∧ P.length = n ∧ ∀ q p k, P[q]? = some p → k < nc →
      ((∀ i, i < ws.length → ∀ j, j < nc → s i q j ≤ s i q k) → p ≤ k) ∧
      ((∀ w ∈ ws, w = 0 ∨ (2 : ℝ) ^ (-900 : Int) ≤ w) → (∃ w ∈ ws, w ≠ 0) →
        (∀ i, i < ws.length → ∀ j, j < nc → j ≠ k → s i q j + 1 ≤ s i q k) → p = k) := by
  obtain ⟨v, P, h1, h2', h3, h4, h5, h6⟩ := votes_of_scores hD hE hw hw01 hne hlen h40 hnc hnc' hs
  refine ⟨P, h1, h2', ?_⟩
  intro q p k hp hk
  have hq : q < n := by
    obtain ⟨hq, -⟩ := List.getElem?_eq_some_iff.1 hp
    omega
  obtain ⟨f1, f2⟩ := h3 q p hp
  have hpn : p < nc := by simpa using f1
  have hget : ∀ j, j < nc → ((List.range nc).map (v q)).getD j 0 = v q j := by
    intro j hj
    rw [getD_lt _ (by simpa using hj)]
    simp
  refine ⟨?_, ?_⟩
  · intro hall
    by_contra hlt
    have := (f2 k (by simpa using hk)).2 (by omega)
    rw [hget k hk, hget p hpn] at this
    have := h5 hm q hq p k hpn hk (fun i hi => hall i hi p hpn)
    linarith
  · intro hw0 hw1 hgap
    by_contra hne'
    have := h6 hm h2 hw0 hw1 q hq k hk hgap p hpn hne'
    have hle := (f2 k (by simpa using hk)).1
    rw [hget k hk, hget p hpn] at hle
    linarith

end

/-! ## Doubles -/

theorem rndBin_two (p : Nat) (x : ℝ) : rndBin p (2 * x) = 2 * rndBin p x := by
  by_cases hx : x = 0
  · subst hx; simp [rndBin]
  obtain ⟨b1, b2⟩ := binExp_bounds hx
  have hb : binExp (2 * x) = binExp x + 1 := by
    apply binExp_eq
    · rw [abs_mul, zpow_add₀ (by norm_num), zpow_one, mul_comm, abs_of_pos (by norm_num : (0 : ℝ) < 2)]
      linarith
    · rw [abs_mul, zpow_add₀ (by norm_num), zpow_one, abs_of_pos (by norm_num : (0 : ℝ) < 2)]
      linarith
  unfold rndBin
  rw [hb]
  have e1 : 2 * x * (2 : ℝ) ^ ((p : Int) - (binExp x + 1)) = x * (2 : ℝ) ^ ((p : Int) - binExp x) := by
    rw [show (p : Int) - binExp x = (p : Int) - (binExp x + 1) + 1 by ring, zpow_add₀ (by norm_num), zpow_one]
    ring
  rw [e1, show binExp x + 1 - (p : Int) = binExp x - (p : Int) + 1 by ring, zpow_add₀ (by norm_num), zpow_one]
  ring

/-- The assumptions of C122 hold of doubles, with a correctly rounded exponential. -/
theorem C122_float64 : SoundExp FloatFormat.float64 ∧ MonoRound FloatFormat.float64 ∧ TwoRound FloatFormat.float64 := by
  refine ⟨⟨?_, fun x _ => rndBin_nonneg (Real.exp_pos x).le, fun x y h _ => rndBin_mono 52 (Real.exp_le_exp.2 h), ?_⟩,
    fun x y h1 h2 => C113_float64.mono x y h1 h2, fun x => rndBin_two 52 x⟩
  · show rndBin 52 (Real.exp 0) = 1
    have := rndBin_pow (p := 52) 0
    rw [zpow_zero] at this
    rw [Real.exp_zero, this]
  · show rndBin 52 (Real.exp (-1)) ≤ 1 / 2
    have h1 : Real.exp (-1) ≤ (2 : ℝ) ^ (-1 : Int) := by
      rw [Real.exp_neg, zpow_neg, zpow_one]
      have := Real.add_one_le_exp (1 : ℝ)
      exact inv_anti₀ (by norm_num) (by linarith)
    have := rndBin_mono 52 h1
    rw [rndBin_pow] at this
    exact this.trans (by norm_num)

theorem rndBin_near (e : Int) {t : ℝ} (h1 : 1 - 1 / 2 ^ 55 ≤ t) (h2 : t ≤ 1) : rndBin 52 (t * (2 : ℝ) ^ e) = (2 : ℝ) ^ e := by
  rcases h2.eq_or_lt with rfl | h2
  · rw [one_mul]; exact rndBin_pow e
  have hp := two_pos e
  have ht : 0 < t := by norm_num at h1; linarith
  have hb : binExp (t * (2 : ℝ) ^ e) = e - 1 := by
    apply binExp_eq <;> rw [abs_of_pos (by positivity)]
    · rw [zpow_sub₀ (by norm_num), zpow_one, div_eq_inv_mul]
      refine mul_le_mul_of_nonneg_right ?_ hp.le
      norm_num at h1 ⊢; linarith
    · rw [sub_add_cancel]
      nlinarith
  unfold rndBin
  rw [hb]
  have e1 : t * (2 : ℝ) ^ e * (2 : ℝ) ^ (((52 : Nat) : Int) - (e - 1)) = t * 2 ^ 53 := by
    rw [mul_assoc, ← two_add, show e + (((52 : Nat) : Int) - (e - 1)) = ((53 : Nat) : Int) by push_cast; ring, zpow_natCast]
  have hr : round (t * 2 ^ 53) = 2 ^ 53 := by
    rw [round_eq, Int.floor_eq_iff]
    push_cast
    norm_num at h1 ⊢
    constructor <;> linarith
  rw [e1, hr, Int.cast_pow, Int.cast_ofNat, ← zpow_natCast, ← two_add]
  congr 1
  push_cast
  ring

/-- Scores of opposite signs and very small: both classes have the probability 1/2. -/
theorem softmax_tiny {d : ℝ} (hd0 : 0 < d) (hd : d ≤ (2 : ℝ) ^ (-60 : Int)) (hg : d ∈ FloatFormat.float64.grid) :
    softmaxRow [(Ieee.fin (-d) : Ieee .float64), .fin d] = [.fin (1 / 2), .fin (1 / 2)] := by
  have hD := C117_float64
  have hE := C122_float64.1
  have hmax : maxOf [(Ieee.fin (-d) : Ieee .float64), .fin d] = .fin d := by
    have : Scalar.ltb (.fin (-d) : Ieee .float64) (.fin d) = true := by
      show Ieee.ltb _ _ = _
      simp only [Ieee.ltb, decide_eq_true_eq]
      linarith
    simp [maxOf, this]
  have e1 := expDiff_eq hE hg (FloatFormat.float64.grid_neg d hg) (by linarith : -d ≤ d)
  have e2 := expDiff_eq hE hg hg (le_refl d)
  rw [expDiff_self hE] at e2
  obtain ⟨E, hEd⟩ : ∃ E, E = expDiff .float64 d (-d) := ⟨_, rfl⟩
  rw [← hEd] at e1
  have hE1 : E ≤ 1 := hEd ▸ (expDiff_bounds hE (by linarith : -d ≤ d)).2
  have hE0 : 1 - 1 / 2 ^ 55 ≤ E := by
    rw [hEd]
    have hr : -(2 : ℝ) ^ (-59 : Int) ≤ FloatFormat.float64.r.rnd (-d - d) := by
      have h1 : ((-1 : Int) : ℝ) * (2 : ℝ) ^ (-59 : Int) ≤ -d - d := by
        have : (2 : ℝ) ^ (-59 : Int) = 2 * (2 : ℝ) ^ (-60 : Int) := by
          rw [show (-59 : Int) = 1 + (-60) by norm_num, two_add, zpow_one]
        rw [this]; push_cast; linarith
      have := FloatFormat.float64.r.mono h1
      rw [hD.fix (-1) (-59) (by norm_num)] at this
      push_cast at this
      linarith
    have htop : FloatFormat.float64.top = (2 : ℝ) ^ (1024 : Int) := hD.top
    have hlt : (2 : ℝ) ^ (-59 : Int) < (2 : ℝ) ^ (1024 : Int) := two_lt (by norm_num)
    unfold expDiff
    rw [if_neg (by rw [htop]; linarith)]
    show _ ≤ rndBin 52 (Real.exp _)
    have h0 := Real.add_one_le_exp (FloatFormat.float64.r.rnd (-d - d))
    have h59 : (2 : ℝ) ^ (-59 : Int) ≤ 1 / 2 ^ 55 := by norm_num
    have hle : FloatFormat.float64.r.rnd (-d - d) ≤ 0 := by
      rw [← FloatFormat.float64.r.zero]; exact FloatFormat.float64.r.mono (by linarith)
    have h3 := (neg_le_neg h59).trans hr
    have := rndBin_near 0 (t := Real.exp (FloatFormat.float64.r.rnd (-d - d))) (by linarith) (Real.exp_le_one_iff.2 hle)
    rw [zpow_zero, mul_one] at this
    rw [this]
    norm_num
  have hEp : 0 < E := by norm_num at hE0; linarith
  have near : ∀ (e : Int), -2 ≤ e → e ≤ 2 → ∀ t, 1 - 1 / 2 ^ 55 ≤ t → t ≤ 1 →
      (Ieee.over (FloatFormat.float64.rnd (t * (2 : ℝ) ^ e)) : Ieee .float64) = .fin ((2 : ℝ) ^ e) := by
    intro e he1 he2 t ht1 ht2
    have ht0 : 0 < t := by norm_num at ht1; linarith
    have hp := two_pos e
    have hn : FloatFormat.float64.rnd (t * (2 : ℝ) ^ e) = (2 : ℝ) ^ e := by
      rw [hD.normal]
      · exact rndBin_near e ht1 ht2
      · rw [abs_of_pos (by positivity)]
        calc (2 : ℝ) ^ (-1022 : Int) ≤ (2 : ℝ) ^ (e - 1) := two_le (by omega)
          _ = (2 : ℝ) ^ e / 2 := by rw [zpow_sub₀ (by norm_num), zpow_one]
          _ ≤ _ := by norm_num at ht1; nlinarith
    rw [hn]
    apply over_fin
    rw [abs_of_pos hp, hD.top]
    exact two_lt (by omega)
  have s1 : (0 + .fin E : Ieee .float64) = .fin 1 := by
    show Ieee.over (FloatFormat.float64.rnd (0 + E)) = _
    have := near 0 (by norm_num) (by norm_num) E hE0 hE1
    rwa [zpow_zero, mul_one, ← zero_add E] at this
  have s2 : (.fin 1 + .fin 1 : Ieee .float64) = .fin 2 := by
    show Ieee.over (FloatFormat.float64.rnd (1 + 1)) = _
    have := near 1 (by norm_num) (by norm_num) 1 (by norm_num) le_rfl
    rw [zpow_one, one_mul] at this
    rw [show (1 : ℝ) + 1 = 2 by norm_num]
    exact this
  have s3 : ∀ t, 1 - 1 / 2 ^ 55 ≤ t → t ≤ 1 → (.fin t / .fin 2 : Ieee .float64) = .fin (1 / 2) := by
    intro t ht1 ht2
    show (if (2 : ℝ) = 0 then _ else Ieee.over (FloatFormat.float64.rnd (t / 2))) = _
    rw [if_neg (by norm_num)]
    have := near (-1) (by norm_num) (by norm_num) t ht1 ht2
    rw [zpow_neg, zpow_one] at this
    rw [div_eq_mul_inv, this, one_div]
  unfold softmaxRow
  rw [hmax]
  simp only [List.map_cons, List.map_nil, e1, e2, ssum, List.foldl_cons, List.foldl_nil, s1, s2,
    s3 E hE0 hE1, s3 1 (by norm_num) le_rfl]

/-- **C122, what fails.** Small differences are lost: with doubles, an ensemble of one member of weight 1 answers the first
class for every series to which its member gives a positive score of at most `2 ^ -60`, although the
classifier of the member, used alone, answers the second class (`classIdx` is 1). -/
theorem C122_tie_to_first {R : Type} {e : Ensemble (Ieee .float64) R} {m : Member (Ieee .float64) R}
    (hm : e.models = [m]) (hw : e.weights = some [.fin 1]) {X X' : XIn (Ieee .float64)} {M Z : List (List (Ieee .float64))}
    (h1 : m.rep X = .ok X') (h2 : m.rdst.transform X' = .ok M) (h3 : plainTransform m.scaler M = .ok Z)
    (hs : ∀ z ∈ Z, ∃ d, 0 < d ∧ d ≤ (2 : ℝ) ^ (-60 : Int) ∧ m.lin.scores z = .ok [.fin d]) :
    e.predict X = .ok (List.replicate Z.length 0) ∧
      ∀ z ∈ Z, ∃ sc, m.lin.scores z = .ok sc ∧ classIdx sc = 1 := by
  have hD := C117_float64
  have half : (.fin (1 / 2) * .fin 1 : Ieee .float64) = .fin (1 / 2) := by
    show Ieee.over (FloatFormat.float64.rnd (1 / 2 * 1)) = _
    have hf := hD.fix 1 (-1) (by norm_num)
    have he : ((1 : Int) : ℝ) * (2 : ℝ) ^ (-1 : Int) = 1 / 2 := by norm_num
    rw [he] at hf
    have hn := hD.normal (1 / 2) (by
      rw [abs_of_pos (by norm_num)]
      calc (2 : ℝ) ^ (-1022 : Int) ≤ (2 : ℝ) ^ (-1 : Int) := two_le (by norm_num)
        _ = 1 / 2 := by norm_num)
    rw [mul_one, hn, hf]
    apply over_fin
    rw [hD.top, abs_of_pos (by norm_num)]
    calc (1 / 2 : ℝ) = (2 : ℝ) ^ (-1 : Int) := by norm_num
      _ < _ := two_lt (by norm_num)
  have hP : predictProba m.scaler m.lin M = .ok (Z.map fun _ => [.fin (1 / 2), .fin (1 / 2)]) := by
    unfold predictProba
    rw [h3, Res.bind_ok]
    apply mapM_ok
    intro z hz
    obtain ⟨d, d0, d1, hd⟩ := hs z hz
    rw [hd, Res.bind_ok, Res.pure_eq]
    congr 1
    exact softmax_tiny d0 d1 (scores_grid hd d (by simp))
  have hwt : m.weighted (.fin 1) X = .ok (Z.map fun _ => [.fin (1 / 2), .fin (1 / 2)]) := by
    unfold Member.weighted
    rw [h1, Res.bind_ok, h2, Res.bind_ok, hP, Res.bind_ok, Res.pure_eq, List.map_map]
    congr 1
    apply List.map_congr_left
    intro z _
    simp only [Function.comp, List.map_cons, List.map_nil, half]
  refine ⟨?_, ?_⟩
  · unfold Ensemble.predict
    rw [hw]
    have g1 : pyGet [m] 0 = .ok m := rfl
    have g2 : pyGet [(Ieee.fin 1 : Ieee .float64)] 0 = .ok (.fin 1) := rfl
    simp only [List.length_singleton, List.range_one, List.mapM_cons, List.mapM_nil, hm, g1, g2,
      Res.bind_ok, hwt, Res.pure_eq, sumMats, List.foldlM_nil, List.map_map]
    congr 1
    rw [List.eq_replicate_iff]
    refine ⟨by simp, ?_⟩
    intro b hb
    obtain ⟨z, -, rfl⟩ := List.mem_map.1 hb
    have : ∀ a : ℝ, Scalar.ltb (.fin a : Ieee .float64) (.fin a) = false := by
      intro a
      show Ieee.ltb _ _ = _
      simp [Ieee.ltb]
    simp [argmax, argmaxFrom, this]
  · intro z hz
    obtain ⟨d, d0, -, hd⟩ := hs z hz
    refine ⟨_, hd, ?_⟩
    have : Scalar.ltb (0 : Ieee .float64) (.fin d) = true := by
      show Ieee.ltb (.fin 0) _ = _
      simpa [Ieee.ltb] using d0
    simp [classIdx, this]

/-! ## Concrete cases -/

theorem dot_zeros {z : List (Ieee .float64)} (hz : ∀ a ∈ z, IsFinite a) : dot z (List.replicate z.length (.fin 0)) = .fin 0 := by
  have r0 : FloatFormat.float64.rnd 0 = 0 := by
    have := FloatFormat.float64.rnd_add 0 FloatFormat.float64.grid_zero 0 FloatFormat.float64.grid_zero
    rwa [add_zero, FloatFormat.float64.r.zero] at this
  have over0 : (Ieee.over 0 : Ieee .float64) = .fin 0 := over_fin (by
    rw [abs_zero]; have := FloatFormat.float64.top_gt; linarith)
  have key : ∀ l : List (Ieee .float64), (∀ a ∈ l, IsFinite a) →
      (List.zipWith (· * ·) l (List.replicate l.length (.fin 0))).foldl (· + ·) (.fin 0) = (.fin 0 : Ieee .float64) := by
    intro l
    induction l with
    | nil => intro _; rfl
    | cons a l ih =>
      intro h
      obtain ⟨x, rfl⟩ := h a (by simp)
      have e1 : (.fin x * .fin 0 : Ieee .float64) = .fin 0 := by
        show Ieee.over (FloatFormat.float64.rnd (x * 0)) = _
        rw [mul_zero, r0, over0]
      have e2 : (.fin 0 + .fin 0 : Ieee .float64) = .fin 0 := by
        show Ieee.over (FloatFormat.float64.rnd (0 + 0)) = _
        rw [add_zero, r0, over0]
      rw [List.length_cons, List.replicate_succ, List.zipWith_cons_cons, List.foldl_cons, e1, e2]
      exact ih fun b hb => h b (by simp [hb])
  exact key z hz

/-- A fitted member whose linear model gives the score `2 ^ e` to every series. -/
theorem concrete_member (env : Env IeeeGen Nat Nat) (w : World Nat) (gs : Nat → IeeeGen) {e : Int} (he : -1000 ≤ e) (he' : e ≤ 0) :
    ∃ (m : Member (Ieee .float64) Nat) (X' : XIn (Ieee .float64)) (M Z : List (List (Ieee .float64))),
      m.rep (.array .float64 plainArr) = .ok X' ∧ m.rdst.transform X' = .ok M ∧ plainTransform m.scaler M = .ok Z ∧
      Z.length = 2 ∧ ∀ z ∈ Z, m.lin.scores z = .ok [.fin ((2 : ℝ) ^ e)] := by
  have hD := C117_float64
  have hwf : (XIn.array .float64 plainArr).WF := by simp [XIn.WF, plainArr]
  obtain ⟨o', w', S, h1, h2, h3, h4⟩ := bd_fit_same_length C117_float64 C113_float64 le_rfl env
    (ieeeObj .auto) w .float64 plainArr [0, 1] (Or.inr (Or.inr ⟨rfl, by simp⟩)) hwf (by simp [plainArr])
    (by simp [plainArr]) (by simp [plainArr]) (by simp [plainArr]) (by simp [plainArr]) plainArr_moderate
    (by simp [plainArr]) (ieeeObj_ok _ _) (by simp [ieeeObj]) gs
  obtain ⟨M, hM, hMl, hMb⟩ := h4 .float64 plainArr hwf (by simp [plainArr]) rfl le_rfl (by simp [plainArr]) plainArr_moderate
  have hl2 : M.length = 2 := by rw [hMl]; simp [plainArr]
  obtain ⟨Z, hZ, hZl, hZf⟩ : ∃ Z, plainTransform (List.replicate (3 * Shapelets.count S) (.fin 0),
      List.replicate (3 * Shapelets.count S) (.fin 1)) M = .ok Z ∧ Z.length = M.length ∧
      ∀ z ∈ Z, z.length = 3 * Shapelets.count S ∧ ∀ a ∈ z, IsFinite a := by
    refine ⟨M.map fun row => standardRow (List.replicate (3 * Shapelets.count S) (.fin 0))
      (List.replicate (3 * Shapelets.count S) (.fin 1)) row, ?_, by simp, ?_⟩
    · unfold plainTransform
      apply mapM_ok
      intro r hr
      rw [if_pos (by simpa using (hMb r hr).1)]
    · intro row hrow
      obtain ⟨r, hr, rfl⟩ := List.mem_map.1 hrow
      refine ⟨by simp [standardRow, (hMb r hr).1], ?_⟩
      intro a ha
      have er : r = (List.range (3 * Shapelets.count S)).map fun j => r.getD j 0 := by
        apply List.ext_getElem
        · simp [(hMb r hr).1]
        · intro j h1 h2
          rw [List.getElem_map, List.getElem_range, getD_lt _ h1]
      have e0 : ∀ c : Ieee .float64, List.replicate (3 * Shapelets.count S) c =
          (List.range (3 * Shapelets.count S)).map fun _ => c := by intro c; simp
      rw [er, e0, e0] at ha
      obtain ⟨j, hj, rfl⟩ := standardRow_mem ha
      refine hD.finite_scaled ?_ (by rw [abs_zero]; exact (two_pos _).le) ?_
      · refine (hMb r hr).2 _ ?_
        rw [getD_lt _ (by rw [(hMb r hr).1]; exact List.mem_range.1 hj)]
        exact List.getElem_mem _
      · calc (2 : ℝ) ^ (-537 : Int) ≤ (2 : ℝ) ^ (0 : Int) := two_le (by norm_num)
          _ = 1 := by norm_num
  refine ⟨{ rep := .ok, rdst := o', scaler := (List.replicate (3 * Shapelets.count S) (.fin 0), List.replicate (3 * Shapelets.count S) (.fin 1)), lin := ⟨[List.replicate (3 * Shapelets.count S) (.fin 0)], [.fin ((2 : ℝ) ^ e)], [0, 1]⟩, cv := [] },
    _, M, Z, rfl, hM, hZ, hZl.trans hl2, ?_⟩
  intro z hz
  obtain ⟨z1, z2⟩ := hZf z hz
  unfold Linear.scores
  rw [if_pos (by simp [z1])]
  simp only [List.zipWith_cons_cons, List.zipWith_nil_left]
  rw [← z1, dot_zeros z2]
  congr 2
  show Ieee.over (FloatFormat.float64.rnd (0 + (2 : ℝ) ^ e)) = _
  have hp := two_pos e
  have hf := hD.fix 1 e (by norm_num)
  rw [Int.cast_one, one_mul] at hf
  rw [zero_add, hD.normal _ (by rw [abs_of_pos hp]; exact two_le (by omega)), hf]
  apply over_fin
  rw [abs_of_pos hp, hD.top]
  exact two_lt (by omega)

/-- An ensemble with one member. -/
noncomputable def oneMember (m : Member (Ieee .float64) Nat) : Ensemble (Ieee .float64) Nat where
  p := ridgeClf.p
  reps := [.ok]
  pNorms := [.fin 0]
  rs := .glob
  aW := .fin 1
  nJobs := .bool false
  nJobsRdst := none
  models := [m]
  weights := some [.fin 1]

/-- The hypotheses of `C122_tie_to_first` are met: both series are given to the first class. -/
example (env : Env IeeeGen Nat Nat) (w : World Nat) (gs : Nat → IeeeGen) :
    ∃ m, (oneMember m).predict (.array .float64 plainArr) = .ok [0, 0] := by
  obtain ⟨m, X', M, Z, h1, h2, h3, h4, h5⟩ := concrete_member env w gs (e := -60) (by norm_num) (by norm_num)
  have := (C122_tie_to_first (e := oneMember m) rfl rfl h1 h2 h3 (fun z hz => ⟨_, two_pos _, le_rfl, h5 z hz⟩)).1
  rw [h4] at this
  exact ⟨m, this⟩

/-- The hypotheses of `C122_predict` and `C122_unanimous` are met, with a margin of 2: both series are given to the second
class. -/
example (env : Env IeeeGen Nat Nat) (w : World Nat) (gs : Nat → IeeeGen) :
    ∃ m, (oneMember m).predict (.array .float64 plainArr) = .ok [1, 1] := by
  obtain ⟨m, X', M, Z, h1, h2, h3, h4, h5⟩ := concrete_member env w gs (e := 0) (by norm_num) (by norm_num)
  obtain ⟨P, p1, p2, p3⟩ := C122_unanimous C117_float64 C122_float64.1 C122_float64.2.1 C122_float64.2.2
    (e := oneMember m) (ws := [1]) rfl (by simp) (by simp) rfl (by simp) (X := .array .float64 plainArr) (n := 2) (nc := 2)
    (by norm_num) (by norm_num) (s := fun _ _ j => if j = 1 then 1 else -1) (by
      intro i m' hm'
      obtain ⟨hi, rfl⟩ := List.getElem?_eq_some_iff.1 hm'
      have hi : i < 1 := hi
      obtain rfl : i = 0 := by omega
      refine ⟨X', M, Z, h1, h2, h3, h4, ?_⟩
      intro q z hz
      refine ⟨_, h5 z (List.mem_of_getElem? hz), ?_⟩
      rw [zpow_zero]
      rfl)
  refine ⟨m, ?_⟩
  have hall : ∀ (q p : Nat), P[q]? = some p → p = 1 := by
    intro q p hp
    refine (p3 q p 1 hp (by norm_num)).2 ?_ ⟨1, by simp, by norm_num⟩ ?_
    · intro w hw
      rw [List.mem_singleton.1 hw]
      refine Or.inr ?_
      calc (2 : ℝ) ^ (-900 : Int) ≤ (2 : ℝ) ^ (0 : Int) := two_le (by norm_num)
        _ = 1 := by norm_num
    · intro i _ j hj hj1
      simp only [if_neg hj1]
      norm_num
  have : P = List.replicate 2 1 := by
    rw [List.eq_replicate_iff]
    refine ⟨p2, ?_⟩
    intro b hb
    obtain ⟨q, hq, rfl⟩ := List.mem_iff_getElem.1 hb
    exact hall q _ (List.getElem?_eq_getElem hq)
  rw [p1, this]
  rfl

end Convst.Props
