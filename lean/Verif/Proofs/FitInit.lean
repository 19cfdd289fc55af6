import Verif.Proofs.FitLoop
import Mathlib.Algebra.BigOperators.Group.List.Basic
import Mathlib.Algebra.Order.BigOperators.Group.List

/-! # Initial parameters of `fit`: dilations, weights, `choice_log` -/

set_option autoImplicit false
set_option linter.unusedSectionVars false

namespace Convst
open Spec

/-! ## Dilations -/

/-- The dilation computed from a draw `u` for a bound `q`: `floor(2 ** (log2(q) * u))`. -/
noncomputable def dilOf (q : Nat) (u : ℝ) : Nat := ⌊(2 : ℝ) ^ (Real.logb 2 q * u)⌋.toNat

theorem dilOf_ge {q : Nat} (hq : 1 ≤ q) {u : ℝ} (hu : 0 ≤ u) : 1 ≤ dilOf q u := by
  unfold dilOf
  have h0 : 0 ≤ Real.logb 2 q := Real.logb_nonneg (by norm_num) (by exact_mod_cast hq)
  have h1 : (1 : ℝ) ≤ (2 : ℝ) ^ (Real.logb 2 q * u) :=
    Real.one_le_rpow (by norm_num) (mul_nonneg h0 hu)
  have : 1 ≤ ⌊(2 : ℝ) ^ (Real.logb 2 q * u)⌋ := by rw [Int.le_floor]; exact_mod_cast h1
  omega

theorem dilOf_le {q : Nat} (hq : 1 ≤ q) {u : ℝ} (hu : u < 1) : dilOf q u ≤ q := by
  unfold dilOf
  have hq' : (0 : ℝ) < q := by exact_mod_cast hq
  have h0 : 0 ≤ Real.logb 2 q := Real.logb_nonneg (by norm_num) (by exact_mod_cast hq)
  have h1 : (2 : ℝ) ^ (Real.logb 2 q * u) ≤ q := by
    calc (2 : ℝ) ^ (Real.logb 2 q * u) ≤ (2 : ℝ) ^ (Real.logb 2 q) :=
          Real.rpow_le_rpow_of_exponent_le (by norm_num) (by nlinarith)
      _ = q := Real.rpow_logb (by norm_num) (by norm_num) hq'
  have : ⌊(2 : ℝ) ^ (Real.logb 2 q * u)⌋ ≤ (q : ℤ) := by
    have := Int.floor_le_floor h1
    simpa using this
  omega

theorem dilOf_lt {q : Nat} (hq : 2 ≤ q) {u : ℝ} (hu : u < 1) : dilOf q u < q := by
  unfold dilOf
  have hq' : (0 : ℝ) < q := by exact_mod_cast (by omega : 0 < q)
  have h0 : 0 < Real.logb 2 q := Real.logb_pos (by norm_num) (by exact_mod_cast (by omega : 1 < q))
  have h1 : (2 : ℝ) ^ (Real.logb 2 q * u) < q := by
    calc (2 : ℝ) ^ (Real.logb 2 q * u) < (2 : ℝ) ^ (Real.logb 2 q) :=
          Real.rpow_lt_rpow_of_exponent_lt (by norm_num) (by nlinarith)
      _ = q := Real.rpow_logb (by norm_num) (by norm_num) hq'
  have : ⌊(2 : ℝ) ^ (Real.logb 2 q * u)⌋ < (q : ℤ) := by rw [Int.floor_lt]; exact_mod_cast h1
  omega

/-- Every dilation below the bound is produced by some draw. -/
theorem dilOf_surj {q d : Nat} (hd : 1 ≤ d) (hdq : d < q) : ∃ u : ℝ, 0 ≤ u ∧ u < 1 ∧ dilOf q u = d := by
  have hq1 : (1 : ℝ) < q := by exact_mod_cast (by omega : 1 < q)
  have hlq : 0 < Real.logb 2 q := Real.logb_pos (by norm_num) hq1
  have hd0 : (0 : ℝ) < d := by exact_mod_cast hd
  refine ⟨Real.logb 2 d / Real.logb 2 q, ?_, ?_, ?_⟩
  · exact div_nonneg (Real.logb_nonneg (by norm_num) (by exact_mod_cast hd)) hlq.le
  · rw [div_lt_one hlq]
    exact Real.logb_lt_logb (by norm_num) hd0 (by exact_mod_cast hdq)
  · unfold dilOf
    rw [mul_div_cancel₀ _ hlq.ne', Real.rpow_logb (by norm_num) (by norm_num) hd0]
    simp

theorem dilOf_one (u : ℝ) : dilOf 1 u = 1 := by
  unfold dilOf; simp

theorem dilBound_pos {n l : Nat} (hl : 2 ≤ l) (hn : l ≤ n) : 1 ≤ dilBound n l := by
  unfold dilBound
  rw [Nat.le_div_iff_mul_le (by omega)]; omega

theorem mul_le_of_le_dilBound {n l d : Nat} (h : d ≤ dilBound n l) : (l - 1) * d ≤ n - 1 := by
  calc (l - 1) * d ≤ (l - 1) * dilBound n l := Nat.mul_le_mul_left _ h
    _ ≤ n - 1 := Nat.mul_div_le _ _

theorem le_dilBound_iff {n l d : Nat} (hl : 2 ≤ l) : d ≤ dilBound n l ↔ (l - 1) * d ≤ n - 1 := by
  unfold dilBound
  rw [Nat.le_div_iff_mul_le (by omega), mul_comm]

theorem upperBound_eq {n l : Nat} (hl : 2 ≤ l) (hn : l ≤ n) :
    (upperBound n l : Option ℝ) = some (Real.logb 2 (dilBound n l)) := by
  unfold upperBound
  have := dilBound_pos hl hn
  rw [if_neg (by omega)]
  rfl

theorem powInt_logb {q : Nat} (hq : 1 ≤ q) : powInt (some (Real.logb 2 q)) = q := by
  unfold powInt
  simp only [real_pow2]
  have hq' : (0 : ℝ) < q := by exact_mod_cast hq
  rw [Real.rpow_logb (by norm_num) (by norm_num) hq', real_trunc, if_pos hq'.le]
  simp

/-! ## `choice_log` -/

theorem scumsum_length (acc : ℝ) (l : List ℝ) : (scumsum acc l).length = l.length := by
  induction l generalizing acc with
  | nil => rfl
  | cons a l ih => simp [scumsum, ih]

theorem scumsum_getElem? (acc : ℝ) (l : List ℝ) (i : Nat) (hi : i < l.length) :
    (scumsum acc l)[i]? = some (acc + (l.take (i + 1)).sum) := by
  induction l generalizing acc i with
  | nil => simp at hi
  | cons a l ih =>
    cases i with
    | zero => simp [scumsum]
    | succ i =>
      simp only [scumsum, List.getElem?_cons_succ, List.take_succ_cons, List.sum_cons]
      rw [ih _ _ (by simpa using hi)]
      congr 1; ring

theorem logWeights_length (n : Nat) : (logWeights n : List ℝ).length = n := by
  simp [logWeights]

theorem logWeights_pos (n : Nat) : ∀ w ∈ (logWeights n : List ℝ), 0 < w := by
  intro w hw
  unfold logWeights at hw
  obtain ⟨i, _, rfl⟩ := List.mem_map.1 hw
  simp only [real_pow2]
  have : (0 : ℝ) < (2 : ℝ) ^ (Scalar.log (Scalar.ofNat (i + 1)) : ℝ) := Real.rpow_pos_of_pos (by norm_num) _
  exact div_pos one_pos this

theorem logWeights_sum_pos {n : Nat} (hn : 1 ≤ n) : 0 < (logWeights n : List ℝ).sum := by
  refine List.sum_pos _ (logWeights_pos n) ?_
  rw [← List.length_pos_iff, logWeights_length]; omega

/-- Cumulated weights: entry `i` is the relative weight of the choices `0..i`. -/
theorem logCdf_getElem? {n i : Nat} (hi : i < n) : (logCdf n : List ℝ)[i]? =
    some (((logWeights n : List ℝ).take (i + 1)).sum / (logWeights n : List ℝ).sum) := by
  unfold logCdf
  rw [List.getElem?_map, scumsum_getElem? _ _ _ (by rw [logWeights_length]; exact hi), ssum_eq_sum]
  simp

theorem logCdf_length (n : Nat) : (logCdf n : List ℝ).length = n := by
  simp [logCdf, scumsum_length, logWeights_length]

theorem logCdf_last {n : Nat} (hn : 1 ≤ n) : (logCdf n : List ℝ)[n - 1]? = some 1 := by
  rw [logCdf_getElem? (by omega), List.take_of_length_le (by rw [logWeights_length]; omega),
    div_self (logWeights_sum_pos hn).ne']

/-- The cumulated weights increase strictly. -/
theorem logCdf_lt {n i j : Nat} {a b : ℝ} (hij : i < j) (ha : (logCdf n : List ℝ)[i]? = some a)
    (hb : (logCdf n : List ℝ)[j]? = some b) : a < b := by
  have hj : j < n := by
    by_contra hc
    rw [List.getElem?_eq_none (by rw [logCdf_length]; omega)] at hb; cases hb
  rw [logCdf_getElem? (by omega)] at ha
  rw [logCdf_getElem? hj] at hb
  cases ha; cases hb
  refine div_lt_div_of_pos_right ?_ (logWeights_sum_pos (by omega))
  have : (logWeights n : List ℝ).take (j + 1) = (logWeights n).take (i + 1) ++
      ((logWeights n).take (j + 1)).drop (i + 1) := by
    conv_lhs => rw [← List.take_append_drop (i + 1) ((logWeights n : List ℝ).take (j + 1))]
    rw [List.take_take, Nat.min_eq_left (by omega)]
  rw [this, List.sum_append]
  have hpos : 0 < (((logWeights n : List ℝ).take (j + 1)).drop (i + 1)).sum := by
    refine List.sum_pos _ (fun w hw => logWeights_pos n w
      (List.mem_of_mem_take (List.mem_of_mem_drop hw))) ?_
    rw [← List.length_pos_iff, List.length_drop, List.length_take, logWeights_length]; omega
  linarith

/-- `firstGe` returns the least index whose entry reaches `u`. -/
theorem firstGe_spec {P : List ℝ} {u : ℝ} {i : Nat} : firstGe P u = .ok i ↔
    (∃ p, P[i]? = some p ∧ u ≤ p) ∧ ∀ j p, j < i → P[j]? = some p → p < u := by
  unfold firstGe
  rw [aget_eq_ok]
  set p : Nat → Bool := fun i => P[i]?.any fun p => Scalar.leb u p with hp
  have hpi : ∀ i, p i = true ↔ ∃ v, P[i]? = some v ∧ u ≤ v := by
    intro i
    simp only [hp]
    cases h : P[i]? with
    | none => simp
    | some v => simp
  have hlt : ∀ i, p i = true → i < P.length := by
    intro i hi
    obtain ⟨v, h, _⟩ := (hpi i).1 hi
    by_contra hc
    rw [List.getElem?_eq_none (by omega)] at h; cases h
  have hsort : (whereIdx P.length p).Pairwise (· < ·) := List.pairwise_lt_range.filter _
  have hmem : ∀ j, j ∈ whereIdx P.length p ↔ p j = true := fun j => by
    rw [mem_whereIdx]; exact ⟨fun h => h.2, fun h => ⟨hlt j h, h⟩⟩
  generalize hW : whereIdx P.length p = W at hsort hmem
  have hj : (∀ j v, j < i → P[j]? = some v → v < u) ↔ ∀ j, j < i → p j = false := by
    constructor
    · intro h j hj
      rw [← Bool.not_eq_true, hpi]
      rintro ⟨v, h1, h2⟩
      exact absurd (h j v hj h1) (not_lt.2 h2)
    · intro h j v hj hv
      have := h j hj
      rw [← Bool.not_eq_true, hpi] at this
      by_contra hc
      exact this ⟨v, hv, not_lt.1 hc⟩
  rw [← hpi, hj]
  clear hW
  cases W with
  | nil =>
    simp only [List.getElem?_nil, reduceCtorEq, false_iff]
    rintro ⟨h, _⟩
    have := (hmem i).2 h
    simp at this
  | cons w W =>
    rw [List.pairwise_cons] at hsort
    simp only [List.getElem?_cons_zero, Option.some.injEq]
    constructor
    · rintro rfl
      refine ⟨(hmem w).1 (by simp), ?_⟩
      intro j hjw
      rw [← Bool.not_eq_true, ← hmem, List.mem_cons, not_or]
      exact ⟨by omega, fun h => by have := hsort.1 j h; omega⟩
    · rintro ⟨h1, h2⟩
      have := (hmem i).2 h1
      rw [List.mem_cons] at this
      rcases this with h | h
      · exact h.symm
      · have hw := h2 w (hsort.1 i h)
        have := (hmem w).1 (by simp)
        rw [hw] at this; cases this

theorem firstGe_logCdf {n : Nat} (hn : 1 ≤ n) {u : ℝ} (hu : u < 1) :
    ∃ i, firstGe (logCdf n) u = .ok i ∧ i < n := by
  classical
  have hex : ∃ i p, (logCdf n : List ℝ)[i]? = some p ∧ u ≤ p := ⟨n - 1, 1, logCdf_last hn, hu.le⟩
  have hs := Nat.find_spec hex
  refine ⟨Nat.find hex, firstGe_spec.2 ⟨hs, ?_⟩, ?_⟩
  · intro j p hj hp
    by_contra hc
    exact Nat.find_min hex hj ⟨p, hp, not_lt.1 hc⟩
  · obtain ⟨p, h, _⟩ := hs
    by_contra hc
    rw [List.getElem?_eq_none (by rw [logCdf_length]; omega)] at h; cases h

variable {G L : Type} [Gen G ℝ] [LawfulGen G]

theorem wp_choiceLog {n k : Nat} (hn : 1 ≤ n) :
    Wp (G := G) (choiceLog n k) fun r => r.length = k ∧ ∀ j ∈ r, j < n := by
  unfold choiceLog
  split
  · refine Wp.mono (Wp.mapM (R := fun _ j => j < n) ?_) ?_
    · intro _ _
      refine Wp.bind wp_unit fun u hu => ?_
      obtain ⟨i, h1, h2⟩ := firstGe_logCdf hn hu.2
      exact Wp.ofRes h1 h2
    · intro r hr
      refine ⟨by simpa using hr.length_eq.symm, ?_⟩
      intro j hj
      obtain ⟨i, hi, rfl⟩ := List.mem_iff_getElem.1 hj
      have := (List.forall₂_iff_get.1 hr).2 i (by rw [hr.length_eq]; exact hi) hi
      simpa using this
  · refine Wp.pure ⟨by simp, ?_⟩
    intro j hj
    rw [List.mem_replicate] at hj
    omega

theorem wp_drawDilation {q : Nat} (hq : 1 ≤ q) :
    Wp (G := G) (drawDilation (some (Real.logb 2 q))) fun d => 1 ≤ d ∧ d ≤ q ∧
      (d = 1 ∨ d + 1 ≤ q) := by
  unfold drawDilation
  simp only [uniformM]
  refine Wp.bind (P := fun p => ∃ u : ℝ, 0 ≤ u ∧ u < 1 ∧ p = Real.logb 2 q * u) ?_ ?_
  · refine Wp.bind wp_unit fun u hu => Wp.pure ⟨u, hu.1, hu.2, ?_⟩
    have e : ∀ a b : ℝ, (0 : ℝ) + (a - 0) * b = a * b := by intros; ring
    exact e _ _
  · rintro p ⟨u, h1, h2, rfl⟩
    refine Wp.pure ⟨dilOf_ge hq h1, dilOf_le hq h2, ?_⟩
    rcases Nat.eq_or_lt_of_le hq with h | h
    · left
      show dilOf q u = 1
      rw [← h, dilOf_one]
    · exact Or.inr (dilOf_lt h h2)

theorem wp_drawPrimeDilation {q N : Nat} (hq : 1 ≤ q) (hN : q ≤ N) :
    Wp (G := G) (drawPrimeDilation (primeUpTo N) (some (Real.logb 2 q))) fun d =>
      1 ≤ d ∧ d ≤ q ∧ (d = 1 ∨ d.Prime) := by
  unfold drawPrimeDilation
  have hmem : ∀ p, p ∈ (primeUpTo N).filter (fun p => decide (p ≤ powInt (some (Real.logb 2 q)))) ↔
      isPrime p = true ∧ p ≤ q := by
    intro p
    rw [List.mem_filter, powInt_logb hq, decide_eq_true_iff]
    unfold primeUpTo
    rw [mem_whereIdx]
    constructor
    · rintro ⟨⟨_, h⟩, h2⟩; exact ⟨h, h2⟩
    · rintro ⟨h, h2⟩; exact ⟨⟨by omega, h⟩, h2⟩
  have h1 := (hmem 1).2 ⟨by rw [Props.C28_is_prime]; exact Or.inr rfl, hq⟩
  simp only
  generalize (primeUpTo N).filter (fun p => decide (p ≤ powInt (some (Real.logb 2 q)))) = shp
    at hmem h1
  refine Wp.bind (wp_choiceLog (List.length_pos_iff.2 (List.ne_nil_of_mem h1))) fun r hr => ?_
  obtain ⟨hr1, hr2⟩ := hr
  refine Wp.bindRes (aget_ok (by omega)) ?_
  have hlt := hr2 _ (List.getElem_mem (by omega : 0 < r.length))
  refine Wp.ofRes (aget_ok hlt) ?_
  obtain ⟨h2, h3⟩ := (hmem _).1 (List.getElem_mem hlt)
  rw [Props.C28_is_prime] at h2
  refine ⟨?_, h3, h2.symm⟩
  rcases h2 with h | h
  · exact h.one_lt.le
  · rw [h]

theorem maxBound_ok {qs : List Nat} (hne : qs ≠ []) (hq : ∀ q ∈ qs, 1 ≤ q) :
    ∃ q : Nat, maxBound (qs.map fun (q : Nat) => some (Real.logb 2 q)) = .ok (some (Real.logb 2 q)) ∧ q ∈ qs ∧
      ∀ q' ∈ qs, q' ≤ q := by
  cases qs with
  | nil => exact absurd rfl hne
  | cons b l =>
    simp only [List.map_cons, maxBound]
    clear hne
    induction l generalizing b with
    | nil => exact ⟨b, rfl, by simp, by simp⟩
    | cons c l ih =>
      simp only [List.map_cons, List.foldl_cons]
      have hb := hq b (by simp)
      have hc := hq c (by simp)
      have hlt : (Scalar.ltb (Real.logb 2 b) (Real.logb 2 c) = true) ↔ b < c := by
        rw [real_ltb]
        rw [Real.logb_lt_logb_iff (by norm_num) (by exact_mod_cast hb) (by exact_mod_cast hc)]
        exact Nat.cast_lt
      by_cases h : b < c
      · rw [if_pos (hlt.2 h)]
        obtain ⟨q, h1, h2, h3⟩ := ih c (fun q hq' => hq q (by simp at hq' ⊢; tauto))
        refine ⟨q, h1, by simp at h2 ⊢; tauto, ?_⟩
        intro q' hq'
        rcases List.mem_cons.1 hq' with rfl | hq'
        · exact le_trans h.le (h3 c (by simp))
        · exact h3 q' hq'
      · rw [if_neg (fun hh => h (hlt.1 hh))]
        obtain ⟨q, h1, h2, h3⟩ := ih b (fun q hq' => hq q (by simp at hq' ⊢; tauto))
        refine ⟨q, h1, by simp at h2 ⊢; tauto, ?_⟩
        intro q' hq'
        rcases List.mem_cons.1 hq' with rfl | hq'
        · exact h3 q' (by simp)
        · rcases List.mem_cons.1 hq' with rfl | hq'
          · exact le_trans (not_lt.1 h) (h3 b (by simp))
          · exact h3 q' (by simp [hq'])

theorem wp_drawDilations {n : Nat} {lengths : List Nat} (prime : Bool) (hne : lengths ≠ [])
    (hl : ∀ l ∈ lengths, 2 ≤ l ∧ l ≤ n) :
    Wp (G := G) (drawDilations n lengths prime) (List.Forall₂ (DilOK n prime) lengths) := by
  have hub : (lengths.map (upperBound n) : List (Option ℝ)) =
      (lengths.map (dilBound n)).map fun (q : Nat) => some (Real.logb 2 q) := by
    rw [List.map_map]
    refine List.map_congr_left ?_
    intro l hll
    exact upperBound_eq (hl l hll).1 (hl l hll).2
  have conv : ∀ {f : Option ℝ → RM G Nat} {R : Nat → Nat → Prop},
      (∀ l ∈ lengths, Wp (f (upperBound n l)) (R l)) →
      Wp ((lengths.map (upperBound n)).mapM f) (List.Forall₂ R lengths) := by
    intro f R h
    rw [List.mapM_map]
    exact Wp.mapM h
  unfold drawDilations
  simp only
  cases prime with
  | false =>
    simp only [Bool.false_eq_true, if_false]
    refine conv fun l hll => ?_
    obtain ⟨h1, h2⟩ := hl l hll
    rw [upperBound_eq h1 h2]
    refine Wp.mono (wp_drawDilation (dilBound_pos h1 h2)) ?_
    rintro d ⟨h3, h4, h5⟩
    refine ⟨h3, mul_le_of_le_dilBound h4, by simp, fun _ => ?_⟩
    rcases h5 with h5 | h5
    · exact Or.inl h5
    · exact Or.inr ((le_dilBound_iff h1).1 h5)
  | true =>
    simp only [if_true]
    obtain ⟨q, e, hq1, hq2⟩ := maxBound_ok (qs := lengths.map (dilBound n)) (by simpa using hne) (by
      intro q hq
      obtain ⟨l, hll, rfl⟩ := List.mem_map.1 hq
      exact dilBound_pos (hl l hll).1 (hl l hll).2)
    refine Wp.bindRes (by rw [hub]; exact e) ?_
    obtain ⟨l0, hl0, rfl⟩ := List.mem_map.1 hq1
    rw [powInt_logb (dilBound_pos (hl l0 hl0).1 (hl l0 hl0).2)]
    refine conv fun l hll => ?_
    obtain ⟨h1, h2⟩ := hl l hll
    rw [upperBound_eq h1 h2]
    refine Wp.mono (wp_drawPrimeDilation (dilBound_pos h1 h2) (hq2 _ (List.mem_map.2 ⟨l, hll, rfl⟩))) ?_
    rintro d ⟨h3, h4, h5⟩
    exact ⟨h3, mul_le_of_le_dilBound h4, fun _ => h5, by simp⟩

/-- What is known about the drawn parameters. -/
structure InitOK (nShp : Nat) (sizes : List Nat) (n : Nat) (pNorm : ℝ) (prime : Bool)
    (lengths dilations : List Nat) (normalize : List Bool) : Prop where
  len : lengths.length = nShp
  mem : ∀ l ∈ lengths, l ∈ sizes
  dlen : dilations.length = nShp
  dil : ∀ i, i < nShp → DilOK n prime (lengths.getD i 0) (dilations.getD i 0)
  nlen : normalize.length = nShp
  norm_none : pNorm ≤ 0 → ∀ b ∈ normalize, b = false
  norm_all : 1 ≤ pNorm → ∀ b ∈ normalize, b = true

theorem wp_normalize (nShp : Nat) (pNorm : ℝ) :
    Wp (G := G) ((List.range nShp).mapM fun _ => unitM) fun us =>
      (us.map fun u => Scalar.ltb u pNorm).length = nShp ∧
      (pNorm ≤ 0 → ∀ b ∈ us.map fun u => Scalar.ltb u pNorm, b = false) ∧
      (1 ≤ pNorm → ∀ b ∈ us.map fun u => Scalar.ltb u pNorm, b = true) := by
  refine Wp.mono (Wp.mapM (R := fun _ (u : ℝ) => 0 ≤ u ∧ u < 1) fun _ _ => wp_unit) ?_
  intro us hus
  have hall : ∀ u ∈ us, 0 ≤ u ∧ u < 1 := by
    intro u hu
    obtain ⟨i, hi, rfl⟩ := List.mem_iff_getElem.1 hu
    have := (List.forall₂_iff_get.1 hus).2 i (by rw [hus.length_eq]; exact hi) hi
    simpa using this
  refine ⟨by simpa using hus.length_eq.symm, ?_, ?_⟩
  · intro h b hb
    obtain ⟨u, hu, rfl⟩ := List.mem_map.1 hb
    rw [real_ltb_f]
    exact h.trans (hall u hu).1
  · intro h b hb
    obtain ⟨u, hu, rfl⟩ := List.mem_map.1 hb
    rw [real_ltb]
    exact lt_of_lt_of_le (hall u hu).2 h

theorem dilOK_getD {n : Nat} {prime : Bool} {lengths dilations : List Nat}
    (h : List.Forall₂ (DilOK n prime) lengths dilations) :
    dilations.length = lengths.length ∧
      ∀ i, i < lengths.length → DilOK n prime (lengths.getD i 0) (dilations.getD i 0) := by
  refine ⟨h.length_eq.symm, ?_⟩
  intro i hi
  have hi' : i < dilations.length := by rw [← h.length_eq]; exact hi
  have := (List.forall₂_iff_get.1 h).2 i hi hi'
  rw [getD_lt _ hi, getD_lt _ hi']
  simpa using this

theorem uInit_wp {nShp : Nat} {sizes : List Nat} {n : Nat} (pNorm : ℝ) (prime : Bool)
    (hn : 1 ≤ nShp) (hne : sizes ≠ []) (hs : ∀ l ∈ sizes, 2 ≤ l ∧ l ≤ n) :
    Wp (G := G) (uInit nShp sizes n pNorm prime) fun P =>
      InitOK nShp sizes n pNorm prime P.lengths P.dilations P.normalize ∧
      P.threshold = List.replicate nShp 0 ∧
      ∃ mx, (∀ l ∈ sizes, l ≤ mx) ∧ mx ∈ sizes ∧
        P.values = List.replicate nShp (List.replicate mx 0) := by
  unfold uInit
  refine Wp.bind (wp_choiceN hne nShp) fun lengths hlen => ?_
  refine Wp.bind (wp_drawDilations prime (by
    rw [← List.length_pos_iff]; omega) (fun l hl => hs l (hlen.2 l hl))) fun dils hdil => ?_
  obtain ⟨hd1, hd2⟩ := dilOK_getD hdil
  obtain ⟨mx, e, h1, h2⟩ := nmax_ok hne
  refine Wp.bindRes e ?_
  refine Wp.bind (wp_normalize nShp pNorm) fun us hus => ?_
  refine Wp.pure ⟨⟨hlen.1, hlen.2, hd1.trans hlen.1, ?_, hus.1, hus.2.1, hus.2.2⟩, rfl, mx, h2, h1, rfl⟩
  intro i hi
  exact hd2 i (by omega)

theorem mInit_wp {nShp : Nat} {sizes : List Nat} {n : Nat} (pNorm : ℝ) (prime : Bool) {mc : Nat}
    (hn : 1 ≤ nShp) (hne : sizes ≠ []) (hs : ∀ l ∈ sizes, 2 ≤ l ∧ l ≤ n) (hmc : 1 ≤ mc) :
    Wp (G := G) (mInit nShp sizes n pNorm mc prime) fun P =>
      InitOK nShp sizes n pNorm prime P.lengths P.dilations P.normalize ∧
      P.threshold = List.replicate nShp 0 ∧ P.nChannels.length = nShp ∧
      (∀ c ∈ P.nChannels, 1 ≤ c ∧ c ≤ mc) ∧
      P.channelIds = List.replicate P.nChannels.sum 0 ∧
      P.values = List.replicate (List.zipWith (· * ·) P.lengths P.nChannels).sum 0 := by
  unfold mInit
  refine Wp.bind (wp_choiceN hne nShp) fun lengths hlen => ?_
  refine Wp.bind (wp_drawDilations prime (by
    rw [← List.length_pos_iff]; omega) (fun l hl => hs l (hlen.2 l hl))) fun dils hdil => ?_
  obtain ⟨hd1, hd2⟩ := dilOK_getD hdil
  refine Wp.bind (wp_choiceN (a := List.range mc) (by simp; omega) nShp) fun ch hch => ?_
  refine Wp.bind (wp_normalize nShp pNorm) fun us hus => ?_
  refine Wp.pure ⟨⟨hlen.1, hlen.2, hd1.trans hlen.1, ?_, hus.1, hus.2.1, hus.2.2⟩, rfl, by simp [hch.1], ?_,
    rfl, rfl⟩
  · intro i hi
    exact hd2 i (by omega)
  · intro c hc
    obtain ⟨c', hc', rfl⟩ := List.mem_map.1 hc
    have := hch.2 c' hc'
    rw [List.mem_range] at this
    omega

end Convst
