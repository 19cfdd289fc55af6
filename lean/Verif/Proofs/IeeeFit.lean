import Verif.Proofs.Ieee
import Verif.Proofs.RoundedFit
import Verif.Spec.IeeeFit

/-! # The draws and the percentiles of `fit` on numbers of a bounded range -/

set_option autoImplicit false
set_option linter.unusedSectionVars false

namespace Convst
open Spec Ieee

variable {F : FloatFormat} {δ t big : ℝ} {N : Nat}

/-- A generator next to numbers of a bounded range: integer draws in range, unit draws are finite numbers in
`[0, 1)`. -/
class LawfulIeee (G : Type) {F : FloatFormat} [Gen G (Ieee F)] : Prop extends LawfulInt G where
  unit_fin : ∀ g : G, ∃ v : ℝ, (Gen.unit g).1 = (fin v : Ieee F) ∧ 0 ≤ v ∧ v < 1

theorem ieee_eqb_fin (x y : ℝ) : Scalar.eqb (fin x : Ieee F) (fin y) = decide (x = y) := by
  show decide _ = decide _; congr

theorem ieee_eqb_zero (x : Ieee F) : Scalar.eqb x 0 = true ↔ x = 0 := by
  rw [ieee_zero]
  cases x with
  | nan => exact ⟨fun h => (by cases h), fun h => (by cases h)⟩
  | inf s => exact ⟨fun h => (by cases h), fun h => (by cases h)⟩
  | fin x =>
    rw [ieee_eqb_fin, decide_eq_true_iff]
    exact ⟨fun h => by rw [h], fun h => by cases h; rfl⟩

theorem ieee_eqb_self (x : Ieee F) : Scalar.eqb x x = true ↔ x ≠ nan := by
  cases x with
  | nan => exact ⟨fun h => (by cases h), fun h => absurd rfl h⟩
  | inf s => exact ⟨fun _ h => (by cases h), fun _ => by cases s <;> rfl⟩
  | fin x => rw [ieee_eqb_fin]; simp

theorem rnd_zero : F.rnd 0 = 0 := by
  have := F.rnd_nat 0
  rw [Nat.cast_zero, F.r.zero] at this
  exact this

theorem rnd_one : F.rnd 1 = 1 := by
  have := F.rnd_nat 1
  rw [Nat.cast_one, F.r.one] at this
  exact this

namespace Ranged'

variable (h : Ranged F δ t big N)
include h

theorem nonneg {x : ℝ} (hx : 0 ≤ x) : 0 ≤ F.rnd x := by
  have := h.mono 0 x le_rfl hx
  rwa [rnd_zero] at this

/-- Below a bound of normal size. -/
theorem le {x B : ℝ} (hx : 0 ≤ x) (hB : x ≤ B) (ht : t ≤ B) : F.rnd x ≤ (1 + F.r.u) * B := by
  have h1 := h.mono x B hx hB
  rw [h.normal B ht] at h1
  exact h1.trans (F.r.le_of (h.tiny_pos.le.trans ht))

theorem tiny_le {x : ℝ} (hx : t ≤ x) : t ≤ F.rnd x := by
  have := h.mono t x h.tiny_pos.le hx
  rwa [h.normal t le_rfl, h.tiny_exact] at this

theorem tiny_lt_one : t < 1 := by
  have h1 := h.tiny_small
  have hu := F.r.u_nonneg
  have h2 : (1 : ℝ) ≤ (1 + F.r.u) ^ 4 := one_le_pow₀ (by linarith)
  nlinarith [h.tiny_pos]

theorem nat {q : Nat} (hq : q ≤ N) : F.rnd q = q := by
  rw [F.rnd_nat, h.acc.nat q hq]

theorem nat_lt_top {q : Nat} (hq : q ≤ N) : (q : ℝ) < F.top := by
  have : (q : ℝ) ≤ N := by exact_mod_cast hq
  have := h.room
  have : (0 : ℝ) ≤ N := by positivity
  linarith

theorem ofNat {q : Nat} (hq : q ≤ N) : (Scalar.ofNat q : Ieee F) = fin q := by
  show (over (F.rnd q) : Ieee F) = _
  rw [nat h hq, over_nonneg (by positivity) (nat_lt_top h hq)]

end Ranged'

theorem logb_le_self {q : Nat} (hq : 1 ≤ q) : Real.logb 2 q ≤ q := by
  have h0 : (0 : ℝ) < q := by exact_mod_cast hq
  rw [Real.logb_le_iff_le_rpow (by norm_num) h0, Real.rpow_natCast]
  exact_mod_cast (Nat.lt_two_pow_self (n := q)).le

/-! ## Dilations -/

/-- `log2(q)` is a finite number. -/
theorem ieee_log2 (h : Ranged F δ t big N) {q : Nat} (hq : 1 ≤ q) (hqN : q ≤ N) :
    (Scalar.log2 (Scalar.ofNat q) : Ieee F) = fin (F.r.log2 q) ∧ 0 ≤ F.r.log2 q ∧
      F.r.log2 q ≤ (1 + δ) * Real.logb 2 q ∧ F.r.log2 q < F.top := by
  have hq1 : (1 : ℝ) ≤ q := by exact_mod_cast hq
  have hqN' : (q : ℝ) ≤ N := by exact_mod_cast hqN
  have h0 := h.acc.log2_nonneg q hq1
  have h1 := h.acc.log2_le q hq1
  have h2 := logb_le_self hq
  have hl0 : 0 ≤ Real.logb 2 q := Real.logb_nonneg (by norm_num) hq1
  have h3 : F.r.log2 q < F.top := by
    have := h.room
    nlinarith [h.delta_le]
  refine ⟨?_, h0, h1, h3⟩
  rw [Ranged'.ofNat h hqN]
  show (logarithm F.r.log2 (fin (q : ℝ)) : Ieee F) = _
  simp only [logarithm]
  rw [if_neg (by linarith), if_neg (by linarith), over_nonneg h0 h3]

/-- `2**p` for an exponent that is small enough. -/
theorem ieee_pow2 (h : Ranged F δ t big N) {q : Nat} (hq : 1 ≤ q) (hqN : q ≤ N) {p : ℝ} (hp0 : 0 ≤ p)
    (hp : p ≤ (1 + δ) * (1 + F.r.u) ^ 3 * Real.logb 2 q) :
    (Scalar.pow2 (fin p) : Ieee F) = fin (F.r.pow2 p) ∧ 1 ≤ F.r.pow2 p ∧ F.r.pow2 p < q + 1 := by
  have hlt := h.acc.pow_lt hq hqN hp0 hp
  have hge := h.acc.pow2_ge p hp0
  have hqN' : (q : ℝ) ≤ N := by exact_mod_cast hqN
  have := h.room
  have : (0 : ℝ) ≤ N := by positivity
  refine ⟨?_, hge, hlt⟩
  show (growing F.r.pow2 (fin p) : Ieee F) = _
  simp only [growing]
  rw [over_nonneg (by linarith) (by linarith)]

/-- The exponent drawn for a dilation. -/
theorem ieee_exponent (h : Ranged F δ t big N) {q : Nat} (hq : 1 ≤ q) (hqN : q ≤ N) {v : ℝ} (hv0 : 0 ≤ v) (hv1 : v < 1) :
    ∃ p, (0 : Ieee F) + ((Scalar.log2 (Scalar.ofNat q) : Ieee F) - 0) * fin v = fin p ∧ 0 ≤ p ∧
      p ≤ (1 + δ) * (1 + F.r.u) ^ 3 * Real.logb 2 q := by
  obtain ⟨e, h0, h1, hT⟩ := ieee_log2 h hq hqN
  have hu := F.r.u_nonneg
  have hu1 := F.r.u_lt
  have hδ := h.acc.delta
  have hq1 : (1 : ℝ) ≤ q := by exact_mod_cast hq
  have hl0 : 0 ≤ Real.logb 2 q := Real.logb_nonneg (by norm_num) hq1
  have htop := h.room
  have hqN' : (q : ℝ) ≤ N := by exact_mod_cast hqN
  have hN0 : (0 : ℝ) ≤ N := by positivity
  rw [e, ieee_zero, ieee_fin_sub, sub_zero]
  rcases Nat.lt_or_ge 1 q with h2 | h2
  · -- `log2 q` is at least 1
    set L := (1 + δ) * Real.logb 2 q with hL
    have hlog1 : 1 ≤ Real.logb 2 q := by
      rw [Real.le_logb_iff_rpow_le (by norm_num) (by linarith), Real.rpow_one]
      exact_mod_cast h2
    have hL1 : 1 ≤ L := by nlinarith
    have htL : t ≤ L := (Ranged'.tiny_lt_one h).le.trans hL1
    have hLq : L ≤ 2 * q := by
      have := logb_le_self hq
      have := h.delta_le
      nlinarith
    have hc1 : L ≤ (1 + F.r.u) * L := by nlinarith
    have hc2 : (1 + F.r.u) * L ≤ (1 + F.r.u) * ((1 + F.r.u) * L) := by nlinarith
    have hc3 : (1 + F.r.u) * ((1 + F.r.u) * L) ≤ (1 + F.r.u) * ((1 + F.r.u) * ((1 + F.r.u) * L)) := by nlinarith
    have hmax : (1 + F.r.u) * ((1 + F.r.u) * ((1 + F.r.u) * L)) < F.top := by
      have a1 : (1 + F.r.u) * L ≤ 2 * L := by nlinarith
      have a2 : (1 + F.r.u) * ((1 + F.r.u) * L) ≤ 2 * (2 * L) := by nlinarith
      have a3 : (1 + F.r.u) * ((1 + F.r.u) * ((1 + F.r.u) * L)) ≤ 2 * (2 * (2 * L)) := by nlinarith
      linarith
    have b1 := Ranged'.le h h0 h1 htL
    have b0 := Ranged'.nonneg h h0
    rw [over_nonneg b0 (by linarith)]
    show ∃ p, (fin 0 : Ieee F) + (over (F.rnd (F.rnd (F.r.log2 q) * v)) : Ieee F) = fin p ∧ _
    have c0 : 0 ≤ F.rnd (F.r.log2 q) * v := mul_nonneg b0 hv0
    have c1 := Ranged'.le h c0 (B := (1 + F.r.u) * L) (by nlinarith) (by linarith)
    have d0 := Ranged'.nonneg h c0
    rw [over_nonneg d0 (by linarith), ieee_fin_add, zero_add]
    have e1 := Ranged'.le h d0 c1 (by linarith)
    have e0 := Ranged'.nonneg h d0
    rw [over_nonneg e0 (by linarith)]
    exact ⟨_, rfl, e0, e1.trans (by rw [hL]; exact le_of_eq (by ring))⟩
  · have : q = 1 := by omega
    subst this
    have hz : F.r.log2 ((1 : Nat) : ℝ) = 0 := by
      have : Real.logb 2 ((1 : Nat) : ℝ) = 0 := by simp
      rw [this, mul_zero] at h1
      linarith
    rw [hz, rnd_zero, over_zero, ieee_zero]
    refine ⟨0, ?_, le_rfl, by simp⟩
    show (fin 0 : Ieee F) + (over (F.rnd (0 * v)) : Ieee F) = fin 0
    rw [zero_mul, rnd_zero, over_zero, ieee_zero, ieee_fin_add, add_zero, rnd_zero, over_zero, ieee_zero]

/-! ## `choice_log` -/

theorem ieee_weight (h : Ranged F δ t big N) (i : Nat) :
    ∃ w, (1 / Scalar.pow2 (Scalar.log (Scalar.ofNat (i + 1))) : Ieee F) = fin w ∧ 0 ≤ w ∧ w ≤ 1 ∧ (i = 0 → t ≤ w) := by
  have hi : 1 ≤ F.rnd ((i + 1 : Nat) : ℝ) := by
    have := h.mono 1 ((i + 1 : Nat) : ℝ) (by norm_num) (by exact_mod_cast (by omega : 1 ≤ i + 1))
    rwa [rnd_one] at this
  have hinf : ∃ w, (1 / Scalar.pow2 (inf false) : Ieee F) = fin w ∧ 0 ≤ w ∧ w ≤ 1 := ⟨0, rfl, le_rfl, by norm_num⟩
  have hT := F.top_gt
  -- the quotient, for a finite power
  have hdiv : ∀ p : ℝ, 1 ≤ p → (1 / fin p : Ieee F) = fin (F.rnd (1 / p)) ∧ 0 ≤ F.rnd (1 / p) ∧ F.rnd (1 / p) ≤ 1 := by
    intro p hp
    have h0 : 0 ≤ 1 / p := by positivity
    have h1 : 1 / p ≤ 1 := by rw [div_le_one (by linarith)]; exact hp
    have a0 := Ranged'.nonneg h h0
    have a1 := h.mono _ _ h0 h1
    rw [rnd_one] at a1
    refine ⟨?_, a0, a1⟩
    show (Ieee.div (fin 1) (fin p) : Ieee F) = _
    simp only [Ieee.div]
    rw [if_neg (by linarith), over_nonneg a0 (by linarith)]
  have hpow : ∀ x : ℝ, 0 ≤ x → ∃ w, (1 / Scalar.pow2 (fin x) : Ieee F) = fin w ∧ 0 ≤ w ∧ w ≤ 1 := by
    intro x hx
    have hge := h.acc.pow2_ge x hx
    show ∃ w, (1 / (over (F.r.pow2 x) : Ieee F)) = fin w ∧ _
    by_cases ht : F.top ≤ F.r.pow2 x
    · rw [over_top ht]
      exact ⟨0, rfl, le_rfl, by norm_num⟩
    · rw [over_nonneg (by linarith) (not_le.1 ht)]
      exact ⟨_, hdiv _ hge⟩
  by_cases ht : F.top ≤ F.rnd ((i + 1 : Nat) : ℝ)
  · have hi0 : i ≠ 0 := by
      rintro rfl
      rw [show ((0 + 1 : Nat) : ℝ) = 1 by norm_num, rnd_one] at ht
      linarith
    show ∃ w, (1 / Scalar.pow2 (Scalar.log (over (F.rnd ((i + 1 : Nat) : ℝ)))) : Ieee F) = fin w ∧ _
    rw [over_top ht]
    exact ⟨0, rfl, le_rfl, by norm_num, fun h => absurd h hi0⟩
  · have e : (Scalar.log (Scalar.ofNat (i + 1)) : Ieee F) = over (F.r.log (F.rnd ((i + 1 : Nat) : ℝ))) := by
      show (logarithm F.r.log (over (F.rnd ((i + 1 : Nat) : ℝ))) : Ieee F) = _
      rw [over_nonneg (by linarith) (not_le.1 ht)]
      simp only [logarithm]
      rw [if_neg (by linarith), if_neg (by linarith)]
    rw [e]
    have hl := h.log_nonneg _ hi
    by_cases ht' : F.top ≤ F.r.log (F.rnd ((i + 1 : Nat) : ℝ))
    · rw [over_top ht']
      refine ⟨0, rfl, le_rfl, by norm_num, ?_⟩
      rintro rfl
      rw [show ((0 + 1 : Nat) : ℝ) = 1 by norm_num, rnd_one, h.log_one] at ht'
      linarith
    · rw [over_nonneg hl (not_le.1 ht')]
      by_cases hi0 : i = 0
      · subst hi0
        rw [show ((0 + 1 : Nat) : ℝ) = 1 by norm_num, rnd_one, h.log_one]
        have hge := h.acc.pow2_ge 0 le_rfl
        have hle := h.acc.pow2_le 0 le_rfl
        rw [Real.rpow_zero, mul_one] at hle
        have hlt : F.r.pow2 0 < F.top := by
          have := h.room
          have : (0 : ℝ) ≤ N := by positivity
          linarith [h.delta_le]
        have e2 : (Scalar.pow2 (fin 0) : Ieee F) = fin (F.r.pow2 0) := by
          show (over (F.r.pow2 0) : Ieee F) = _
          rw [over_nonneg (by linarith) hlt]
        rw [e2]
        obtain ⟨a, b, c⟩ := hdiv _ hge
        refine ⟨_, a, b, c, fun _ => Ranged'.tiny_le h ?_⟩
        rw [le_div_iff₀ (by linarith)]
        exact (mul_le_mul_of_nonneg_left hle h.tiny_pos.le).trans h.tiny_inv
      · obtain ⟨w, a, b, c⟩ := hpow _ hl
        exact ⟨w, a, b, c, fun h => absurd h hi0⟩

/-- A sum of weights is finite and not 0. -/
theorem ieee_foldl_weights (h : Ranged F δ t big N) (l : List (Ieee F)) (acc : ℝ)
    (hl : ∀ x ∈ l, ∃ w, x = fin w ∧ 0 ≤ w ∧ w ≤ 1) (h0 : 0 ≤ acc) (h1 : acc ≤ big)
    (h2 : t ≤ acc ∨ ∃ w, l.head? = some (fin w) ∧ t ≤ w) :
    ∃ s, l.foldl (· + ·) (fin acc) = fin s ∧ t ≤ s ∧ s ≤ big := by
  induction l generalizing acc with
  | nil =>
    rcases h2 with h2 | ⟨w, hw, -⟩
    · exact ⟨acc, rfl, h2, h1⟩
    · cases hw
  | cons a l ih =>
    obtain ⟨w, rfl, hw0, hw1⟩ := hl a (by simp)
    have htw : t ≤ acc + w := by
      rcases h2 with h2 | ⟨w', hw', h2⟩
      · linarith
      · simp only [List.head?_cons, Option.some.injEq, Ieee.fin.injEq] at hw'
        linarith
    have hs0 := Ranged'.nonneg h (show 0 ≤ acc + w by linarith)
    have hs1 := (h.mono (acc + w) (big + 1) (by linarith) (by linarith)).trans h.absorb
    have hs2 := Ranged'.tiny_le h htw
    rw [List.foldl_cons, ieee_fin_add, over_nonneg hs0 (by linarith [h.big_lt])]
    exact ih _ (fun x hx => hl x (by simp [hx])) hs0 hs1 (Or.inl hs2)

theorem ieee_firstGe_last {P : List (Ieee F)} {u v : ℝ} (hP : P.getLast? = some (fin v)) (h : u ≤ v) :
    ∃ i, firstGe P (fin u) = .ok i ∧ i < P.length := by
  have hne : P ≠ [] := by rintro rfl; cases hP
  have hpos := List.length_pos_of_ne_nil hne
  rw [List.getLast?_eq_getElem?] at hP
  have hmem : P.length - 1 ∈ whereIdx P.length fun i => P[i]?.any fun p => Scalar.leb (fin u) p := by
    rw [mem_whereIdx]
    refine ⟨by omega, ?_⟩
    rw [hP]
    simp only [Option.any_some]
    rw [ieee_leb_fin]
    simpa using h
  unfold firstGe
  generalize hw : (whereIdx P.length fun i => P[i]?.any fun p => Scalar.leb (fin u) p) = w at hmem
  obtain ⟨a, w, rfl⟩ := List.exists_cons_of_ne_nil (List.ne_nil_of_mem hmem)
  refine ⟨a, rfl, ?_⟩
  have : a ∈ whereIdx P.length fun i => P[i]?.any fun p => Scalar.leb (fin u) p := by rw [hw]; simp
  exact (mem_whereIdx.1 this).1

theorem drawSafe_ieee {G : Type} [Gen G (Ieee F)] [LawfulIeee G (F := F)] (h : Ranged F δ t big N) {n : Nat}
    (hn : n ≤ N + 1) : DrawSafe G (Ieee F) n := by
  refine ⟨?_, ?_, ?_⟩
  · intro q hq hqn g
    obtain ⟨v, hv, hv0, hv1⟩ := LawfulIeee.unit_fin (F := F) g
    refine ⟨_, _, rfl, ?_⟩
    obtain ⟨p, e, hp0, hp1⟩ := ieee_exponent h hq (by omega) hv0 hv1
    obtain ⟨e2, hge, hlt⟩ := ieee_pow2 h hq (by omega) hp0 hp1
    show 1 ≤ (Scalar.floor (Scalar.pow2 ((0 : Ieee F) + ((Scalar.log2 (Scalar.ofNat q) : Ieee F) - 0) *
      (Gen.unit g).1))).toNat ∧ (Scalar.floor (Scalar.pow2 ((0 : Ieee F) +
      ((Scalar.log2 (Scalar.ofNat q) : Ieee F) - 0) * (Gen.unit g).1))).toNat ≤ q
    rw [hv, e, e2]
    exact floor_toNat_bounds hge hlt
  · intro q hq hqn
    obtain ⟨e, h0, h1, -⟩ := ieee_log2 h hq (by omega)
    have hu := F.r.u_nonneg
    have hl : (1 : ℝ) ≤ (1 + F.r.u) ^ 3 := one_le_pow₀ (by linarith)
    obtain ⟨e2, hge, hlt⟩ := ieee_pow2 h hq (by omega) h0 (by nlinarith : F.r.log2 q ≤ _)
    unfold powInt
    show 1 ≤ (Scalar.trunc (Scalar.pow2 (Scalar.log2 (Scalar.ofNat q)) : Ieee F)).toNat ∧
      (Scalar.trunc (Scalar.pow2 (Scalar.log2 (Scalar.ofNat q)) : Ieee F)).toNat ≤ q
    rw [e, e2]
    show 1 ≤ (if 0 ≤ F.r.pow2 (F.r.log2 q) then ⌊F.r.pow2 (F.r.log2 q)⌋ else _).toNat ∧
      (if 0 ≤ F.r.pow2 (F.r.log2 q) then ⌊F.r.pow2 (F.r.log2 q)⌋ else _).toNat ≤ q
    rw [if_pos (by linarith)]
    exact floor_toNat_bounds hge hlt
  · intro k hk g
    obtain ⟨v, hv, hv0, hv1⟩ := LawfulIeee.unit_fin (F := F) g
    have hwne : (logWeights k : List (Ieee F)) ≠ [] := by
      unfold logWeights
      exact range_map_ne_nil _ (by omega)
    have hall : ∀ x ∈ (logWeights k : List (Ieee F)), ∃ w, x = fin w ∧ 0 ≤ w ∧ w ≤ 1 := by
      intro x hx
      obtain ⟨i, -, rfl⟩ := List.mem_map.1 hx
      obtain ⟨w, e, h0, h1, -⟩ := ieee_weight h i
      exact ⟨w, e, h0, h1⟩
    have hhead : ∃ w, (logWeights k : List (Ieee F)).head? = some (fin w) ∧ t ≤ w := by
      obtain ⟨w, e, -, -, h2⟩ := ieee_weight h 0
      refine ⟨w, ?_, h2 rfl⟩
      obtain ⟨k, rfl⟩ : ∃ k', k = k' + 1 := ⟨k - 1, by omega⟩
      unfold logWeights
      rw [List.range_succ_eq_map, List.map_cons, List.head?_cons, e]
    obtain ⟨s, hs, hs0, hs1⟩ := ieee_foldl_weights h _ 0 hall le_rfl (by linarith [h.big_ge]) (Or.inr hhead)
    have hs' : ssum (logWeights k : List (Ieee F)) = fin s := hs
    have hlast : (logCdf k : List (Ieee F)).getLast? = some (fin 1) := by
      unfold logCdf
      rw [List.getLast?_map, ssum_scumsum _ _ hwne]
      show some ((logWeights k : List (Ieee F)).foldl (· + ·) (fin 0) / ssum (logWeights k : List (Ieee F))) = _
      rw [hs', hs]
      have hpos := h.tiny_pos
      have : (fin s / fin s : Ieee F) = over (F.rnd (s / s)) := by
        show (Ieee.div (fin s) (fin s) : Ieee F) = _
        simp only [Ieee.div]
        rw [if_neg (by linarith)]
      rw [this, div_self (by linarith), rnd_one, over_nonneg (by norm_num) F.top_gt]
    obtain ⟨i, h1, h2⟩ := ieee_firstGe_last (u := v) hlast hv1.le
    rw [hv]
    refine ⟨i, h1, ?_⟩
    unfold logCdf at h2
    rw [List.length_map, scumsum_len] at h2
    simpa [logWeights] using h2

/-! ## Percentiles -/

/-- The rank is either a number between 1 and the number of distances, or not finite (arrays too long for the
format). -/
theorem ieee_rank (h : Ranged F δ t big N) {q : ℝ} (h0 : 0 ≤ q) (hq : q < 100)
    (hlt : F.r.u + (1 + F.r.u) ^ 4 * (q / 100) < 1) {n : Nat} (hn : 1 ≤ n) :
    (∃ x, (1 : Ieee F) + Scalar.ofNat n * (fin q / Scalar.ofNat 100) = fin x ∧ 1 ≤ x ∧ x < n + 1) ∨
      NotFin ((1 : Ieee F) + Scalar.ofNat n * (fin q / Scalar.ofNat 100)) := by
  have hu := F.r.u_nonneg
  have h1u : (0 : ℝ) ≤ 1 + F.r.u := by linarith
  have hq0 : 0 ≤ q / 100 := by positivity
  have hq1 : q / 100 ≤ 1 := by rw [div_le_one (by norm_num)]; exact hq.le
  have b0 := Ranged'.nonneg h hq0
  have b1 := h.mono _ _ hq0 hq1
  rw [rnd_one] at b1
  have hT := F.top_gt
  have eb : (fin q / Scalar.ofNat 100 : Ieee F) = fin (F.rnd (q / 100)) := by
    rw [Ranged'.ofNat h h.large]
    show (Ieee.div (fin q) (fin ((100 : Nat) : ℝ)) : Ieee F) = _
    simp only [Ieee.div]
    rw [if_neg (by norm_num), show ((100 : Nat) : ℝ) = 100 by norm_num, over_nonneg b0 (by linarith)]
  rw [eb]
  have hn1 : (1 : ℝ) ≤ n := by exact_mod_cast hn
  have a0 : 0 ≤ F.rnd n := Ranged'.nonneg h (by positivity)
  show (∃ x, (1 : Ieee F) + over (F.rnd n) * fin (F.rnd (q / 100)) = fin x ∧ _) ∨
    NotFin ((1 : Ieee F) + over (F.rnd n) * fin (F.rnd (q / 100)))
  by_cases ht : F.top ≤ F.rnd n
  · right
    rw [over_top ht]
    apply notFin_add_right
    show NotFin (if F.rnd (q / 100) = 0 then nan else inf (false ^^ decide (F.rnd (q / 100) < 0)))
    split
    · exact notFin_nan
    · exact notFin_inf _
  rw [over_nonneg a0 (not_le.1 ht)]
  have c0 := Ranged'.nonneg h (mul_nonneg a0 b0)
  show (∃ x, (fin 1 : Ieee F) + over (F.rnd (F.rnd n * F.rnd (q / 100))) = fin x ∧ _) ∨
    NotFin ((fin 1 : Ieee F) + over (F.rnd (F.rnd n * F.rnd (q / 100))))
  by_cases ht2 : F.top ≤ F.rnd (F.rnd n * F.rnd (q / 100))
  · right
    rw [over_top ht2]
    exact notFin_inf _
  rw [over_nonneg c0 (not_le.1 ht2), ieee_fin_add]
  have d0 := Ranged'.nonneg h (show 0 ≤ 1 + F.rnd (F.rnd n * F.rnd (q / 100)) by linarith)
  by_cases ht3 : F.top ≤ F.rnd (1 + F.rnd (F.rnd n * F.rnd (q / 100)))
  · right
    rw [over_top ht3]
    exact notFin_inf _
  left
  rw [over_nonneg d0 (not_le.1 ht3)]
  refine ⟨_, rfl, ?_, ?_⟩
  · have := h.mono 1 _ (by norm_num) (show 1 ≤ 1 + F.rnd (F.rnd n * F.rnd (q / 100)) by linarith)
    rwa [rnd_one] at this
  · -- the chain of roundings, from `B = max (q / 100) t`
    have htl := h.tiny_small
    have ht1 := Ranged'.tiny_lt_one h
    obtain ⟨B, hB1, hB2, hB⟩ : ∃ B, q / 100 ≤ B ∧ t ≤ B ∧ F.r.u + (1 + F.r.u) ^ 4 * B < 1 := by
      rcases le_total (q / 100) t with h' | h'
      · exact ⟨t, h', le_rfl, htl⟩
      · exact ⟨q / 100, le_rfl, h', hlt⟩
    have htp := h.tiny_pos
    have hBp : 0 < B := by linarith
    have e1 := Ranged'.le h hq0 hB1 hB2
    have e2 : F.rnd n ≤ (1 + F.r.u) * n := Ranged'.le h (by positivity) le_rfl (by linarith)
    have e3 : F.rnd n * F.rnd (q / 100) ≤ (1 + F.r.u) * n * ((1 + F.r.u) * B) :=
      mul_le_mul e2 e1 b0 (by positivity)
    have hs1 : (1 : ℝ) ≤ (1 + F.r.u) * (1 + F.r.u) := by nlinarith
    have e4 := Ranged'.le h (mul_nonneg a0 b0) e3 (by
      have : (1 + F.r.u) * n * ((1 + F.r.u) * B) = (1 + F.r.u) * (1 + F.r.u) * (n * B) := by ring
      rw [this]
      have : t ≤ n * B := by nlinarith
      nlinarith)
    have e5 := Ranged'.le h (show 0 ≤ 1 + F.rnd (F.rnd n * F.rnd (q / 100)) by linarith)
      (B := 1 + (1 + F.r.u) * ((1 + F.r.u) * n * ((1 + F.r.u) * B))) (by linarith) (by
        have : 0 ≤ (1 + F.r.u) * ((1 + F.r.u) * n * ((1 + F.r.u) * B)) := by positivity
        linarith)
    have f3 : (1 + F.r.u) * (1 + (1 + F.r.u) * ((1 + F.r.u) * n * ((1 + F.r.u) * B))) =
        1 + F.r.u + n * ((1 + F.r.u) ^ 4 * B) := by ring
    have f4 : (n : ℝ) * (F.r.u + (1 + F.r.u) ^ 4 * B) < n * 1 := mul_lt_mul_of_pos_left hB (by linarith)
    have f5 : F.r.u ≤ n * F.r.u := by nlinarith
    nlinarith

theorem ieee_leb_zero_hundred (h : Ranged F δ t big N) {q : ℝ} (h0 : 0 ≤ q) (h1 : q ≤ 100) :
    (Scalar.leb (0 : Ieee F) (fin q) && Scalar.leb (fin q : Ieee F) (Scalar.ofNat 100)) = true := by
  rw [Ranged'.ofNat h h.large, ieee_zero, ieee_leb_fin, ieee_leb_fin]
  simp [h0, h1]

/-- A percentile that is `PercentileOK` never leaves the array, whatever the array contains. -/
theorem percSafe_ieee (h : Ranged F δ t big N) {q : Ieee F} (hq : Finite (PercentileOK F.r) q) : PercSafe q := by
  cases q with
  | nan => exact hq.elim
  | inf s => exact hq.elim
  | fin q =>
  intro D hD
  obtain ⟨h0, hq⟩ := (hq : PercentileOK F.r q)
  have hle : q ≤ 100 := by rcases hq with h | h <;> linarith
  have hlen := List.length_pos_of_ne_nil hD
  unfold percentile
  rw [if_pos (ieee_leb_zero_hundred h h0 hle)]
  split
  · exact ⟨_, rfl⟩
  unfold percentileInner
  split
  · exact ⟨_, aget_ok (by omega)⟩
  rename_i hl1
  split
  · obtain ⟨a, D, rfl⟩ := List.exists_cons_of_ne_nil hD
    exact ⟨_, rfl⟩
  rename_i hne
  have hlt : q < 100 ∧ F.r.u + (1 + F.r.u) ^ 4 * (q / 100) < 1 := by
    rcases hq with h' | h'
    · refine absurd ?_ hne
      rw [Ranged'.ofNat h h.large, ieee_eqb_fin, h']
      simp
    · exact h'
  have key : (Scalar.floor ((1 : Ieee F) + Scalar.ofNat (D.length - 1) * (fin q / Scalar.ofNat 100))).toNat <
      D.length := by
    rcases ieee_rank h h0 hlt.1 hlt.2 (n := D.length - 1) (by omega) with ⟨x, e, hx1, hx2⟩ | hnf
    · rw [e]
      have := (floor_toNat_bounds hx1 hx2).2
      show ⌊x⌋.toNat < _
      omega
    · rcases notFin_cases hnf with e | ⟨s, e⟩ <;> rw [e] <;> exact hlen
  simp only
  rw [aget_ok (a := ssort D) (by rw [ssort_len]; omega), Res.bind_ok,
    aget_ok (a := ssort D) (by rw [ssort_len]; omega), Res.bind_ok]
  exact ⟨_, rfl⟩

/-! ## Shapelets with an infinite or missing value -/

/-- Infinite (`+∞`) or missing. -/
def Lost (a : Ieee F) : Prop := a = nan ∨ a = inf false

theorem lost_of {a : Ieee F} (h : Tame a) (hn : NotFin a) : Lost a := by
  rcases h with h | h | ⟨x, -, -, h⟩
  · exact Or.inl h
  · exact Or.inr h
  · exact absurd h (hn x)

theorem notFin_sub_left {a : Ieee F} (h : NotFin a) (b : Ieee F) : NotFin (a - b) := notFin_add_left h _

theorem notFin_abs {a : Ieee F} (h : NotFin a) : NotFin (Scalar.abs a) := by
  rcases notFin_cases h with rfl | ⟨s, rfl⟩
  · exact notFin_nan
  · exact notFin_inf _

theorem notFin_foldl_idx {f : Nat → Ieee F} {is : List Nat} (a : Ieee F)
    (h : NotFin a ∨ ∃ j ∈ is, NotFin (f j)) : NotFin (is.foldl (fun s j => s + f j) a) := by
  induction is generalizing a with
  | nil =>
    rcases h with h | ⟨b, hb, -⟩
    · exact h
    · simp at hb
  | cons b w ih =>
    rw [List.foldl_cons]
    apply ih
    rcases h with h | ⟨c, hc, h⟩
    · exact Or.inl (notFin_add_left h _)
    · rcases List.mem_cons.1 hc with rfl | hc
      · exact Or.inl (notFin_add_right h a)
      · exact Or.inr ⟨c, hc, h⟩

/-- A distance to a vector with an infinite or missing value. -/
theorem notFin_l1 {w v : List (Ieee F)} (hl : v.length = w.length) (h : ∃ a ∈ v, NotFin a) : NotFin (l1 w v) := by
  obtain ⟨a, ha, hn⟩ := h
  obtain ⟨j, hj, rfl⟩ := List.getElem_of_mem ha
  unfold l1
  refine notFin_foldl_idx 0 (Or.inr ⟨j, List.mem_range.2 (by omega), notFin_abs (notFin_sub_right ?_ _)⟩)
  rw [getD_lt _ hj]
  exact hn

/-- Interpolating between two infinite distances. -/
theorem lost_interp (h : Ranged F δ t big N) (m : Ieee F) : Lost ((inf false : Ieee F) * (1 - m) + inf false * m) := by
  cases m with
  | nan => exact Or.inl (ieee_add_nan _)
  | inf s => cases s <;> exact Or.inl rfl
  | fin m =>
    have e : (1 - fin m : Ieee F) = over (F.rnd (1 - m)) := ieee_fin_sub 1 m
    have e2 : (inf false * fin m : Ieee F) = if m = 0 then nan else inf (false ^^ decide (m < 0)) := rfl
    rw [e, e2]
    by_cases hm : m = 0
    · rw [if_pos hm]; exact Or.inl (ieee_add_nan _)
    rw [if_neg hm]
    have key : ∀ a : Ieee F, (∃ s, (a = inf s ∧ (m < 0 → s = false))) ∨ (∃ x, a = fin x ∧ (m < 0 → 0 ≤ x)) →
        Lost (inf false * a + inf (false ^^ decide (m < 0))) := by
      rintro a (⟨s, rfl, hs⟩ | ⟨x, rfl, hx⟩)
      · by_cases hm0 : m < 0
        · rw [hs hm0, decide_eq_true hm0]; exact Or.inl rfl
        · rw [decide_eq_false hm0]; cases s
          · exact Or.inr rfl
          · exact Or.inl rfl
      · have e3 : (inf false * fin x : Ieee F) = if x = 0 then nan else inf (false ^^ decide (x < 0)) := rfl
        rw [e3]
        by_cases hx0 : x = 0
        · rw [if_pos hx0]; exact Or.inl rfl
        · rw [if_neg hx0]
          by_cases hm0 : m < 0
          · rw [decide_eq_true hm0, decide_eq_false (not_lt.2 (hx hm0))]; exact Or.inl rfl
          · rw [decide_eq_false hm0]
            by_cases hx1 : x < 0
            · rw [decide_eq_true hx1]; exact Or.inl rfl
            · rw [decide_eq_false hx1]; exact Or.inr rfl
    apply key
    have hnn : m < 0 → 0 ≤ F.rnd (1 - m) := fun h0 => Ranged'.nonneg h (by linarith)
    unfold over
    split
    · exact Or.inl ⟨false, rfl, fun _ => rfl⟩
    · split
      · rename_i h2 h3
        refine Or.inl ⟨true, rfl, fun h0 => ?_⟩
        have := hnn h0
        have := F.top_gt
        linarith
      · exact Or.inr ⟨_, rfl, hnn⟩

theorem mem_ssort {K : Type} [Scalar K] {D : List K} {x : K} : x ∈ ssort D ↔ x ∈ D :=
  (List.mergeSort_perm _ _).mem_iff

/-- The percentiles of lost distances are lost. -/
theorem lost_percentile (h : Ranged F δ t big N) {D : List (Ieee F)} (hD : ∀ x ∈ D, Lost x) {q p : Ieee F}
    (hp : percentile D q = .ok p) : Lost p := by
  unfold percentile at hp
  split at hp
  · split at hp
    · rename_i x hx
      cases hp
      exact hD p (List.mem_of_find?_eq_some hx)
    · rename_i hx
      have hinf : ∀ x ∈ D, x = inf false := by
        intro x hxD
        rcases hD x hxD with rfl | h'
        · have := List.find?_eq_none.1 hx nan hxD
          simp at this
          exact absurd ((ieee_eqb_self (F := F) nan).1 this rfl) id
        · exact h'
      have hget : ∀ i v, aget (ssort D) i = .ok v → v = inf false := by
        intro i v hv
        exact hinf v (mem_ssort.1 (List.mem_of_getElem? (aget_eq_ok.1 hv)))
      unfold percentileInner at hp
      split at hp
      · exact Or.inr (hinf p (List.mem_of_getElem? (aget_eq_ok.1 hp)))
      · split at hp
        · unfold maxOrNan at hp
          obtain ⟨v, hv, hp⟩ := Res.bind_eq_ok.1 hp
          cases hp
          have : v = inf false := by
            cases D with
            | nil => cases hv
            | cons a D =>
              unfold smax at hv
              cases hv
              have : ∀ (E : List (Ieee F)) (a : Ieee F), a = inf false → (∀ x ∈ E, x = inf false) →
                  E.foldl (fun m x => if Scalar.ltb m x then x else m) a = inf false := by
                intro E
                induction E with
                | nil => intro a ha _; exact ha
                | cons b E ih =>
                  intro a ha hE
                  rw [List.foldl_cons]
                  refine ih _ ?_ fun x hx => hE x (by simp [hx])
                  split
                  · exact hE b (by simp)
                  · exact ha
              exact this D a (hinf a (by simp)) fun x hx => hinf x (by simp [hx])
          subst this
          exact Or.inl rfl
        · obtain ⟨a, ha, hp⟩ := Res.bind_eq_ok.1 hp
          obtain ⟨b, hb, hp⟩ := Res.bind_eq_ok.1 hp
          rw [hget _ _ ha, hget _ _ hb] at hp
          cases hp
          exact lost_interp h _
  · cases hp

/-- A threshold computed from lost distances is `NaN`. -/
theorem lost_threshold (h : Ranged F δ t big N) {D : List (Ieee F)} (hD : ∀ x ∈ D, Lost x) {q0 q1 th : Ieee F}
    {draw : Ieee F → Prop} (hth : ThrFrom q0 q1 draw D th) : th = nan := by
  obtain ⟨p0, p1, u, h0, h1, -, rfl⟩ := hth
  have e : p1 - p0 = (nan : Ieee F) := by
    rcases lost_percentile h hD h0 with rfl | rfl <;> rcases lost_percentile h hD h1 with rfl | rfl <;> rfl
  rw [e]
  exact ieee_add_nan _

/-- The features of lost distances with the threshold `NaN`. -/
theorem lost_features {D : List (Ieee F)} (hne : D ≠ []) (hD : ∀ x ∈ D, Lost x) :
    ∃ v, NotFin v ∧ features D nan = (v, fin 0, fin 0) := by
  obtain ⟨y, E, rfl⟩ := List.exists_cons_of_ne_nil hne
  have h1 : scanMin (y :: E) 0 (-1) 0 = scanMin E 1 y 0 := by rw [scanMin, ieee_init]; simp
  have h2 : ∀ (E : List (Ieee F)) (i : Nat), (∀ x ∈ E, Lost x) → scanMin E i (inf false) 0 = (inf false, 0) := by
    intro E
    induction E with
    | nil => intro i _; rfl
    | cons x E ih =>
      intro i hE
      have : Scalar.ltb x (inf false) = false := by
        rcases hE x (by simp) with rfl | rfl <;> rfl
      rw [scanMin, this, ieee_eqb_inf]
      exact ih _ fun z hz => hE z (by simp [hz])
  have h3 : ∃ v, NotFin v ∧ scanMin (y :: E) 0 (-1) 0 = (v, 0) := by
    rw [h1]
    rcases hD y (by simp) with rfl | rfl
    · exact ⟨nan, notFin_nan, scanMin_ieee_nan _ _ _⟩
    · exact ⟨inf false, notFin_inf _, h2 _ _ fun z hz => hD z (by simp [hz])⟩
  obtain ⟨v, hv, h3⟩ := h3
  refine ⟨v, hv, ?_⟩
  have h4 : ((y :: E).countP fun x => Scalar.leb x nan) = 0 := by
    rw [List.countP_eq_zero]
    intro x _
    cases x <;> simp [show ∀ a : Ieee F, Scalar.leb a nan = false from fun a => by cases a <;> rfl]
  have h0 : (Scalar.ofNat 0 : Ieee F) = fin 0 := by
    show (over (F.rnd ((0 : Nat) : ℝ)) : Ieee F) = _
    rw [Nat.cast_zero, rnd_zero, over_zero, ieee_zero]
  unfold features
  rw [h3, h4, h0]

/-- With the threshold `NaN` nothing is counted. -/
theorem ieee_features_nan (D : List (Ieee F)) : (features D nan).2.2 = fin 0 := by
  have h4 : (D.countP fun x => Scalar.leb x nan) = 0 := by
    rw [List.countP_eq_zero]
    intro x _
    simp [show ∀ a : Ieee F, Scalar.leb a nan = false from fun a => by cases a <;> rfl]
  show Scalar.ofNat (D.countP fun x => Scalar.leb x nan) = _
  rw [h4]
  show (over (F.rnd ((0 : Nat) : ℝ)) : Ieee F) = _
  rw [Nat.cast_zero, rnd_zero, over_zero, ieee_zero]

end Convst
