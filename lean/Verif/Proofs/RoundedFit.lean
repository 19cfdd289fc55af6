import Verif.Proofs.FitSafeAll
import Verif.Spec.RoundedFit

/-! # The draws of `fit` in rounded arithmetic -/

set_option autoImplicit false
set_option linter.unusedSectionVars false

namespace Convst
open Spec

/-- A generator of the rounded arithmetic: integer draws in range, unit draws in `[0, 1)`. -/
class LawfulFl (G : Type) {r : Rounding} [Gen G (Fl r)] : Prop extends LawfulInt G where
  unit_nonneg : ∀ g : G, 0 ≤ (Gen.unit g).1.val
  unit_lt : ∀ g : G, (Gen.unit g).1.val < 1

variable {r : Rounding} {δ : ℝ} {N : Nat}

theorem fl_eqb_zero (x : Fl r) : Scalar.eqb x 0 = true ↔ x = 0 := fl_eqb x 0

theorem _root_.Convst.Spec.Accurate.pow_lt (h : Accurate r δ N) {q : Nat} (hq : 1 ≤ q) (hqN : q ≤ N) {p : ℝ} (hp0 : 0 ≤ p)
    (hp : p ≤ (1 + δ) * (1 + r.u) ^ 3 * Real.logb 2 q) : r.pow2 p < q + 1 := by
  have hδ := h.delta
  have hu := r.u_nonneg
  have hq0 : (0 : ℝ) < q := by exact_mod_cast hq
  have hq1 : (1 : ℝ) ≤ q := by exact_mod_cast hq
  have hqN' : (q : ℝ) ≤ N := by exact_mod_cast hqN
  have hN0 : (0 : ℝ) < N := lt_of_lt_of_le hq0 hqN'
  have h1 : (1 : ℝ) ≤ (1 + r.u) ^ 3 := one_le_pow₀ (by linarith)
  have hε : 0 ≤ (1 + δ) * (1 + r.u) ^ 3 - 1 := by nlinarith
  have e1 : (2 : ℝ) ^ ((1 + δ) * (1 + r.u) ^ 3 * Real.logb 2 q) =
      q * (q : ℝ) ^ ((1 + δ) * (1 + r.u) ^ 3 - 1) := by
    rw [mul_comm, Real.rpow_mul (by norm_num), Real.rpow_logb (by norm_num) (by norm_num) hq0]
    conv_rhs => rw [← Real.rpow_one_add' hq0.le (by linarith)]
    congr 1
    ring
  have e2 : (q : ℝ) ^ ((1 + δ) * (1 + r.u) ^ 3 - 1) ≤ (N : ℝ) ^ ((1 + δ) * (1 + r.u) ^ 3 - 1) :=
    Real.rpow_le_rpow hq0.le hqN' hε
  calc r.pow2 p ≤ (1 + δ) * (2 : ℝ) ^ p := h.pow2_le p hp0
    _ ≤ (1 + δ) * (2 : ℝ) ^ ((1 + δ) * (1 + r.u) ^ 3 * Real.logb 2 q) :=
        mul_le_mul_of_nonneg_left (Real.rpow_le_rpow_of_exponent_le (by norm_num) hp) (by linarith)
    _ = q * ((1 + δ) * (q : ℝ) ^ ((1 + δ) * (1 + r.u) ^ 3 - 1)) := by rw [e1]; ring
    _ ≤ q * ((1 + δ) * (N : ℝ) ^ ((1 + δ) * (1 + r.u) ^ 3 - 1)) := by gcongr
    _ < q * (1 + 1 / N) := mul_lt_mul_of_pos_left h.small hq0
    _ = q + q / N := by ring
    _ ≤ q + 1 := by
        have : (q : ℝ) / N ≤ 1 := (div_le_one hN0).2 hqN'
        linarith

theorem floor_toNat_bounds {x : ℝ} {q : Nat} (h1 : 1 ≤ x) (h2 : x < q + 1) :
    1 ≤ ⌊x⌋.toNat ∧ ⌊x⌋.toNat ≤ q := by
  have a : (1 : Int) ≤ ⌊x⌋ := Int.le_floor.2 (by simpa using h1)
  have b : ⌊x⌋ < (q : Int) + 1 := Int.floor_lt.2 (by push_cast; exact h2)
  omega

theorem ssum_scumsum {K : Type} [Scalar K] (acc : K) (l : List K) (hl : l ≠ []) :
    (scumsum acc l).getLast? = some (l.foldl (· + ·) acc) := by
  induction l generalizing acc with
  | nil => exact absurd rfl hl
  | cons a l ih =>
    cases l with
    | nil => rfl
    | cons b l =>
      have := ih (acc + a) (by simp)
      simp only [scumsum, List.foldl_cons] at this ⊢
      rw [List.getLast?_cons_cons]
      exact this

theorem scumsum_len {K : Type} [Scalar K] (acc : K) (l : List K) : (scumsum acc l).length = l.length := by
  induction l generalizing acc with
  | nil => rfl
  | cons a l ih => simp [scumsum, ih]

theorem fl_foldl_pos (l : List (Fl r)) (acc : Fl r) (h : ∀ x ∈ l, 0 < x.val) (hacc : 0 ≤ acc.val)
    (hl : l ≠ [] ∨ 0 < acc.val) : 0 < (l.foldl (· + ·) acc).val := by
  induction l generalizing acc with
  | nil =>
    rcases hl with h' | h'
    · exact absurd rfl h'
    · exact h'
  | cons a l ih =>
    have ha := h a (by simp)
    have hp : 0 < (acc + a).val := by
      rw [fl_add]
      have h1 := r.ge_of (x := acc.val + a.val) (by linarith)
      have h2 : 0 < (1 - r.u) * (acc.val + a.val) := mul_pos (by linarith [r.u_lt]) (by linarith)
      linarith
    exact ih (acc + a) (fun x hx => h x (by simp [hx])) hp.le (Or.inr hp)

theorem firstGe_of_last {P : List (Fl r)} {u v : Fl r} (hP : P.getLast? = some v) (h : u.val ≤ v.val) :
    ∃ i, firstGe P u = .ok i ∧ i < P.length := by
  have hne : P ≠ [] := by rintro rfl; cases hP
  have hpos := List.length_pos_of_ne_nil hne
  rw [List.getLast?_eq_getElem?] at hP
  have hmem : P.length - 1 ∈ whereIdx P.length fun i => P[i]?.any fun p => Scalar.leb u p := by
    rw [mem_whereIdx]
    refine ⟨by omega, ?_⟩
    rw [hP]
    simpa using h
  unfold firstGe
  generalize hw : (whereIdx P.length fun i => P[i]?.any fun p => Scalar.leb u p) = w at hmem
  obtain ⟨a, w, rfl⟩ := List.exists_cons_of_ne_nil (List.ne_nil_of_mem hmem)
  refine ⟨a, rfl, ?_⟩
  have : a ∈ whereIdx P.length fun i => P[i]?.any fun p => Scalar.leb u p := by rw [hw]; simp
  exact (mem_whereIdx.1 this).1

theorem drawSafe_fl {G : Type} [Gen G (Fl r)] [LawfulFl G] (h : Accurate r δ N) {n : Nat} (hn : n ≤ N + 1) :
    DrawSafe G (Fl r) n := by
  have hδ := h.delta
  have hu := r.u_nonneg
  refine ⟨?_, ?_, ?_⟩
  · intro q hq hqn
    have hqN : q ≤ N := by omega
    have hq1 : (1 : ℝ) ≤ q := by exact_mod_cast hq
    intro g
    refine ⟨_, _, rfl, ?_⟩
    have hb : (Scalar.log2 (Scalar.ofNat q) : Fl r).val = r.log2 q := by
      rw [fl_log2, fl_ofNat, h.nat q hqN]
    have hp : ((0 : Fl r) + ((Scalar.log2 (Scalar.ofNat q) : Fl r) - 0) * (Gen.unit g).1).val =
        r.rnd (0 + r.rnd (r.rnd (r.log2 q - 0) * (Gen.unit g).1.val)) := by
      rw [fl_add, fl_mul, fl_sub, hb]
      rfl
    have hu0 := LawfulFl.unit_nonneg (r := r) g
    have hu1 := LawfulFl.unit_lt (r := r) g
    have hb0 := h.log2_nonneg q hq1
    have hb1 := h.log2_le q hq1
    have hl0 : 0 ≤ Real.logb 2 q := Real.logb_nonneg (by norm_num) hq1
    rw [sub_zero, zero_add] at hp
    have hx0 : 0 ≤ r.rnd (r.log2 q) := r.nonneg hb0
    have hx1 := r.le_of hb0
    have hy0 : 0 ≤ r.rnd (r.log2 q) * (Gen.unit g).1.val := mul_nonneg hx0 hu0
    have hy1 : r.rnd (r.log2 q) * (Gen.unit g).1.val ≤ (1 + r.u) * r.log2 q := by nlinarith
    have hz0 := r.nonneg hy0
    have hz1 := r.le_of hy0
    have hw0 := r.nonneg hz0
    have hw1 := r.le_of hz0
    have hle : r.rnd (r.rnd (r.rnd (r.log2 q) * (Gen.unit g).1.val)) ≤
        (1 + δ) * (1 + r.u) ^ 3 * Real.logb 2 q := by
      have h1u : 0 ≤ 1 + r.u := by linarith
      calc _ ≤ (1 + r.u) * ((1 + r.u) * ((1 + r.u) * ((1 + δ) * Real.logb 2 q))) := by
            refine hw1.trans (mul_le_mul_of_nonneg_left (hz1.trans (mul_le_mul_of_nonneg_left
              (hy1.trans (mul_le_mul_of_nonneg_left hb1 h1u)) h1u)) h1u)
        _ = _ := by ring
    have hlt := h.pow_lt hq hqN hw0 hle
    have hge := h.pow2_ge _ hw0
    show 1 ≤ (⌊(Scalar.pow2 ((0 : Fl r) + ((Scalar.log2 (Scalar.ofNat q) : Fl r) - 0) *
      (Gen.unit g).1) : Fl r).val⌋).toNat ∧ (⌊(Scalar.pow2 ((0 : Fl r) +
      ((Scalar.log2 (Scalar.ofNat q) : Fl r) - 0) * (Gen.unit g).1) : Fl r).val⌋).toNat ≤ q
    rw [fl_pow2, hp]
    exact floor_toNat_bounds hge hlt
  · intro q hq hqn
    have hqN : q ≤ N := by omega
    have hq1 : (1 : ℝ) ≤ q := by exact_mod_cast hq
    have hb0 := h.log2_nonneg q hq1
    have hb1 := h.log2_le q hq1
    have hl0 : 0 ≤ Real.logb 2 q := Real.logb_nonneg (by norm_num) hq1
    have h1 : (1 : ℝ) ≤ (1 + r.u) ^ 3 := one_le_pow₀ (by linarith)
    have hle : r.log2 q ≤ (1 + δ) * (1 + r.u) ^ 3 * Real.logb 2 q := by
      have : 0 ≤ (1 + δ) * Real.logb 2 q := mul_nonneg (by linarith) hl0
      nlinarith
    have hlt := h.pow_lt hq hqN hb0 hle
    have hge := h.pow2_ge _ hb0
    unfold powInt
    show 1 ≤ (Scalar.trunc (Scalar.pow2 (Scalar.log2 (Scalar.ofNat q)) : Fl r)).toNat ∧
      (Scalar.trunc (Scalar.pow2 (Scalar.log2 (Scalar.ofNat q)) : Fl r)).toNat ≤ q
    rw [fl_trunc, fl_pow2, fl_log2, fl_ofNat, h.nat q hqN, if_pos (by linarith)]
    exact floor_toNat_bounds hge hlt
  · intro k hk g
    have hwne : (logWeights k : List (Fl r)) ≠ [] := by
      unfold logWeights
      exact range_map_ne_nil _ (by omega)
    have hpos : ∀ x ∈ (logWeights k : List (Fl r)), 0 < x.val := by
      intro x hx
      obtain ⟨i, -, rfl⟩ := List.mem_map.1 hx
      rw [fl_div, fl_one, fl_pow2]
      have h0 := h.pow2_pos (Scalar.log (Scalar.ofNat (i + 1) : Fl r)).val
      have h1 : 0 < 1 / r.pow2 (Scalar.log (Scalar.ofNat (i + 1) : Fl r)).val := by positivity
      have h2 := r.ge_of h1.le
      have h3 := mul_pos (show 0 < 1 - r.u by linarith [r.u_lt]) h1
      linarith
    have hs : 0 < (ssum (logWeights k : List (Fl r))).val :=
      fl_foldl_pos _ 0 hpos le_rfl (Or.inl hwne)
    have hlast : (logCdf k : List (Fl r)).getLast? =
        some (ssum (logWeights k : List (Fl r)) / ssum (logWeights k : List (Fl r))) := by
      unfold logCdf
      rw [List.getLast?_map, ssum_scumsum _ _ hwne]
      rfl
    have hone : (ssum (logWeights k : List (Fl r)) / ssum (logWeights k : List (Fl r))).val = 1 := by
      rw [fl_div, div_self hs.ne', r.one]
    obtain ⟨i, h1, h2⟩ := firstGe_of_last (u := (Gen.unit g).1) hlast (by
      rw [hone]; exact (LawfulFl.unit_lt (r := r) g).le)
    refine ⟨i, h1, ?_⟩
    unfold logCdf at h2
    rw [List.length_map, scumsum_len] at h2
    simpa [logWeights] using h2

theorem ssort_len {K : Type} [Scalar K] (D : List K) : (ssort D).length = D.length := by
  unfold ssort; exact List.length_mergeSort ..

/-- A percentile that is `PercentileOK` never leaves the array. -/
theorem percSafe_fl (h100 : r.rnd 100 = 100) {q : Fl r} (hq : PercentileOK r q.val) : PercSafe q := by
  intro D hD
  obtain ⟨h0, hq⟩ := hq
  have e100 : (Scalar.ofNat 100 : Fl r).val = 100 := by rw [fl_ofNat]; exact_mod_cast h100
  have hle : q.val ≤ 100 := by rcases hq with h | h <;> linarith
  have hlen := List.length_pos_of_ne_nil hD
  rw [percentile_num fun x _ => (fl_eqb x x).2 rfl]
  unfold percentileInner
  rw [if_pos (by
    rw [Bool.and_eq_true, fl_leb, fl_leb, e100]
    exact ⟨h0, hle⟩)]
  split
  · exact ⟨_, aget_ok (by omega)⟩
  rename_i hl1
  split
  · obtain ⟨a, D, rfl⟩ := List.exists_cons_of_ne_nil hD
    exact ⟨_, rfl⟩
  rename_i hne
  have hlt : q.val < 100 ∧ r.u + (1 + r.u) ^ 4 * (q.val / 100) < 1 := by
    rcases hq with h | h
    · exact absurd ((fl_eqb _ _).2 (by rw [e100]; exact h)) hne
    · exact h
  have hu := r.u_nonneg
  have hn2 : (1 : ℝ) ≤ ((D.length - 1 : Nat) : ℝ) := by
    have : 1 ≤ D.length - 1 := by omega
    exact_mod_cast this
  have hrank : ((1 : Fl r) + Scalar.ofNat (D.length - 1) * (q / Scalar.ofNat 100)).val =
      r.rnd (1 + r.rnd (r.rnd ((D.length - 1 : Nat) : ℝ) * r.rnd (q.val / 100))) := by
    rw [fl_add, fl_mul, fl_div, fl_ofNat, fl_one, e100]
  have hq0 : 0 ≤ q.val / 100 := by positivity
  have h1u : 0 ≤ 1 + r.u := by linarith
  have a1 := r.le_of hq0
  have a0 := r.nonneg hq0
  have b1 := r.le_of (show (0 : ℝ) ≤ ((D.length - 1 : Nat) : ℝ) by positivity)
  have b0 := r.nonneg (show (0 : ℝ) ≤ ((D.length - 1 : Nat) : ℝ) by positivity)
  have c0 : 0 ≤ r.rnd ((D.length - 1 : Nat) : ℝ) * r.rnd (q.val / 100) := mul_nonneg b0 a0
  have c1 : r.rnd ((D.length - 1 : Nat) : ℝ) * r.rnd (q.val / 100) ≤
      (1 + r.u) * ((D.length - 1 : Nat) : ℝ) * ((1 + r.u) * (q.val / 100)) :=
    mul_le_mul b1 a1 a0 (mul_nonneg h1u (by positivity))
  have d0 := r.nonneg c0
  have d1 := r.le_of c0
  have e1 := r.le_of (show 0 ≤ 1 + r.rnd (r.rnd ((D.length - 1 : Nat) : ℝ) * r.rnd (q.val / 100)) by linarith)
  have e0 : 1 ≤ r.rnd (1 + r.rnd (r.rnd ((D.length - 1 : Nat) : ℝ) * r.rnd (q.val / 100))) := by
    rw [← r.one]
    conv_rhs => rw [r.one]
    exact r.mono (by linarith)
  have hlt' : r.rnd (1 + r.rnd (r.rnd ((D.length - 1 : Nat) : ℝ) * r.rnd (q.val / 100))) < D.length := by
    have hcast : (D.length : ℝ) = 1 + ((D.length - 1 : Nat) : ℝ) := by
      have : D.length = 1 + (D.length - 1) := by omega
      exact_mod_cast this
    rw [hcast]
    generalize ((D.length - 1 : Nat) : ℝ) = n at *
    have f1 : r.rnd (r.rnd n * r.rnd (q.val / 100)) ≤ (1 + r.u) * ((1 + r.u) * n * ((1 + r.u) * (q.val / 100))) :=
      d1.trans (mul_le_mul_of_nonneg_left c1 h1u)
    have f2 : r.rnd (1 + r.rnd (r.rnd n * r.rnd (q.val / 100))) ≤
        (1 + r.u) * (1 + (1 + r.u) * ((1 + r.u) * n * ((1 + r.u) * (q.val / 100)))) :=
      e1.trans (mul_le_mul_of_nonneg_left (by linarith) h1u)
    have f3 : (1 + r.u) * (1 + (1 + r.u) * ((1 + r.u) * n * ((1 + r.u) * (q.val / 100)))) =
        1 + r.u + n * ((1 + r.u) ^ 4 * (q.val / 100)) := by ring
    have f4 : n * (r.u + (1 + r.u) ^ 4 * (q.val / 100)) < n * 1 := mul_lt_mul_of_pos_left hlt.2 (by linarith)
    have f5 : r.u ≤ n * r.u := by nlinarith
    nlinarith
  have hf : Scalar.floor ((1 : Fl r) + Scalar.ofNat (D.length - 1) * (q / Scalar.ofNat 100)) =
      ⌊r.rnd (1 + r.rnd (r.rnd ((D.length - 1 : Nat) : ℝ) * r.rnd (q.val / 100)))⌋ := by
    rw [fl_floor, hrank]
  obtain ⟨g1, g2⟩ := floor_toNat_bounds (q := D.length - 1) e0 (by
    have hcast : (D.length : ℝ) = ((D.length - 1 : Nat) : ℝ) + 1 := by
      have : D.length = (D.length - 1) + 1 := by omega
      exact_mod_cast this
    rw [← hcast]; exact hlt')
  rw [← hf] at g1 g2
  simp only
  rw [aget_ok (a := ssort D) (by rw [ssort_len]; omega), Res.bind_ok,
    aget_ok (a := ssort D) (by rw [ssort_len]; omega), Res.bind_ok]
  exact ⟨_, rfl⟩

end Convst
