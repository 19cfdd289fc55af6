import Verif.Proofs.ScalerAny
import Verif.Proofs.DoubleFit

/-!
# The scaler in double precision
-/

set_option autoImplicit false
set_option linter.unusedSectionVars false

namespace Convst
open Spec Ieee

variable {F : FloatFormat}

section
variable (hD : Double F)
include hD

theorem Spec.Double.rnd_le_nat {k : Nat} (hk1 : 1 ≤ k) (hk : k ≤ 2 ^ 53) {e : Int} (he : -1022 ≤ e) {x : ℝ}
    (h : |x| ≤ k * (2 : ℝ) ^ e) : |F.rnd x| ≤ k * (2 : ℝ) ^ e := by
  rcases le_or_gt ((2 : ℝ) ^ (-1022 : Int)) |x| with h1 | h1
  · rw [hD.normal x h1]; exact hD.le_nat hk h
  · refine (hD.small x h1.le).trans ((two_le he).trans ?_)
    have : (1 : ℝ) ≤ k := by exact_mod_cast hk1
    nlinarith [two_pos e]

theorem Spec.Double.bd_foldl {e : Int} (he : -1022 ≤ e) (he' : e ≤ 900) :
    ∀ (l : List (Ieee F)) (x : ℝ) (k : Nat), (∀ a ∈ l, Bd e a) → k + l.length ≤ 2 ^ 40 → |x| ≤ k * (2 : ℝ) ^ e →
      ∃ v, l.foldl (· + ·) (fin x) = fin v ∧ |v| ≤ (k + l.length : Nat) * (2 : ℝ) ^ e ∧
        (0 ≤ x → (∀ y, fin y ∈ l → 0 ≤ y) → 0 ≤ v) := by
  intro l
  induction l with
  | nil => intro x k _ _ hx; exact ⟨x, rfl, hx, fun h _ => h⟩
  | cons a l ih =>
    intro x k hl hk hx
    obtain ⟨y, rfl, hy⟩ := hl a (by simp)
    rw [List.length_cons] at hk
    have hxy : |x + y| ≤ (k + 1 : Nat) * (2 : ℝ) ^ e := by
      refine (abs_add_le _ _).trans ?_
      push_cast
      linarith
    have hr := hD.rnd_le_nat (by omega) (by omega) he hxy
    have hov : (fin x + fin y : Ieee F) = fin (F.rnd (x + y)) := by
      show Ieee.over (F.rnd (x + y)) = _
      apply over_fin
      rw [hD.top]
      refine hr.trans_lt ?_
      have h40 : ((k + 1 : Nat) : ℝ) ≤ (2 : ℝ) ^ (40 : Int) := by
        have : k + 1 ≤ 2 ^ 40 := by omega
        calc ((k + 1 : Nat) : ℝ) ≤ ((2 ^ 40 : Nat) : ℝ) := by exact_mod_cast this
          _ = _ := by norm_num
      calc ((k + 1 : Nat) : ℝ) * (2 : ℝ) ^ e ≤ (2 : ℝ) ^ (40 : Int) * (2 : ℝ) ^ e :=
            mul_le_mul_of_nonneg_right h40 (two_pos e).le
        _ = (2 : ℝ) ^ (40 + e) := (two_add _ _).symm
        _ < _ := two_lt (by omega)
    rw [List.foldl_cons, hov]
    obtain ⟨v, h1, h2, h3⟩ := ih (F.rnd (x + y)) (k + 1) (fun b hb => hl b (by simp [hb])) (by omega) hr
    refine ⟨v, h1, ?_, ?_⟩
    · rw [List.length_cons, show k + (l.length + 1) = k + 1 + l.length by omega]; exact h2
    · intro hx0 hpos
      refine h3 (hD.sign _ (add_nonneg hx0 (hpos y (by simp)))) ?_
      intro z hz
      exact hpos z (by simp [hz])

/-- The mean of up to `2⁴⁰` numbers. -/
theorem Spec.Double.bd_mean {e : Int} (he : -1022 ≤ e) (he' : e ≤ 900) {l : List (Ieee F)} (hne : l ≠ [])
    (hl : ∀ a ∈ l, Bd e a) (hn : l.length ≤ 2 ^ 40) :
    ∃ q, Convst.mean l = fin q ∧ q ∈ F.grid ∧ |q| ≤ (2 : ℝ) ^ e ∧ ((∀ y, fin y ∈ l → 0 ≤ y) → 0 ≤ q) := by
  obtain ⟨v, h1, h2, h3⟩ := hD.bd_foldl he he' l 0 0 hl (by omega) (by simp)
  have hs : Convst.ssum l = fin v := h1
  have hpos : 0 < l.length := List.length_pos_of_ne_nil hne
  have hn0 : (0 : ℝ) < l.length := by exact_mod_cast hpos
  have hq : |v / l.length| ≤ (2 : ℝ) ^ e := by
    rw [abs_div, abs_of_pos hn0, div_le_iff₀ hn0, mul_comm]
    rwa [Nat.zero_add] at h2
  have hr := hD.rnd_le he hq
  refine ⟨F.rnd (v / l.length), ?_, F.rnd_grid _, hr, ?_⟩
  · unfold Convst.mean
    rw [hs, hD.ofNat (by omega)]
    show (if (l.length : ℝ) = 0 then _ else Ieee.over (F.rnd (v / l.length))) = _
    rw [if_neg hn0.ne']
    apply over_fin
    rw [hD.top]
    exact hr.trans_lt (two_lt (by omega))
  · intro hp
    exact hD.sign _ (div_nonneg (h3 le_rfl hp) hn0.le)

/-- The standard deviation of up to `2⁴⁰` numbers: 0, or not below `2⁻⁵³⁷`. -/
theorem Spec.Double.bd_std {e : Int} (he : 0 ≤ e) (he' : e ≤ 430) {l : List (Ieee F)} (hne : l ≠ [])
    (hl : ∀ a ∈ l, Bd e a) (hn : l.length ≤ 2 ^ 40) :
    ∃ y, Convst.std l = fin y ∧ (y = 0 ∨ (2 : ℝ) ^ (-537 : Int) ≤ y) := by
  obtain ⟨m, hm, -, hm2, -⟩ := hD.bd_mean (by omega) (by omega) hne hl hn
  have hdev : ∀ a ∈ l, Bd (e + 1) (a - fin m) := fun a ha => hD.bd_sub (by omega) (by omega) (hl a ha) ⟨m, rfl, hm2⟩
  have hsq : ∀ b ∈ l.map (fun v => (v - fin m) * (v - fin m)), Bd (e + 1 + (e + 1)) b := by
    intro b hb
    obtain ⟨a, ha, rfl⟩ := List.mem_map.1 hb
    exact hD.bd_mul (by omega) (by omega) (hdev a ha) (hdev a ha)
  have hpos : ∀ y, fin y ∈ l.map (fun v => (v - fin m) * (v - fin m)) → 0 ≤ y := by
    intro y hy
    obtain ⟨a, ha, h⟩ := List.mem_map.1 hy
    obtain ⟨d, hd, hd2⟩ := hdev a ha
    rw [hd] at h
    have hov : (fin d * fin d : Ieee F) = fin (F.rnd (d * d)) := by
      show Ieee.over (F.rnd (d * d)) = _
      apply over_fin
      rw [hD.top]
      refine (hD.rnd_le (e := e + 1 + (e + 1)) (by omega) ?_).trans_lt (two_lt (by omega))
      rw [abs_mul, two_add]
      exact mul_le_mul hd2 hd2 (abs_nonneg _) (two_pos _).le
    rw [hov] at h
    cases h
    exact hD.sign _ (mul_self_nonneg d)
  obtain ⟨q, hq, hg, hq2, hq0⟩ := hD.bd_mean (by omega) (by omega) (by simpa using hne) hsq
    (by rw [List.length_map]; exact hn)
  have hq0 := hq0 hpos
  have hstd : Convst.std l = Ieee.over (F.rnd (Real.sqrt q)) := by
    unfold Convst.std
    simp only
    rw [hm, hq]
    show (if q < 0 then _ else Ieee.over (F.rnd (Real.sqrt q))) = _
    rw [if_neg (not_lt.2 hq0)]
  rw [hstd]
  have hs0 := Real.sqrt_nonneg q
  have hsle : |Real.sqrt q| ≤ (2 : ℝ) ^ (e + 1) := by
    rw [abs_of_nonneg hs0, Real.sqrt_le_left (two_pos _).le, pow_two, ← two_add]
    exact (le_abs_self _).trans hq2
  have hr := hD.rnd_le (by omega) hsle
  refine ⟨F.rnd (Real.sqrt q), ?_, ?_⟩
  · apply over_fin
    rw [hD.top]
    exact hr.trans_lt (two_lt (by omega))
  · rcases hD.least q hg with rfl | h1
    · left
      rw [Real.sqrt_zero]
      have := F.rnd_nat 0
      rw [Nat.cast_zero] at this
      rw [this]; exact F.r.zero
    · right
      rw [abs_of_nonneg hq0] at h1
      have h2 : (2 : ℝ) ^ (-537 : Int) ≤ Real.sqrt q := by
        apply Real.le_sqrt_of_sq_le
        rw [pow_two, ← two_add]
        exact h1
      have h3 : (2 : ℝ) ^ (-537 : Int) ≤ |Real.sqrt q| := h2.trans (le_abs_self _)
      have h4 := hD.ge h3
      rw [← hD.normal _ ((two_le (by norm_num)).trans h3), abs_of_nonneg (hD.sign _ hs0)] at h4
      exact h4

theorem Spec.Double.handleZero {y : ℝ} (h : y = 0 ∨ (2 : ℝ) ^ (-537 : Int) ≤ y) :
    ∃ z, Convst.handleZero (fin y : Ieee F) = fin z ∧ (2 : ℝ) ^ (-537 : Int) ≤ z := by
  unfold Convst.handleZero
  by_cases h0 : y = 0
  · subst h0
    rw [if_pos ((ieee_eqb_zero (fin 0 : Ieee F)).2 rfl)]
    refine ⟨1, rfl, ?_⟩
    calc (2 : ℝ) ^ (-537 : Int) ≤ (2 : ℝ) ^ (0 : Int) := two_le (by norm_num)
      _ = 1 := by norm_num
  · rw [if_neg]
    · exact ⟨y, rfl, h.resolve_left h0⟩
    · intro hc
      have := (ieee_eqb_zero _).1 hc
      cases this
      exact h0 rfl

/-- Scaled cells are finite. -/
theorem Spec.Double.finite_scaled {a : Ieee F} {m z : ℝ} (ha : Bd 409 a) (hm : |m| ≤ (2 : ℝ) ^ (409 : Int))
    (hz : (2 : ℝ) ^ (-537 : Int) ≤ z) : IsFinite ((a - fin m) / fin z) := by
  obtain ⟨d, hd, hd2⟩ := hD.bd_sub (by norm_num) (by norm_num) ha ⟨m, rfl, hm⟩
  rw [hd]
  have hz0 : 0 < z := (two_pos _).trans_le hz
  have e : (fin d / fin z : Ieee F) = Ieee.over (F.rnd (d / z)) := by
    show (if z = 0 then _ else Ieee.over (F.rnd (d / z))) = _
    rw [if_neg hz0.ne']
  rw [e]
  refine (hD.bd (e := 947) (by norm_num) (by norm_num) ?_).finite
  rw [abs_div, abs_of_pos hz0, div_le_iff₀ hz0]
  calc |d| ≤ (2 : ℝ) ^ (409 + 1 : Int) := hd2
    _ = (2 : ℝ) ^ (947 : Int) * (2 : ℝ) ^ (-537 : Int) := by rw [← two_add]; norm_num
    _ ≤ _ := mul_le_mul_of_nonneg_left hz (two_pos _).le

/-- Fitting the scaler on bounded numbers and applying it to bounded numbers. -/
theorem Spec.Double.scaler {nc : Nat} {X : List (List (Ieee F))} (hX : ∀ r ∈ X, r.length = nc ∧ ∀ a ∈ r, Bd 409 a)
    (hn : X.length ≤ 2 ^ 40) {s : Scaler (Ieee F)} (hs : Scaler.fitStandard X nc = .ok s) {Z : List (List (Ieee F))}
    (hZ : ∀ r ∈ Z, r.length = nc ∧ ∀ a ∈ r, Bd 409 a) :
    ∃ Zs, s.transformStandard Z = .ok Zs ∧ Zs.length = Z.length ∧
      ∀ row ∈ Zs, row.length = s.atts.length ∧ ∀ a ∈ row, IsFinite a := by
  have heq := fitStandard_any (fun r hr => (hX r hr).1)
  simp only at heq
  rw [heq] at hs
  split at hs
  · cases hs
  · rename_i hc
    push Not at hc
    cases hs
    have hlt : ∀ j ∈ whereIdx nc fun j => !(Scalar.eqb (Convst.std (colAt X j)) 0), j < nc := fun j hj => (mem_whereIdx.1 hj).1
    refine ⟨_, transformStandard_any (fun r hr => (hZ r hr).1) hlt, by rw [List.length_map], ?_⟩
    intro row hrow
    obtain ⟨r, hr, rfl⟩ := List.mem_map.1 hrow
    refine ⟨by simp [standardRow], ?_⟩
    intro a ha
    obtain ⟨j, hj, rfl⟩ := standardRow_mem ha
    have hj' := hlt j hj
    have hcne : colAt X j ≠ [] := by simpa [colAt] using hc.1
    have hcl : (colAt X j).length ≤ 2 ^ 40 := by simpa [colAt] using hn
    have hcb : ∀ a ∈ colAt X j, Bd 409 a := by
      intro a ha
      obtain ⟨r, hr, har⟩ := colAt_mem (fun r hr => (hX r hr).1) hj' ha
      exact (hX r hr).2 a har
    obtain ⟨m, hm, -, hm2, -⟩ := hD.bd_mean (by norm_num) (by norm_num) hcne hcb hcl
    obtain ⟨y, hy, hy2⟩ := hD.bd_std (by norm_num) (by norm_num) hcne hcb hcl
    obtain ⟨z, hz, hz2⟩ := hD.handleZero hy2
    rw [hm, hy, hz]
    refine hD.finite_scaled ?_ hm2 hz2
    refine (hZ r hr).2 _ ?_
    rw [getD_lt _ (by rw [(hZ r hr).1]; exact hj')]
    exact List.getElem_mem _

end

end Convst
