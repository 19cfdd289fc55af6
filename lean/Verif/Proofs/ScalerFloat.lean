import Verif.Proofs.ScalerAny
import Verif.Model.Rounded

/-!
# The standard deviation in rounded arithmetic
-/

set_option autoImplicit false
set_option linter.unusedSectionVars false

namespace Convst

variable {r : Rounding}

theorem rnd_eq_zero {x : ℝ} : r.rnd x = 0 ↔ x = 0 := by
  constructor
  · intro h
    have h1 := r.abs_ge_of x
    rw [h, abs_zero] at h1
    have h2 : 0 < 1 - r.u := by linarith [r.u_lt]
    have h3 : |x| ≤ 0 := by
      by_contra hc
      have := mul_pos h2 (not_le.1 hc)
      linarith
    exact abs_nonpos_iff.1 h3
  · rintro rfl; exact r.zero

theorem ssum_fl_zero (w : List (Fl r)) (hw : ∀ a ∈ w, 0 ≤ a.val) :
    0 ≤ (ssum w).val ∧ ((ssum w).val = 0 ↔ ∀ a ∈ w, a.val = 0) := by
  induction w using List.reverseRecOn with
  | nil => exact ⟨le_rfl, by simp [ssum]⟩
  | append_singleton w a ih =>
    obtain ⟨i1, i2⟩ := ih fun b hb => hw b (by simp [hb])
    have ha := hw a (by simp)
    have e1 : ssum (w ++ [a]) = ssum w + a := by simp [ssum]
    rw [e1, fl_add]
    refine ⟨r.nonneg (add_nonneg i1 ha), ?_⟩
    rw [rnd_eq_zero]
    constructor
    · intro h b hb
      rcases List.mem_append.1 hb with hb | hb
      · exact i2.1 (by linarith) b hb
      · rw [List.mem_singleton.1 hb]; linarith
    · intro h
      rw [i2.2 fun b hb => h b (by simp [hb]), h a (by simp), add_zero]

theorem mean_fl_zero (w : List (Fl r)) (hw : ∀ a ∈ w, 0 ≤ a.val) :
    0 ≤ (mean w).val ∧ ((mean w).val = 0 ↔ ∀ a ∈ w, a.val = 0) := by
  obtain ⟨h1, h2⟩ := ssum_fl_zero w hw
  have e : (mean w).val = r.rnd ((ssum w).val / r.rnd w.length) := rfl
  rw [e]
  refine ⟨r.nonneg (div_nonneg h1 (r.nonneg (by positivity))), ?_⟩
  rw [rnd_eq_zero, div_eq_zero_iff, h2, rnd_eq_zero]
  constructor
  · rintro (h | h)
    · exact h
    · have : w.length = 0 := by exact_mod_cast h
      rw [List.length_eq_zero_iff] at this
      subst this
      simp
  · exact Or.inl

/-- The computed standard deviation is 0 exactly when all values equal the computed mean. -/
theorem std_fl_zero (w : List (Fl r)) : (std w).val = 0 ↔ ∀ a ∈ w, a.val = (mean w).val := by
  have hnn : ∀ a ∈ w.map (fun v => (v - mean w) * (v - mean w)), 0 ≤ a.val := by
    intro a ha
    obtain ⟨v, -, rfl⟩ := List.mem_map.1 ha
    exact r.nonneg (mul_self_nonneg _)
  obtain ⟨h1, h2⟩ := mean_fl_zero _ hnn
  have e : (std w).val = r.rnd (Real.sqrt (mean (w.map fun v => (v - mean w) * (v - mean w))).val) := rfl
  rw [e, rnd_eq_zero, Real.sqrt_eq_zero h1, h2]
  constructor
  · intro h a ha
    have := h _ (List.mem_map.2 ⟨a, ha, rfl⟩)
    rw [fl_mul, rnd_eq_zero, mul_self_eq_zero, fl_sub, rnd_eq_zero] at this
    linarith
  · intro h a ha
    obtain ⟨v, hv, rfl⟩ := List.mem_map.1 ha
    rw [fl_mul, fl_sub, h v hv, sub_self, r.zero, mul_zero, r.zero]

/-- Sums of equal numbers whose multiples are representable. -/
theorem mean_fl_const {c : Fl r} {n : Nat} (hn : 0 < n) (hn' : r.rnd n = n)
    (hk : ∀ k : Nat, k ≤ n → r.rnd (k * c.val) = k * c.val) : (mean (List.replicate n c)).val = c.val := by
  have hs : ∀ k : Nat, k ≤ n → (ssum (List.replicate k c)).val = k * c.val := by
    intro k
    induction k with
    | zero => intro _; simp [ssum]
    | succ k ih =>
      intro h
      have e1 : ssum (List.replicate (k + 1) c) = ssum (List.replicate k c) + c := by
        rw [List.replicate_succ']; simp [ssum]
      rw [e1, fl_add, ih (by omega)]
      have := hk (k + 1) h
      push_cast at this ⊢
      rw [show (k : ℝ) * c.val + c.val = (k + 1) * c.val by ring]
      exact this
  have e : (mean (List.replicate n c)).val =
      r.rnd ((ssum (List.replicate n c)).val / r.rnd (List.replicate n c).length) := rfl
  have hn0 : (n : ℝ) ≠ 0 := by exact_mod_cast hn.ne'
  rw [e, List.length_replicate, hn', hs n le_rfl, mul_div_cancel_left₀ _ hn0]
  have := hk 1 hn
  simpa using this

end Convst
