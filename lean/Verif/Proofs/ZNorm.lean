import Verif.Proofs.RealFeatures
import Mathlib.Algebra.Order.Chebyshev
import Mathlib.Analysis.InnerProductSpace.PiL2

/-! # Exact-arithmetic facts about means, standard deviations and z-normalisation -/

set_option autoImplicit false

namespace Convst
open Spec

theorem ssum_eq_sum (x : List ℝ) : ssum x = x.sum := by
  unfold ssum
  exact (List.sum_eq_foldl).symm

theorem mean_eq (x : List ℝ) : mean x = x.sum / x.length := by
  unfold mean
  rw [ssum_eq_sum]; rfl

theorem sum_map_add_const (x : List ℝ) (c : ℝ) :
    (x.map fun v => v + c).sum = x.sum + x.length * c := by
  induction x with
  | nil => simp
  | cons a x ih => simp [ih]; ring

theorem sum_map_mul_const (x : List ℝ) (c : ℝ) :
    (x.map fun v => c * v).sum = c * x.sum := by
  induction x with
  | nil => simp
  | cons a x ih => simp [ih]; ring

theorem mean_add_const {x : List ℝ} (hx : x ≠ []) (c : ℝ) :
    mean (x.map fun v => v + c) = mean x + c := by
  have : (x.length : ℝ) ≠ 0 := by
    have := List.length_pos_iff.2 hx
    positivity
  rw [mean_eq, mean_eq, sum_map_add_const, List.length_map]
  field_simp

theorem mean_mul_const (x : List ℝ) (c : ℝ) : mean (x.map fun v => c * v) = c * mean x := by
  rw [mean_eq, mean_eq, sum_map_mul_const, List.length_map, mul_div_assoc]

/-- Population variance. -/
noncomputable def var (x : List ℝ) : ℝ :=
  (x.map fun v => (v - mean x) * (v - mean x)).sum / x.length

theorem std_eq (x : List ℝ) : std x = Real.sqrt (var x) := by
  unfold std var
  simp only [real_sqrt]
  rw [mean_eq, List.length_map]

theorem var_nonneg (x : List ℝ) : 0 ≤ var x := by
  unfold var
  apply div_nonneg
  · apply List.sum_nonneg
    intro a ha
    obtain ⟨v, _, rfl⟩ := List.mem_map.1 ha
    exact mul_self_nonneg _
  · positivity

theorem std_nonneg (x : List ℝ) : 0 ≤ std x := by rw [std_eq]; exact Real.sqrt_nonneg _

theorem std_sq (x : List ℝ) : std x * std x = var x := by
  rw [std_eq, Real.mul_self_sqrt (var_nonneg x)]

theorem std_add_eps_pos (x : List ℝ) : 0 < std x + Scalar.eps := by
  have := std_nonneg x
  have := real_eps_pos
  linarith

theorem std_add_const (x : List ℝ) (c : ℝ) : std (x.map fun v => v + c) = std x := by
  rcases List.eq_nil_or_concat x with rfl | ⟨_, _, rfl⟩
  · rfl
  · rename_i L b
    have hx : L.concat b ≠ [] := by simp
    rw [std_eq, std_eq]
    congr 1
    unfold var
    rw [mean_add_const hx, List.map_map, List.length_map]
    congr 3
    funext v
    simp

theorem std_mul_const (x : List ℝ) (c : ℝ) : std (x.map fun v => c * v) = |c| * std x := by
  rw [std_eq, std_eq]
  have : var (x.map fun v => c * v) = c ^ 2 * var x := by
    unfold var
    rw [mean_mul_const, List.map_map, List.length_map, ← mul_div_assoc, ← sum_map_mul_const,
      List.map_map]
    congr 3
    funext v
    simp; ring
  rw [this, Real.sqrt_mul (sq_nonneg c), Real.sqrt_sq_eq_abs]

theorem znorm_eq (w : List ℝ) :
    znorm w = w.map fun a => (a - mean w) / (std w + Scalar.eps) := rfl

/-- z-normalisation ignores the offset, exactly. -/
theorem znorm_add_const (w : List ℝ) (c : ℝ) : znorm (w.map fun v => v + c) = znorm w := by
  rcases List.eq_nil_or_concat w with rfl | ⟨L, b, rfl⟩
  · rfl
  · rw [znorm_eq, znorm_eq, mean_add_const (by simp), std_add_const, List.map_map]
    congr 1
    funext v
    simp

/-- z-normalisation of a scaled window. -/
theorem znorm_mul_const (w : List ℝ) {a : ℝ} (ha : 0 < a) :
    znorm (w.map fun v => a * v) =
      w.map fun v => (v - mean w) / (std w + Scalar.eps / a) := by
  rw [znorm_eq, mean_mul_const, std_mul_const, List.map_map, abs_of_pos ha]
  congr 1
  funext v
  simp only [Function.comp_apply]
  have h1 := std_nonneg w
  have h2 := real_eps_pos
  have h3 : 0 < std w + Scalar.eps / a := by positivity
  have h4 : 0 < a * std w + Scalar.eps := by positivity
  rw [div_eq_div_iff h4.ne' h3.ne']
  field_simp

theorem sum_sub_mean {w : List ℝ} (hw : w ≠ []) : (w.map fun v => v - mean w).sum = 0 := by
  have : (w.length : ℝ) ≠ 0 := by
    have := List.length_pos_iff.2 hw
    positivity
  have h := sum_map_add_const w (-mean w)
  simp only [← sub_eq_add_neg] at h
  rw [h, mean_eq]
  field_simp
  ring

/-- The mean absolute deviation is at most the standard deviation. -/
theorem sum_abs_dev_le (w : List ℝ) :
    (w.map fun v => |v - mean w|).sum ≤ w.length * std w := by
  have key : ∀ (l : List ℝ), (l.map fun v => |v|).sum ^ 2 ≤ l.length * (l.map fun v => v * v).sum := by
    intro l
    have h := sq_sum_le_card_mul_sum_sq (s := Finset.univ) (f := fun i : Fin l.length => |l[i]|)
    simp only [Finset.card_univ, Fintype.card_fin, sq_abs] at h
    have e1 : ∑ i : Fin l.length, |l[i]| = (l.map fun v => |v|).sum := by
      rw [← List.sum_ofFn]
      congr 1
      apply List.ext_getElem <;> simp
    have e2 : ∑ i : Fin l.length, l[i] ^ 2 = (l.map fun v => v * v).sum := by
      rw [← List.sum_ofFn]
      congr 1
      apply List.ext_getElem <;> simp [sq]
    rw [e1, e2] at h
    exact h
  have h := key (w.map fun v => v - mean w)
  rw [List.map_map, List.map_map, List.length_map] at h
  have hv : (w.map ((fun v => v * v) ∘ fun v => v - mean w)).sum = w.length * var w := by
    unfold var
    rcases eq_or_ne (w.length : ℝ) 0 with h0 | h0
    · have : w = [] := by
        apply List.length_eq_zero_iff.1; exact_mod_cast h0
      subst this; simp
    · field_simp
      rfl
  rw [hv, ← std_sq] at h
  have h2 : (w.map ((fun v => |v|) ∘ fun v => v - mean w)).sum ^ 2 ≤ (w.length * std w) ^ 2 := by
    calc _ ≤ _ := h
      _ = _ := by ring
  exact abs_le_of_sq_le_sq' h2 (mul_nonneg (by positivity) (std_nonneg w)) |>.2

end Convst
