import Verif.Spec.Hankel
import Verif.Model.InputTransformers
import Verif.Props.InputTransformers
import Mathlib.Analysis.Real.Pi.Bounds

/-!
# C93: `FastHankelTransform`
-/

set_option autoImplicit false
set_option linter.unusedSectionVars false

namespace Convst.Props
open Convst Spec

section
variable {K : Type} [Scalar K]

/-- **C93.** On a 3D array the transform works channel by channel: every channel of every series is replaced by its
Hankel transform, in an array of the same shape.  Lists of series are rejected. -/
theorem C93_channelwise {fht : List K → K → K → K → K → List K} (hf : ∀ x d m o b, (fht x d m o b).length = x.length)
    (off : K → K → K → K → K) (p : Hankel K) :
    (∀ (dt : DType) (A : Arr3 K), (XIn.array dt A).WF →
      hankel fht off p (.array dt A) = .ok (.array .float64
        ⟨A.data.map fun s => s.map fun x => fht x p.dln p.mu (hankelOffset off p) p.bias, A.nf, A.nt⟩)) ∧
    ∀ xs : List (Mat K), hankel fht off p (.list xs) = .error .attributeError := by
  refine ⟨?_, fun _ => rfl⟩
  intro dt A hA
  have h : (A.data.mapM fun s => s.mapM fun x =>
      if (fht x p.dln p.mu (hankelOffset off p) p.bias).length = A.nt then
        (.ok (fht x p.dln p.mu (hankelOffset off p) p.bias) : Res (List K)) else .error .valueError) =
      .ok (A.data.map fun s => s.map fun x => fht x p.dln p.mu (hankelOffset off p) p.bias) := by
    apply mapM_ok
    intro s hs
    apply mapM_ok
    intro x hx
    rw [if_pos (by rw [hf]; exact (hA s hs).2 x hx)]
  unfold hankel
  simp only [h, Res.bind_ok, Res.pure_eq]

/-- **C93.** With `use_optimal_offset` the parameter `offset` has no influence; without it, it is the one used. -/
theorem C93_offset (fht : List K → K → K → K → K → List K) (off : K → K → K → K → K) (p : Hankel K) (o : K) (X : XIn K) :
    hankel fht off { p with offset := o, optimal := true } X = hankel fht off { p with optimal := true } X ∧
    hankelOffset off { p with offset := o, optimal := false } = o := by
  constructor
  · unfold hankel hankelOffset
    rfl
  · simp [hankelOffset]

end

/-- SciPy's function gives a low-ringing offset, the nearest one to `initial`. -/
theorem fhtoffset_lowRinging (theta : ℝ → ℝ → ℝ) {dln : ℝ} (hd : dln ≠ 0) (mu initial bias : ℝ) :
    LowRinging theta dln mu bias (fhtoffset theta dln mu initial bias) ∧
      |fhtoffset theta dln mu initial bias - initial| ≤ |dln| / 2 := by
  constructor
  · refine ⟨round ((Real.log 2 - initial) / dln + kernelPhase theta dln mu bias), ?_⟩
    unfold fhtoffset
    field_simp
    ring
  · unfold fhtoffset
    rw [add_sub_cancel_left, abs_mul]
    have := abs_sub_round ((Real.log 2 - initial) / dln + kernelPhase theta dln mu bias)
    have h0 := abs_nonneg dln
    nlinarith

/-- A low-ringing offset for one order and bias is one for another exactly when the phases of the two kernels differ
by an integer number of half-turns. -/
theorem lowRinging_iff {theta : ℝ → ℝ → ℝ} {dln mu bias mu' bias' offset : ℝ} (h : LowRinging theta dln mu bias offset) :
    LowRinging theta dln mu' bias' offset ↔
      ∃ n : ℤ, kernelPhase theta dln mu' bias' - kernelPhase theta dln mu bias = n := by
  obtain ⟨n, hn⟩ := h
  constructor
  · rintro ⟨m, hm⟩
    exact ⟨m - n, by push_cast; linarith⟩
  · rintro ⟨m, hm⟩
    exact ⟨n + m, by push_cast; linarith⟩

/-- **C93 (violated).** The "optimal" offset is computed for order `dln` and bias 0, starting from the value of `bias`,
instead of for order `mu` and bias `bias`: it is low-ringing for the transform that is computed exactly when the
phases of the two kernels happen to differ by an integer. -/
theorem C93_optimal_offset (theta : ℝ → ℝ → ℝ) (p : Hankel ℝ) (ho : p.optimal = true) (hd : p.dln ≠ 0) :
    LowRinging theta p.dln p.dln 0 (hankelOffset (fhtoffset theta) p) ∧
    |hankelOffset (fhtoffset theta) p - p.bias| ≤ |p.dln| / 2 ∧
    (LowRinging theta p.dln p.mu p.bias (hankelOffset (fhtoffset theta) p) ↔
      ∃ n : ℤ, kernelPhase theta p.dln p.mu p.bias - kernelPhase theta p.dln p.dln 0 = n) := by
  unfold hankelOffset
  rw [if_pos ho]
  obtain ⟨h1, h2⟩ := fhtoffset_lowRinging theta hd p.dln p.bias 0
  exact ⟨h1, h2, lowRinging_iff h1⟩

/-- **C93 (partial).** For `mu = dln` and `bias = 0` the offset is low-ringing. -/
theorem C93_optimal_offset_partial (theta : ℝ → ℝ → ℝ) (p : Hankel ℝ) (ho : p.optimal = true) (hd : p.dln ≠ 0)
    (hm : p.mu = p.dln) (hb : p.bias = 0) : LowRinging theta p.dln p.mu p.bias (hankelOffset (fhtoffset theta) p) :=
  (C93_optimal_offset theta p ho hd).2.2.2 ⟨0, by rw [hm, hb]; simp⟩

/-- **C93 (violated).** For high frequencies the imaginary part of the logarithm of the gamma function is `c + π x / 2`
up to a small error (Stirling's formula; at the frequency `50 π` used here the error is below 0.01).  For any phase of
this form and the default parameters `dln = 0.01`, `mu = 1`, `bias = 0` the offset is not low-ringing, and not even
close: the phase of the kernel is at least 0.45 half-turns away from every multiple of a half-turn. -/
theorem C93_default_offset {theta : ℝ → ℝ → ℝ} {c : ℝ}
    (hθ : ∀ x, 1 / 2 ≤ x → x ≤ 1 → |theta x (50 * Real.pi) - (c + Real.pi * x / 2)| ≤ 1 / 50) (offset : ℝ) :
    let p : Hankel ℝ := ⟨1 / 100, 1, offset, 0, true⟩
    ¬ LowRinging theta p.dln p.mu p.bias (hankelOffset (fhtoffset theta) p) ∧
    ∀ n : ℤ, 45 / 100 ≤ |(Real.log 2 - hankelOffset (fhtoffset theta) p) / p.dln +
      kernelPhase theta p.dln p.mu p.bias - n| := by
  intro p
  have key : ∀ n : ℤ, 45 / 100 ≤ |(Real.log 2 - hankelOffset (fhtoffset theta) p) / p.dln +
      kernelPhase theta p.dln p.mu p.bias - n| := by
    intro n
    obtain ⟨m, hm⟩ := (C93_optimal_offset theta p rfl (by norm_num [p])).1
    have hpi := Real.pi_gt_three
    have hp0 : (0 : ℝ) < Real.pi := Real.pi_pos
    have hd : kernelPhase theta p.dln p.mu p.bias - kernelPhase theta p.dln p.dln 0 =
        2 * (theta 1 (50 * Real.pi) - theta (101 / 200) (50 * Real.pi)) / Real.pi := by
      have e1 : Real.pi / (2 * (1 / 100)) = 50 * Real.pi := by ring
      have e2 : ((1 : ℝ) + 1 + 0) / 2 = 1 := by norm_num
      have e3 : ((1 : ℝ) + 1 - 0) / 2 = 1 := by norm_num
      have e4 : ((1 / 100 : ℝ) + 1 + 0) / 2 = 101 / 200 := by norm_num
      have e5 : ((1 / 100 : ℝ) + 1 - 0) / 2 = 101 / 200 := by norm_num
      simp only [kernelPhase, p]
      rw [e1, e2, e3, e4, e5]
      ring
    have h1 := abs_le.1 (hθ 1 (by norm_num) (le_refl _))
    have h2 := abs_le.1 (hθ (101 / 200) (by norm_num) (by norm_num))
    have hlo : 46 / 100 ≤ 2 * (theta 1 (50 * Real.pi) - theta (101 / 200) (50 * Real.pi)) / Real.pi := by
      rw [le_div_iff₀ hp0]
      nlinarith [h1.1, h2.2]
    have hhi : 2 * (theta 1 (50 * Real.pi) - theta (101 / 200) (50 * Real.pi)) / Real.pi ≤ 54 / 100 := by
      rw [div_le_iff₀ hp0]
      nlinarith [h1.2, h2.1]
    have e : (Real.log 2 - hankelOffset (fhtoffset theta) p) / p.dln + kernelPhase theta p.dln p.mu p.bias - n =
        ((m - n : ℤ) : ℝ) + 2 * (theta 1 (50 * Real.pi) - theta (101 / 200) (50 * Real.pi)) / Real.pi := by
      push_cast
      rw [← hd, ← hm]
      ring
    rw [e]
    rcases le_or_gt 0 (m - n) with h | h
    · have : (0 : ℝ) ≤ ((m - n : ℤ) : ℝ) := by exact_mod_cast h
      exact le_trans (by linarith) (le_abs_self _)
    · have : ((m - n : ℤ) : ℝ) ≤ -1 := by
        have : m - n ≤ -1 := by omega
        exact_mod_cast this
      exact le_trans (by linarith) (neg_le_abs _)
  refine ⟨?_, key⟩
  rintro ⟨n, hn⟩
  have := key n
  rw [hn, sub_self, abs_zero] at this
  norm_num at this

/-- The hypotheses are met. -/
example : ∃ p : Hankel ℝ, p.optimal = true ∧ p.dln ≠ 0 ∧ p.mu = p.dln ∧ p.bias = 0 :=
  ⟨⟨1, 1, 0, 0, true⟩, rfl, by norm_num, rfl, rfl⟩

example : ∃ theta : ℝ → ℝ → ℝ, ∃ c : ℝ, ∀ x, 1 / 2 ≤ x → x ≤ 1 →
    |theta x (50 * Real.pi) - (c + Real.pi * x / 2)| ≤ 1 / 50 :=
  ⟨fun x y => y + Real.pi * x / 2 + x / 100, 50 * Real.pi, fun x h1 h2 => by
    rw [show 50 * Real.pi + Real.pi * x / 2 + x / 100 - (50 * Real.pi + Real.pi * x / 2) = x / 100 by ring, abs_le]
    constructor <;> linarith⟩

end Convst.Props
