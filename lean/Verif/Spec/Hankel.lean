import Mathlib.Analysis.SpecialFunctions.Log.Basic
import Mathlib.Algebra.Order.Round
import Mathlib.Analysis.SpecialFunctions.Trigonometric.Basic

/-!
# Specification: the offset of the fast Hankel transform

The logarithmic Hankel transform of order `mu` with bias `bias` and grid spacing `dln` has a periodic kernel; its
values are free of ringing for the offsets that make the phase of the kernel at the highest frequency a multiple
of `π`.  `theta x y` stands for the imaginary part of the logarithm of the gamma function at `x + iy`.
-/

set_option autoImplicit false

namespace Convst.Spec

/-- Half-turns of the phase of the kernel at the highest frequency, without the contribution of the offset. -/
noncomputable def kernelPhase (theta : ℝ → ℝ → ℝ) (dln mu bias : ℝ) : ℝ :=
  (theta ((mu + 1 + bias) / 2) (Real.pi / (2 * dln)) + theta ((mu + 1 - bias) / 2) (Real.pi / (2 * dln))) / Real.pi

/-- The low-ringing condition on `offset` for the transform of order `mu` with bias `bias`. -/
def LowRinging (theta : ℝ → ℝ → ℝ) (dln mu bias offset : ℝ) : Prop :=
  ∃ n : ℤ, (Real.log 2 - offset) / dln + kernelPhase theta dln mu bias = n

/-- `scipy.fft.fhtoffset(dln, mu, initial, bias)`, as it is defined there. -/
noncomputable def fhtoffset (theta : ℝ → ℝ → ℝ) (dln mu initial bias : ℝ) : ℝ :=
  initial + ((Real.log 2 - initial) / dln + kernelPhase theta dln mu bias -
    (round ((Real.log 2 - initial) / dln + kernelPhase theta dln mu bias) : ℝ)) * dln

end Convst.Spec
