import Verif.Model.Rounded
import Verif.Spec.FitSafe

/-!
# What `fit` needs of floating-point arithmetic

Accuracy of the arithmetic and of the library functions `log2` and `2**x`, stated without reference to convst.
-/

set_option autoImplicit false

namespace Convst.Spec

/-- `log2` and `2**x` have relative error at most `δ` on `[1, ∞)` and `[0, ∞)`, do not go below their value at the
left end, integers up to `N` are exact, and `N` is small enough for the accuracy. -/
structure Accurate (r : Rounding) (δ : ℝ) (N : Nat) : Prop where
  delta : 0 ≤ δ
  nat : ∀ q : Nat, q ≤ N → r.rnd q = q
  log2_nonneg : ∀ x : ℝ, 1 ≤ x → 0 ≤ r.log2 x
  log2_le : ∀ x : ℝ, 1 ≤ x → r.log2 x ≤ (1 + δ) * Real.logb 2 x
  pow2_ge : ∀ x : ℝ, 0 ≤ x → 1 ≤ r.pow2 x
  pow2_le : ∀ x : ℝ, 0 ≤ x → r.pow2 x ≤ (1 + δ) * (2 : ℝ) ^ x
  pow2_pos : ∀ x : ℝ, 0 < r.pow2 x
  small : (1 + δ) * (N : ℝ) ^ ((1 + δ) * (1 + r.u) ^ 3 - 1) < 1 + 1 / N

/-- A percentile that can be computed on arrays of every length without leaving the array: 100, or sufficiently
below 100 for the rounding. -/
def PercentileOK (r : Rounding) (q : ℝ) : Prop :=
  0 ≤ q ∧ (q = 100 ∨ q < 100 ∧ r.u + (1 + r.u) ^ 4 * (q / 100) < 1)

/-- The shapelets of an object fitted on series `s` with `len s` points, `n` being the least number of points. -/
def Learned {K L : Type} [Scalar K] (nShp : Nat) (sizes : List Nat) (n ns nf mc : Nat) (len : Nat → Nat)
    (series : Nat → Nat → List K) (y : List L) (thr : List K → K → Prop) (phase : Bool) : Shapelets K → Prop
  | .u S => ULearned nShp sizes n ns len series y thr phase S
  | .m S => MLearned nShp sizes n ns nf mc len series y thr phase S

/-- The output row of a series `x` (list of channels, `T` points each). -/
def rowOf {K : Type} [Scalar K] (phase : Bool) : Shapelets K → List (List K) → Nat → List K
  | .u S, x, _ => uRow phase S (x.getD 0 [])
  | .m S, x, T => mRow phase S x T

/-- A bound on the lengths that is not too large: an integer below `N`, or a fraction of at most 1. -/
def BoundBelow {r : Rounding} (N : Nat) : Bound (Fl r) → Prop
  | .int z => z < N
  | .frac x => x.val ≤ 1

/-- Usable parameters for series of `m` points. -/
structure FlParams {r : Rounding} {R : Type} (o : Rdst (Fl r) R) (m N : Nat) : Prop where
  nShp : 1 ≤ o.nShp
  pMin : PercentileOK r o.pMin.val
  pMax : PercentileOK r o.pMax.val
  nSamples : o.nSamples = none
  red : o.reduction.val < 1
  bounds : ∀ b0 b1, o.bounds = some (b0, b1) → BoundBelow N b0 ∧ BoundBelow N b1
  lens : o.bounds = none →
    (∃ l, o.lens = .ints l ∧ l ≠ [] ∧ ∀ z ∈ l, 1 < z) ∨
    (∃ l, o.lens = .floats l ∧ l ≠ [] ∧ ∀ x ∈ l, 2 ≤ (m : ℝ) * x.val)

end Convst.Spec
