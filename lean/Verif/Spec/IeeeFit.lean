import Verif.Spec.Ieee
import Verif.Spec.RoundedFit

/-!
# What `fit` needs of a format of floating-point numbers

Stated without reference to convst.
-/

set_option autoImplicit false

namespace Convst.Spec

variable {F : FloatFormat}

/-- The rounding of the format `F` is monotone, is the one of `F.r` (accurate up to `δ` and `N`) from the magnitude
`t` on, and there is room for small calculations with numbers up to `N`; adding 1 to `big` or less does not lead
above `big`.  (For `float64`: `t = 2⁻¹⁰²²`, `N = 2⁴⁰`, `big = 2⁵⁴`.) -/
structure Ranged (F : FloatFormat) (δ t big : ℝ) (N : Nat) : Prop where
  acc : Accurate F.r δ N
  mono : ∀ x y, 0 ≤ x → x ≤ y → F.rnd x ≤ F.rnd y
  normal : ∀ x, t ≤ x → F.rnd x = F.r.rnd x
  tiny_pos : 0 < t
  tiny_exact : F.r.rnd t = t
  tiny_small : F.r.u + (1 + F.r.u) ^ 4 * t < 1
  tiny_inv : t * (1 + δ) ≤ 1
  delta_le : δ ≤ 1
  log_nonneg : ∀ x, 1 ≤ x → 0 ≤ F.r.log x
  log_one : F.r.log 1 = 0
  big_ge : 1 ≤ big
  big_lt : big < F.top
  absorb : F.rnd (big + 1) ≤ big
  large : 100 ≤ N
  room : 16 * ((N : ℝ) + 1) < F.top

/-- A finite number satisfying `p`. -/
def Finite (p : ℝ → Prop) : Ieee F → Prop
  | .fin x => p x
  | _ => False

/-- A bound on the lengths: an integer below `N`, or a fraction between 0 and 1. -/
def BoundWithin (N : Nat) : Bound (Ieee F) → Prop
  | .int z => z < N
  | .frac x => Finite (fun x => 0 ≤ x ∧ x ≤ 1) x

/-- Usable parameters for series of `m` points. -/
structure IeeeParams {R : Type} (o : Rdst (Ieee F) R) (m N : Nat) : Prop where
  nShp : 1 ≤ o.nShp
  pMin : Finite (PercentileOK F.r) o.pMin
  pMax : Finite (PercentileOK F.r) o.pMax
  nSamples : o.nSamples = none
  red : Finite (fun x => 0 ≤ x ∧ x < 1) o.reduction
  bounds : ∀ b0 b1, o.bounds = some (b0, b1) → BoundWithin N b0 ∧ BoundWithin N b1
  lens : o.bounds = none →
    (∃ l, o.lens = .ints l ∧ l ≠ [] ∧ ∀ z ∈ l, 1 < z) ∨
    (∃ l, o.lens = .floats l ∧ l ≠ [] ∧ ∀ x ∈ l, Finite (fun v => 2 ≤ (m : ℝ) * v ∧ (m : ℝ) * v ≤ N) x)

/-- A number in `[0, 1)`. -/
def UnitDraw (u : Ieee F) : Prop := Finite (fun v => 0 ≤ v ∧ v < 1) u

/-- Shapelet number `k` has a value which is infinite or missing. -/
def NotFinite (S : Shapelets (Ieee F)) (k : Nat) : Prop :=
  match S with
  | .u S => ∃ a ∈ uValues S k, ∀ x, a ≠ .fin x
  | .m S => ∃ c, c < S.nChannels.getD k 0 ∧ ∃ a ∈ mValues S k c, ∀ x, a ≠ .fin x

/-- The three features of shapelet `k` in the row tell nothing about the series: the first one is infinite or
missing, the other two are 0. -/
def Blind (row : List (Ieee F)) (k : Nat) : Prop :=
  (∃ v, row[3 * k]? = some v ∧ ∀ x, v ≠ .fin x) ∧ row[3 * k + 1]? = some (.fin 0) ∧ row[3 * k + 2]? = some (.fin 0)

end Convst.Spec
