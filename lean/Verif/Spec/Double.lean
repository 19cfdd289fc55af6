import Verif.Spec.Ieee
import Mathlib.Algebra.Order.GroupWithZero.Unbundled.Basic

/-!
# Specification of double precision, and of data of moderate magnitude
-/

set_option autoImplicit false

namespace Convst.Spec

/-- `F` is double precision, with any rule for the rounding of ties.
* Integers of 53 binary digits times a power of two are not changed by rounding.
* Rounding a number from `2 ^ e` on in magnitude gives a multiple of `2 ^ (e - 52)`.
* From `2⁻¹⁰²²` on, numbers are rounded as if the range were unbounded.
* Magnitudes from `2¹⁰²⁴` on overflow.
* Rounding a number of magnitude at most `2⁻¹⁰²²` gives such a number, and rounding does not change the sign.
* No number other than 0 is below `2⁻¹⁰⁷⁴` in magnitude. -/
structure Double (F : FloatFormat) : Prop where
  fix : ∀ N e : Int, |N| ≤ 2 ^ 53 → F.r.rnd (N * (2 : ℝ) ^ e) = N * (2 : ℝ) ^ e
  digits : ∀ (x : ℝ) (e : Int), (2 : ℝ) ^ e ≤ |x| → ∃ N : Int, F.r.rnd x = N * (2 : ℝ) ^ (e - 52)
  normal : ∀ x : ℝ, (2 : ℝ) ^ (-1022 : Int) ≤ |x| → F.rnd x = F.r.rnd x
  top : F.top = (2 : ℝ) ^ (1024 : Int)
  small : ∀ x : ℝ, |x| ≤ (2 : ℝ) ^ (-1022 : Int) → |F.rnd x| ≤ (2 : ℝ) ^ (-1022 : Int)
  sign : ∀ x : ℝ, 0 ≤ x → 0 ≤ F.rnd x
  least : ∀ x ∈ F.grid, x = 0 ∨ (2 : ℝ) ^ (-1074 : Int) ≤ |x|

variable {F : FloatFormat}

/-- A number of the format, 0 or of a magnitude between `2⁻²⁴⁷` and `2³⁰⁰` (about `10⁻⁷⁴` and `10⁹⁰`). -/
def Moderate (F : FloatFormat) (x : ℝ) : Prop :=
  F.r.rnd x = x ∧ (x = 0 ∨ (2 : ℝ) ^ (-247 : Int) ≤ |x|) ∧ |x| ≤ (2 : ℝ) ^ (300 : Int)

/-- A finite number of the format, of magnitude at most `2⁴⁰⁰`. -/
def Mild (F : FloatFormat) (x : ℝ) : Prop := x ∈ F.grid ∧ |x| ≤ (2 : ℝ) ^ (400 : Int)

/-- Shapelets of up to `2⁴⁰` points and channels, with values of magnitude at most `2⁴⁰⁰`. -/
def MildShapelets (S : Shapelets (Fl F.r)) : Prop :=
  match S with
  | .u S => (∀ v ∈ S.values, ∀ a ∈ v, Mild F a.val) ∧ ∀ k, k < S.lengths.length → S.lengths.getD k 0 ≤ 2 ^ 40
  | .m S => (∀ a ∈ S.values, Mild F a.val) ∧
      ∀ k, k < S.lengths.length → S.lengths.getD k 0 ≤ 2 ^ 40 ∧ (mChannels S k).length ≤ 2 ^ 40

/-- A series of up to `2⁴⁰` points whose values are of moderate magnitude. -/
def ModerateSeries (x : Mat (Fl F.r)) : Prop :=
  x.len ≤ 2 ^ 40 ∧ ∀ row ∈ x.rows, ∀ a ∈ row, Moderate F a.val

end Convst.Spec
