import Verif.Spec.Double
import Verif.Spec.IeeeFit

/-!
# Specification of finite results
-/

set_option autoImplicit false

namespace Convst.Spec

variable {F : FloatFormat}

/-- Neither infinite nor missing. -/
def IsFinite (a : Ieee F) : Prop := ∃ x : ℝ, a = .fin x

/-- All values and all thresholds of the shapelets are finite numbers. -/
def FiniteShapelets (S : Shapelets (Ieee F)) : Prop :=
  match S with
  | .u S => ∀ k, k < S.lengths.length → (∀ a ∈ uValues S k, IsFinite a) ∧ ∃ th, S.threshold[k]? = some th ∧ IsFinite th
  | .m S => ∀ k, k < S.lengths.length → (∀ c, c < (mChannels S k).length → ∀ a ∈ mValues S k c, IsFinite a) ∧
      ∃ th, S.threshold[k]? = some th ∧ IsFinite th

/-- A series of up to `2⁴⁰` points whose values are numbers of moderate magnitude: no infinite value, no missing
value. -/
def ModerateMat (x : Mat (Ieee F)) : Prop :=
  x.len ≤ 2 ^ 40 ∧ ∀ row ∈ x.rows, ∀ a ∈ row, Finite (Moderate F) a

end Convst.Spec
