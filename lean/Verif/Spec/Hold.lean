import Verif.Model.Rdst
import Verif.Spec.Transform

/-!
# Specification: recordings at a multiple of the sampling rate

The recording at `r` times the rate holds every value for `r` points; the shapelets for that rate have dilations `r` times
as large.
-/

set_option autoImplicit false

namespace Convst.Spec
variable {K : Type} [Scalar K]

/-- Every value repeated `r` times. -/
def held {α : Type} (r : Nat) (x : List α) : List α := x.flatMap (List.replicate r)

/-- A series with every point of every channel repeated `r` times. -/
def heldSeries (r : Nat) (x : Mat K) : Mat K := ⟨x.rows.map (held r), r * x.len⟩

/-- The same shapelets with dilations `r` times as large. -/
def wider (r : Nat) : Shapelets K → Shapelets K
  | .u S => .u { S with dilations := S.dilations.map (r * ·) }
  | .m S => .m { S with dilations := S.dilations.map (r * ·) }

/-- Number of shapelets. -/
def numShapelets : Shapelets K → Nat
  | .u S => S.lengths.length
  | .m S => S.lengths.length

/-- Distances of shapelet `k` to all windows of a series with `T` points. -/
def allDistances (phase : Bool) : Shapelets K → List (List K) → Nat → Nat → List K
  | .u S, s, _, k => uDistances phase S (s.getD 0 []) k
  | .m S, s, T, k => mDistances phase S s T k

/-- The comparisons with a distance are sound: it is not less than itself and not the value `-1` that stands for "no
distance seen yet".  True of all distances in exact arithmetic. -/
def SoundDistance (v : K) : Prop := Scalar.ltb v v = false ∧ Scalar.eqb v (-1) = false

/-- The cells of shapelet `k` at the two rates: the same least distance, and a position and a number of occurrences `r`
times as large. -/
def HeldAt (r k : Nat) (row row' : List K) : Prop :=
  ∃ (m : K) (p c : Nat),
    row[3 * k]? = some m ∧ row[3 * k + 1]? = some (Scalar.ofNat p) ∧ row[3 * k + 2]? = some (Scalar.ofNat c) ∧
    row'[3 * k]? = some m ∧ row'[3 * k + 1]? = some (Scalar.ofNat (r * p)) ∧ row'[3 * k + 2]? = some (Scalar.ofNat (r * c))

/-- The span of shapelet `k`: the distance from its first to its last point. -/
def spanOf : Shapelets K → Nat → Nat
  | .u S, k => (S.lengths.getD k 0 - 1) * S.dilations.getD k 0
  | .m S, k => (S.lengths.getD k 0 - 1) * S.dilations.getD k 0

/-- The kind of shapelets that goes with the type of the transformer. -/
def KindOf (t : TType) (S : Shapelets K) : Prop :=
  match S with
  | .u _ => t = .uni ∨ t = .uniVar
  | .m _ => t = .multi ∨ t = .multiVar

end Convst.Spec
