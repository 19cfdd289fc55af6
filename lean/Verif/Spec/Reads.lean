import Verif.Spec.Hold

/-!
# Specification: the values of a series a shapelet looks at
-/

set_option autoImplicit false

namespace Convst.Spec
variable {K : Type} [Scalar K]

/-- Length of shapelet `k`. -/
def lengthOf : Shapelets K → Nat → Nat
  | .u S, k => S.lengths.getD k 0
  | .m S, k => S.lengths.getD k 0

/-- Dilation of shapelet `k`. -/
def dilationOf : Shapelets K → Nat → Nat
  | .u S, k => S.dilations.getD k 0
  | .m S, k => S.dilations.getD k 0

/-- Is shapelet `k` compared with z-normalised windows? -/
def normOf : Shapelets K → Nat → Bool
  | .u S, k => S.normalize.getD k false
  | .m S, k => S.normalize.getD k false

/-- The channels of shapelet `k`; always the first one for univariate models. -/
def channelsOf : Shapelets K → Nat → List Nat
  | .u _, _ => [0]
  | .m S, k => mChannels S k

/-- In a series of `T` points, time `p` is under some value of a shapelet of length `l` and dilation `d` in some window. -/
def PointRead (phase : Bool) (T l d p : Nat) : Prop :=
  ∃ i j, i < nWin phase T l d ∧ j < l ∧ p = pos phase T d i j

/-- Two series of the same length that agree at all points and channels shapelet `k` reads. -/
def SameWhereRead (phase : Bool) (S : Shapelets K) (k : Nat) (x x' : Mat K) : Prop :=
  x'.len = x.len ∧ ∀ c ∈ channelsOf S k, ∀ p, PointRead phase x.len (lengthOf S k) (dilationOf S k) p →
    (x'.rows.getD c [])[p]? = (x.rows.getD c [])[p]?

/-- The three features of shapelet `k` are the same in both rows. -/
def SameThree (k : Nat) (row row' : List K) : Prop :=
  ∃ f : Feat K, row[3 * k]? = some f.1 ∧ row[3 * k + 1]? = some f.2.1 ∧ row[3 * k + 2]? = some f.2.2 ∧
    row'[3 * k]? = some f.1 ∧ row'[3 * k + 1]? = some f.2.1 ∧ row'[3 * k + 2]? = some f.2.2

/-- Two series that differ at time `p` of channel `c` only. -/
def DifferOnlyAt (c p : Nat) (x x' : Mat K) : Prop :=
  ∀ c' p', ¬ (c' = c ∧ p' = p) → (x'.rows.getD c' [])[p']? = (x.rows.getD c' [])[p']?

/-- Two data sets with the same first channels. -/
def SameFirstChannel (X X' : List (List (List K))) : Prop :=
  X'.length = X.length ∧ ∀ (s : Nat) x x', X[s]? = some x → X'[s]? = some x' → x'[0]? = x[0]?

end Convst.Spec
