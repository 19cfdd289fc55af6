import Verif.Spec.Reads

/-!
# Specification: training data with the same first channels
-/

set_option autoImplicit false

namespace Convst.Spec
variable {K R : Type} [Scalar K]

/-- Two 3D arrays with as many series of as many points and the same first channels. -/
structure SameFirstArray (A A' : Arr3 K) : Prop where
  some_channel : 1 ≤ A.nf
  some_channel' : 1 ≤ A'.nf
  points : A'.nt = A.nt
  first : SameFirstChannel A.data A'.data

/-- Two lists of series of the same lengths with the same first channels; the number of channels is the same in each list. -/
structure SameFirstSeries (nf nf' : Nat) (xs xs' : List (Mat K)) : Prop where
  some_channel : 1 ≤ nf
  some_channel' : 1 ≤ nf'
  channels : ∀ x ∈ xs, x.rows.length = nf
  channels' : ∀ x ∈ xs', x.rows.length = nf'
  lengths : xs'.map Mat.len = xs.map Mat.len
  first : SameFirstChannel (xs.map Mat.rows) (xs'.map Mat.rows)

/-- Two objects that differ in the attribute `max_channels` at most. -/
def SameButChannels (o o' : Rdst K R) : Prop := { o' with maxChannels := none } = { o with maxChannels := none }

end Convst.Spec
