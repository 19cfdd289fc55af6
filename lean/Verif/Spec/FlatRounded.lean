import Verif.Spec.Digital

/-!
# Specification: flat windows after normalisation in rounded arithmetic
-/

set_option autoImplicit false

namespace Convst.Spec

/-- What rounding with relative error `u` may leave of a flat window of `n` points after the normalisation, relatively to its
value: the error of the mean, divided by `1e-8`.  It is about `n * u * 1e8`. -/
noncomputable def flatResidue (u : ℝ) (n : Nat) : ℝ := (1 + u) ^ 2 * ((1 + u) ^ (n + 1) - 1) / ((1 - u) ^ 2 / 10 ^ 8)

end Convst.Spec
