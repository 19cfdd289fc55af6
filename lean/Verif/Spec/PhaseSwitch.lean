import Verif.Spec.Reads

/-!
# Specification: what phase invariance adds to the features
-/

set_option autoImplicit false

namespace Convst.Spec

/-- The features of shapelet `k` on a series of `T` points without (`row`) and with (`row'`) phase invariance, for a shapelet
that spans `s` points after its first one: the distance is the same, at the same position, or smaller, at one of the last
`s` positions; at most `s` occurrences are added and none is lost. -/
def PhaseAddsAt (T s k : Nat) (row row' : List ℝ) : Prop :=
  ∃ (a a' : ℝ) (i i' c c' : Nat), row[3 * k]? = some a ∧ row[3 * k + 1]? = some (i : ℝ) ∧ row[3 * k + 2]? = some (c : ℝ) ∧
    row'[3 * k]? = some a' ∧ row'[3 * k + 1]? = some (i' : ℝ) ∧ row'[3 * k + 2]? = some (c' : ℝ) ∧
    c ≤ c' ∧ c' ≤ c + s ∧ (a' = a ∧ i' = i ∨ a' < a ∧ T - s ≤ i' ∧ i' < T)

end Convst.Spec
