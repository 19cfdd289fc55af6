import Verif.Model.Missing
import Verif.Spec.Transform

/-!
# Specification of `transform` on series with missing values
-/

set_option autoImplicit false

namespace Convst.Spec

/-- `z` is the series `x` with something in the place of its missing values. -/
def Completes (z : List ℝ) (x : List Nf) : Prop :=
  z.length = x.length ∧ ∀ (t : Nat) (v : ℝ), x[t]? = some (.num v) → z[t]? = some v

/-- The window starting at time `i` contains a missing value. -/
def Hit (phase : Bool) (x : List Nf) (l d i : Nat) : Prop :=
  ∃ j, j < l ∧ x[pos phase x.length d i j]? = some .nan

open Classical in
/-- What the three features become when the distances number `i` with `bad i` are not available.  `D` are the
distances (those at bad positions are not used).
* When the first window is bad, the minimum is `NaN` and its position is 0, whatever follows.
* Otherwise the minimum is the least available distance, and its position the first one attaining it.
* The count is the number of available distances within the threshold. -/
structure MissingFeatures (D : List ℝ) (bad : Nat → Prop) (thr : ℝ) (f : Feat Nf) : Prop where
  first : bad 0 → f.1 = .nan ∧ f.2.1 = .num 0
  least : ¬ bad 0 → ∃ (p : Nat) (m : ℝ), f.1 = .num m ∧ f.2.1 = .num p ∧ D[p]? = some m ∧ ¬ bad p ∧
    (∀ q v, D[q]? = some v → ¬ bad q → m ≤ v) ∧ ∀ q v, q < p → D[q]? = some v → ¬ bad q → m < v
  count : f.2.2 = .num ((Finset.range D.length).filter fun q => ¬ bad q ∧ D.getD q 0 ≤ thr).card

end Convst.Spec
