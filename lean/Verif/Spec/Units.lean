import Verif.Spec.Transform

/-!
# A change of units

Every measurement `v` is replaced by `c * v + b`: the specification of what should become of the
shapelets and of the features.
-/

set_option autoImplicit false

namespace Convst.Spec

/-- One measurement in the new units. -/
noncomputable def inUnits (c b v : ℝ) : ℝ := c * v + b

/-- One shapelet value in the new units: the offset does not show in a normalised shapelet. -/
noncomputable def shpUnits (c b : ℝ) (norm : Bool) (v : ℝ) : ℝ := c * v + if norm then 0 else b

/-- Univariate shapelets in the new units. -/
structure UUnits (c b : ℝ) (S S' : UShp ℝ) : Prop where
  lengths : S'.lengths = S.lengths
  dilations : S'.dilations = S.dilations
  normalize : S'.normalize = S.normalize
  threshold : S'.threshold = S.threshold.map fun t => |c| * t
  values : ∀ k, k < S.lengths.length →
    uValues S' k = (uValues S k).map (shpUnits c b (S.normalize.getD k false))

/-- Multivariate shapelets in the new units. -/
structure MUnits (c b : ℝ) (S S' : MShp ℝ) : Prop where
  lengths : S'.lengths = S.lengths
  dilations : S'.dilations = S.dilations
  normalize : S'.normalize = S.normalize
  nChannels : S'.nChannels = S.nChannels
  channels : ∀ k, k < S.lengths.length → mChannels S' k = mChannels S k
  threshold : S'.threshold = S.threshold.map fun t => |c| * t
  values : ∀ k, k < S.lengths.length → ∀ j, j < S.nChannels.getD k 0 →
    mValues S' k j = (mValues S k j).map (shpUnits c b (S.normalize.getD k false))

/-- A change of units is harmless for these shapelets: either it is a shift, possibly with a change
of sign, or no shapelet is normalised. -/
def Harmless (c : ℝ) (normalize : List Bool) : Prop :=
  |c| = 1 ∨ c ≠ 0 ∧ ∀ k, normalize.getD k false = false

/-- The features in the new units: the minimum is a distance, the position and the number of
occurrences are not. -/
noncomputable def featUnits (c : ℝ) (f : Feat ℝ) : Feat ℝ := (|c| * f.1, f.2.1, f.2.2)

/-- One row of features in the new units: columns 0, 3, 6, … are distances. -/
noncomputable def rowUnits (c : ℝ) (row : List ℝ) : List ℝ :=
  row.mapIdx fun j v => if j % 3 = 0 then |c| * v else v

end Convst.Spec
