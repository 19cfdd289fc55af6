import Verif.Model.Ieee
import Verif.Spec.Transform

/-!
# Specification of `transform` on numbers of a bounded range
-/

set_option autoImplicit false

namespace Convst.Spec

variable {F : FloatFormat}

/-- `z` is the series `x` with something in the place of its values which are not finite. -/
def FiniteParts (z : List (Fl F.r)) (x : List (Ieee F)) : Prop :=
  z.length = x.length ∧ ∀ (t : Nat) (v : Fl F.r), x[t]? = some (.fin v) → z[t]? = some v

/-- The finite values of the series are numbers of the format. -/
def OnGrid (x : List (Ieee F)) : Prop := ∀ v : ℝ, Ieee.fin v ∈ x → v ∈ F.grid

/-- No value of the series is missing. -/
def NoNan (x : List (Ieee F)) : Prop := Ieee.nan ∉ x

/-- The window starting at time `i` contains an infinite value. -/
def HitInf (phase : Bool) (x : List (Ieee F)) (l d i : Nat) : Prop :=
  ∃ j s, j < l ∧ x[pos phase x.length d i j]? = some (.inf s)

open Classical in
/-- What the three features become when the distances number `i` with `bad i` are infinite.  `D` are the distances
(those at bad positions are not used).
* When all distances are infinite, the minimum is infinite, its position is 0 and the count is 0.
* Otherwise the minimum is the least finite distance, and its position the first one attaining it.
* The count is the number of finite distances within the threshold. -/
structure InfiniteFeatures (D : List ℝ) (bad : Nat → Prop) (thr : ℝ) (f : Feat (Ieee F)) : Prop where
  all : (∀ q, q < D.length → bad q) → f.1 = .inf false ∧ f.2.1 = Scalar.ofNat 0
  least : (∃ q, q < D.length ∧ ¬ bad q) → ∃ (p : Nat) (m : ℝ), f.1 = .fin m ∧ f.2.1 = Scalar.ofNat p ∧
    D[p]? = some m ∧ ¬ bad p ∧ (∀ q v, D[q]? = some v → ¬ bad q → m ≤ v) ∧
    ∀ q v, q < p → D[q]? = some v → ¬ bad q → m < v
  count : f.2.2 = Scalar.ofNat ((Finset.range D.length).filter fun q => ¬ bad q ∧ D.getD q 0 ≤ thr).card

/-- The windows whose distance to an ordinary univariate shapelet is infinite: those with an infinite value, and
those whose distance, computed with an unbounded range from the series `z`, reaches the overflow threshold. -/
def UBad (phase : Bool) (S : UShp (Fl F.r)) (x : List (Ieee F)) (z : List (Fl F.r)) (k i : Nat) : Prop :=
  HitInf phase x (S.lengths.getD k 0) (S.dilations.getD k 0) i ∨ F.top ≤ ((uDistances phase S z k).getD i 0).val

/-- The same for multivariate shapelets: an infinite value in one of the channels of the shapelet. -/
def MBad (phase : Bool) (S : MShp (Fl F.r)) (x : List (List (Ieee F))) (z : List (List (Fl F.r))) (T k i : Nat) :
    Prop :=
  (∃ c ∈ mChannels S k, HitInf phase (x.getD c []) (S.lengths.getD k 0) (S.dilations.getD k 0) i) ∨
    F.top ≤ ((mDistances phase S z T k).getD i 0).val

/-- The window starting at time `i` contains an infinite or missing value. -/
def HitAny (phase : Bool) (x : List (Ieee F)) (l d i : Nat) : Prop :=
  HitInf phase x l d i ∨ ∃ j, j < l ∧ x[pos phase x.length d i j]? = some .nan

open Classical in
/-- What the three features become when the windows number `i < n` with `bad i` give `NaN`.
* When the first window is bad, the minimum is `NaN` and its position is 0, whatever follows.
* Otherwise the position is the one of a window that is not bad.
* Bad windows are not counted. -/
structure PassedOver (n : Nat) (bad : Nat → Prop) (f : Feat (Ieee F)) : Prop where
  first : bad 0 → f.1 = .nan ∧ f.2.1 = Scalar.ofNat 0
  position : ¬ bad 0 → ∃ p, p < n ∧ ¬ bad p ∧ f.2.1 = Scalar.ofNat p
  count : ∃ c, f.2.2 = Scalar.ofNat c ∧ c ≤ ((Finset.range n).filter fun q => ¬ bad q).card

end Convst.Spec
