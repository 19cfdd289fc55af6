import Verif.Spec.Missing
import Verif.Spec.RoundedFit

/-!
# Specification of `fit` on training series with missing values
-/

set_option autoImplicit false

namespace Convst.Spec

/-- The threshold obtained from distances some of which may be `NaN`: `NaN` as soon as one of them is, otherwise a
number between the two percentiles. -/
structure MissingThreshold (qMin qMax : ℝ) (D : List Nf) (th : Nf) : Prop where
  missing : Nf.nan ∈ D → th = .nan
  number : ∀ D' : List ℝ, D = D'.map Nf.num → ∃ p0 p1 t, percentile D' qMin = .ok p0 ∧
    percentile D' qMax = .ok p1 ∧ th = .num t ∧ p0 ≤ t ∧ t ≤ p1

/-- Shapelet `k` was extracted at position `t` of series `s` and compared with series `test`; it contains a missing
value exactly when its window does, and its threshold is `NaN` exactly when its window or *some* window of the
series it was compared with contains a missing value. -/
def UMissingOrigin {L : Type} (ns : Nat) (len : Nat → Nat) (series : Nat → Nat → List Nf) (y : List L)
    (phase : Bool) (S : UShp Nf) (k : Nat) : Prop :=
  ∃ l d norm s t test, S.lengths[k]? = some l ∧ S.dilations[k]? = some d ∧ S.normalize[k]? = some norm ∧
    s < ns ∧ t < nWin phase (len s) l d ∧ Compared y s test ∧
    uValues S k = seen norm (window phase (series s 0) l d t) ∧
    (Nf.nan ∈ uValues S k ↔ Hit phase (series s 0) l d t) ∧
    (S.threshold[k]? = some .nan ↔
      Hit phase (series s 0) l d t ∨ ∃ w, w < nWin phase (len test) l d ∧ Hit phase (series test 0) l d w)

/-- The same for several channels: only the channels of the shapelet matter. -/
def MMissingOrigin {L : Type} (ns : Nat) (len : Nat → Nat) (series : Nat → Nat → List Nf) (y : List L)
    (phase : Bool) (S : MShp Nf) (k : Nat) : Prop :=
  ∃ l d norm nch s t test, S.lengths[k]? = some l ∧ S.dilations[k]? = some d ∧ S.normalize[k]? = some norm ∧
    S.nChannels[k]? = some nch ∧ (mChannels S k).length = nch ∧
    s < ns ∧ t < nWin phase (len s) l d ∧ Compared y s test ∧
    (∀ c < nch, mValues S k c = seen norm (window phase (series s ((mChannels S k).getD c 0)) l d t) ∧
      (Nf.nan ∈ mValues S k c ↔ Hit phase (series s ((mChannels S k).getD c 0)) l d t)) ∧
    (S.threshold[k]? = some .nan ↔ ∃ c ∈ mChannels S k,
      Hit phase (series s c) l d t ∨ ∃ w, w < nWin phase (len test) l d ∧ Hit phase (series test c) l d w)

/-- Where every fitted shapelet comes from. -/
def MissingOrigin {L : Type} (ns : Nat) (len : Nat → Nat) (series : Nat → Nat → List Nf) (y : List L)
    (phase : Bool) : Shapelets Nf → Prop
  | .u S => ∀ k, k < S.lengths.length → UMissingOrigin ns len series y phase S k
  | .m S => ∀ k, k < S.lengths.length → MMissingOrigin ns len series y phase S k

/-- The threshold of shapelet `k`. -/
def thrAt {K : Type} : Shapelets K → Nat → Option K
  | .u S, k => S.threshold[k]?
  | .m S, k => S.threshold[k]?

/-- Shapelet `k` contains a missing value, in some channel. -/
def HasNan : Shapelets Nf → Nat → Prop
  | .u S, k => Nf.nan ∈ uValues S k
  | .m S, k => ∃ c, c < (mChannels S k).length ∧ Nf.nan ∈ mValues S k c

/-- Usable parameters for series of `m` points, none of them `NaN`. -/
structure NfParams {R : Type} (o : Rdst Nf R) (m : Nat) (qMin qMax : ℝ) : Prop where
  nShp : 1 ≤ o.nShp
  pMin : o.pMin = .num qMin
  pMax : o.pMax = .num qMax
  low : 0 ≤ qMin
  order : qMin ≤ qMax
  high : qMax ≤ 100
  nSamples : o.nSamples = none
  red : ∃ ρ : ℝ, o.reduction = .num ρ ∧ ρ ≤ 1
  lens : o.bounds = none →
    (∃ l, o.lens = .ints l ∧ l ≠ [] ∧ ∀ z ∈ l, 1 < z) ∨
    (∃ l : List ℝ, o.lens = .floats (l.map Nf.num) ∧ l ≠ [] ∧ ∀ x ∈ l, 2 ≤ (m : ℝ) * x)

end Convst.Spec
