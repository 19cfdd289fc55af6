import Verif.Spec.Fit

/-!
# Specification of `fit` in any arithmetic

What the result of `fit` must be whatever the arithmetic: every shapelet is a window (normalised when flagged) of
a training series, and its threshold comes from its distances to a series of the same class.  No property of the numbers is used.
-/

set_option autoImplicit false

namespace Convst.Spec

/-- Arguments of `fit` for equal-length data: rectangular data with one label per sample, at least one channel, a
positive number of shapelets, candidate lengths between 2 and the number of points. -/
structure SafeSL {K L : Type} (a : FitArgs K L) : Prop where
  data : DataSL a
  nf : 1 ≤ a.nf
  nShp : 1 ≤ a.nShp
  sizes : a.sizes ≠ []
  bounds : ∀ l ∈ a.sizes, 2 ≤ l ∧ l ≤ a.nt

/-- The same for padded variable-length data, `minLen` being at most the length of every series. -/
structure SafeVL {K L : Type} (a : FitArgs K L) (minLen : Nat) (xLen : List Nat) : Prop where
  data : DataVL a xLen minLen
  ne : a.X ≠ []
  nf : 1 ≤ a.nf
  nShp : 1 ≤ a.nShp
  sizes : a.sizes ≠ []
  bounds : ∀ l ∈ a.sizes, 2 ≤ l ∧ l ≤ minLen

/-- Channel `c` of training series `s`. -/
def seriesSL {K L : Type} (a : FitArgs K L) (s c : Nat) : List K := (a.X.getD s []).getD c []

/-- The true points of channel `c` of training series `s`. -/
def seriesVL {K L : Type} (a : FitArgs K L) (xLen : List Nat) (s c : Nat) : List K :=
  ((a.X.getD s []).getD c []).take (xLen.getD s 0)

/-- Series `test` is one the shapelet extracted from series `s` may be compared with: it has the same label, and is
another series when there is one with that label. -/
def Compared {L : Type} (y : List L) (s test : Nat) : Prop :=
  test < y.length ∧ y[test]? = y[s]? ∧ ((∃ s', s' < y.length ∧ s' ≠ s ∧ y[s']? = y[s]?) → test ≠ s)

/-- The threshold `thr` was drawn between the two percentiles of the distances `D`: it is
`p0 + (p1 - p0) * u` for some `u` which can be drawn. -/
def ThrFrom {K : Type} [Scalar K] (pMin pMax : K) (draw : K → Prop) (D : List K) (thr : K) : Prop :=
  ∃ p0 p1 u, percentile D pMin = .ok p0 ∧ percentile D pMax = .ok p1 ∧ draw u ∧ thr = p0 + (p1 - p0) * u

/-- Univariate shapelets learned from `ns` series, series `s` having `len s` points: at most `nShp` of them, each
with an offered length and a dilation for which it fits in `n` points, equal to the (normalised, when flagged)
window at some position of some training series, with a threshold satisfying `thr` for the distances of the
shapelet to a training series of the same class. -/
structure ULearned {K L : Type} [Scalar K] (nShp : Nat) (sizes : List Nat) (n ns : Nat) (len : Nat → Nat)
    (series : Nat → Nat → List K) (y : List L) (thr : List K → K → Prop) (phase : Bool) (S : UShp K) : Prop where
  wf : UWF S
  count : S.lengths.length ≤ nShp
  shapelet : ∀ k : Nat, k < S.lengths.length → ∃ l d norm, S.lengths[k]? = some l ∧ S.dilations[k]? = some d ∧
    S.normalize[k]? = some norm ∧ l ∈ sizes ∧ 1 ≤ d ∧ (l - 1) * d ≤ n - 1 ∧
    ∃ s t, s < ns ∧ t < nWin phase (len s) l d ∧ uValues S k = seen norm (window phase (series s 0) l d t) ∧
    ∃ test th, Compared y s test ∧ S.threshold[k]? = some th ∧ thr (uDistances phase S (series test 0) k) th

/-- Multivariate shapelets: the same, with between 1 and `mc` distinct channels. -/
structure MLearned {K L : Type} [Scalar K] (nShp : Nat) (sizes : List Nat) (n ns nf mc : Nat) (len : Nat → Nat)
    (series : Nat → Nat → List K) (y : List L) (thr : List K → K → Prop) (phase : Bool) (S : MShp K) : Prop where
  wf : MWF S nf
  count : S.lengths.length ≤ nShp
  shapelet : ∀ k : Nat, k < S.lengths.length → ∃ l d norm nch, S.lengths[k]? = some l ∧
    S.dilations[k]? = some d ∧ S.normalize[k]? = some norm ∧ S.nChannels[k]? = some nch ∧ l ∈ sizes ∧ 1 ≤ d ∧
    (l - 1) * d ≤ n - 1 ∧ 1 ≤ nch ∧ nch ≤ mc ∧ (mChannels S k).length = nch ∧ (mChannels S k).Nodup ∧
    ∃ s t, s < ns ∧ t < nWin phase (len s) l d ∧
      (∀ c < nch, mValues S k c = seen norm (window phase (series s ((mChannels S k).getD c 0)) l d t)) ∧
      ∃ test th, Compared y s test ∧ S.threshold[k]? = some th ∧
        thr (mDistances phase S ((List.range nf).map (series test)) (len test) k) th

end Convst.Spec
