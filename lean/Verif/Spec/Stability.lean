import Verif.Model.Rdst
import Verif.Spec.Transform

/-!
# Specification: fitted shapelets seen uniformly, neighbouring and extended series

A series is a list of channels; univariate shapelets only look at the first one.
-/

set_option autoImplicit false

namespace Convst.Spec

/-- Number of shapelets. -/
def shpCount : Shapelets ℝ → Nat
  | .u S => S.lengths.length
  | .m S => S.lengths.length

/-- Length of shapelet `k`. -/
def shpLength : Shapelets ℝ → Nat → Nat
  | .u S, k => S.lengths.getD k 0
  | .m S, k => S.lengths.getD k 0

/-- Dilation of shapelet `k`. -/
def shpDilation : Shapelets ℝ → Nat → Nat
  | .u S, k => S.dilations.getD k 0
  | .m S, k => S.dilations.getD k 0

/-- Is shapelet `k` compared with z-normalised windows? -/
def shpNorm : Shapelets ℝ → Nat → Bool
  | .u S, k => S.normalize.getD k false
  | .m S, k => S.normalize.getD k false

/-- Threshold of shapelet `k`. -/
noncomputable def shpThreshold : Shapelets ℝ → Nat → ℝ
  | .u S, k => S.threshold.getD k 0
  | .m S, k => S.threshold.getD k 0

/-- Channels of shapelet `k`. -/
def shpChannels : Shapelets ℝ → Nat → List Nat
  | .u _, _ => [0]
  | .m S, k => mChannels S k

/-- Distances of shapelet `k` to all windows of a series with `T` points. -/
noncomputable def shpDistances (phase : Bool) : Shapelets ℝ → List (List ℝ) → Nat → Nat → List ℝ
  | .u S, s, _, k => uDistances phase S (s.getD 0 []) k
  | .m S, s, T, k => mDistances phase S s T k

/-- The three features of shapelet `k` on a series with `T` points. -/
noncomputable def shpFeatures (phase : Bool) (S : Shapelets ℝ) (s : List (List ℝ)) (T k : Nat) : Feat ℝ :=
  features (shpDistances phase S s T k) (shpThreshold S k)

/-- The row of features of a series with `T` points. -/
noncomputable def shpRow (phase : Bool) (S : Shapelets ℝ) (s : List (List ℝ)) (T : Nat) : List ℝ :=
  (List.range (shpCount S)).flatMap fun k => cells (shpFeatures phase S s T k)

/-- Two series with values differing by at most `ε` everywhere. -/
def CloseTo (ε : ℝ) (x z : List ℝ) : Prop := List.Forall₂ (fun a b => |a - b| ≤ ε) x z

/-- The same for series with several channels. -/
def CloseSeries (ε : ℝ) (x z : List (List ℝ)) : Prop := List.Forall₂ (CloseTo ε) x z

/-- How much a distance of shapelet `k` to a window of the series `x` (with `T` points) may change when the
values of the series change by at most `ε`: the number of values compared times `ε`; for a normalised shapelet
three times that, divided by `s + 1e-8`, where `s` is a lower bound of the standard deviations of the windows
of `x`. -/
def Slack (phase : Bool) (S : Shapelets ℝ) (k : Nat) (x : List (List ℝ)) (T : Nat) (ε δ : ℝ) : Prop :=
  (shpNorm S k = false → δ = (shpChannels S k).length * shpLength S k * ε) ∧
  (shpNorm S k = true → ∃ s : ℝ, 0 ≤ s ∧
    (∀ c ∈ shpChannels S k, ∀ i, i < nWin phase T (shpLength S k) (shpDilation S k) →
      s ≤ std (window phase (x.getD c []) (shpLength S k) (shpDilation S k) i)) ∧
    δ = 3 * ((shpChannels S k).length * shpLength S k * ε) / (s + 1 / 10 ^ 8))

/-- Two rows of features agree on shapelet `k` up to a change `δ` of the distances `D` behind the first row:
the distance features differ by at most `δ`; the positions are equal when the other distances exceed the least
one by more than `2 δ`; the numbers of occurrences are equal when no distance is within `δ` of the threshold. -/
def StableAt (D : List ℝ) (thr δ : ℝ) (k : Nat) (row row' : List ℝ) : Prop :=
  ∃ a p n a' p' n' : ℝ, row[3 * k]? = some a ∧ row[3 * k + 1]? = some p ∧ row[3 * k + 2]? = some n ∧
    row'[3 * k]? = some a' ∧ row'[3 * k + 1]? = some p' ∧ row'[3 * k + 2]? = some n' ∧
    |a - a'| ≤ δ ∧
    ((∀ (q : Nat) (v : ℝ), D[q]? = some v → (q : ℝ) ≠ p → a + 2 * δ < v) → p' = p) ∧
    ((∀ v ∈ D, δ < |v - thr|) → n' = n)

/-- `z` is `x` with `p` points put before and `q` points after every channel. -/
def Embeds (p q : Nat) (x z : List (List ℝ)) : Prop :=
  List.Forall₂ (fun a b => b.length = p + a.length + q ∧ (b.drop p).take a.length = a) x z

/-- What happens to the features of shapelet `k` when `p` points are put before and `q` points after the
series: the distance does not increase; there are at least as many occurrences, and at most `p + q` more; if
the distance stays the same, the position moves by at most `p`, and stays the same if `p = 0`; if the distance
decreases, the new position is a new window (`n` is the number of windows of the original series). -/
def GrowsAt (p q n k : Nat) (row row' : List ℝ) : Prop :=
  ∃ (a a' : ℝ) (i i' c c' : Nat), row[3 * k]? = some a ∧ row[3 * k + 1]? = some (i : ℝ) ∧
    row[3 * k + 2]? = some (c : ℝ) ∧ row'[3 * k]? = some a' ∧ row'[3 * k + 1]? = some (i' : ℝ) ∧
    row'[3 * k + 2]? = some (c' : ℝ) ∧
    a' ≤ a ∧ c ≤ c' ∧ c' ≤ c + p + q ∧
    (a' = a → i' ≤ p + i ∧ (p = 0 → i' = i)) ∧
    (a' < a → i' < p ∨ p + n ≤ i')

end Convst.Spec
