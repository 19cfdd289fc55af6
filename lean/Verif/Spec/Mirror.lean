import Verif.Spec.Law
import Verif.Spec.Stability

/-!
# Recordings played backwards

What should become of the shapelets, of their sources and of the features when every series is reversed in time.
-/

set_option autoImplicit false

namespace Convst.Spec

/-- The window starting at time `t` of a series of `T` points, seen in the reversed series, starts where its last
point is. -/
def mirrorAt (phase : Bool) (T l d t : Nat) : Nat := T - 1 - pos phase T d t (l - 1)

/-- Every series reversed in time. -/
def Train.reversed {L : Type} (T : Train L) : Train L := { T with series := fun s c => (T.series s c).reverse }

/-- Arguments of `fit` with all series reversed, equal lengths. -/
def reversedSL {L : Type} (a : FitArgs ℝ L) : FitArgs ℝ L :=
  { a with X := a.X.map fun s => s.map List.reverse }

/-- Arguments of `fit` with all series reversed; series `s` has `xLen[s]` true points followed by padding, which stays
at the end. -/
def reversedVL {L : Type} (a : FitArgs ℝ L) (xLen : List Nat) : FitArgs ℝ L :=
  { a with X := a.X.mapIdx fun s x => x.map fun ch => (ch.take (xLen.getD s 0)).reverse ++ ch.drop (xLen.getD s 0) }

/-- The same choices, the shapelets being read backwards from the reversed series. -/
def Choices.mirrored {L : Type} (T : Train L) (phase : Bool) (c : Choices) : Choices :=
  { c with src := fun i => (c.src i).map fun r =>
      { r with index := mirrorAt phase (T.len r.sample) (c.par.length i) (c.par.dilation i) r.index } }

/-- The sources are windows of the training series. -/
def Choices.InData {L : Type} (T : Train L) (phase : Bool) (c : Choices) : Prop :=
  ∀ i, i < c.par.n → ∀ r, c.src i = some r → r.sample < T.ns ∧
    r.index < nWin phase (T.len r.sample) (c.par.length i) (c.par.dilation i)

/-- Univariate shapelets with their values reversed. -/
structure UMirror (S S' : UShp ℝ) : Prop where
  lengths : S'.lengths = S.lengths
  dilations : S'.dilations = S.dilations
  normalize : S'.normalize = S.normalize
  threshold : S'.threshold = S.threshold
  values : ∀ k, k < S.lengths.length → uValues S' k = (uValues S k).reverse

/-- Multivariate shapelets with their values reversed, channel by channel. -/
structure MMirror (S S' : MShp ℝ) : Prop where
  lengths : S'.lengths = S.lengths
  dilations : S'.dilations = S.dilations
  normalize : S'.normalize = S.normalize
  threshold : S'.threshold = S.threshold
  nChannels : S'.nChannels = S.nChannels
  channels : ∀ k, k < S.lengths.length → mChannels S' k = mChannels S k
  values : ∀ k, k < S.lengths.length → ∀ j, j < S.nChannels.getD k 0 → mValues S' k j = (mValues S k j).reverse

/-- Shapelets with their values reversed. -/
def Mirror : Shapelets ℝ → Shapelets ℝ → Prop
  | .u S, .u S' => UMirror S S'
  | .m S, .m S' => MMirror S S'
  | _, _ => False

/-- How the features of shapelet `k` on a series with `T` points, `D` being its distances, compare with those on the
reversed series: same distance, same number of occurrences; the window found in the reversed series is, seen in the
original one, at the same least distance, and it is the same window when no other one is at this distance. -/
def MirrorAt (D : List ℝ) (phase : Bool) (T l d k : Nat) (row row' : List ℝ) : Prop :=
  ∃ (a c : ℝ) (p p' : Nat), row[3 * k]? = some a ∧ row[3 * k + 1]? = some (p : ℝ) ∧ row[3 * k + 2]? = some c ∧
    row'[3 * k]? = some a ∧ row'[3 * k + 1]? = some (p' : ℝ) ∧ row'[3 * k + 2]? = some c ∧
    D[mirrorAt phase T l d p']? = some a ∧
    ((∀ q, q ≠ p → D[q]? ≠ some a) → mirrorAt phase T l d p' = p ∧ p' = mirrorAt phase T l d p)

end Convst.Spec
