import Verif.Model.Apply

/-!
# Specification of the shapelet transform

A declarative description, for one series and one shapelet, of what `transform` should output.
Nothing here refers to grouping, shared window matrices, offsets or in-place updates.
-/

set_option autoImplicit false

namespace Convst.Spec
variable {K : Type} [Scalar K]

/-- Number of windows offered by a series of `T` points to a shapelet of length `l`, dilation `d`. -/
def nWin (phase : Bool) (T l d : Nat) : Nat := if phase then T else T - (l - 1) * d

/-- Time point under the `j`-th shapelet value when the shapelet starts at time `i`. -/
def pos (phase : Bool) (T d i j : Nat) : Nat := if phase then (i + j * d) % T else i + j * d

/-- The window starting at time `i`. -/
def window (phase : Bool) (x : List K) (l d i : Nat) : List K :=
  (List.range l).map fun j => x.getD (pos phase x.length d i j) 0

/-- Sum of absolute differences `Σ_{j < |w|} |w_j - v_j|`, accumulated from left to right. -/
def l1 (w v : List K) : K :=
  (List.range w.length).foldl (fun s j => s + Scalar.abs (w.getD j 0 - v.getD j 0)) 0

/-- The window as compared with a shapelet: z-normalised when the shapelet is flagged. -/
def seen (norm : Bool) (w : List K) : List K := if norm then znorm w else w

/-- Distances of the shapelet with values `v` to all windows of `x`. -/
def distances (phase norm : Bool) (x v : List K) (l d : Nat) : List K :=
  (List.range (nWin phase x.length l d)).map fun i => l1 (seen norm (window phase x l d i)) v

/-- Left-to-right search of a strict minimum, `-1` meaning "nothing seen yet". -/
def scanMin : List K → Nat → K → Nat → K × Nat
  | [], _, m, a => (m, a)
  | x :: xs, i, m, a =>
    if Scalar.ltb x m || Scalar.eqb m (-1) then scanMin xs (i + 1) x i else scanMin xs (i + 1) m a

/-- The three features of a list of distances (operational form, for any scalar type). -/
def features (D : List K) (thr : K) : Feat K :=
  ((scanMin D 0 (-1) 0).1, Scalar.ofNat (scanMin D 0 (-1) 0).2,
    Scalar.ofNat (D.countP fun x => Scalar.leb x thr))

/-- The three features of a non-empty list of distances (declarative form, exact arithmetic):
the least distance, the first position attaining it, the number of distances `≤ thr`. -/
def IsFeatures (D : List ℝ) (thr : ℝ) (f : Feat ℝ) : Prop :=
  (f.1 ∈ D ∧ ∀ x ∈ D, f.1 ≤ x) ∧
  (∃ p : Nat, f.2.1 = p ∧ D[p]? = some f.1 ∧ ∀ q x, q < p → D[q]? = some x → f.1 < x) ∧
  f.2.2 = (D.countP fun x => decide (x ≤ thr) : Nat)

/-- The three output cells of one shapelet. -/
def cells (f : Feat K) : List K := [f.1, f.2.1, f.2.2]

/-- A series is long enough for a shapelet: the transform does not fail on it. -/
def Fits (phase : Bool) (T l d : Nat) : Prop := phase = true ∨ (l - 1) * d ≤ T

/-- A series offers at least one window to a shapelet. -/
def HasWindow (phase : Bool) (T l d : Nat) : Prop :=
  if phase then 0 < T else (l - 1) * d < T

/-! ## Univariate -/

/-- Well-formed univariate shapelet arrays: equal lengths, and every row of `values` holds at least
as many values as the length of its shapelet. -/
structure UWF (S : UShp K) : Prop where
  values : S.values.length = S.lengths.length
  dilations : S.dilations.length = S.lengths.length
  threshold : S.threshold.length = S.lengths.length
  normalize : S.normalize.length = S.lengths.length
  pos : ∀ k, k < S.lengths.length → 1 ≤ S.lengths.getD k 0
  room : ∀ k, k < S.lengths.length → S.lengths.getD k 0 ≤ (S.values.getD k []).length

/-- Values of shapelet `k`. -/
def uValues (S : UShp K) (k : Nat) : List K := (S.values.getD k []).take (S.lengths.getD k 0)

/-- Distances of shapelet `k` to all windows of series `x`. -/
def uDistances (phase : Bool) (S : UShp K) (x : List K) (k : Nat) : List K :=
  distances phase (S.normalize.getD k false) x (uValues S k) (S.lengths.getD k 0)
    (S.dilations.getD k 0)

/-- Features of shapelet `k` on series `x`. -/
def uFeatures (phase : Bool) (S : UShp K) (x : List K) (k : Nat) : Feat K :=
  features (uDistances phase S x k) (S.threshold.getD k 0)

/-- Output row of series `x`. -/
def uRow (phase : Bool) (S : UShp K) (x : List K) : List K :=
  (List.range S.lengths.length).flatMap fun k => cells (uFeatures phase S x k)

/-! ## Multivariate -/

/-- Offset of shapelet `k` in the flattened channel array. -/
def mChanOff (S : MShp K) (k : Nat) : Nat := (S.nChannels.take k).sum

/-- Offset of shapelet `k` in the flattened value array. -/
def mValOff (S : MShp K) (k : Nat) : Nat :=
  ((List.range k).map fun i => S.nChannels.getD i 0 * S.lengths.getD i 0).sum

/-- Channels of shapelet `k`. -/
def mChannels (S : MShp K) (k : Nat) : List Nat :=
  (S.channelIds.drop (mChanOff S k)).take (S.nChannels.getD k 0)

/-- Values of shapelet `k` for its `c`-th channel. -/
def mValues (S : MShp K) (k c : Nat) : List K :=
  (S.values.drop (mValOff S k + c * S.lengths.getD k 0)).take (S.lengths.getD k 0)

/-- Well-formed multivariate shapelet arrays for data with `nf` channels. -/
structure MWF (S : MShp K) (nf : Nat) : Prop where
  dilations : S.dilations.length = S.lengths.length
  threshold : S.threshold.length = S.lengths.length
  normalize : S.normalize.length = S.lengths.length
  nChannels : S.nChannels.length = S.lengths.length
  pos : ∀ k, k < S.lengths.length → 1 ≤ S.lengths.getD k 0
  values : S.values.length = mValOff S S.lengths.length
  channels : S.channelIds.length = S.nChannels.sum
  range : ∀ c ∈ S.channelIds, c < nf

/-- Distance of the shapelet `k` to window `i` of the multivariate series `x` (list of channels, `T`
points each): the sum over the channels of the shapelet of the channel distances. -/
def mDist (phase : Bool) (S : MShp K) (x : List (List K)) (k i : Nat) : K :=
  (List.range (mChannels S k).length).foldl (fun s c =>
    s + l1 (seen (S.normalize.getD k false)
          (window phase (x.getD ((mChannels S k).getD c 0) []) (S.lengths.getD k 0)
            (S.dilations.getD k 0) i))
        (mValues S k c)) 0

/-- Distances of shapelet `k` to all windows of the multivariate series `x` with `T` points. -/
def mDistances (phase : Bool) (S : MShp K) (x : List (List K)) (T k : Nat) : List K :=
  (List.range (nWin phase T (S.lengths.getD k 0) (S.dilations.getD k 0))).map (mDist phase S x k)

/-- Features of shapelet `k` on the multivariate series `x`. -/
def mFeatures (phase : Bool) (S : MShp K) (x : List (List K)) (T k : Nat) : Feat K :=
  features (mDistances phase S x T k) (S.threshold.getD k 0)

/-- Output row of the multivariate series `x`. -/
def mRow (phase : Bool) (S : MShp K) (x : List (List K)) (T : Nat) : List K :=
  (List.range S.lengths.length).flatMap fun k => cells (mFeatures phase S x T k)

end Convst.Spec
