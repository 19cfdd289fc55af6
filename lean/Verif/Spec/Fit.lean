import Verif.Spec.Transform
import Verif.Model.Fit
import Mathlib.Data.Finset.Card
import Mathlib.Data.Finset.Image

/-!
# Specification of `fit`

A declarative description of the shapelets `fit` may return: where they come from, which positions
are allowed, and between which bounds the threshold lies.  No mask, no loop, no generator.
-/

set_option autoImplicit false

namespace Convst.Spec

/-- A labelled training set: `series s c` are the true values of channel `c` of sample `s`, of
`len s` points. -/
structure Train (L : Type) where
  ns : Nat
  nf : Nat
  len : Nat → Nat
  series : Nat → Nat → List ℝ
  label : Nat → Option L

/-- The training set described by equal-length arguments. -/
def trainSL {L : Type} (a : FitArgs ℝ L) : Train L where
  ns := a.X.length
  nf := a.nf
  len _ := a.nt
  series s c := (a.X.getD s []).getD c []
  label s := a.y[s]?

/-- The training set described by padded variable-length arguments: series `s` has `xLen[s]` true
points. -/
def trainVL {L : Type} (a : FitArgs ℝ L) (xLen : List Nat) : Train L where
  ns := a.X.length
  nf := a.nf
  len s := xLen.getD s 0
  series s c := ((a.X.getD s []).getD c []).take (xLen.getD s 0)
  label s := a.y[s]?

/-- The parameters drawn for each of the `n` requested shapelets. -/
structure Par where
  n : Nat
  length : Nat → Nat
  dilation : Nat → Nat
  normalize : Nat → Bool

/-- The options of `fit` that constrain positions and thresholds. -/
structure Opt where
  alpha : ℝ
  pMin : ℝ
  pMax : ℝ
  phase : Bool

/-- Where a shapelet comes from: sample and start position, channels, and the sample its threshold
was computed on. -/
structure Src where
  sample : Nat
  index : Nat
  test : Nat
  channels : List Nat

/-- `m` is the least length among the shapelets with the dilation of shapelet `i`. -/
def IsMinLength (P : Par) (i m : Nat) : Prop :=
  (∃ j, j < P.n ∧ P.dilation j = P.dilation i ∧ P.length j = m) ∧
    ∀ j, j < P.n → P.dilation j = P.dilation i → m ≤ P.length j

/-- Number of time points two shapelets may share: `max(1, floor((1-alpha)*m))`. -/
noncomputable def allowance (alpha : ℝ) (m : Nat) : Nat := ⌊max 1 ((1 - alpha) * (m : ℝ))⌋.toNat

/-- Start position `t` is within `l - allow - 1` dilated steps of `index` (modulo the series
length). -/
def Near (T l d allow index t : Nat) : Prop :=
  ∃ j : Nat, j + allow < l ∧
    ((t : Int) = ((index : Int) - j * d) % T ∨ (t : Int) = ((index : Int) + j * d) % T)

/-- The start position `t` in channel `c` of sample `s` is too close to a shapelet sampled before
shapelet `i`, with the same dilation and normalisation. -/
def Blocked {L : Type} (T : Train L) (P : Par) (o : Opt) (rec : Nat → Option Src) (i s c t : Nat) :
    Prop :=
  ∃ j m r, j < i ∧ P.dilation j = P.dilation i ∧ P.normalize j = P.normalize i ∧ rec j = some r ∧
    r.sample = s ∧ c ∈ r.channels ∧ IsMinLength P i m ∧
    Near (T.len s) (P.length j) (P.dilation j) (allowance o.alpha m) r.index t

open Classical in
/-- Enough channels are free: the only channel of a univariate shapelet, a proportion `alpha` of the
channels of a multivariate one. -/
def EnoughFree (multi : Bool) (alpha : ℝ) (channels : List Nat) (blocked : Nat → Prop) : Prop :=
  if multi then (channels.length : ℝ) * alpha ≤ (channels.countP fun c => decide (¬ blocked c) : Nat)
  else ¬ blocked 0

/-- Start position `t` of sample `s` may be used for shapelet `i` with these channels. -/
def Admissible {L : Type} (T : Train L) (P : Par) (o : Opt) (multi : Bool)
    (rec : Nat → Option Src) (i : Nat) (channels : List Nat) (s t : Nat) : Prop :=
  s < T.ns ∧ t < nWin o.phase (T.len s) (P.length i) (P.dilation i) ∧
    EnoughFree multi o.alpha channels fun c => Blocked T P o rec i s c t

/-- The (normalised, when flagged) subsequence of channel `c` of sample `s` at position `t`. -/
noncomputable def subseq {L : Type} (T : Train L) (P : Par) (o : Opt) (i s c t : Nat) : List ℝ :=
  seen (P.normalize i) (window o.phase (T.series s c) (P.length i) (P.dilation i) t)

/-- Distances between the shapelet taken from `r` and all windows of sample `s`. -/
noncomputable def distTo {L : Type} (T : Train L) (P : Par) (o : Opt) (i : Nat) (r : Src)
    (s : Nat) : List ℝ :=
  (List.range (nWin o.phase (T.len s) (P.length i) (P.dilation i))).map fun t =>
    (r.channels.map fun c => l1 (subseq T P o i s c t) (subseq T P o i r.sample c r.index)).sum

/-- `out` is a shapelet extracted from `r`: its values are the subsequence at `r`, its threshold lies
between the two percentiles (the upper one excluded unless they are equal) of its distances to another
sample of the same class (to the same sample if the class has no other member). -/
structure Sampled {L : Type} (T : Train L) (P : Par) (o : Opt) (i : Nat) (r : Src) (out : Out ℝ) :
    Prop where
  channels : out.channels = r.channels
  values : out.values = r.channels.flatMap fun c => subseq T P o i r.sample c r.index
  test_lt : r.test < T.ns
  same_class : T.label r.test = T.label r.sample
  other : (∃ s, s < T.ns ∧ s ≠ r.sample ∧ T.label s = T.label r.sample) → r.test ≠ r.sample
  threshold : ∃ p0 p1, percentile (distTo T P o i r r.test) o.pMin = .ok p0 ∧
    percentile (distTo T P o i r r.test) o.pMax = .ok p1 ∧ p0 ≤ out.threshold ∧ out.threshold ≤ p1 ∧
    (out.threshold < p1 ∨ p0 = p1)

/-- The channels a shapelet uses: channel 0 for univariate data; `nch` distinct channels
otherwise. -/
def ChannelsOK (multi : Bool) (nf nch : Nat) (channels : List Nat) : Prop :=
  if multi then channels.Nodup ∧ channels.length = nch ∧ ∀ c ∈ channels, c < nf else channels = [0]

/-- What happens for shapelet `i`: either it is extracted from an admissible position, or there is no
admissible position and it is discarded. -/
def GoodAt {L : Type} (T : Train L) (P : Par) (o : Opt) (multi : Bool) (nch : Nat → Nat)
    (rec : Nat → Option Src) (out : Nat → Option (Out ℝ)) (i : Nat) : Prop :=
  ∃ channels, ChannelsOK multi T.nf (nch i) channels ∧
    ((rec i = none ∧ out i = none ∧ ∀ s t, ¬ Admissible T P o multi rec i channels s t) ∨
     (∃ r v, rec i = some r ∧ out i = some v ∧ r.channels = channels ∧
        Admissible T P o multi rec i channels r.sample r.index ∧ Sampled T P o i r v))

/-- The univariate arrays returned by `fit` hold exactly the shapelets `out i` for `i` in the
increasing list `kept`, which lists the sampled shapelets having a non-zero value. -/
structure UFrom {K : Type} [Scalar K] (P : Par) (out : Nat → Option (Out K)) (kept : List Nat)
    (S : UShp K) : Prop where
  sorted : kept.Pairwise (· < ·)
  mem : ∀ i, i ∈ kept ↔ i < P.n ∧ ∃ v, out i = some v ∧ ∃ x ∈ v.values, x ≠ 0
  count : S.lengths.length = kept.length
  lengths : ∀ k i : Nat, kept[k]? = some i → S.lengths[k]? = some (P.length i)
  dilations : ∀ k i : Nat, kept[k]? = some i → S.dilations[k]? = some (P.dilation i)
  normalize : ∀ k i : Nat, kept[k]? = some i → S.normalize[k]? = some (P.normalize i)
  shapelet : ∀ k i : Nat, kept[k]? = some i → ∃ v, out i = some v ∧ uValues S k = v.values ∧
    S.threshold[k]? = some v.threshold

/-- The multivariate arrays returned by `fit` hold exactly the shapelets `out i` for `i` in the
increasing list `kept`, which lists the sampled shapelets. -/
structure MFrom {K : Type} (P : Par) (nch : Nat → Nat) (out : Nat → Option (Out K)) (kept : List Nat)
    (S : MShp K) : Prop where
  sorted : kept.Pairwise (· < ·)
  mem : ∀ i, i ∈ kept ↔ i < P.n ∧ ∃ v, out i = some v
  count : S.lengths.length = kept.length
  lengths : ∀ k i : Nat, kept[k]? = some i → S.lengths[k]? = some (P.length i)
  dilations : ∀ k i : Nat, kept[k]? = some i → S.dilations[k]? = some (P.dilation i)
  normalize : ∀ k i : Nat, kept[k]? = some i → S.normalize[k]? = some (P.normalize i)
  nChannels : ∀ k i : Nat, kept[k]? = some i → S.nChannels[k]? = some (nch i)
  shapelet : ∀ k i : Nat, kept[k]? = some i → ∃ v, out i = some v ∧ mChannels S k = v.channels ∧
    (List.range (S.nChannels.getD k 0)).flatMap (mValues S k) = v.values ∧
    S.threshold[k]? = some v.threshold

/-- Time points used by a shapelet of length `l`, dilation `d` read at position `t`. -/
def timePoints (phase : Bool) (T l d t : Nat) : Finset Nat := (Finset.range l).image (pos phase T d t)

end Convst.Spec

namespace Convst
open Spec

/-- The drawn parameters as functions. -/
def parOf (lengths dilations : List Nat) (normalize : List Bool) : Par where
  n := lengths.length
  length i := lengths.getD i 0
  dilation i := dilations.getD i 0
  normalize i := normalize.getD i false

/-- The options as a record. -/
def optOf {L : Type} (a : FitArgs ℝ L) : Opt := ⟨a.alpha, a.pMin, a.pMax, a.phase⟩

/-- Valid percentiles. -/
structure PercOK {L : Type} (a : FitArgs ℝ L) : Prop where
  lo : 0 ≤ a.pMin
  le : a.pMin ≤ a.pMax
  hi : a.pMax ≤ 100

/-- Equal-length training data. -/
structure DataSL {K L : Type} (a : FitArgs K L) : Prop where
  y : a.y.length = a.X.length
  nf : ∀ s ∈ a.X, s.length = a.nf
  nt : ∀ s ∈ a.X, ∀ x ∈ s, x.length = a.nt

/-- Variable-length training data, padded to `nt` points, `xLen[s]` of which are true points; every
series has at least `n` true points. -/
structure DataVL {K L : Type} (a : FitArgs K L) (xLen : List Nat) (n : Nat) : Prop where
  y : a.y.length = a.X.length
  len : xLen.length = a.X.length
  nf : ∀ s ∈ a.X, s.length = a.nf
  nt : ∀ s ∈ a.X, ∀ x ∈ s, x.length = a.nt
  le : ∀ n' ∈ xLen, n' ≤ a.nt
  ge : ∀ n' ∈ xLen, n ≤ n'

/-- The dilations that can be drawn for length `l`: the dilated extent fits; with the prime scheme 1 or a
prime; without it 1 or a dilation for which even `d + 1` fits. -/
def DilOK (n : Nat) (prime : Bool) (l d : Nat) : Prop :=
  1 ≤ d ∧ (l - 1) * d ≤ n - 1 ∧ (prime = true → d = 1 ∨ d.Prime) ∧
    (prime = false → d = 1 ∨ (l - 1) * (d + 1) ≤ n - 1)

/-- Valid arguments for equal-length data: rectangular data with one label per sample, at least one
channel, a positive number of shapelets, candidate lengths between 2 and the number of points, and
ordered percentiles. -/
structure ValidSL {L : Type} (a : FitArgs ℝ L) : Prop where
  data : DataSL a
  nf : 1 ≤ a.nf
  perc : PercOK a
  nShp : 1 ≤ a.nShp
  sizes : a.sizes ≠ []
  bounds : ∀ l ∈ a.sizes, 2 ≤ l ∧ l ≤ a.nt

/-- Valid arguments for variable-length data: the same, with a non-empty set of series and candidate
lengths between 2 and `minLen`, which is at most the length of every series. -/
structure ValidVL {L : Type} (a : FitArgs ℝ L) (minLen : Nat) (xLen : List Nat) : Prop where
  data : DataVL a xLen minLen
  ne : a.X ≠ []
  nf : 1 ≤ a.nf
  perc : PercOK a
  nShp : 1 ≤ a.nShp
  sizes : a.sizes ≠ []
  bounds : ∀ l ∈ a.sizes, 2 ≤ l ∧ l ≤ minLen

/-- Parameters that may be drawn for the `n_shapelets` shapelets; `n` is the number of points
available. -/
structure ParDrawn {L : Type} (a : FitArgs ℝ L) (n : Nat) (P : Par) : Prop where
  count : P.n = a.nShp
  length : ∀ i, i < P.n → P.length i ∈ a.sizes
  dilation : ∀ i, i < P.n → DilOK n a.prime (P.length i) (P.dilation i)
  norm_none : a.pNorm ≤ 0 → ∀ i, i < P.n → P.normalize i = false
  norm_all : 1 ≤ a.pNorm → ∀ i, i < P.n → P.normalize i = true

/-- `S` is a possible result of univariate `fit`: parameters `P` are drawn, every shapelet is either
discarded for lack of an admissible position or read from one (recorded in `rec`), and the arrays list
the sampled shapelets that are not identically zero. -/
structure UFitted {L : Type} (T : Train L) (a : FitArgs ℝ L) (n : Nat) (P : Par)
    (rec : Nat → Option Src) (out : Nat → Option (Out ℝ)) (kept : List Nat) (S : UShp ℝ) : Prop where
  drawn : ParDrawn a n P
  good : ∀ i, i < P.n → GoodAt T P (optOf a) false (fun _ => 1) rec out i
  from_ : UFrom P out kept S
  wf : UWF S

/-- `S` is a possible result of multivariate `fit`, shapelet `i` using `nch i` channels. -/
structure MFitted {L : Type} (T : Train L) (a : FitArgs ℝ L) (n mc : Nat) (P : Par)
    (nch : Nat → Nat) (rec : Nat → Option Src) (out : Nat → Option (Out ℝ)) (kept : List Nat)
    (S : MShp ℝ) : Prop where
  drawn : ParDrawn a n P
  channels : ∀ i, i < P.n → 1 ≤ nch i ∧ nch i ≤ mc
  good : ∀ i, i < P.n → GoodAt T P (optOf a) true nch rec out i
  from_ : MFrom P nch out kept S
  wf : MWF S a.nf

/-- `order` lists the iterations of a parallel loop of any size in some order. -/
def IsSchedule (order : Nat → List Nat) : Prop := ∀ n, (order n).Perm (List.range n)

end Convst
