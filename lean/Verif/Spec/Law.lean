import Verif.Spec.Fit
import Mathlib.MeasureTheory.Measure.Lebesgue.Basic
import Mathlib.NumberTheory.PrimeCounting
import Mathlib.Analysis.SpecialFunctions.Log.Basic
import Mathlib.Data.Set.Card
import Mathlib.Probability.ProductMeasure

/-!
# The law of the shapelets sampled by `fit`

The probability of every outcome of `fit` when the draws of the generator are uniform and independent.
No mask, no loop: the weights are functions of the training set and of the choices made.
-/

set_option autoImplicit false

namespace Convst.Spec
open MeasureTheory
open scoped ENNReal

/-- An ideal generator: when its state has law `μ`, `randint lo hi` is uniform on `lo, ..., hi - 1`, `random()` is
uniform on `[0, 1)`, and each is independent of the next state, which has law `μ` again. -/
structure Fair (G : Type) [Gen G ℝ] [MeasurableSpace G] (μ : Measure G) : Prop where
  prob : IsProbabilityMeasure μ
  randint : ∀ lo hi j : Nat, lo ≤ j → j < hi → ∀ A : Set G, MeasurableSet A →
    MeasurableSet {g : G | (Gen.randint lo hi g).1 = j ∧ (Gen.randint lo hi g).2 ∈ A} ∧
    μ {g : G | (Gen.randint lo hi g).1 = j ∧ (Gen.randint lo hi g).2 ∈ A} =
      ((hi - lo : Nat) : ℝ≥0∞)⁻¹ * μ A
  unit : ∀ (B : Set ℝ) (A : Set G), MeasurableSet B → MeasurableSet A →
    MeasurableSet {g : G | (Gen.unit g).1 ∈ B ∧ (Gen.unit g).2 ∈ A} ∧
    μ {g : G | (Gen.unit g).1 ∈ B ∧ (Gen.unit g).2 ∈ A} = volume (B ∩ Set.Ico 0 1) * μ A

/-! ## Lengths, dilations, flags, numbers of channels -/

/-- A length is drawn uniformly from the list of lengths. -/
noncomputable def lengthWeight (sizes : List Nat) (l : Nat) : ℝ≥0∞ := sizes.count l / sizes.length

/-- A shapelet is normalised with probability `p` (0 below 0, 1 above 1). -/
noncomputable def flagWeight (p : ℝ) (b : Bool) : ℝ≥0∞ :=
  ENNReal.ofReal (if b then min 1 (max 0 p) else 1 - min 1 (max 0 p))

/-- The default dilations up to `m`: `d` has probability `log_m (d+1) - log_m d`, `m` itself is never drawn
(unless it is 1). -/
noncomputable def plainWeight (m d : Nat) : ℝ≥0∞ :=
  if m ≤ 1 then if d = 1 then 1 else 0
  else if 1 ≤ d ∧ d < m then ENNReal.ofReal ((Real.log (d + 1) - Real.log d) / Real.log m) else 0

/-- Weight of the `k`-th prime dilation. -/
noncomputable def logWeight (k : Nat) : ℝ := 1 / (2 : ℝ) ^ Real.log (k + 1)

open Classical in
/-- The prime dilations up to `m` (1 counts as prime): the `k`-th of them, counted from 0, has probability
proportional to `1 / 2^log(k+1)`. -/
noncomputable def primeWeight (m d : Nat) : ℝ≥0∞ :=
  if (d = 1 ∨ d.Prime) ∧ d ≤ m then
    ENNReal.ofReal (logWeight (Nat.primeCounting d) /
      ∑ k ∈ Finset.range (Nat.primeCounting m + 1), logWeight k)
  else 0

/-- The dilation of a shapelet of length `l`; `n` points are available. -/
noncomputable def dilWeight (n : Nat) (prime : Bool) (l d : Nat) : ℝ≥0∞ :=
  if prime then primeWeight ((n - 1) / (l - 1)) d else plainWeight ((n - 1) / (l - 1)) d

/-- Probability of the parameters `P`: the shapelets are independent. -/
noncomputable def parWeight {L : Type} (a : FitArgs ℝ L) (n : Nat) (P : Par) : ℝ≥0∞ :=
  if P.n = a.nShp then
    ∏ i ∈ Finset.range P.n, lengthWeight a.sizes (P.length i) *
      dilWeight n a.prime (P.length i) (P.dilation i) * flagWeight a.pNorm (P.normalize i)
  else 0

/-- The number of channels is uniform between 1 and `mc`. -/
noncomputable def nchWeight (mc k : Nat) : ℝ≥0∞ := if 1 ≤ k ∧ k ≤ mc then (mc : ℝ≥0∞)⁻¹ else 0

/-! ## Sources and thresholds -/

open Classical in
/-- The channels of a multivariate shapelet are uniform among the lists of `n` distinct channels. -/
noncomputable def channelWeight (multi : Bool) (nf n : Nat) (channels : List Nat) : ℝ≥0∞ :=
  if ChannelsOK multi nf n channels then if multi then (nf.descFactorial n : ℝ≥0∞)⁻¹ else 1 else 0

/-- The admissible positions, as pairs of a sample and a start. -/
def positions {L : Type} (T : Train L) (P : Par) (o : Opt) (multi : Bool) (rec : Nat → Option Src)
    (i : Nat) (channels : List Nat) : Set (Nat × Nat) :=
  {p | Admissible T P o multi rec i channels p.1 p.2}

open Classical in
/-- Position `t` of sample `s`.  Series of equal length: uniform among all admissible positions.  Series of
different lengths: first a sample, uniform among those with an admissible position, then a position, uniform among
the admissible ones of this sample. -/
noncomputable def posWeight {L : Type} (sameLen : Bool) (T : Train L) (P : Par) (o : Opt) (multi : Bool)
    (rec : Nat → Option Src) (i : Nat) (channels : List Nat) (s t : Nat) : ℝ≥0∞ :=
  if Admissible T P o multi rec i channels s t then
    if sameLen then ((positions T P o multi rec i channels).ncard : ℝ≥0∞)⁻¹
    else ({s | ∃ t, Admissible T P o multi rec i channels s t}.ncard : ℝ≥0∞)⁻¹ *
      ({t | Admissible T P o multi rec i channels s t}.ncard : ℝ≥0∞)⁻¹
  else 0

/-- The other samples of the class of sample `s`. -/
def others {L : Type} (T : Train L) (s : Nat) : Set Nat :=
  {s' | s' < T.ns ∧ s' ≠ s ∧ T.label s' = T.label s}

open Classical in
/-- The sample used for the threshold: uniform among the others of the class, the sample itself if there are
none. -/
noncomputable def testWeight {L : Type} (T : Train L) (s t : Nat) : ℝ≥0∞ :=
  if others T s = ∅ then if t = s then 1 else 0
  else if t ∈ others T s then ((others T s).ncard : ℝ≥0∞)⁻¹ else 0

/-- Probability that a uniform number between `p0` and `p1` is below `x`. -/
noncomputable def uniformCdf (p0 p1 x : ℝ) : ℝ≥0∞ :=
  if p0 = p1 then if p0 < x then 1 else 0 else ENNReal.ofReal (min 1 (max 0 ((x - p0) / (p1 - p0))))

/-- Probability that the threshold is below `x`: it is uniform between the two percentiles of the distances
`D`. -/
noncomputable def thrWeight (o : Opt) (D : List ℝ) (x : ℝ) : ℝ≥0∞ :=
  match percentile D o.pMin, percentile D o.pMax with
  | .ok p0, .ok p1 => uniformCdf p0 p1 x
  | _, _ => 0

open Classical in
/-- Probability that, after the choices `rec` for the earlier shapelets, shapelet `i` uses the channels `channels` and
comes from the source `rec i` with a threshold below `x`, or is discarded when `rec i = none`. -/
noncomputable def stepWeight {L : Type} (sameLen : Bool) (T : Train L) (P : Par) (o : Opt) (multi : Bool)
    (nch : Nat → Nat) (channels : Nat → List Nat) (rec : Nat → Option Src) (x : Nat → ℝ) (i : Nat) : ℝ≥0∞ :=
  channelWeight multi T.nf (nch i) (channels i) *
    match rec i with
    | none => if positions T P o multi rec i (channels i) = ∅ then 1 else 0
    | some r => if r.channels = channels i then
        posWeight sameLen T P o multi rec i (channels i) r.sample r.index * testWeight T r.sample r.test *
          thrWeight o (distTo T P o i r r.test) (x i)
      else 0

/-! ## The random choices made by `fit` -/

/-- The choices made during one call of `fit`: parameters and numbers of channels of the shapelets, their channels,
their sources (`none` when discarded) and their thresholds. -/
structure Choices where
  par : Par
  nch : Nat → Nat
  channels : Nat → List Nat
  src : Nat → Option Src
  thr : Nat → ℝ

/-- The shapelets obtained from the choices. -/
noncomputable def Choices.out {L : Type} (T : Train L) (o : Opt) (c : Choices) (i : Nat) : Option (Out ℝ) :=
  (c.src i).map fun r =>
    ⟨r.channels.flatMap fun k => subseq T c.par o i r.sample k r.index, r.channels, c.thr i⟩

/-- The choices are those of `d`, with the threshold of every shapelet that was not discarded below the one given
in `d`. -/
def Choices.Within (c d : Choices) : Prop :=
  c.par.n = d.par.n ∧ ∀ i, i < d.par.n → c.par.length i = d.par.length i ∧
    c.par.dilation i = d.par.dilation i ∧ c.par.normalize i = d.par.normalize i ∧ c.nch i = d.nch i ∧
    c.channels i = d.channels i ∧ c.src i = d.src i ∧ (d.src i ≠ none → c.thr i < d.thr i)

/-- The parameters and the numbers of channels are those of `d`. -/
def Choices.SameParams (c d : Choices) : Prop :=
  c.par.n = d.par.n ∧ ∀ i, i < d.par.n → c.par.length i = d.par.length i ∧
    c.par.dilation i = d.par.dilation i ∧ c.par.normalize i = d.par.normalize i ∧ c.nch i = d.nch i

/-- Probability that the parameters and the numbers of channels are those of `d`. -/
noncomputable def paramsLaw {L : Type} (a : FitArgs ℝ L) (n mc : Nat) (d : Choices) : ℝ≥0∞ :=
  parWeight a n d.par * ∏ i ∈ Finset.range d.par.n, nchWeight mc (d.nch i)

/-- Probability that the choices of `fit` are within `d`: the parameters, the numbers of channels (`mc = 1` for
univariate data), then the sources and thresholds, shapelet after shapelet. -/
noncomputable def lawOf {L : Type} (sameLen : Bool) (T : Train L) (a : FitArgs ℝ L) (n : Nat) (multi : Bool)
    (mc : Nat) (d : Choices) : ℝ≥0∞ :=
  paramsLaw a n mc d *
    ∏ i ∈ Finset.range d.par.n,
      stepWeight sameLen T d.par (optOf a) multi d.nch d.channels d.src d.thr i

/-- The states of the generators when `fit` starts: the main one, and one for each parallel iteration, all
independent. -/
noncomputable def tapes {G : Type} [MeasurableSpace G] (μ : Measure G) [IsProbabilityMeasure μ] :
    Measure (G × (Nat → G)) :=
  μ.prod (Measure.infinitePi fun _ => μ)

end Convst.Spec
