import Verif.Spec.Sources

/-!
# Shapelet after shapelet

C130 says how the places the shapelets are taken from are chosen, one after the other: given the parameters of all shapelets
and the places of the earlier ones, and nothing else.
-/

set_option autoImplicit false

namespace Convst.Spec
open MeasureTheory
open scoped ENNReal

/-- Sample, start position and channels a shapelet is taken from, `none` for a discarded shapelet. -/
def Choices.place (c : Choices) (i : Nat) : Option (Nat × Nat × List Nat) :=
  (c.src i).map fun r => (r.sample, r.index, r.channels)

/-- All parameters, and the drawn channels and the places of the first `k` shapelets, are those of `d`. -/
def Choices.AgreesUpTo (c d : Choices) (k : Nat) : Prop :=
  c.SameParams d ∧ ∀ i, i < d.par.n → i < k → c.channels i = d.channels i ∧ c.place i = d.place i

open Classical in
/-- Probability of the channels and of the place of shapelet `i` in `d` after the earlier ones: the channels are drawn first;
the shapelet is discarded exactly when no position is left, and is otherwise taken from one of the positions left. -/
noncomputable def placeWeight {L : Type} (sameLen : Bool) (T : Train L) (o : Opt) (multi : Bool) (d : Choices) (i : Nat) :
    ℝ≥0∞ :=
  channelWeight multi T.nf (d.nch i) (d.channels i) *
    match d.place i with
    | none => if positions T d.par o multi d.src i (d.channels i) = ∅ then 1 else 0
    | some p => if p.2.2 = d.channels i then posWeight sameLen T d.par o multi d.src i (d.channels i) p.1 p.2.1 else 0

/-- The places are chosen one after the other: the next one depends on the parameters and on the earlier places only, not on
the values of the series, the labels, the thresholds or the samples the thresholds come from. -/
structure Sequential {L Ω : Type} [MeasurableSpace Ω] (ν : Measure Ω) (pick : Ω → Choices) (sameLen : Bool) (T : Train L)
    (a : FitArgs ℝ L) (n : Nat) (multi : Bool) (mc : Nat) : Prop where
  measurable : ∀ d k, MeasurableSet {ω | (pick ω).AgreesUpTo d k}
  start : ∀ d, ν {ω | (pick ω).AgreesUpTo d 0} = paramsLaw a n mc d
  next : ∀ d k, k < d.par.n →
    ν {ω | (pick ω).AgreesUpTo d (k + 1)} =
      ν {ω | (pick ω).AgreesUpTo d k} * placeWeight sameLen T (optOf a) multi d k

/-- Every one of the `m` series provides the first shapelet with probability `1 / m`, whatever its length, and whatever the
parameters. -/
structure FirstUniform {Ω : Type} [MeasurableSpace Ω] (ν : Measure Ω) (pick : Ω → Choices) (m : Nat) : Prop where
  given : ∀ d s, s < m → ν {ω | (pick ω).SameParams d ∧ (pick ω).sources[0]? = some (some s)} =
    ν {ω | (pick ω).SameParams d} / m
  first : ∀ s, s < m → ν {ω | (pick ω).sources[0]? = some (some s)} = 1 / m

end Convst.Spec
