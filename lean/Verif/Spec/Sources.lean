import Verif.Spec.Law

/-!
# The samples the shapelets come from

C128 says how often each training sample, and each class, provides a shapelet.
-/

set_option autoImplicit false

namespace Convst.Spec
open MeasureTheory
open scoped ENNReal

/-- The sample every shapelet comes from, `none` for a discarded shapelet. -/
def Choices.sources (c : Choices) : List (Option Nat) :=
  (List.range c.par.n).map fun i => (c.src i).map fun r => r.sample

/-- Samples of equal length are treated alike: no event about the sources of all shapelets together becomes more or less
probable when samples of equal length are permuted; in particular each of them is as likely as any other to be the source of
the `k`-th shapelet. -/
structure FairSources {L Ω : Type} [MeasurableSpace Ω] (ν : Measure Ω) (pick : Ω → Choices) (T : Train L) : Prop where
  measurable : ∀ E : Set (List (Option Nat)), MeasurableSet {ω | (pick ω).sources ∈ E}
  joint : ∀ σ : Equiv.Perm Nat, (∀ s, σ s < T.ns ↔ s < T.ns) → (∀ s, T.len (σ s) = T.len s) →
    ∀ E : Set (List (Option Nat)),
      ν {ω | (pick ω).sources.map (Option.map σ) ∈ E} = ν {ω | (pick ω).sources ∈ E}
  each : ∀ k s s' : Nat, s < T.ns → s' < T.ns → T.len s = T.len s' →
    ν {ω | (pick ω).sources[k]? = some (some s)} = ν {ω | (pick ω).sources[k]? = some (some s')}

/-- The sources do not favour a class: the `k`-th shapelet, if it is not discarded, comes from a sample of class `y` with
the frequency of `y` among the `n` labels; the first shapelet is never discarded. -/
structure ClassShares {L Ω : Type} [DecidableEq L] [MeasurableSpace Ω] (ν : Measure Ω) (pick : Ω → Choices)
    (labels : List L) : Prop where
  share : ∀ (k : Nat) (y : L), ν {ω | ∃ s : Nat, (pick ω).sources[k]? = some (some s) ∧ labels[s]? = some y} * labels.length =
    labels.count y * ν {ω | ∃ s : Nat, (pick ω).sources[k]? = some (some s)}
  first : ∀ y : L, ν {ω | ∃ s : Nat, (pick ω).sources[0]? = some (some s) ∧ labels[s]? = some y} =
    labels.count y / labels.length

end Convst.Spec
