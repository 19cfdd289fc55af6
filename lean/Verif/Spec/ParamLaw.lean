import Verif.Spec.Law
import Mathlib.Data.Nat.Choose.Basic

/-!
# Which lengths and how many normalised shapelets a call of `fit` draws

Consequences of the law of the parameters that can be read without it: independence, the lengths that no shapelet
uses, the number of normalised shapelets.
-/

set_option autoImplicit false

namespace Convst.Spec
open MeasureTheory
open scoped ENNReal

/-- Probability that one shapelet has length `l`, dilation `d`, flag `b` and `c` channels. -/
noncomputable def oneWeight {L : Type} (a : FitArgs ℝ L) (n mc l d : Nat) (b : Bool) (c : Nat) : ℝ≥0∞ :=
  lengthWeight a.sizes l * dilWeight n a.prime l d * flagWeight a.pNorm b * nchWeight mc c

/-- The drawn length `l` is used by none of the shapelets. -/
def Unused (c : Choices) (N l : Nat) : Prop := ∀ i, i < N → c.par.length i ≠ l

/-- How many of the first `N` shapelets are normalised. -/
def normCount (c : Choices) (N : Nat) : Nat := ((List.range N).filter c.par.normalize).length

open Classical in
/-- What is known of the parameters `pick ω` of the shapelets of one call of `fit`, where `n` points are available and a
shapelet has at most `mc` channels. -/
structure ParamFacts {Ω L : Type} [MeasurableSpace Ω] (P : Measure Ω) (pick : Ω → Choices) (a : FitArgs ℝ L)
    (n mc : Nat) : Prop where
  /-- The shapelets are independent, each one has the law `oneWeight`. -/
  independent : ∀ A : Nat → Nat → Nat → Bool → Nat → Prop,
    P {ω | ∀ i, i < a.nShp → A i ((pick ω).par.length i) ((pick ω).par.dilation i) ((pick ω).par.normalize i)
        ((pick ω).nch i)} =
      ∏ i ∈ Finset.range a.nShp, ∑ l ∈ a.sizes.toFinset, ∑ d ∈ Finset.range (n + 1), ∑ b, ∑ c ∈ Finset.range (mc + 1),
        if A i l d b c then oneWeight a n mc l d b c else 0
  /-- The length `l` is used by no shapelet. -/
  unused : ∀ l, P {ω | Unused (pick ω) a.nShp l} = (1 - lengthWeight a.sizes l) ^ a.nShp
  /-- Some length offered is used by no shapelet. -/
  some_unused : P {ω | ∃ l ∈ a.sizes, Unused (pick ω) a.nShp l} ≤
    ∑ l ∈ a.sizes.toFinset, (1 - lengthWeight a.sizes l) ^ a.nShp
  /-- The number of normalised shapelets is binomial. -/
  normalised : ∀ k, P {ω | normCount (pick ω) a.nShp = k} =
    a.nShp.choose k * flagWeight a.pNorm true ^ k * flagWeight a.pNorm false ^ (a.nShp - k)

end Convst.Spec
