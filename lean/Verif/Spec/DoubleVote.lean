import Verif.Spec.DoubleRidge

/-!
# Specification of the vote of the ensemble in double precision
-/

set_option autoImplicit false

namespace Convst.Spec

variable {F : FloatFormat} {R : Type}

/-- What is assumed of the exponential of the library: it is 1 at 0, between 0 and 1 and increasing on the negative
numbers, and at most 1/2 at -1. -/
structure SoundExp (F : FloatFormat) : Prop where
  zero : F.r.exp 0 = 1
  nonneg : ∀ x, x ≤ 0 → 0 ≤ F.r.exp x
  mono : ∀ x y, x ≤ y → y ≤ 0 → F.r.exp x ≤ F.r.exp y
  half : F.r.exp (-1) ≤ 1 / 2

/-- Rounding non-negative numbers, underflow included, is increasing. -/
def MonoRound (F : FloatFormat) : Prop := ∀ x y : ℝ, 0 ≤ x → x ≤ y → F.rnd x ≤ F.rnd y

/-- Rounding, underflow aside, commutes with doubling. -/
def TwoRound (F : FloatFormat) : Prop := ∀ x : ℝ, F.r.rnd (2 * x) = 2 * F.r.rnd x

/-- Member `m` of an ensemble gives to the `n` series of `X` the finite scores `s q j` (series `q`, class `j < nc`): its
representation, its transformer, its scaler and its linear model succeed on `X`, and the scores are those before the
softmax (`-d` and `d` for two classes). -/
def ScoresOn (m : Member (Ieee F) R) (X : XIn (Ieee F)) (n nc : Nat) (s : Nat → Nat → ℝ) : Prop :=
  ∃ X' M Z, m.rep X = .ok X' ∧ m.rdst.transform X' = .ok M ∧ plainTransform m.scaler M = .ok Z ∧ Z.length = n ∧
    ∀ (q : Nat) z, Z[q]? = some z → ∃ sc, m.lin.scores z = .ok sc ∧
      twoScores sc = (List.range nc).map fun j => Ieee.fin (s q j)

end Convst.Spec
