import Verif.Spec.RoundedZ

/-!
# Specification: digitised data

Measurements usually come from a converter with a fixed resolution: every value is an integer number of steps, the
step being (up to a global scale) a power of two, and the integers are small.
-/

set_option autoImplicit false

namespace Convst.Spec

/-- An arithmetic with at least 53 significant binary digits: integers of magnitude up to `2⁵³`, scaled by any power
of two, are not rounded. -/
def ExactDigits (r : Rounding) : Prop :=
  ∀ N e : Int, |N| ≤ 2 ^ 53 → r.rnd (N * (2 : ℝ) ^ e) = N * (2 : ℝ) ^ e

/-- An integer multiple of `2 ^ e`, of at most `B` steps. -/
def Digital (e : Int) (B : Nat) (x : ℝ) : Prop := ∃ N : Int, x = N * (2 : ℝ) ^ e ∧ |N| ≤ B

/-- A series all of whose values are digitised. -/
def DigitalSeries (e : Int) (B : Nat) (s : List (List ℝ)) : Prop := ∀ c ∈ s, ∀ x ∈ c, Digital e B x

/-- The values of shapelet `k` are digitised. -/
def DigitalShapelet (e : Int) (B : Nat) (S : Shapelets ℝ) (k : Nat) : Prop :=
  ∀ c, c < (shpChannels S k).length → ∀ x ∈ shpValues S k c, Digital e B x

/-- The three cells of shapelet `k` are the same in both rows. -/
def SameCells (k : Nat) (row row' : List ℝ) : Prop :=
  ∃ a p n : ℝ, row[3 * k]? = some a ∧ row[3 * k + 1]? = some p ∧ row[3 * k + 2]? = some n ∧
    row'[3 * k]? = some a ∧ row'[3 * k + 1]? = some p ∧ row'[3 * k + 2]? = some n

end Convst.Spec
