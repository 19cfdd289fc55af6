import Verif.Model.Rounded
import Verif.Spec.Stability

/-!
# Specification: features computed in rounded arithmetic, compared with the exact ones
-/

set_option autoImplicit false

namespace Convst.Spec

/-- Sums in rounded arithmetic, in any order and with any association: `SumsTo r h ts v` says that `v` is the
result of adding up the numbers `ts` by some tree of rounded additions, in which no number goes through more
than `h` additions.  (Left-to-right accumulation of `n` numbers from `0` has `h = n`; vectorised and
reassociated sums, which numba's `fastmath` allows, have other trees.) -/
inductive SumsTo (r : Rounding) : Nat → List ℝ → ℝ → Prop
  | zero : SumsTo r 0 [] 0
  | one (t : ℝ) : SumsTo r 0 [t] t
  | add {h k : Nat} {ts us : List ℝ} {v w : ℝ} (hv : SumsTo r h ts v) (hw : SumsTo r k us w) :
      SumsTo r (max h k + 1) (ts ++ us) (r.rnd (v + w))
  | perm {h : Nat} {ts us : List ℝ} {v : ℝ} (hv : SumsTo r h ts v) (hp : ts.Perm us) : SumsTo r h us v
  | weaken {h k : Nat} {ts : List ℝ} {v : ℝ} (hv : SumsTo r h ts v) (hk : h ≤ k) : SumsTo r k ts v

/-- The absolute differences summed up in the distance of shapelet `k` to window `i` of the series `s`, one
subtraction being rounded by `rnd`. -/
noncomputable def shpTerms (rnd : ℝ → ℝ) (phase : Bool) : Shapelets ℝ → List (List ℝ) → Nat → Nat → List ℝ
  | .u S, s, k, i => (List.range (S.lengths.getD k 0)).map fun j =>
      |rnd ((window phase (s.getD 0 []) (S.lengths.getD k 0) (S.dilations.getD k 0) i).getD j 0 -
        (uValues S k).getD j 0)|
  | .m S, s, k, i => (List.range (mChannels S k).length).flatMap fun c =>
      (List.range (S.lengths.getD k 0)).map fun j =>
        |rnd ((window phase (s.getD ((mChannels S k).getD c 0) []) (S.lengths.getD k 0)
          (S.dilations.getD k 0) i).getD j 0 - (mValues S k c).getD j 0)|

/-- The features `a', p', n'` computed in rounded arithmetic from the exact distances `D`, when every distance
is computed with relative error at most `γ`; `a, p, n` are the exact features:
* the distance has relative error at most `γ`, and is `0` exactly when the exact one is;
* the position is that of a distance which is the least one up to these errors, and is the exact position when
  the other distances exceed the least one by more than the errors;
* the number of occurrences counts every distance under the threshold by more than the error, no distance above
  it by more than the error, and is the exact number when no distance is that close to the threshold. -/
def RoundedFeatures (γ : ℝ) (D : List ℝ) (thr : ℝ) (a : ℝ) (p n : Nat) (a' : ℝ) (p' n' : Nat) : Prop :=
  |a' - a| ≤ γ * a ∧ (a' = 0 ↔ a = 0) ∧
  (∃ v, D[p']? = some v ∧ (1 - γ) * v ≤ (1 + γ) * a) ∧
  ((∀ (q : Nat) (v : ℝ), D[q]? = some v → q ≠ p → (1 + γ) * a < (1 - γ) * v) → p' = p) ∧
  (D.countP fun v => decide ((1 + γ) * v ≤ thr)) ≤ n' ∧
  n' ≤ (D.countP fun v => decide ((1 - γ) * v ≤ thr)) ∧
  ((∀ v ∈ D, γ * v < |v - thr|) → n' = n)

/-- The same, for the cells of shapelet `k` in the rows computed exactly and in rounded arithmetic.  Positions
and numbers of occurrences are integers; converting them to a number of the arithmetic rounds them. -/
def RoundedAt (r : Rounding) (γ : ℝ) (D : List ℝ) (thr : ℝ) (k : Nat) (row row' : List ℝ) : Prop :=
  ∃ (a a' : ℝ) (p n p' n' : Nat), row[3 * k]? = some a ∧ row[3 * k + 1]? = some (p : ℝ) ∧
    row[3 * k + 2]? = some (n : ℝ) ∧ row'[3 * k]? = some a' ∧ row'[3 * k + 1]? = some (r.rnd p') ∧
    row'[3 * k + 2]? = some (r.rnd n') ∧ RoundedFeatures γ D thr a p n a' p' n'

end Convst.Spec
