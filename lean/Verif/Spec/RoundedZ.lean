import Verif.Spec.Rounded

/-!
# Specification: normalised windows in rounded arithmetic
-/

set_option autoImplicit false

namespace Convst.Spec

/-- `z` is the z-normalised `w`, computed in rounded arithmetic: `(w - mean) / (std + 1e-8)` with
`mean = sum / n` and `std = sqrt (sum of squares / n)`, the two sums being added up in any order in which no
number goes through more than `h` additions, and every other operation being rounded once. -/
def ZnormsTo (r : Rounding) (h : Nat) (w z : List ℝ) : Prop :=
  ∃ s q : ℝ, SumsTo r h w s ∧
    let n := r.rnd w.length
    let m := r.rnd (s / n)
    SumsTo r h (w.map fun v => r.rnd (r.rnd (v - m) * r.rnd (v - m))) q ∧
    let d := r.rnd (r.rnd (Real.sqrt (r.rnd (q / n))) + r.rnd (1 / 10 ^ 8))
    z = w.map fun v => r.rnd (r.rnd (v - m) / d)

/-- The window of the `c`-th channel of shapelet `k`. -/
noncomputable def shpWindow (phase : Bool) (S : Shapelets ℝ) (s : List (List ℝ)) (k c i : Nat) : List ℝ :=
  window phase (s.getD ((shpChannels S k).getD c 0) []) (shpLength S k) (shpDilation S k) i

/-- The values of shapelet `k` for its `c`-th channel. -/
noncomputable def shpValues : Shapelets ℝ → Nat → Nat → List ℝ
  | .u S, k, _ => uValues S k
  | .m S, k, c => mValues S k c

/-- `v` is the distance of the normalised shapelet `k` to window `i`, computed in rounded arithmetic: the
windows of all channels are normalised, and the rounded absolute differences are added up in any order. -/
def NormDistTo (r : Rounding) (h : Nat) (phase : Bool) (S : Shapelets ℝ) (s : List (List ℝ)) (k i : Nat)
    (v : ℝ) : Prop :=
  ∃ z : Nat → List ℝ, (∀ c, c < (shpChannels S k).length →
      ZnormsTo r (shpLength S k) (shpWindow phase S s k c i) (z c)) ∧
    SumsTo r h ((List.range (shpChannels S k).length).flatMap fun c =>
      (List.range (shpLength S k)).map fun j => |r.rnd ((z c).getD j 0 - (shpValues S k c).getD j 0)|) v

/-- The features `a', p', n'` computed in rounded arithmetic from the exact distances `D`, when every distance
`v` is computed with error at most `γ v + δ`; `a, p, n` are the exact features. -/
def NearFeatures (γ δ : ℝ) (D : List ℝ) (thr : ℝ) (a : ℝ) (p n : Nat) (a' : ℝ) (p' n' : Nat) : Prop :=
  |a' - a| ≤ γ * a + δ ∧
  (∃ v, D[p']? = some v ∧ v - (γ * v + δ) ≤ a + (γ * a + δ)) ∧
  ((∀ (q : Nat) (v : ℝ), D[q]? = some v → q ≠ p → a + (γ * a + δ) < v - (γ * v + δ)) → p' = p) ∧
  (D.countP fun v => decide (v + (γ * v + δ) ≤ thr)) ≤ n' ∧
  n' ≤ (D.countP fun v => decide (v - (γ * v + δ) ≤ thr)) ∧
  ((∀ v ∈ D, γ * v + δ < |v - thr|) → n' = n)

/-- The same, for the cells of shapelet `k` in the rows computed exactly and in rounded arithmetic. -/
def NearAt (r : Rounding) (γ δ : ℝ) (D : List ℝ) (thr : ℝ) (k : Nat) (row row' : List ℝ) : Prop :=
  ∃ (a a' : ℝ) (p n p' n' : Nat), row[3 * k]? = some a ∧ row[3 * k + 1]? = some (p : ℝ) ∧
    row[3 * k + 2]? = some (n : ℝ) ∧ row'[3 * k]? = some a' ∧ row'[3 * k + 1]? = some (r.rnd p') ∧
    row'[3 * k + 2]? = some (r.rnd n') ∧ NearFeatures γ δ D thr a p n a' p' n'

/-- Absolute error of the distances of the normalised shapelet `k`: `g` bounds the relative error of as many
roundings as one value goes through, `B` the values of the series, and `s` is a lower bound of the standard
deviations of the windows.  The error grows when the values are large compared with the deviations. -/
noncomputable def normSlack (g B s : ℝ) (S : Shapelets ℝ) (k : Nat) : ℝ :=
  (1 + g) * ((shpChannels S k).length * (shpLength S k * (g * (1 + 2 * B / (s + 1 / 10 ^ 8)))))

end Convst.Spec
