import Verif.Spec.Hold

/-!
# Specification: periodic recordings
-/

set_option autoImplicit false

namespace Convst.Spec
variable {K : Type} [Scalar K]

/-- The recording `m` times one after the other. -/
def periods {α : Type} (m : Nat) (x : List α) : List α := (List.replicate m x).flatten

/-- The recording followed by `n` more points that repeat it from its beginning. -/
def continued {α : Type} (n : Nat) (x : List α) : List α := (periods (n + 1) x).take (x.length + n)

/-- Every channel `m` times one after the other. -/
def periodsSeries (m : Nat) (x : Mat K) : Mat K := ⟨x.rows.map (periods m), m * x.len⟩

/-- Every channel followed by `n` more points that repeat it from its beginning. -/
def continuedSeries (n : Nat) (x : Mat K) : Mat K := ⟨x.rows.map (continued n), x.len + n⟩

/-- Shapelet `k` has the same least distance at the same position in both rows, and `c` and `c'` occurrences. -/
def SameMatch (k : Nat) (row row' : List K) (c c' : Nat) : Prop :=
  ∃ (m : K) (p : Nat),
    row[3 * k]? = some m ∧ row[3 * k + 1]? = some (Scalar.ofNat p) ∧ row[3 * k + 2]? = some (Scalar.ofNat c) ∧
    row'[3 * k]? = some m ∧ row'[3 * k + 1]? = some (Scalar.ofNat p) ∧ row'[3 * k + 2]? = some (Scalar.ofNat c')

end Convst.Spec
