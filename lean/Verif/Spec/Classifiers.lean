import Verif.Model.Classifiers
import Verif.Proofs.RealFeatures

/-!
# Specification of the classifiers

Decision function, choice of a class, accuracy and weighted vote, written with sums and getters only.
-/

set_option autoImplicit false

namespace Convst.Spec

/-- `k` is the first index of the greatest entry of `s`. -/
def FirstMax (s : List ℝ) (k : Nat) : Prop :=
  k < s.length ∧ ∀ j, j < s.length → s.getD j 0 ≤ s.getD k 0 ∧ (j < k → s.getD j 0 < s.getD k 0)

/-- `Σ_{j < n} f j`. -/
def total (n : Nat) (f : Nat → ℝ) : ℝ := ((List.range n).map f).sum

/-- The selected and standardised features of one series. -/
noncomputable def standardised (sc : Scaler ℝ) (row : List ℝ) : List ℝ :=
  (List.range sc.atts.length).map fun j =>
    (row.getD (sc.atts.getD j 0) 0 - sc.offset.getD j 0) / sc.scale.getD j 0

/-- The decision function: one score per row of coefficients. -/
noncomputable def decision {L : Type} (m : Linear ℝ L) (z : List ℝ) : List ℝ :=
  (List.range m.coef.length).map fun q =>
    total z.length (fun j => z.getD j 0 * (m.coef.getD q []).getD j 0) + m.intercept.getD q 0

/-- `k` is the index of the class chosen from the scores: two classes by the sign of the only score,
otherwise the first greatest. -/
def Chosen (s : List ℝ) (k : Nat) : Prop :=
  if s.length = 1 then k = if 0 < s.getD 0 0 then 1 else 0 else FirstMax s k

/-- A linear classifier as scikit-learn returns it for data of `n` features. -/
structure LinWF {K L : Type} (m : Linear K L) (n : Nat) : Prop where
  ne : m.coef ≠ []
  intercept : m.intercept.length = m.coef.length
  cols : ∀ c ∈ m.coef, c.length = n
  classes : m.classes.length = if m.coef.length = 1 then 2 else m.coef.length

/-- Number of positions where two lists agree. -/
def agree {L : Type} [DecidableEq L] (a b : List L) : Nat := ((a.zip b).filter fun p => p.1 = p.2).length

/-- Softmax: `exp s_k / Σ_j exp s_j`. -/
noncomputable def softmax (s : List ℝ) (k : Nat) : ℝ :=
  Real.exp (s.getD k 0) / total s.length fun j => Real.exp (s.getD j 0)

/-- One score per class: a linear classifier for two classes has a single score `d`, read as `(-d, d)`. -/
noncomputable def classScores {L : Type} (m : Linear ℝ L) (z : List ℝ) : List ℝ :=
  if m.coef.length = 1 then [-(decision m z).getD 0 0, (decision m z).getD 0 0] else decision m z

/-- All features of one series, standardised. -/
noncomputable def plainStd (sc : List ℝ × List ℝ) (row : List ℝ) : List ℝ :=
  (List.range row.length).map fun j => (row.getD j 0 - sc.1.getD j 0) / sc.2.getD j 0

end Convst.Spec
