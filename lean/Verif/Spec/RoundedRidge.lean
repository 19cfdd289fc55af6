import Verif.Spec.Classifiers
import Verif.Spec.Digital

/-!
# Specification: predictions computed in rounded arithmetic, compared with the exact ones
-/

set_option autoImplicit false

namespace Convst

variable {r : Rounding} {R L : Type}

/-- The same fitted scaler, computing exactly.  (`_input_transformers.py:25-31`.) -/
def Scaler.exact (s : Scaler (Fl r)) : Scaler ℝ := s

/-- The same linear classifier, computing exactly.  (`rdst_ridge.py:159-163`.) -/
def Linear.exact (m : Linear (Fl r) L) : Linear ℝ L := m

/-- The same classifier (same attributes), computing exactly.  (`rdst_ridge.py:126-147`.) -/
def RidgeClf.exact (c : RidgeClf (Fl r) R L) : RidgeClf ℝ R L := c

end Convst

namespace Convst.Spec

variable {L : Type}

/-- Size of the numbers that are added up in score `q`: the products and the intercept, in absolute value. -/
noncomputable def termSize (m : Linear ℝ L) (z : List ℝ) (q : Nat) : ℝ :=
  total z.length (fun j => |z.getD j 0 * (m.coef.getD q []).getD j 0|) + |m.intercept.getD q 0|

/-- The product of a standardised feature and its coefficient, computed in rounded arithmetic. -/
noncomputable def roundedTerm (rnd : ℝ → ℝ) (sc : Scaler ℝ) (m : Linear ℝ L) (row : List ℝ) (q j : Nat) : ℝ :=
  rnd (rnd (rnd (row.getD (sc.atts.getD j 0) 0 - sc.offset.getD j 0) / sc.scale.getD j 0) * (m.coef.getD q []).getD j 0)

/-- How far score `q` can move when feature `a` moves by up to `η a`. -/
noncomputable def drift (sc : Scaler ℝ) (m : Linear ℝ L) (η : Nat → ℝ) (q : Nat) : ℝ :=
  total sc.atts.length fun j => η (sc.atts.getD j 0) / |sc.scale.getD j 0| * |(m.coef.getD q []).getD j 0|

/-- Greatest error of score `q` when every number goes through at most `K` roundings and feature `a` has an error of at most
`η a`. -/
noncomputable def scoreError (u : ℝ) (K : Nat) (sc : Scaler ℝ) (m : Linear ℝ L) (η : Nat → ℝ) (row : List ℝ) (q : Nat) : ℝ :=
  ((1 + u) ^ K - 1) * termSize m (standardised sc row) q + (1 + u) ^ K * drift sc m η q

/-- The choice of a class from the scores `s` is clear with respect to errors `B`: the only score is farther from 0 than its error; or
one score exceeds all others by more than both errors. -/
def Clear (s : List ℝ) (B : Nat → ℝ) : Prop :=
  if s.length = 1 then B 0 < |s.getD 0 0|
  else ∃ k, k < s.length ∧ ∀ j, j < s.length → j ≠ k → s.getD j 0 + B j + B k < s.getD k 0

end Convst.Spec
