import Verif.Model.Interpreter
import Verif.Spec.Classifiers

/-!
# Specification of the interpreters
-/

set_option autoImplicit false

namespace Convst.Spec

/-- `p` is the first index of the least entry of `D`. -/
def FirstMin (D : List ℝ) (p : Nat) : Prop :=
  p < D.length ∧ ∀ j, j < D.length → D.getD p 0 ≤ D.getD j 0 ∧ (j < p → D.getD p 0 < D.getD j 0)

/-- `order` is a possible result of `coefs.argsort()`: a permutation of the indices that lists the entries
in ascending order, equal entries in any order. -/
def IsArgsort (coefs : List ℝ) (order : List Nat) : Prop :=
  order.Perm (List.range coefs.length) ∧ order.Pairwise fun i j => coefs.getD i 0 ≤ coefs.getD j 0

/-- The greatest of the three feature coefficients of shapelet `s`. -/
noncomputable def bestCoef (coefs : List ℝ) (s : Nat) : ℝ :=
  max (coefs.getD (3 * s) 0) (max (coefs.getD (3 * s + 1) 0) (coefs.getD (3 * s + 2) 0))

/-- Coefficient given to the `j`-th kept feature by the score of class number `q`. -/
noncomputable def classCoef {L : Type} (m : Linear ℝ L) (q j : Nat) : ℝ :=
  if m.coef.length = 1 then (if q = 0 then -(m.coef.getD 0 []).getD j 0 else (m.coef.getD 0 []).getD j 0)
  else (m.coef.getD q []).getD j 0

/-- Intercept of the score of class number `q`. -/
noncomputable def classIntercept {L : Type} (m : Linear ℝ L) (q : Nat) : ℝ :=
  if m.coef.length = 1 then (if q = 0 then -m.intercept.getD 0 0 else m.intercept.getD 0 0)
  else m.intercept.getD q 0

end Convst.Spec
