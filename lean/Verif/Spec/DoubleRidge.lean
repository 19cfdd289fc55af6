import Verif.Spec.DoubleFit
import Verif.Spec.Classifiers

/-!
# Specification of the calls of the linear classifier
-/

set_option autoImplicit false

namespace Convst.Spec

variable {F : FloatFormat}

/-- All entries are finite numbers. -/
def FiniteRows (M : List (List (Ieee F))) : Prop := ∀ row ∈ M, ∀ a ∈ row, IsFinite a

/-- What is assumed of `RidgeClassifierCV.fit`: it accepts every non-empty matrix of finite numbers with rows of the same
positive length and as many labels, and the model it returns has one coefficient per feature, one intercept per coefficient row
and two classes for one row, or one class per row otherwise. -/
def AcceptsFinite {L : Type} (ridge : List (List (Ieee F)) → List L → Res (Linear (Ieee F) L)) : Prop :=
  ∀ (Z : List (List (Ieee F))) (y : List L) (n : Nat), Z ≠ [] → 1 ≤ n → (∀ row ∈ Z, row.length = n) → FiniteRows Z →
    y.length = Z.length → ∃ m, ridge Z y = .ok m ∧ LinWF m n

end Convst.Spec
