import Verif.Spec.DoubleVote

/-!
# Specification of `R_DST_Ensemble.fit` in double precision
-/

set_option autoImplicit false

namespace Convst.Spec

variable {F : FloatFormat}

/-- `X` is a 3D array of numbers of moderate magnitude: `ns` series, `nf` channels, `nt` points. -/
def ModerateArr (X : XIn (Ieee F)) (ns nf nt : Nat) : Prop :=
  ∃ dt A, X = .array dt A ∧ dt ≠ .otherDtype ∧ X.WF ∧ A.data.length = ns ∧ A.nf = nf ∧ A.nt = nt ∧
    ∀ x ∈ A.data, ∀ row ∈ x, ∀ a ∈ row, Finite (Moderate F) a

/-- What is assumed of `RidgeClassifierCV(store_cv_values=True).fit`: it accepts every non-empty matrix of finite numbers with
rows of the same positive length and as many labels; the model has one coefficient per feature, one intercept per coefficient row,
and the classes that go with them; one leave-one-out prediction is kept per training series. -/
def AcceptsFiniteCV (ridgeCV : List (List (Ieee F)) → List Int → Res (Linear (Ieee F) Int × List (List (Ieee F)))) : Prop :=
  ∀ (Z : List (List (Ieee F))) (y : List Int) (n : Nat), Z ≠ [] → 1 ≤ n → (∀ row ∈ Z, row.length = n) → FiniteRows Z →
    y.length = Z.length → ∃ m cv, ridgeCV Z y = .ok (m, cv) ∧ LinWF m n ∧ cv.length = y.length

/-- What is assumed of the power of the library: powers of numbers between 0 and 1 with a non-negative exponent
are between 0 and 1. -/
def SoundPow (F : FloatFormat) : Prop := ∀ x y, 0 ≤ x → x ≤ 1 → 0 ≤ y → 0 ≤ F.r.rpow x y ∧ F.r.rpow x y ≤ 1

/-- What a fitted member does with data whose representation is an array of moderate magnitude, of `nf` channels and
at least `nt` points: its features, once scaled, are finite numbers, and its linear model gives scores. -/
def FiniteMember {R : Type} (m : Member (Ieee F) R) (nf nt : Nat) : Prop :=
  ∀ (X X' : XIn (Ieee F)) (ns nt' : Nat), m.rep X = .ok X' → ModerateArr X' ns nf nt' → 1 ≤ ns → nt ≤ nt' → nt' ≤ 2 ^ 40 →
    ∃ M Z, m.rdst.transform X' = .ok M ∧ plainTransform m.scaler M = .ok Z ∧ Z.length = ns ∧ FiniteRows Z ∧
      ∀ z ∈ Z, ∃ sc, m.lin.scores z = .ok sc ∧ sc.length = m.lin.coef.length

end Convst.Spec
