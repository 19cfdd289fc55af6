import Verif.Model.StatefulInputs

/-!
# Specification: input transformers with state
-/

set_option autoImplicit false

namespace Convst.Spec

/-- `random=True`. -/
def IsRandom : InTr → Prop
  | .derivate _ b => b = true
  | .periodigram _ b => b = true
  | _ => False

/-- The sixteen windows, in alphabetical order. -/
def windowNames : List String :=
  ["barthann", "bartlett", "blackman", "blackmanharris", "bohman", "boxcar", "cosine", "exponential", "flattop",
    "hamming", "hann", "nuttall", "parzen", "taylor", "triang", "tukey"]

/-- What a `fit` may make of a transformer: `random=True` gives an order from 1 to 4, or one of the sixteen
windows; the others stay as they are. -/
inductive MayBecome : InTr → InTr → Prop
  | same (t : InTr) : ¬ IsRandom t → MayBecome t t
  | order (o o' : Nat) : 1 ≤ o' → o' ≤ 4 → MayBecome (.derivate o true) (.derivate o' true)
  | window (s s' : String) : s' ∈ windowNames → MayBecome (.periodigram s true) (.periodigram s' true)

/-- `np.random.choice` returns a position of the array. -/
def ChoiceLaw {K R : Type} (ienv : InEnv K R) : Prop := ∀ r n, 0 < n → (ienv.choice r n).1 < n

/-- Every member applies the representation it was fitted on. -/
def Synced {K R : Type} [Scalar K] (ienv : InEnv K R) (h : Heap) (e : ObjEnsemble K R) : Prop :=
  e.base.models.length ≤ e.objs.length ∧
  ∀ (i : Nat) m k, e.base.models[i]? = some m → e.objs[i]? = some k → m.rep = (h k).transform ienv

/-- The transformer objects `objs[i]`, `i` in `order`, fitted one after the other, and nothing else: their states
and the state of the global generator. -/
def fitObjs {K R : Type} [Scalar K] (ienv : InEnv K R) (objs : List Nat) : List Nat → Heap → World R → Heap × World R
  | [], h, w => (h, w)
  | i :: order, h, w =>
    match objs[i]? with
    | none => fitObjs ienv objs order h w
    | some k => fitObjs ienv objs order (Function.update h k ((h k).fit ienv w).1) ((h k).fit ienv w).2

end Convst.Spec
