import Verif.Model.SetParams
import Verif.Props.Object

/-!
# What `set_params` should do

The specification: an object changed by `set_params` cannot be told from one constructed with the new values.  An
object is observed through the outcomes of its `fit` and `transform` calls.
-/

set_option autoImplicit false

namespace Convst.Spec
open Convst Props

/-- One use of a transformer. -/
inductive Use (G K L : Type)
  | fit (f : FitCall G K L)
  | transform (Z : XIn K)

/-- What a use shows: whether `fit` returned or raised, with the state of the process it left; what `transform`
returned or raised. -/
inductive Seen (K R : Type)
  | fit (r : Res Unit) (w : World R)
  | transform (r : Res (List (List K)))

/-- What a sequence of uses of an object shows, for any kind of object. -/
def watch {G K R L A : Type} (fit : A → World R → FitCall G K L → A × World R × Res Unit)
    (transform : A → XIn K → Res (List (List K))) : List (Use G K L) → A → World R → List (Seen K R)
  | [], _, _ => []
  | .fit f :: us, a, w =>
    let s := fit a w f
    .fit s.2.2 s.2.1 :: watch fit transform us s.1 s.2.1
  | .transform Z :: us, a, w => .transform (transform a Z) :: watch fit transform us a w

/-- The uses of a constructed `R_DST` object. -/
def watchRdst {G K R L : Type} [Scalar K] [Gen G K] [DecidableEq L] (env : Env G R L) :
    List (Use G K L) → Rdst K R → World R → List (Seen K R) :=
  watch (fun o w f => o.fit env f.gs f.order w f.X f.y) Rdst.transform

/-- The uses of an `R_DST` object some attributes of which were stored by `set_params`. -/
def watchRaw {G K R L : Type} [Scalar K] [Gen G K] [DecidableEq L] (rsOf : Nat → R) (env : Env G R L) :
    List (Use G K L) → RawRdst K R → World R → List (Seen K R) :=
  watch (fun o w f => o.fit rsOf env f.gs f.order w f.X f.y) RawRdst.transform

/-- The arguments of the constructor call in which those of `us` replace the arguments of the same names. -/
def withArgs {K R : Type} (rsOf : Nat → R) (p : Params K R) (us : List (Upd K R)) : Params K R :=
  us.foldl (Params.upd rsOf) p

/-- Arguments that the constructor of `R_DST` stores as they are: a `transform_type` in lower case, an array of
lengths, an integer number of shapelets, `None` or a generator for `random_state`; and not `n_jobs`. -/
def AsStored {K R : Type} : Upd K R → Prop
  | .transformType s => s.toLower = s
  | .nShp _ isFloat => isFloat = false
  | .lens _ isList => isList = false
  | .rs (.seed _) => False
  | .nJobs _ => False
  | .unknown _ => False
  | _ => True

/-- The same for `random_state=seed`. -/
def AsStoredOrSeed {K R : Type} : Upd K R → Prop
  | .rs _ => True
  | u => AsStored u

/-- A parameter read only by `fit`: every parameter of `R_DST` but `phase_invariance` and `transform_type`. -/
def FitOnly {K R : Type} : Upd K R → Prop
  | .phase _ => False
  | .transformType _ => False
  | _ => True

/-- The constructor arguments of `R_DST_Ridge` in which those of `us` replace the arguments of the same names. -/
def withRidgeArgs {K R : Type} (rsOf : Nat → R) (a : Params K R × RSrc R) (us : List (Upd K R)) : Params K R × RSrc R :=
  us.foldl (fun a u => match u with
    | .rs s => (a.1, s)
    | u => (a.1.upd rsOf u, a.2)) a

/-- An argument of the constructor of `R_DST_Ridge`, other than `n_jobs`. -/
def OfRidge {K R : Type} : Upd K R → Prop
  | .maxChannels _ => False
  | .unknown _ => False
  | .nJobs _ => False
  | _ => True

/-- The constructor arguments of `R_DST_Ensemble` in which those of `us` replace the arguments of the same names. -/
def withEnsArgs {K R : Type} (rsOf : Nat → R) (a : EnsArgs K R) (us : List (EUpd K R)) : EnsArgs K R :=
  us.foldl (EnsArgs.upd rsOf) a

/-- An argument of the constructor of `R_DST_Ensemble`, other than an integer `random_state`. -/
def OfEns {K R : Type} : EUpd K R → Prop
  | .shared (.unknown _) => False
  | .shared (.pNorm _) => False
  | .shared (.rs (.seed _)) => False
  | _ => True

end Convst.Spec
