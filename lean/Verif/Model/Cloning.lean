import Verif.Model.Classifiers

/-!
# Model of the constructors as seen by `sklearn.base.clone`

`clone` (used by `GridSearchCV`, `cross_validate`, ...) reads the constructor arguments back from the
attributes, copies them, calls the constructor, and raises `RuntimeError` when an attribute of the new
object is not *the same object* as the copied argument.  Object identities are therefore part of this
model: every Python object is a value with an identity, and the state is the next unused identity.

The identity `0` is NumPy's process-wide generator.
-/

set_option autoImplicit false

namespace Convst

/-- Input transformers (`_input_transformers.py:61-146`) with their constructor arguments. -/
inductive InTr
  | raw
  | zNormalizer
  | derivate (order : Nat) (random : Bool)
  | periodigram (window : String) (random : Bool)
  deriving DecidableEq

/-- Values of constructor arguments: immutable atoms, strings, Python lists of numbers, 1D arrays,
`RandomState` instances and lists of input transformers (each with its identity).  (`rdst.py:134-160`.) -/
inductive HVal (K R : Type)
  | py (v : PyVal K)
  | str (s : String)
  | nums (l : List (PyVal K))
  | arr (a : LenArr K)
  | rng (r : R)
  | ests (l : List (Nat × InTr))

/-- A Python object: identity and (current) value.  (`rdst.py:134-160`.) -/
structure Obj (V : Type) where
  id : Nat
  val : V

/-- Computations that may create objects or raise; the state is the next unused identity.
(`rdst.py:115-160`.) -/
abbrev HM (α : Type) := StateT Nat (Except Err) α

/-- Constructor arguments, or the attributes of the same names.  (`rdst.py:134-160`.) -/
abbrev Attrs (K R : Type) := List (String × Obj (HVal K R))

section
variable {K R : Type}

/-- A new object.  (`rdst_ensemble.py:199-200`.) -/
def alloc {V : Type} (v : V) : HM (Obj V) := fun n => .ok (⟨n, v⟩, n + 1)

/-- An exception.  (`rdst.py:146`.) -/
def raise {α : Type} (e : Err) : HM α := fun _ => .error e

/-- `copy.deepcopy`, and `clone(.., safe=False)` on lists: immutable atoms and strings are not copied.  The
class of the copied object is one of those of `_input_transformers.py:61-146` or of the estimators. -/
def copyObj (o : Obj (HVal K R)) : HM (Obj (HVal K R)) :=
  match o.val with
  | .py _ => pure o
  | .str _ => pure o
  | .nums l => alloc (.nums l)
  | .arr a => alloc (.arr a)
  | .rng r => alloc (.rng r)
  | .ests l => do
    let l' ← l.mapM fun e => do
      let e' ← alloc e.2
      pure (e'.id, e'.val)
    alloc (.ests l')

/-- `sklearn.base.clone(estimator)` for an estimator with constructor `init`: copy the arguments read from
the attributes, construct, and compare identities.  The constructors it calls are `rdst.py:115-160`,
`rdst_ridge.py:105-147` and `rdst_ensemble.py:146-211`. -/
def cloneEst (init : Attrs K R → HM (Attrs K R)) (attrs : Attrs K R) : HM (Attrs K R) := do
  let args ← attrs.mapM fun p => do
    let o ← copyObj p.2
    pure (p.1, o)
  let new ← init args
  if args.all fun p => match new.lookup p.1 with
    | some o => o.id == p.2.id
    | none => false
  then pure new else raise .runtimeError

/-- One constructor argument: its name and what the constructor stores for it.  (`rdst.py:134-160`.) -/
abbrev Assign (K R : Type) := String × (Obj (HVal K R) → HM (Obj (HVal K R)))

/-- One assignment of a constructor. A missing argument is a `TypeError` (defaults are not modelled: `clone`
passes every argument).  (`rdst.py:134-160`.) -/
def assignOne (args : Attrs K R) (s : Assign K R) : HM (String × Obj (HVal K R)) :=
  match args.lookup s.1 with
  | some o => do
    let o' ← s.2 o
    pure (s.1, o')
  | none => raise .typeError

/-- A constructor that treats its arguments one after the other.  (`rdst.py:134-160`.) -/
def runInit (stores : List (Assign K R)) (args : Attrs K R) : HM (Attrs K R) := stores.mapM (assignOne args)

/-! ## Checks applied by the constructors -/

/-- `self.x = x`.  (`rdst_ridge.py:126-140`.) -/
def keep (o : Obj (HVal K R)) : HM (Obj (HVal K R)) := pure o

/-- `check_is_boolean(x)` (`checks_utils.py:18-24`): booleans are singletons, `bool(x)` is `x`. -/
def keepBool (o : Obj (HVal K R)) : HM (Obj (HVal K R)) :=
  match o.val with
  | .py v => match checkIsBoolean v with
    | .ok _ => pure o
    | .error e => raise e
  | _ => raise .valueError

/-- `check_is_numeric(x)` (`checks_utils.py:12-16`). -/
def keepNumeric (o : Obj (HVal K R)) : HM (Obj (HVal K R)) :=
  match o.val with
  | .py v => match checkIsNumeric v with
    | .ok _ => pure o
    | .error e => raise e
  | _ => raise .valueError

/-- `check_is_numeric(x) if x is not None else x` (`rdst.py:138`, `rdst_ensemble.py:175-177`). -/
def keepNumericOrNone (o : Obj (HVal K R)) : HM (Obj (HVal K R)) :=
  match o.val with
  | .py .none => pure o
  | _ => keepNumeric o

variable [Scalar K]

/-- `int(check_is_numeric(x))` (`rdst.py:139`): `int` of an integer is the same object, `int` of a float a new
one. -/
def toInt (o : Obj (HVal K R)) : HM (Obj (HVal K R)) :=
  match o.val with
  | .py (.int _) => pure o
  | .py (.float x) => alloc (.py (.int (Scalar.trunc x)))
  | _ => raise .valueError

/-- The float conversion made by `np.asarray` on a list containing a float.  (`rdst.py:148`.) -/
def pyToFloat : PyVal K → Option K
  | .int z => some (ofInt z)
  | .float x => some x
  | _ => none

/-- `z` for an integer.  (`rdst.py:139`.) -/
def pyToInt : PyVal K → Option Int
  | .int z => some z
  | _ => none

/-- `np.asarray` of a list of numbers: an integer array if all are integers, else a float array.  Other
element types (outside the model) raise `ValueError`.  (`checks_utils.py:190-191`.) -/
def npAsArray (l : List (PyVal K)) : Res (LenArr K) :=
  match l.mapM pyToInt with
  | some zs => .ok (.ints zs)
  | none => match l.mapM pyToFloat with
    | some xs => .ok (.floats xs)
    | none => .error .valueError

/-- `check_array_1D(x)` (`checks_utils.py:136-168`): a list becomes a new array, an array is returned; an empty
one is refused. -/
def toArr (o : Obj (HVal K R)) : HM (Obj (HVal K R)) :=
  match o.val with
  | .nums l => match npAsArray l with
    | .ok a => if a.length = 0 then raise .valueError else alloc (.arr a)
    | .error e => raise e
  | .arr a => if a.length = 0 then raise .valueError else pure o
  | _ => raise .valueError

/-- `rdst.py:141-146`: `None` or anything of length 2. -/
def keepBounds (o : Obj (HVal K R)) : HM (Obj (HVal K R)) :=
  match o.val with
  | .py .none => pure o
  | .nums l => if l.length = 2 then pure o else raise .valueError
  | .arr a => if a.length = 2 then pure o else raise .valueError
  | .str s => if s.length = 2 then pure o else raise .valueError
  | .ests l => if l.length = 2 then pure o else raise .valueError
  | _ => raise .typeError

/-- `rdst.py:147-149`: numeric and below 1. -/
def keepReduction (o : Obj (HVal K R)) : HM (Obj (HVal K R)) :=
  match o.val with
  | .py (.int z) => if (1 : Int) ≤ z then raise .valueError else pure o
  | .py (.float x) => if Scalar.leb 1 x then raise .valueError else pure o
  | _ => raise .valueError

/-- First two elements in order.  (`rdst.py:496`.) -/
def ordered : LenArr K → Res Bool
  | .ints (a :: b :: _) => .ok (decide (a ≤ b))
  | .floats (a :: b :: _) => .ok (Scalar.leb a b)
  | _ => .error .indexError

/-- `_validate_percentiles` (`rdst.py:493-498`). -/
def toPercentiles (o : Obj (HVal K R)) : HM (Obj (HVal K R)) := do
  let o' ← toArr o
  match o'.val with
  | .arr a => match ordered a with
    | .ok true => pure o'
    | .ok false => raise .valueError
    | .error e => raise e
  | _ => raise .valueError

/-- `sklearn.utils.check_random_state`: `None` gives the process-wide generator (in state `glob`), an
integer a new generator, an instance is returned.  (`rdst.py:153`.) -/
def toRng (glob : R) (randomState : Nat → R) (o : Obj (HVal K R)) : HM (Obj (HVal K R)) :=
  match o.val with
  | .py .none => pure ⟨0, .rng glob⟩
  | .py (.int z) => if z < 0 then raise .valueError else alloc (.rng (randomState z.toNat))
  | .rng _ => pure o
  | _ => raise .valueError

/-- `isinstance(n_jobs, bool)` or `check_n_jobs` and `set_num_threads` (`rdst.py:154-158`,
`rdst_ridge.py:141-145`): `min(n_jobs, cpu_count())` is the same object when `n_jobs` is the smaller.  The
effect on the thread count is in `Rdst.init`. -/
def toNJobs (cpu maxThreads : Nat) (o : Obj (HVal K R)) : HM (Obj (HVal K R)) :=
  match o.val with
  | .py (.bool _) => pure o
  | .py v => match checkNJobs cpu v with
    | .error e => raise e
    | .ok n =>
      if 1 ≤ n ∧ n ≤ maxThreads then
        match v with
        | .int z => if z = n then pure o else alloc (.py (.int n))
        | _ => alloc (.py (.int n))
      else raise .valueError
  | _ => raise .valueError

/-- `_validate_transform_type` (`rdst.py:486-491`): what is stored is the string *returned by `lower`*, a new
object.  (A value without method `lower` raises `AttributeError`.) -/
def toTransformType (o : Obj (HVal K R)) : HM (Obj (HVal K R)) :=
  match o.val with
  | .str s => do
    let o' ← alloc (.str s.toLower)
    match validateTransformType s with
    | .ok _ => pure o'
    | .error e => raise e
  | _ => raise .attributeError

/-! ## The three constructors -/

/-- Facts about the process used by the constructors.  (`checks_utils.py:46-48`, `rdst.py:158`.) -/
structure Proc (R : Type) where
  cpu : Nat
  maxThreads : Nat
  glob : R
  randomState : Nat → R

/-- `R_DST.__init__` (`rdst.py:115-160`). -/
def rdstStores (pr : Proc R) : List (Assign K R) :=
  [("transform_type", toTransformType),
   ("phase_invariance", keepBool),
   ("alpha", keepNumeric),
   ("normalize_output", keepBool),
   ("n_samples", keepNumericOrNone),
   ("n_shapelets", toInt),
   ("shapelet_lengths", toArr),
   ("shapelet_lengths_bounds", keepBounds),
   ("lengths_bounds_reduction", keepReduction),
   ("prime_dilations", keepBool),
   ("proba_norm", keepNumeric),
   ("percentiles", toPercentiles),
   ("random_state", toRng pr.glob pr.randomState),
   ("n_jobs", toNJobs pr.cpu pr.maxThreads),
   ("max_channels", keep),
   ("min_len", keep)]

/-- `R_DST_Ridge.__init__` (`rdst_ridge.py:105-147`). -/
def ridgeStores (pr : Proc R) : List (Assign K R) :=
  [("alphas_ridge", keep),
   ("class_weight", keep),
   ("fit_intercept", keep),
   ("transform_type", keep),
   ("phase_invariance", keep),
   ("prime_dilations", keep),
   ("alpha", keep),
   ("normalize_output", keep),
   ("n_samples", keep),
   ("shapelet_lengths_bounds", keep),
   ("lengths_bounds_reduction", keep),
   ("n_shapelets", keep),
   ("shapelet_lengths", keep),
   ("proba_norm", keep),
   ("percentiles", keep),
   ("n_jobs", toNJobs pr.cpu pr.maxThreads),
   ("random_state", keep),
   ("min_len", keep)]

/-- `input_transformers` of `R_DST_Ensemble` (`rdst_ensemble.py:199-202`): by default a new list of three new
transformers. -/
def toTransformers (o : Obj (HVal K R)) : HM (Obj (HVal K R)) :=
  match o.val with
  | .py .none => do
    let a ← alloc InTr.raw
    let b ← alloc (InTr.derivate 1 false)
    let c ← alloc (InTr.periodigram "boxcar" false)
    alloc (.ests [(a.id, a.val), (b.id, b.val), (c.id, c.val)])
  | _ => pure o

/-- The assignments of `R_DST_Ensemble.__init__` (`rdst_ensemble.py:172-202`). -/
def ensembleStores (pr : Proc R) : List (Assign K R) :=
  [("transform_type", keep),
   ("phase_invariance", keepBool),
   ("normalize_output", keepBool),
   ("n_samples", keepNumericOrNone),
   ("shapelet_lengths_bounds", keep),
   ("prime_dilations", keepBool),
   ("percentiles", keep),
   ("random_state", toRng pr.glob pr.randomState),
   ("max_channels", keep),
   ("min_len", keep),
   ("lengths_bounds_reduction", keep),
   ("n_shapelets_per_estimator", keepNumeric),
   ("shapelet_lengths", toArr),
   ("n_jobs", keep),
   ("prefer", keep),
   ("require", keep),
   ("shp_alpha", keepNumeric),
   ("a_w", keepNumeric),
   ("proba_norm", toArr),
   ("alphas_ridge", keep),
   ("class_weight", keep),
   ("fit_intercept", keep),
   ("input_transformers", toTransformers)]

/-- `len(x)`; `TypeError` for an object without length.  (`rdst.py:143`.) -/
def pyLen (v : HVal K R) : Res Nat :=
  match v with
  | .nums l => .ok l.length
  | .arr a => .ok a.length
  | .str s => .ok s.length
  | .ests l => .ok l.length
  | _ => .error .typeError

/-- Value of an attribute.  (`rdst_ensemble.py:204`.) -/
def attr (a : Attrs K R) (name : String) : Res (HVal K R) :=
  match a.lookup name with
  | some o => .ok o.val
  | none => .error .attributeError

/-- `R_DST.__init__`.  (`rdst.py:115-160`.) -/
def rdstInit (pr : Proc R) : Attrs K R → HM (Attrs K R) := runInit (rdstStores pr)

/-- `R_DST_Ridge.__init__`.  (`rdst_ridge.py:105-147`.) -/
def ridgeInit (pr : Proc R) : Attrs K R → HM (Attrs K R) := runInit (ridgeStores pr)

/-- `R_DST_Ensemble.__init__` (`rdst_ensemble.py:146-211`): the assignments, then the comparison of the two
lengths. -/
def ensembleInit (pr : Proc R) (args : Attrs K R) : HM (Attrs K R) := do
  let a ← runInit (ensembleStores pr) args
  match attr a "input_transformers" >>= pyLen, attr a "proba_norm" >>= pyLen with
  | .ok n, .ok m => if n = m then pure a else raise .valueError
  | .error e, _ => raise e
  | _, .error e => raise e

end
end Convst
