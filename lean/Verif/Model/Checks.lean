import Verif.Model.Prelude

/-!
# Model of `convst/utils/checks_utils.py`
-/

set_option autoImplicit false

namespace Convst

/-- Python values distinguished by the checks: numbers, booleans, `None` and everything else.
(`checks_utils.py:7-24`.) -/
inductive PyVal (K : Type)
  | bool (b : Bool)
  | int (z : Int)
  | float (x : K)
  | none
  | other

variable {K : Type}

/-- `checks_utils.py:7-10` (`is_int`). -/
def isInt : PyVal K → Bool
  | .int _ => true
  | _ => false

/-- `checks_utils.py:12-16` (`check_is_numeric`): returns its argument. -/
def checkIsNumeric (x : PyVal K) : Res (PyVal K) :=
  match x with
  | .int _ => .ok x
  | .float _ => .ok x
  | _ => .error .valueError

/-- `checks_utils.py:18-24` (`check_is_boolean`): returns its argument. -/
def checkIsBoolean (x : PyVal K) : Res (PyVal K) :=
  match x with
  | .bool _ => .ok x
  | _ => .error .valueError

/-- `checks_utils.py:28-48` (`check_n_jobs`); `cpu` is `os.cpu_count()` (assumed known). -/
def checkNJobs (cpu : Nat) (x : PyVal K) : Res Int :=
  match x with
  | .none => .ok 1
  | .int z => if z < 0 then .ok ((cpu : Int) + z + 1) else .ok (min z (cpu : Int))
  | _ => .error .valueError

/-- Python type of an argument.  (`checks_utils.py:190-201`.) -/
inductive Container
  | list
  | ndarray
  | dataframe
  | other
  deriving DecidableEq

/-- What the array checks look at: Python type and shape, with the contents.  For a list, `shape` and
`data` are those of `np.asarray(X)`.  (`checks_utils.py:136-168`.) -/
structure PyArr (α : Type) where
  container : Container
  shape : List Nat
  data : α

/-- `X.size`.  (`checks_utils.py:136-168`.) -/
def PyArr.size {α : Type} (X : PyArr α) : Nat := X.shape.prod

/-- `X.shape[i]`.  (`checks_utils.py:136-168`.) -/
def PyArr.dim {α : Type} (X : PyArr α) (i : Nat) : Res Nat :=
  match X.shape[i]? with
  | some t => .ok t
  | none => .error .indexError

variable {α : Type}

/-- `checks_utils.py:170-200` (`check_is_numpy_or_pd`). -/
def checkIsNumpyOrPd (X : PyArr α) : Res (PyArr α) :=
  match X.container with
  | .list => .ok { X with container := .ndarray }
  | .dataframe => .ok X
  | .ndarray => .ok X
  | .other => .error .valueError

/-- `checks_utils.py:202-228` (`check_is_numpy`). -/
def checkIsNumpy (X : PyArr α) : Res (PyArr α) :=
  match X.container with
  | .list => .ok { X with container := .ndarray }
  | .ndarray => .ok X
  | _ => .error .valueError

/-- `checks_utils.py:50-96` (`check_array_3D`); the parameter `coerce_to_numpy` is not used by the
code. -/
def checkArray3D (X : PyArr α) (isUnivariate : Bool := false) (minTimestamps : Nat := 2) :
    Res (PyArr α) := do
  let X ← checkIsNumpyOrPd X
  if X.shape.length ≠ 3 then .error .valueError
  else if X.size = 0 then .error .valueError
  else do
    let t ← X.dim 2
    if t ≤ minTimestamps then .error .valueError
    else if X.container = .dataframe then .error .valueError
    else if isUnivariate then do
      let f ← X.dim 1
      if f ≠ 1 then .error .valueError else pure X
    else pure X

/-- `checks_utils.py:98-134` (`check_array_2D`). -/
def checkArray2D (X : PyArr α) (coerceToNumpy : Bool := true) : Res (PyArr α) := do
  let X ← checkIsNumpyOrPd X
  if X.shape.length ≠ 2 then .error .valueError
  else if X.size = 0 then .error .valueError
  else if X.container = .dataframe then
    if coerceToNumpy then pure { X with container := .ndarray } else pure X
  else pure X

/-- `checks_utils.py:136-168` (`check_array_1D`). -/
def checkArray1D (X : PyArr α) : Res (PyArr α) := do
  let X ← checkIsNumpy X
  if X.shape.length ≠ 1 then .error .valueError
  else if X.size = 0 then .error .valueError
  else pure X

end Convst
