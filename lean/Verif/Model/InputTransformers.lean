import Verif.Model.Rdst

/-!
# Model of `convst/transformers/_input_transformers.py` and of the normalisation functions of
`convst/utils/dataset_utils.py`

Feature matrices are lists of rows with an explicit number of columns.
-/

set_option autoImplicit false

namespace Convst
variable {K : Type} [Scalar K]

/-! ## Scalers -/

/-- `a[i]` on a NumPy array: `IndexError` when out of range.  (`_input_transformers.py:112`.) -/
def pyGet {α : Type} (a : List α) (i : Nat) : Res α :=
  match a[i]? with
  | some v => .ok v
  | none => .error .indexError

/-- `X[:, j]`.  (`_input_transformers.py:27`.) -/
def column {α : Type} (X : List (List α)) (j : Nat) : Res (List α) := X.mapM fun r => pyGet r j

/-- `np.where(np.std(X, axis=0) != 0)[0]` (`_input_transformers.py:27`, `:36`); `nc` is the number of
columns. -/
def usefullAtts (X : List (List K)) (nc : Nat) : Res (List Nat) := do
  let stds ← (List.range nc).mapM fun j => do
    let c ← column X j
    pure (std c)
  pure (whereIdx nc fun j => match stds[j]? with
    | some s => !(Scalar.eqb s 0)
    | none => false)

/-- `X[:, atts]`.  (`_input_transformers.py:28`.) -/
def selectCols {α : Type} (X : List (List α)) (atts : List Nat) : Res (List (List α)) :=
  X.mapM fun r => takeIds r atts

/-- A fitted scaler: kept features, and for each of them the offset and the scale.
(`_input_transformers.py:25-40`.) -/
structure Scaler (K : Type) where
  atts : List Nat
  offset : List K
  scale : List K

/-- scikit-learn's `_handle_zeros_in_scale`, without its rounding tolerance.
(`_input_transformers.py:31`.) -/
def handleZero (s : K) : K := if Scalar.eqb s 0 then 1 else s

/-- `c_StandardScaler.fit` (`_input_transformers.py:25-28`): `StandardScaler` raises `ValueError` on a
matrix without rows or without columns. -/
def Scaler.fitStandard (X : List (List K)) (nc : Nat) : Res (Scaler K) := do
  let atts ← usefullAtts X nc
  let Xs ← selectCols X atts
  if Xs.length = 0 ∨ atts.length = 0 then .error .valueError
  else do
    let cols ← (List.range atts.length).mapM fun j => column Xs j
    pure ⟨atts, cols.map mean, cols.map fun c => handleZero (std c)⟩

/-- `StandardScaler.transform` on one row already restricted to the kept features.
(`_input_transformers.py:31`.) -/
def standardRow (offset scale row : List K) : List K :=
  List.zipWith (fun v p => (v - p.1) / p.2) row (offset.zip scale)

/-- `c_StandardScaler.transform` (`_input_transformers.py:30-31`). scikit-learn's check on the number
of features is made after the selection and never fails. -/
def Scaler.transformStandard (s : Scaler K) (X : List (List K)) : Res (List (List K)) := do
  let Xs ← selectCols X s.atts
  pure (Xs.map (standardRow s.offset s.scale))

/-- Least element of a non-empty column.  (`_input_transformers.py:37`.) -/
def minOf (c : List K) : K :=
  match c with
  | [] => 0
  | a :: t => t.foldl (fun m v => if Scalar.ltb v m then v else m) a

/-- Greatest element of a non-empty column.  (`_input_transformers.py:37`.) -/
def maxOf (c : List K) : K :=
  match c with
  | [] => 0
  | a :: t => t.foldl (fun m v => if Scalar.ltb m v then v else m) a

/-- `c_MinMaxScaler.fit` (`_input_transformers.py:34-37`): `scale_ = 1 / (max - min)` and
`min_ = 0 - min * scale_`, the latter kept in `offset`. -/
def Scaler.fitMinMax (X : List (List K)) (nc : Nat) : Res (Scaler K) := do
  let atts ← usefullAtts X nc
  let Xs ← selectCols X atts
  if Xs.length = 0 ∨ atts.length = 0 then .error .valueError
  else do
    let cols ← (List.range atts.length).mapM fun j => column Xs j
    let scale := cols.map fun c => 1 / handleZero (maxOf c - minOf c)
    pure ⟨atts, List.zipWith (fun c s => 0 - minOf c * s) cols scale, scale⟩

/-- `MinMaxScaler.transform` on one row restricted to the kept features.  (`_input_transformers.py:40`.) -/
def minMaxRow (offset scale row : List K) : List K :=
  List.zipWith (fun v p => v * p.2 + p.1) row (offset.zip scale)

/-- `c_MinMaxScaler.transform` (`_input_transformers.py:39-40`). -/
def Scaler.transformMinMax (s : Scaler K) (X : List (List K)) : Res (List (List K)) := do
  let Xs ← selectCols X s.atts
  pure (Xs.map (minMaxRow s.offset s.scale))

/-! ## Z-normalisation of datasets -/

/-- `_input_transformers.py:43-49` (`z_norm_one_sample`). -/
def zNormOneSample (x : List (List K)) : Res (List (List K)) :=
  (List.range x.length).mapM fun i => do
    let r ← aget x i
    pure (znorm r)

/-- `_input_transformers.py:52-58` (`z_norm_all_samples`). -/
def zNormAllSamples (X : List (List (List K))) : Res (List (List (List K))) :=
  (List.range X.length).mapM fun i => do
    let x ← aget X i
    zNormOneSample x

/-- `_input_transformers.py:61-70` (`Z_normalizer.transform`). -/
def zNormalizer (X : XIn K) : Res (List (List (List K))) := do
  let A ← toArr3 X
  zNormAllSamples A.data

/-- The in-place loops of `dataset_utils.py:31-36` (`z_norm_3D`) and `:56-60` (`z_norm_3D_list`): the
final contents of `X`, which is the caller's array. -/
def zNorm3D (X : List (List (List K))) (nf : Nat → Nat) : Res (List (List (List K))) :=
  (List.range X.length).foldlM (init := X) fun X i => do
    (List.range (nf i)).foldlM (init := X) fun X f => do
      let r ← aget2 X i f
      aset2 X i f (znorm r)

/-! ## Derivative, periodogram -/

/-- `np.diff(x)` on one series: consecutive differences.  (`_input_transformers.py:93`.) -/
def diff (x : List K) : List K := List.zipWith (fun b a => b - a) (x.drop 1) x.dropLast

/-- `Derivate.transform` (`_input_transformers.py:91-94`) on one channel: `order` differences. -/
def derivateRow (order : Nat) (x : List K) : List K :=
  (List.range order).foldl (fun x _ => diff x) x

/-- `Derivate.transform` on a 3D array.  (`_input_transformers.py:91-94`.) -/
def derivate3 (order : Nat) (A : Arr3 K) : Arr3 K :=
  (List.range order).foldl (fun A _ => ⟨A.data.map fun s => s.map diff, A.nf, A.nt - 1⟩) A

/-- Length of a NumPy dimension after broadcasting.  (`_input_transformers.py:93`.) -/
def bcast (n m : Nat) : Res Nat :=
  if n = m then .ok n else if n = 1 then .ok m else if m = 1 then .ok n else .error .valueError

/-- `x - y` on two 2D arrays, with NumPy's broadcasting.  (`_input_transformers.py:93`.) -/
def sub2 (x y : Mat K) : Res (Mat K) := do
  let r ← bcast x.rows.length y.rows.length
  let c ← bcast x.len y.len
  let rows ← (List.range r).mapM fun i => (List.range c).mapM fun j => do
    let a ← pyGet x.rows (if x.rows.length = 1 then 0 else i)
    let b ← pyGet y.rows (if y.rows.length = 1 then 0 else i)
    let u ← pyGet a (if x.len = 1 then 0 else j)
    let v ← pyGet b (if y.len = 1 then 0 else j)
    pure (u - v)
  pure ⟨rows, c⟩

/-- `np.diff(X)` on a one-dimensional array whose elements are 2D arrays: `X[1:] - X[:-1]`.
(`_input_transformers.py:93`.) -/
def diffObj (X : List (Mat K)) : Res (List (Mat K)) :=
  ((X.drop 1).zip X).mapM fun p => sub2 p.1 p.2

/-- `Derivate.transform` (`_input_transformers.py:91-94`) on what may be passed as input.  `np.diff` converts a
list to an array, which raises `ValueError` for series of different shapes (NumPy 1.24 and later) and gives a
one-dimensional array for the empty list; on an object array the differences are those between consecutive
elements; on other arrays they are taken along the last axis, of which there must be one.  With `order = 0` the
input is returned as it is. -/
def derivate (order : Nat) (X : XIn K) : Res (XIn K) :=
  if order = 0 then .ok X
  else
    match X with
    | .array dt A => .ok (.array dt (derivate3 order A))
    | .list [] => .ok (.arrayOther .float64 [0])
    | .list (x :: xs) =>
      if xs.all fun z => z.rows.length == x.rows.length && z.len == x.len then
        .ok (.array .float64 (derivate3 order ⟨(x :: xs).map Mat.rows, x.rows.length, x.len⟩))
      else .error .valueError
    | .objArray X => do
      let Y ← (List.range order).foldlM (fun X _ => diffObj X) X
      pure (.objArray Y)
    | .arrayOther dt shape =>
      match shape.getLast? with
      | none => .error .valueError
      | some n => .ok (.arrayOther dt (shape.dropLast ++ [n - order]))

/-- `Periodigram.transform` (`_input_transformers.py:111-121`) on a 3D array. `pg` is
`scipy.signal.periodogram(.., detrend=False, window=..)[1]`; the number of output points is read from the
first channel of the first series, and a row of another length cannot be stored. -/
def periodigram (pg : List K → List K) (A : Arr3 K) : Res (Arr3 K) := do
  let s0 ← pyGet A.data 0
  let x0 ← pyGet s0 0
  let nTs := (pg x0).length
  let data ← A.data.mapM fun s => s.mapM fun x =>
    if (pg x).length = nTs then .ok (pg x) else .error .valueError
  pure ⟨data, A.nf, nTs⟩

/-- `Periodigram.transform` (`_input_transformers.py:111-121`) on what may be passed as input: the result is a new
double array.  A list has no index `[0, 0, :]` (`TypeError`), an array with fewer than three dimensions neither
(`IndexError`).  Arrays with more than three dimensions, which the code rejects except for some dimensions of length 1, are
always rejected here. -/
def periodigramIn (pg : List K → List K) (X : XIn K) : Res (XIn K) :=
  match X with
  | .array _ A => (periodigram pg A).map (XIn.array .float64)
  | .list _ => .error .typeError
  | .objArray _ => .error .indexError
  | .arrayOther _ shape => if shape.length < 3 then .error .indexError else .error .valueError

/-- The parameters of `FastHankelTransform` (`_input_transformers.py:150-155`). -/
structure Hankel (K : Type) where
  dln : K
  mu : K
  offset : K
  bias : K
  optimal : Bool

/-- The `offset` given to `scipy.fft.fht` (`_input_transformers.py:163-174`).  The signature of SciPy's function is
`fhtoffset(dln, mu, initial=0.0, bias=0.0)`; the code passes `dln` in the place of `mu`, and `bias` in that of
`initial`. -/
def hankelOffset (fhtoffset : K → K → K → K → K) (p : Hankel K) : K :=
  if p.optimal then fhtoffset p.dln p.dln p.bias 0 else p.offset

/-- `FastHankelTransform.transform` (`_input_transformers.py:160-175`).  `fht x dln mu offset bias` is
`scipy.fft.fht` on one row, which it is applied to along the last axis.  The results are stored in an array of the
shape of the input.  A list has no `shape` (`AttributeError`); the shape of an object array is that of its first
axis, and a 2D result cannot be stored in one element (`ValueError`); numbers have no last axis. -/
def hankel (fht : List K → K → K → K → K → List K) (fhtoffset : K → K → K → K → K) (p : Hankel K) (X : XIn K) :
    Res (XIn K) :=
  match X with
  | .array _ A => do
    let data ← A.data.mapM fun s => s.mapM fun x =>
      let r := fht x p.dln p.mu (hankelOffset fhtoffset p) p.bias
      if r.length = A.nt then .ok r else .error .valueError
    pure (.array .float64 ⟨data, A.nf, A.nt⟩)
  | .list _ => .error .attributeError
  | .objArray X => if X.isEmpty then .ok (.arrayOther .float64 [0]) else .error .valueError
  | .arrayOther _ shape =>
    match shape with
    | [] => .error .indexError
    | [n] => if n = 0 then .ok (.arrayOther .float64 [0]) else .error .indexError
    | shape => .ok (.arrayOther .float64 shape)

end Convst
