import Verif.Model.Classifiers

/-!
# Model of `convst/utils/experiments_utils.py` and of the loaders of `convst/utils/dataset_utils.py`

Downloads (`aeon.datasets.load_classification`) are inputs of the model: a dataset is what they return.
Timings are not modelled.
-/

set_option autoImplicit false

namespace Convst

section
variable {α L : Type} [LinearOrder L]

/-- `np.unique(y)`: sorted distinct labels.  (`experiments_utils.py:51-52`.) -/
def uniques (y : List L) : List L := (y.mergeSort (· ≤ ·)).dedup

/-- `np.unique(y, return_counts=True)[1]`.  (`experiments_utils.py:51-52`.) -/
def uniqueCounts (y : List L) : List Nat := (uniques y).map fun l => y.count l

/-! ## `_resample` -/

/-- Indices of the series with a label: `np.where(all_labels == label)[0]` (`experiments_utils.py:72`). -/
def labelIdx (y : List L) (l : L) : List Nat := whereIdx y.length fun i => y[i]? == some l

/-- State of the loop `experiments_utils.py:67-94`: new training and test data and labels. -/
structure Split (α L : Type) where
  trainX : List α
  trainY : List L
  testX : List α
  testY : List L

/-- One turn of the loop (`experiments_utils.py:69-94`); `shuffle` is what `random_state.shuffle` does to
the index array at this turn. -/
def resampleStep (allX : List α) (allY : List L) (shuffle : List Nat → List Nat) (label : L) (num : Nat)
    (s : Split α L) : Res (Split α L) := do
  let indices := shuffle (labelIdx allY label)
  let trainI := indices.take num
  let testI := indices.drop num
  let trX ← takeIds allX trainI
  let teX ← takeIds allX testI
  let trY ← takeIds allY trainI
  let teY ← takeIds allY testI
  pure ⟨s.trainX ++ trX, s.trainY ++ trY, s.testX ++ teX, s.testY ++ teY⟩

/-- `_resample` (`experiments_utils.py:22-101`).  `shuffles k` is the effect of the `k`-th call of
`random_state.shuffle`.  Arrays and lists of series are both lists of series; the labels keep their type
(the code concatenates them to an array of floats, which preserves their equality). -/
def resample (trX : List α) (trY : List L) (teX : List α) (teY : List L)
    (shuffles : Nat → List Nat → List Nat) : Res (Split α L) := do
  let allX := trX ++ teX
  let allY := trY ++ teY
  if uniques trY = uniques teY then
    let s ← (uniques trY).zipIdx.foldlM (init := (⟨[], [], [], []⟩ : Split α L)) fun s p =>
      resampleStep allX allY (shuffles p.2) p.1 ((uniqueCounts trY).getD p.2 0) s
    if uniqueCounts s.trainY = uniqueCounts trY then
      if uniqueCounts s.testY = uniqueCounts teY then pure s else .error .assertion
    else .error .assertion
  else .error .assertion

/-- Split number `i` of `cross_validate_UCR_UEA.score` (`experiments_utils.py:117-130`) and of
`_sklearn_cv.split` (`:151-159`): the original split first, then the resample with seed `i`. -/
def cvSplit (trX : List α) (trY : List L) (teX : List α) (teY : List L)
    (shuffles : Nat → Nat → List Nat → List Nat) (i : Nat) : Res (Split α L) :=
  if i = 0 then .ok ⟨trX, trY, teX, teY⟩ else resample trX trY teX teY (shuffles i)

/-! ## `cross_validate_UCR_UEA` -/

/-- The loop of `cross_validate_UCR_UEA.score` (`experiments_utils.py:115-137`): the pipeline object `p` in
state `w` is fitted on each training split in turn and scored on the test split (one scorer; the timings
are not modelled).  `fit` may depend on the fold through the state of the per-thread generators. -/
def crossValidate {P W : Type} {K : Type} (fit : Nat → P → W → List α → List L → P × W × Res Unit)
    (predict : P → List α → Res (List L)) (scorer : List L → List L → Res K)
    (splits : Nat → Res (Split α L)) : Nat → Nat → P → W → Res (List K)
  | 0, _, _, _ => .ok []
  | n + 1, i, p, w => do
    let s ← splits i
    match fit i p w s.trainX s.trainY with
    | (_, _, .error e) => .error e
    | (p', w', .ok _) =>
      let yp ← predict p' s.testX
      let v ← scorer s.testY yp
      let vs ← crossValidate fit predict scorer splits n (i + 1) p' w'
      pure (v :: vs)

end

/-! ## `_sklearn_cv` -/

section
variable {K : Type} [Scalar K] {L : Type} [LinearOrder L]

/-- `(X[r] == z).all(axis=2)` for one series: some channel of the series equals the same channel of `z`.
(`experiments_utils.py:160`.) -/
def sharesChannel (x z : List (List K)) : Bool :=
  (x.zip z).any fun p => p.1.length == p.2.length && (p.1.zip p.2).all fun q => Scalar.eqb q.1 q.2

/-- `np.where((X == z).all(axis=2))[0][0]` (`experiments_utils.py:160`): first series sharing a channel;
`IndexError` when there is none. -/
def lookup (X : List (List (List K))) (z : List (List K)) : Res Nat :=
  match X.findIdx? fun x => sharesChannel x z with
  | some i => .ok i
  | none => .error .indexError

/-- One split of `_sklearn_cv.split` (`experiments_utils.py:150-162`). -/
def sklearnSplit (X : List (List (List K))) (s : Split (List (List K)) L) : Res (List Nat × List Nat) := do
  let tr ← s.trainX.mapM (lookup X)
  let te ← s.testX.mapM (lookup X)
  pure (tr, te)

/-- `_sklearn_cv.split` with the data of `grid_search_UCR_UEA.score` (`experiments_utils.py:180-184`): the
concatenation of the two original splits. -/
def gridSplit (trX : List (List (List K))) (trY : List L) (teX : List (List (List K))) (teY : List L)
    (shuffles : Nat → Nat → List Nat → List Nat) (i : Nat) : Res (List Nat × List Nat) := do
  let s ← cvSplit trX trY teX teY shuffles i
  sklearnSplit (trX ++ teX) s

end

/-! ## Loaders -/

section
variable {K : Type} [Scalar K] {L : Type} [LinearOrder L]

/-- `min` of a list of integers; `ValueError` on an empty one.  (`dataset_utils.py:100-103`.) -/
def pyMin : List Nat → Res Nat
  | [] => .error .valueError
  | a :: l => .ok (l.foldl min a)

/-- `LabelEncoder().fit(y).transform(z)`: the index of each label among the sorted distinct labels of `y`;
`ValueError` for a label not in `y`.  (`dataset_utils.py:97-99`.) -/
def labelEncode (y z : List L) : Res (List Nat) :=
  z.mapM fun l => match (uniques y).findIdx? (· == l) with
    | some i => .ok i
    | none => .error .valueError

/-- `len(X[i][0])`.  (`dataset_utils.py:101-102`.) -/
def firstLen (x : Mat K) : Res Nat := do
  let r ← pyGet x.rows 0
  pure r.length

/-- `z_norm_3D` / `z_norm_3D_list` applied to a loaded split (`dataset_utils.py:105-110`). -/
def zNormSeries (X : List (Mat K)) : Res (List (Mat K)) := do
  let Y ← zNorm3D (X.map (·.rows)) fun i => ((X.map (·.rows)).getD i []).length
  pure (List.zipWith (fun x rows => ⟨rows, x.len⟩) X Y)

/-- `load_UCR_UEA_dataset_split` (`dataset_utils.py:92-111`).  The two downloaded splits are given as lists
of series; an even-length split, which the archive gives as a 3D array, is the list of its slices. -/
def loadSplit (normalize : Bool) (trX : List (Mat K)) (trY : List L) (teX : List (Mat K)) (teY : List L) :
    Res (List (Mat K) × List (Mat K) × List Nat × List Nat × Nat) := do
  let yTr ← labelEncode trY trY
  let yTe ← labelEncode trY teY
  let lTr ← trX.mapM firstLen
  let mTr ← pyMin lTr
  let lTe ← teX.mapM firstLen
  let mTe ← pyMin lTe
  if normalize then
    let trX' ← zNormSeries trX
    let teX' ← zNormSeries teX
    pure (trX', teX', yTr, yTe, min mTr mTe)
  else
    pure (trX, teX, yTr, yTe, min mTr mTe)

/-- `np.concatenate((X_train, X_test), axis=0)` for two non-empty splits: each split becomes a 3D array,
which needs series of one shape, and the two arrays need the same shape apart from the first axis;
`ValueError` otherwise.  (An old NumPy makes an object array of a list of series with different numbers of
channels; such a dataset is not modelled.).  (`dataset_utils.py:136-138`.) -/
def concatSplits (a b : List (Mat K)) : Res (List (Mat K)) :=
  match a ++ b with
  | [] => .error .valueError
  | x :: xs =>
    if xs.all fun z => z.rows.length == x.rows.length && z.len == x.len then .ok (x :: xs)
    else .error .valueError

/-- `load_UCR_UEA_dataset` (`dataset_utils.py:133-138`): both splits one after the other. -/
def loadAll (normalize : Bool) (trX : List (Mat K)) (trY : List L) (teX : List (Mat K)) (teY : List L) :
    Res (List (Mat K) × List Nat) := do
  let (a, b, c, d, _) ← loadSplit normalize trX trY teX teY
  let X ← concatSplits a b
  pure (X, c ++ d)

end
end Convst
