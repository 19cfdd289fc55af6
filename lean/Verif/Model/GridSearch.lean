import Verif.Model.Experiments

/-!
# Model of `grid_search_UCR_UEA` (`convst/utils/experiments_utils.py:168-187`)

`GridSearchCV.fit` of scikit-learn is described as documented: the estimator is cloned, the folds are taken
from `cv.split`, every candidate is evaluated on every fold with a new clone, failures of a fit or of a score
become `nan`, and the best candidate is refitted on all the data.  The order and the processes in which the
candidates are evaluated are not modelled: each evaluation has its own state of the generators and of the
process (arguments indexed by candidate and fold).
-/

set_option autoImplicit false

namespace Convst

/-- What `_fit_and_score` reports for one candidate and one fold: the score (`none` is `nan`) and whether
the
fit itself failed.  (`experiments_utils.py:186`.) -/
structure Cell (K : Type) where
  value : Option K
  fitFailed : Bool

section
variable {K L α P C : Type}

/-- `_fit_and_score` (`error_score=nan`): rows `tr` of the data for the fit, rows `te` for the score.
(`experiments_utils.py:185`.) -/
def fitAndScore (fit : P → List α → List L → Res P) (predict : P → List α → Res (List L))
    (scorer : List L → List L → Res K) (X : List α) (y : List L) (p : P) (fold : List Nat × List Nat) :
    Res (Cell K) := do
  let trX ← takeIds X fold.1
  let trY ← takeIds y fold.1
  let teX ← takeIds X fold.2
  let teY ← takeIds y fold.2
  match fit p trX trY with
  | .error _ => pure ⟨none, true⟩
  | .ok p' =>
    match (do let yp ← predict p' teX; scorer teY yp) with
    | .error _ => pure ⟨none, false⟩
    | .ok v => pure ⟨some v, false⟩

/-- `GridSearchCV(est, params, scoring, cv).fit(X, y)`; the result is the table of the test scores, one row
per
candidate (`cv_results_`), which `grid_search_UCR_UEA.score` returns.  `setParams c` is
`set_params(**c)`, `fit j i` the fit of candidate `j` on fold `i`, `refit` the one on all the data, `best`
the
choice of the best candidate.  Without candidates or folds, or when every fit failed, the result is
`ValueError`.  (`experiments_utils.py:175-185`.) -/
def gridSearchCV (clone : P → Res P) (setParams : C → P → P)
    (fit : Nat → Nat → P → List α → List L → Res P) (refit : P → List α → List L → Res P)
    (predict : P → List α → Res (List L)) (scorer : List L → List L → Res K)
    (best : List (List (Option K)) → Nat) (folds : Res (List (List Nat × List Nat)))
    (est : P) (cands : List C) (X : List α) (y : List L) : Res (List (List (Option K))) := do
  let base ← clone est
  let folds ← folds
  let cells ← cands.zipIdx.mapM fun cj => folds.zipIdx.mapM fun fi => do
    let p ← clone base
    fitAndScore (fit cj.2 fi.2) predict scorer X y (setParams cj.1 p) fi.1
  if cells.all fun r => r.all fun c => c.fitFailed then .error .valueError
  else
    let table := cells.map fun r => r.map (·.value)
    let p ← clone base
    match cands[best table]? with
    | none => .error .indexError
    | some c =>
      let _ ← refit (setParams c p) X y
      pure table

end

section
variable {K L P C : Type} [Scalar K] [LinearOrder L]

/-- `grid_search_UCR_UEA.score` (`experiments_utils.py:175-186`) on a loaded dataset: the two splits are
concatenated and given to the grid search with the folds of `_sklearn_cv`. -/
def gridSearch (clone : P → Res P) (setParams : C → P → P)
    (fit : Nat → Nat → P → List (List (List K)) → List L → Res P) (refit : P → List (List (List K)) → List L → Res P)
    (predict : P → List (List (List K)) → Res (List L)) (scorer : List L → List L → Res K)
    (best : List (List (Option K)) → Nat) (shuffles : Nat → Nat → List Nat → List Nat) (nSplit : Nat)
    (trX : List (Mat K)) (trY : List L) (teX : List (Mat K)) (teY : List L) (est : P) (cands : List C) :
    Res (List (List (Option K))) := do
  let X ← concatSplits trX teX
  gridSearchCV clone setParams fit refit predict scorer best
    ((List.range nSplit).mapM
      (gridSplit (trX.map (·.rows)) trY (teX.map (·.rows)) teY shuffles))
    est cands (X.map (·.rows)) (trY ++ teY)

end

section
variable {G K R L : Type} [Scalar K] [Gen G K] [DecidableEq L]

/-- `sklearn.base.clone` of an `R_DST_Ridge` object: a new object with the same parameters, never fitted
(that the
clone succeeds is `C81_ridge`).  An instance given as `random_state` is copied with its state.
(`experiments_utils.py:176`.) -/
def RidgeClf.clone (c : RidgeClf K R L) : RidgeClf K R L := ⟨c.p, c.rs, c.nJobs, none, none⟩

/-- `fit` as a grid search sees it: the fitted object or an exception.  (`rdst_ridge.py:183-200`.) -/
def RidgeClf.fitR (env : ClfEnv G K R L) (gs : Nat → G) (order : Nat → List Nat) (w : World R) (c : RidgeClf K R L)
    (X : XIn K) (y : List L) : Res (RidgeClf K R L) :=
  match c.fit env gs order w X y with
  | (c', _, .ok _) => .ok c'
  | (_, _, .error e) => .error e

end
end Convst
