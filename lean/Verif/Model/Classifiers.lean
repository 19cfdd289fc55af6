import Verif.Model.InputTransformers

/-!
# Model of `convst/classifiers/rdst_ridge.py` and `convst/classifiers/rdst_ensemble.py`

scikit-learn's ridge regression is a parameter of the model: a function from the feature matrix and the
labels to a fitted linear model.  What is done with the fitted model (decision function, class choice,
softmax, accuracy) is modelled.
-/

set_option autoImplicit false

namespace Convst

section
variable {G K R L : Type} [Scalar K]

/-! ## Pieces of scikit-learn and NumPy -/

/-- `accuracy_score(y_true, y_pred)`: the fraction of equal entries; `ValueError` for different
lengths.  (`rdst_ridge.py:241`.) -/
def accuracyScore [DecidableEq L] (yTrue yPred : List L) : Res K :=
  if yTrue.length = yPred.length then
    .ok (Scalar.ofNat ((yTrue.zip yPred).countP fun p => p.1 == p.2) / Scalar.ofNat yTrue.length)
  else .error .valueError

/-- The scan of `np.argmax`: `best` is the value at the current index `bi`, `i` the next index.
(`rdst_ensemble.py:278`.) -/
def argmaxFrom (best : K) (bi i : Nat) : List K → Nat
  | [] => bi
  | a :: l => if Scalar.ltb best a then argmaxFrom a i (i + 1) l else argmaxFrom best bi (i + 1) l

/-- `np.argmax` of a non-empty list: the first index of the maximum.  (`rdst_ensemble.py:278`.) -/
def argmax : List K → Nat
  | [] => 0
  | a :: l => argmaxFrom a 0 1 l

/-- A fitted linear classifier: `coef_`, `intercept_`, `classes_`.  For two classes `coef_` has one row.
(`rdst_ridge.py:159-163`.) -/
structure Linear (K L : Type) where
  coef : List (List K)
  intercept : List K
  classes : List L

/-- Dot product.  (`rdst_ridge.py:159-163`.) -/
def dot (a b : List K) : K := ssum (List.zipWith (· * ·) a b)

/-- One row of `X @ coef_.T + intercept_`; a wrong number of features raises `ValueError`.
(`rdst_ridge.py:219`.) -/
def Linear.scores (m : Linear K L) (row : List K) : Res (List K) :=
  if m.coef.all fun c => c.length == row.length then
    .ok (List.zipWith (fun c b => dot row c + b) m.coef m.intercept)
  else .error .valueError

/-- The class index chosen from the scores of one row by `RidgeClassifierCV.predict`: the sign for a
single score, the first maximum otherwise.  (`rdst_ridge.py:219`.) -/
def classIdx (s : List K) : Nat :=
  match s with
  | [v] => if Scalar.ltb 0 v then 1 else 0
  | s => argmax s

/-- `RidgeClassifierCV.predict`; an empty matrix raises `ValueError`.  (`rdst_ridge.py:219`.) -/
def Linear.predict (m : Linear K L) (X : List (List K)) : Res (List L) :=
  if X.isEmpty then .error .valueError
  else X.mapM fun row => do
    let s ← m.scores row
    pyGet m.classes (classIdx s)

/-- Number of columns of a matrix.  (`rdst_ridge.py:199`.) -/
def nCols (X : List (List K)) : Nat := (X.headD []).length

/-! ## `R_DST_Ridge` -/

/-- The argument `random_state`: `None`, an integer or a `RandomState` instance in state `r`.
(`rdst_ridge.py:146`.) -/
inductive RSrc (R : Type)
  | none
  | seed (s : Nat)
  | inst (r : R)

/-- `Env` with `np.random.RandomState(seed)` and `RidgeClassifierCV(..).fit`.  (`rdst_ridge.py:157-164`.) -/
structure ClfEnv (G K R L : Type) extends Env G R L where
  randomState : Nat → R
  ridge : List (List K) → List L → Res (Linear K L)

/-- Attributes of an `R_DST_Ridge` instance.  `p` holds the arguments passed on to `R_DST`; its fields
`rs`, `nJobs` and `maxChannels` are replaced when the transformer is built.  `classifier` is the attribute
of that name: absent, an unfitted pipeline, or a fitted one.  (`rdst_ridge.py:126-147`.) -/
structure RidgeClf (K R L : Type) where
  p : Params K R
  rs : RSrc R
  nJobs : PyVal K
  transformer : Option (Rdst K R)
  classifier : Option (Option (Scaler K × Linear K L))

/-- `R_DST_Ridge.__init__` (`rdst_ridge.py:105-147`): nothing is validated except `n_jobs`. -/
def RidgeClf.init (env : Env G R L) (w : World R) (p : Params K R) (rs : RSrc R) :
    World R × Res (RidgeClf K R L) :=
  match p.nJobs with
  | .bool b => (w, .ok ⟨p, rs, .bool b, none, none⟩)
  | v =>
    match checkNJobs env.cpu v with
    | .error e => (w, .error e)
    | .ok n =>
      match setNumThreads env.maxThreads w n with
      | (w', .error e) => (w', .error e)
      | (w', .ok ()) => (w', .ok ⟨p, rs, .int n, none, none⟩)

/-- `check_random_state` as done by the constructor of `R_DST` (`rdst.py:153`). -/
def RSrc.toState (env : ClfEnv G K R L) : RSrc R → RState R
  | .none => .glob
  | .seed s => .own (env.randomState s)
  | .inst r => .own r

/-- What a fit of the transformer leaves in the argument `random_state`: an instance is shared and
advances, an integer does not change.  (`rdst_ridge.py:179`.) -/
def RSrc.after (src : RSrc R) (o : Rdst K R) : RSrc R :=
  match src, o.rs with
  | .inst _, .own r => .inst r
  | src, _ => src

/-- The arguments given to `R_DST` by `_init_components` (`rdst_ridge.py:165-181`): `n_jobs=False` and no
`max_channels`. -/
def RidgeClf.args (env : ClfEnv G K R L) (c : RidgeClf K R L) : Params K R :=
  { c.p with rs := c.rs.toState env, nJobs := .bool false, maxChannels := none }

/-- `make_pipeline(c_StandardScaler(), RidgeClassifierCV(..)).fit(F, y)`.  (`rdst_ridge.py:199`.) -/
def fitPipeline (env : ClfEnv G K R L) (F : List (List K)) (y : List L) :
    Res (Scaler K × Linear K L) := do
  let s ← Scaler.fitStandard F (nCols F)
  let Fs ← s.transformStandard F
  let m ← env.ridge Fs y
  pure (s, m)

/-- The pipeline's `predict`.  (`rdst_ridge.py:219`.) -/
def predictPipeline (sm : Scaler K × Linear K L) (F : List (List K)) : Res (List L) := do
  let Fs ← sm.1.transformStandard F
  sm.2.predict Fs

end

section
variable {G K R L : Type} [Scalar K] [Gen G K] [DecidableEq L]

/-- `R_DST_Ridge.fit` (`rdst_ridge.py:183-200`).  The pipeline is replaced by an unfitted one before
anything can fail; the transformer is replaced as soon as its constructor has returned. -/
def RidgeClf.fit (env : ClfEnv G K R L) (gs : Nat → G) (order : Nat → List Nat) (c : RidgeClf K R L)
    (w : World R) (X : XIn K) (y : List L) : RidgeClf K R L × World R × Res Unit :=
  let c1 := { c with classifier := some none }
  match Rdst.init env.toEnv w (c.args env) with
  | (w, .error e) => (c1, w, .error e)
  | (w, .ok o) =>
    match o.fit env.toEnv gs order w X y with
    | (o, w, .error e) => ({ c1 with transformer := some o, rs := c.rs.after o }, w, .error e)
    | (o, w, .ok ()) =>
      let c2 := { c1 with transformer := some o, rs := c.rs.after o }
      match (do
        let F ← o.transform X
        fitPipeline env F y) with
      | .error e => (c2, w, .error e)
      | .ok sm => ({ c2 with classifier := some (some sm) }, w, .ok ())

/-- `R_DST_Ridge.predict` (`rdst_ridge.py:202-219`). -/
def RidgeClf.predict (c : RidgeClf K R L) (X : XIn K) : Res (List L) :=
  match c.classifier with
  | none => .error .notFitted
  | some clf =>
    match c.transformer with
    | none => .error .attributeError
    | some o => do
      let F ← o.transform X
      match clf with
      | none => .error .attributeError
      | some sm => predictPipeline sm F

/-- `R_DST_Ridge.score` (`rdst_ridge.py:221-241`). -/
def RidgeClf.score (c : RidgeClf K R L) (X : XIn K) (y : List L) : Res K := do
  let preds ← c.predict X
  accuracyScore y preds

end

/-! ## `R_DST_Ensemble` -/

section
variable {G K R : Type} [Scalar K]

/-- `StandardScaler().fit(X)` (`rdst_ensemble.py:35`): all features, offset and scale. -/
def fitPlainScaler (X : List (List K)) : Res (List K × List K) :=
  if X.isEmpty ∨ nCols X = 0 then .error .valueError
  else do
    let cols ← (List.range (nCols X)).mapM fun j => column X j
    pure (cols.map mean, cols.map fun c => handleZero (std c))

/-- `StandardScaler.transform`: a wrong number of features raises `ValueError`.  (`rdst_ensemble.py:36`.) -/
def plainTransform (sc : List K × List K) (X : List (List K)) : Res (List (List K)) :=
  X.mapM fun row => if row.length = sc.1.length then .ok (standardRow sc.1 sc.2 row) else .error .valueError

/-- scikit-learn's `softmax` on one row: the maximum is subtracted first.  (`rdst_ensemble.py:45`.) -/
def softmaxRow (l : List K) : List K :=
  let e := l.map fun v => Scalar.exp (v - maxOf l)
  e.map fun v => v / ssum e

/-- `np.c_[-d, d]` for a single score (`rdst_ensemble.py:43-44`). -/
def twoScores (s : List K) : List K :=
  match s with
  | [v] => [-v, v]
  | s => s

/-- `_internalRidgeCV.predict_proba` (`rdst_ensemble.py:41-45`). -/
def predictProba (sc : List K × List K) (m : Linear K Int) (X : List (List K)) : Res (List (List K)) := do
  let Xs ← plainTransform sc X
  Xs.mapM fun row => do
    let s ← m.scores row
    pure (softmaxRow (twoScores s))

/-- The class *index* read from the leave-one-out predictions of one training series
(`rdst_ensemble.py:51-54`). -/
def looIdx (cv : List K) : Int :=
  match cv with
  | [v] => if Scalar.ltb 0 v then 1 else 0
  | cv => argmax cv

/-- `_internalRidgeCV.get_loocv_train_acc` (`rdst_ensemble.py:47-54`): the indices are compared with the
labels. -/
def looAcc (cv : List (List K)) (y : List Int) : Res K := accuracyScore (cv.map looIdx) y

/-- The ensemble's environment: labels are integers; `ridgeCV` returns the linear model and the
leave-one-out predictions for the chosen `alpha`.  (`rdst_ensemble.py:28-36`.) -/
structure EnsEnv (G K R : Type) extends Env G R Int where
  ridgeCV : List (List K) → List Int → Res (Linear K Int × List (List K))

/-- One fitted pipeline of the ensemble.  (`rdst_ensemble.py:232-256`.) -/
structure Member (K R : Type) where
  rep : XIn K → Res (XIn K)
  rdst : Rdst K R
  scaler : List K × List K
  lin : Linear K Int
  cv : List (List K)

/-- Attributes of an `R_DST_Ensemble` instance.  `p` holds the arguments passed on to every `R_DST`; its
fields `pNorm`, `rs`, `nJobs` are replaced.  `reps` are the input transformers.
(`rdst_ensemble.py:172-202`.) -/
structure Ensemble (K R : Type) where
  p : Params K R
  reps : List (XIn K → Res (XIn K))
  pNorms : List K
  rs : RState R
  aW : K
  nJobs : PyVal K
  nJobsRdst : Option Int
  models : List (Member K R)
  weights : Option (List K)

/-- Python's `a // b` on integers.  (`rdst_ensemble.py:223`.) -/
def pyFloorDiv (a b : Int) : Res Int := if b = 0 then .error .zeroDivision else .ok (a.fdiv b)

/-- `R_DST_Ensemble._manage_n_jobs` (`rdst_ensemble.py:220-223`). -/
def Ensemble.manageNJobs (cpu : Nat) (e : Ensemble K R) : Ensemble K R × Res Unit :=
  match checkNJobs cpu e.nJobs with
  | .error er => (e, .error er)
  | .ok total =>
    let outer : Int := min (e.reps.length : Int) total
    let e := { e with nJobs := .int outer }
    match pyFloorDiv total outer with
    | .error er => (e, .error er)
    | .ok q => ({ e with nJobsRdst := some (max 1 q) }, .ok ())

/-- The arguments given to the `R_DST` of member `i` (`rdst_ensemble.py:234-250`). -/
def Ensemble.args (e : Ensemble K R) (i : Nat) (rs : RState R) : Params K R :=
  { e.p with pNorm := e.pNorms.getD i 0, rs := rs, nJobs := .bool false, normalizeOutput := false }

end

section
variable {G K R : Type} [Scalar K] [Gen G K]

/-- Fit of one member (`_parallel_fit` on its pipeline).  `rs` is the state of the generator shared by the
members when this member draws from it; the new state is returned.  (`rdst_ensemble.py:229-257`.) -/
def fitMember (env : EnsEnv G K R) (e : Ensemble K R) (gs : Nat → G) (order : Nat → List Nat)
    (X : XIn K) (y : List Int) (i : Nat) (rs : RState R) (w : World R) :
    RState R × World R × Res (Member K R) :=
  match e.reps[i]? with
  | none => (rs, w, .error .indexError)
  | some rep =>
  match rep X with
  | .error er => (rs, w, .error er)
  | .ok Xi =>
  match Rdst.init env.toEnv w (e.args i rs) with
  | (w, .error er) => (rs, w, .error er)
  | (w, .ok o) =>
  match o.fit env.toEnv gs order w Xi y with
  | (o, w, .error er) => (o.rs, w, .error er)
  | (o, w, .ok ()) =>
    (o.rs, w, do
      let F ← o.transform Xi
      let sc ← fitPlainScaler F
      let Fs ← plainTransform sc F
      let r ← env.ridgeCV Fs y
      pure ⟨rep, o, sc, r.1, r.2⟩)

/-- The members fitted in the order `order`; the result of member `i` goes to slot `i`.
(`rdst_ensemble.py:228-259`.) -/
def fitMembers (fitOne : Nat → RState R → World R → RState R × World R × Res (Member K R)) :
    List Nat → RState R → World R → (Nat → Option (Member K R)) →
      RState R × World R × Res (Nat → Option (Member K R))
  | [], rs, w, slots => (rs, w, .ok slots)
  | i :: order, rs, w, slots =>
    match fitOne i rs w with
    | (rs, w, .error e) => (rs, w, .error e)
    | (rs, w, .ok m) => fitMembers fitOne order rs w (Function.update slots i (some m))

/-- `R_DST_Ensemble.fit` (`rdst_ensemble.py:225-266`).  `order` is the order in which the members draw
from the shared generator: the members run in parallel, so any permutation is possible (`n_jobs = 1` is the
increasing order).  `gs i`, `sched i` are the generators and schedule of the inner parallel loop of
member `i`.  Each member's work is one step: its only interactions with the others are one draw from
the shared generator and, with `n_samples`, one from the global generator; that these two are made in the
same order is a simplification. -/
def Ensemble.fit (env : EnsEnv G K R) (gs : Nat → Nat → G) (sched : Nat → Nat → List Nat)
    (order : List Nat) (e : Ensemble K R) (w : World R) (X : XIn K) (y : List Int) :
    Ensemble K R × World R × Res Unit :=
  match e.manageNJobs env.cpu with
  | (e, .error er) => (e, w, .error er)
  | (e, .ok ()) =>
  match setNumThreads env.maxThreads w (e.nJobsRdst.getD 1) with
  | (w, .error er) => (e, w, .error er)
  | (w, .ok ()) =>
  match fitMembers (fun i => fitMember env e (gs i) (sched i) X y i) order e.rs w (fun _ => none) with
  | (rs, w, .error er) => ({ e with rs := rs }, w, .error er)
  | (rs, w, .ok slots) =>
    let models := (List.range e.reps.length).filterMap slots
    let e := { e with rs := rs, models := models }
    match models.mapM fun m => (looAcc m.cv y : Res K) with
    | .error er => (e, w, .error er)
    | .ok accs => ({ e with weights := some (accs.map fun a => Scalar.rpow a e.aW) }, w, .ok ())

end

section
variable {K R : Type} [Scalar K]

/-- One member's weighted probabilities (`_parallel_predict`, `rdst_ensemble.py:65-66`). -/
def Member.weighted (m : Member K R) (wt : K) (X : XIn K) : Res (List (List K)) := do
  let Xi ← m.rep X
  let F ← m.rdst.transform Xi
  let P ← predictProba m.scaler m.lin F
  pure (P.map fun r => r.map fun v => v * wt)

/-- `a + b` of two matrices of the same shape; `ValueError` otherwise.  (`rdst_ensemble.py:277`.) -/
def addMat (A B : List (List K)) : Res (List (List K)) :=
  if A.length = B.length ∧ (List.zipWith (fun r s => r.length == s.length) A B).all id then
    .ok (List.zipWith (fun r s => List.zipWith (· + ·) r s) A B)
  else .error .valueError

/-- `np.asarray(preds).sum(axis=0)` for a non-empty list of matrices.  (`rdst_ensemble.py:277`.) -/
def sumMats : List (List (List K)) → Res (List (List K))
  | [] => .error .valueError
  | A :: l => l.foldlM addMat A

/-- `R_DST_Ensemble.predict` (`rdst_ensemble.py:268-278`). -/
def Ensemble.predict (e : Ensemble K R) (X : XIn K) : Res (List Nat) :=
  match e.weights with
  | none => .error .notFitted
  | some ws => do
    let preds ← (List.range ws.length).mapM fun i => do
      let m ← pyGet e.models i
      let wt ← pyGet ws i
      m.weighted wt X
    let S ← sumMats preds
    pure (S.map argmax)

end

end Convst
