import Verif.Model.EnsembleInit

/-!
# `set_params`

`R_DST`, `R_DST_Ridge` and `R_DST_Ensemble` inherit `set_params` from scikit-learn's `BaseEstimator`: the names are
treated in the order in which they are given; a name that is not a constructor argument raises `ValueError`; the
other values are stored with `setattr`, without the checks and conversions of the constructor.  What is stored that
way is read by the next `fit` (and, for some attributes, by `transform`).
-/

set_option autoImplicit false

namespace Convst

/-- One keyword argument of `set_params`: a parameter of `R_DST` (`rdst.py:115-133`) with its value, or a name that
no estimator of the library has.  `shapelet_lengths` and `n_shapelets` also record how the value is written, because
without the constructor it is not converted: `isList` for a Python list instead of an array, `isFloat` for a float
with an integral value. -/
inductive Upd (K R : Type)
  | transformType (s : String)
  | phase (b : Bool)
  | alpha (x : K)
  | normalizeOutput (b : Bool)
  | nSamples (x : Option K)
  | nShp (n : Nat) (isFloat : Bool)
  | lens (l : LenArr K) (isList : Bool)
  | bounds (b : Option (List (Bound K)))
  | reduction (x : K)
  | prime (b : Bool)
  | pNorm (x : K)
  | percentiles (l : List K)
  | rs (s : RSrc R)
  | maxChannels (n : Option Nat)
  | minLen (n : Option Nat)
  | nJobs (v : PyVal K)
  | unknown (name : String)

section
variable {K R A U : Type}

/-- `set_params(**kw)` where `one` stores one value or raises: what is stored before the error stays.
(`rdst.py:115-133`.) -/
def setParams (one : A → U → Res A) : List U → A → A × Res Unit
  | [], a => (a, .ok ())
  | u :: us, a =>
    match one a u with
    | .error e => (a, .error e)
    | .ok a' => setParams one us a'

/-- The keyword arguments of a constructor call in which `u` replaces the argument of the same name (not
code of the
library: it says which constructor call `set_params` is compared with).  `rsOf` is `np.random.RandomState`.
 (`rdst.py:115-133`.) -/
def Params.upd (rsOf : Nat → R) (p : Params K R) (u : Upd K R) : Params K R :=
  match u with
  | .transformType s => { p with transformType := s }
  | .phase b => { p with phase := b }
  | .alpha x => { p with alpha := x }
  | .normalizeOutput b => { p with normalizeOutput := b }
  | .nSamples x => { p with nSamples := x }
  | .nShp n _ => { p with nShp := n }
  | .lens l _ => { p with lens := l }
  | .bounds b => { p with bounds := b }
  | .reduction x => { p with reduction := x }
  | .prime b => { p with prime := b }
  | .pNorm x => { p with pNorm := x }
  | .percentiles l => { p with percentiles := l }
  | .rs .none => { p with rs := .glob }
  | .rs (.seed s) => { p with rs := .own (rsOf s) }
  | .rs (.inst r) => { p with rs := .own r }
  | .maxChannels n => { p with maxChannels := n }
  | .minLen n => { p with minLen := n }
  | .nJobs v => { p with nJobs := v }
  | .unknown _ => p

end

/-! ## `R_DST_Ridge` -/

section
variable {K R L : Type}

/-- `set_params` of `R_DST_Ridge` on one argument.  Its constructor has no `max_channels` (`rdst_ridge.py:105-125`).
The values are those the constructor would have stored (`rdst_ridge.py:126-147`), except that `n_jobs` is not checked
and the thread count not set. `class_weight`, `fit_intercept` and `alphas_ridge` are part of the environment. -/
def RidgeClf.setOne (rsOf : Nat → R) (c : RidgeClf K R L) (u : Upd K R) : Res (RidgeClf K R L) :=
  match u with
  | .maxChannels _ => .error .valueError
  | .unknown _ => .error .valueError
  | .rs s => .ok { c with rs := s }
  | .nJobs v => .ok { c with nJobs := v }
  | u => .ok { c with p := c.p.upd rsOf u }

end

/-! ## `R_DST` -/

/-- An `R_DST` instance some attributes of which may have been stored without the constructor.  `obj` holds the
attributes; instead of its fields `bounds`, `pMin`, `pMax` the lists below are used, and instead of `obj.rs` the
integer `seed` when there is one.  `built` is the type for which `fit` has last chosen the attributes `fitter` and
`transformer` (`rdst.py:349-381`), `null` before the first `fit`. -/
structure RawRdst (K R : Type) where
  obj : Rdst K R
  bounds : Option (List (Bound K))
  percentiles : List K
  lensIsList : Bool
  shpIsFloat : Bool
  seed : Option Nat
  built : TType

section
variable {G K R L : Type}

/-- A constructed object.  (`rdst.py:134-160`.) -/
def RawRdst.ofRdst (o : Rdst K R) : RawRdst K R :=
  ⟨o, o.bounds.map fun b => [b.1, b.2], [o.pMin, o.pMax], false, false, none, .null⟩

/-- The meaning of a stored `transform_type`: the strings compared with by `fit` and `transform`
(`rdst.py:202`, `349-383`, `281`).  Any other string behaves like `None`. -/
def storedType (s : String) : TType :=
  if s = "auto" then .auto
  else if s = "univariate" then .uni
  else if s = "multivariate" then .multi
  else if s = "univariate_variable" then .uniVar
  else if s = "multivariate_variable" then .multiVar
  else .null

/-- `set_params` of `R_DST` on one argument. A boolean `n_jobs` is stored like an integer; what is stored
is never
read.  (`rdst.py:115-133`.) -/
def RawRdst.setOne (r : RawRdst K R) (u : Upd K R) : Res (RawRdst K R) :=
  match u with
  | .transformType s => .ok { r with obj := { r.obj with transformType := storedType s } }
  | .phase b => .ok { r with obj := { r.obj with phase := b } }
  | .alpha x => .ok { r with obj := { r.obj with alpha := x } }
  | .normalizeOutput b => .ok { r with obj := { r.obj with normalizeOutput := b } }
  | .nSamples x => .ok { r with obj := { r.obj with nSamples := x } }
  | .nShp n f => .ok { r with obj := { r.obj with nShp := n }, shpIsFloat := f }
  | .lens l f => .ok { r with obj := { r.obj with lens := l }, lensIsList := f }
  | .bounds b => .ok { r with bounds := b }
  | .reduction x => .ok { r with obj := { r.obj with reduction := x } }
  | .prime b => .ok { r with obj := { r.obj with prime := b } }
  | .pNorm x => .ok { r with obj := { r.obj with pNorm := x } }
  | .percentiles l => .ok { r with percentiles := l }
  | .rs .none => .ok { r with obj := { r.obj with rs := .glob }, seed := none }
  | .rs (.seed s) => .ok { r with seed := some s }
  | .rs (.inst g) => .ok { r with obj := { r.obj with rs := .own g }, seed := none }
  | .maxChannels n => .ok { r with obj := { r.obj with maxChannels := n } }
  | .minLen n => .ok { r with obj := { r.obj with minLen := n } }
  | .nJobs (.int n) => .ok { r with obj := { r.obj with nJobs := n } }
  | .nJobs _ => .ok r
  | .unknown _ => .error .valueError

variable [Scalar K]

/-- `_set_lengths` (`rdst.py:162-185`) on stored values: a Python list has no `dtype`, a list of bounds may be too
short. -/
def RawRdst.lengths (r : RawRdst K R) (minLen : Nat) : Res (LenArr K) :=
  match r.bounds with
  | none => if r.lensIsList then .error .attributeError else .ok (setLengths r.obj.lens none r.obj.reduction minLen)
  | some (b0 :: b1 :: _) => .ok (setLengths r.obj.lens (some (b0, b1)) r.obj.reduction minLen)
  | some _ => .error .indexError

/-- `check_random_state(self.random_state).randint(..)` (`rdst.py:481-482`): with an integer a new generator is made
at every call. -/
def RawRdst.draw (rsOf : Nat → R) (env : Env G R L) (r : RawRdst K R) (w : World R) :
    RawRdst K R × World R × Nat :=
  match r.seed with
  | some s => (r, w, (env.nextSeed (rsOf s)).1)
  | none =>
    let d := drawSeed env r.obj w
    ({ r with obj := d.1 }, d.2.1, d.2.2)

/-- `R_DST.fit` up to the call of the fitter (`rdst.py:202-259`) on stored values.  The steps are those of
`Rdst.prepare`. -/
def RawRdst.prepare (rsOf : Nat → R) (env : Env G R L) (r : RawRdst K R) (w : World R) (X : XIn K) (y : List L) :
    RawRdst K R × World R × Res (Call K L × Nat) :=
  match setFitTransform r.obj X with
  | (o, .error e) => ({ r with obj := o }, w, .error e)
  | (o, .ok ()) =>
  let r := { r with obj := o, built := o.transformType }
  match loadTrain r.obj X with
  | (o, .error e) => ({ r with obj := o }, w, .error e)
  | (o, .ok (A, xLen)) =>
  let r := { r with obj := o }
  match subsample env r.obj.nSamples w A y with
  | (w, .error e) => (r, w, .error e)
  | (w, .ok (A, y)) =>
  let mc := r.obj.maxChannels.getD A.nf
  let r := { r with obj := { r.obj with maxChannels := some mc } }
  let minLen := r.obj.minLen.getD 0
  match r.lengths minLen with
  | .error e => (r, w, .error e)
  | .ok ls =>
  let r := { r with obj := { r.obj with lens := ls }, lensIsList := false }
  if r.shpIsFloat then (r, w, .error .typeError) else
  match checkParams r.obj.lens minLen with
  | .error e => (r, w, .error e)
  | .ok sizes =>
  let (r, w, seed) := r.draw rsOf env w
  match r.percentiles with
  | pMin :: pMax :: _ =>
    let a : FitArgs K L :=
      { X := A.data, nf := A.nf, nt := A.nt, y := y, nShp := r.obj.nShp, sizes := sizes, pNorm := r.obj.pNorm,
        pMin := pMin, pMax := pMax, alpha := r.obj.alpha, phase := r.obj.phase, prime := r.obj.prime }
    match r.obj.transformType with
    | .uniVar => (r, w, .ok (.uvl a minLen xLen, seed))
    | .multiVar => (r, w, .ok (.mvl a mc minLen xLen, seed))
    | .multi => (r, w, .ok (.msl a mc, seed))
    | .uni => (r, w, .ok (.usl a, seed))
    | _ => (r, w, .error .valueError)
  | _ => (r, w, .error .indexError)

/-- `R_DST.transform` (`rdst.py:264-295`) on stored values: the branch is chosen by the attribute `transform_type`,
the function called is the attribute `transformer`, chosen by the last `fit`.  Numba raises `TypeError` when the number of
arguments is wrong. -/
def RawRdst.transform (r : RawRdst K R) (X : XIn K) : Res (List (List K)) :=
  match r.obj.shapelets with
  | none => .error .notFitted
  | some S =>
    if r.obj.transformType = .multiVar ∨ r.obj.transformType = .uniVar then do
      let (A, xLen) ← formatUneven X
      let _ ← checkArray3D A.py
      match r.built, S with
      | .uniVar, .u S => uvlApply A.data S r.obj.phase xLen
      | .multiVar, .m S => mvlApply A.data A.nt S r.obj.phase xLen
      | _, _ => .error .typeError
    else do
      let A ← toArr3 X
      match r.built, S with
      | .uni, .u S => uslApply A.data S r.obj.phase
      | .multi, .m S => mslApply A.data A.nt S r.obj.phase
      | _, _ => .error .typeError

variable [Gen G K] [DecidableEq L]

/-- `R_DST.fit` (`rdst.py:187-261`) on stored values. -/
def RawRdst.fit (rsOf : Nat → R) (env : Env G R L) (gs : Nat → G) (order : Nat → List Nat) (r : RawRdst K R)
    (w : World R) (X : XIn K) (y : List L) : RawRdst K R × World R × Res Unit :=
  match r.prepare rsOf env w X y with
  | (r, w, .error e) => (r, w, .error e)
  | (r, w, .ok (c, seed)) =>
    match c.run (env.seedG seed) gs order with
    | .error e => (r, w, .error e)
    | .ok S => ({ r with obj := { r.obj with shapelets := some S } }, w, .ok ())

end

/-! ## `R_DST_Ensemble` -/

/-- One keyword argument of `set_params` on an ensemble: a parameter shared with `R_DST`, or one of its own
(`rdst_ensemble.py:146-171`).  Of the shared ones it has neither `pNorm` (its `proba_norm` is `pNorms`) nor `rs` and `nJobs` in
`p`. -/
inductive EUpd (K R : Type)
  | shared (u : Upd K R)
  | inputs (l : List (XIn K → Res (XIn K)))
  | pNorms (l : List K)
  | aW (x : K)

/-- An ensemble `random_state` of which may be an integer (`seed`), stored without the constructor.
(`rdst_ensemble.py:172-202`.) -/
structure RawEns (K R : Type) where
  ens : Ensemble K R
  seed : Option Nat

section
variable {G K R : Type}

/-- `set_params` of `R_DST_Ensemble` on one argument.  The parameters passed on to `R_DST` are checked and
converted
there, when `fit` builds the members.  (`rdst_ensemble.py:146-171`.) -/
def RawEns.setOne (rsOf : Nat → R) (r : RawEns K R) (u : EUpd K R) : Res (RawEns K R) :=
  match u with
  | .shared (.unknown _) => .error .valueError
  | .shared (.pNorm _) => .error .valueError
  | .shared (.rs .none) => .ok ⟨{ r.ens with rs := .glob }, none⟩
  | .shared (.rs (.inst g)) => .ok ⟨{ r.ens with rs := .own g }, none⟩
  | .shared (.rs (.seed s)) => .ok { r with seed := some s }
  | .shared (.nJobs v) => .ok { r with ens := { r.ens with nJobs := v } }
  | .shared u => .ok { r with ens := { r.ens with p := r.ens.p.upd rsOf u } }
  | .inputs l => .ok { r with ens := { r.ens with reps := l } }
  | .pNorms l => .ok { r with ens := { r.ens with pNorms := l } }
  | .aW x => .ok { r with ens := { r.ens with aW := x } }

/-- The keyword arguments of a constructor call in which `u` replaces the argument of the same name (as for
`Params.upd`).  (`rdst_ensemble.py:146-171`.) -/
def EnsArgs.upd (rsOf : Nat → R) (a : EnsArgs K R) (u : EUpd K R) : EnsArgs K R :=
  match u with
  | .shared (.rs .none) => { a with rs := .glob }
  | .shared (.rs (.inst g)) => { a with rs := .own g }
  | .shared (.rs (.seed s)) => { a with rs := .own (rsOf s) }
  | .shared (.nJobs v) => { a with nJobs := v }
  | .shared u => { a with p := a.p.upd rsOf u }
  | .inputs l => { a with inputs := some l }
  | .pNorms l => { a with pNorms := l }
  | .aW x => { a with aW := x }

variable [Scalar K] [Gen G K]

/-- `R_DST_Ensemble.fit` (`rdst_ensemble.py:225-266`) on stored values: with an integer `random_state` every member
builds its own generator from it and the shared one is not used; `self.proba_norm[i]` raises `IndexError` when the
array is too short.  (The members before the one that raises may be fitted first: this changes nothing but the
global generator, which is left as it was here.) -/
def RawEns.fit (rsOf : Nat → R) (env : EnsEnv G K R) (gs : Nat → Nat → G) (sched : Nat → Nat → List Nat)
    (order : List Nat) (r : RawEns K R) (w : World R) (X : XIn K) (y : List Int) :
    RawEns K R × World R × Res Unit :=
  match r.ens.manageNJobs env.cpu with
  | (e, .error er) => ({ r with ens := e }, w, .error er)
  | (e, .ok ()) =>
  match setNumThreads env.maxThreads w (e.nJobsRdst.getD 1) with
  | (w, .error er) => ({ r with ens := e }, w, .error er)
  | (w, .ok ()) =>
  if e.pNorms.length < e.reps.length then ({ r with ens := e }, w, .error .indexError) else
  let one (i : Nat) (rs : RState R) (w : World R) : RState R × World R × Res (Member K R) :=
    match r.seed with
    | none => fitMember env e (gs i) (sched i) X y i rs w
    | some s => (rs, (fitMember env e (gs i) (sched i) X y i (.own (rsOf s)) w).2)
  match fitMembers one order e.rs w (fun _ => none) with
  | (rs, w, .error er) => ({ r with ens := { e with rs := rs } }, w, .error er)
  | (rs, w, .ok slots) =>
    let models := (List.range e.reps.length).filterMap slots
    let e := { e with rs := rs, models := models }
    match models.mapM fun m => (looAcc m.cv y : Res K) with
    | .error er => ({ r with ens := e }, w, .error er)
    | .ok accs => ({ r with ens := { e with weights := some (accs.map fun a => Scalar.rpow a e.aW) } }, w, .ok ())

end
end Convst
