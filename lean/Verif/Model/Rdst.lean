import Verif.Model.Fit
import Verif.Model.Checks

/-!
# Model of the `R_DST` object (`convst/transformers/rdst.py`)

The attributes of an `R_DST` instance are a record; `fit` is a function from the record and the
process-wide state to a new record and state *and* an outcome, so that what a failing `fit` leaves
behind is visible.
-/

set_option autoImplicit false

namespace Convst

/-! ## Inputs -/

/-- A 2D array: one series, `rows` channels of `len` points (`shape = (len(rows), len)`).
(`rdst.py:417-419`.) -/
structure Mat (K : Type) where
  rows : List (List K)
  len : Nat

/-- All rows have the announced length.  (`rdst.py:417-424`.) -/
def Mat.WF {K : Type} (x : Mat K) : Prop := ∀ r ∈ x.rows, r.length = x.len

/-- A 3D array of shape `(data.length, nf, nt)`.  (`rdst.py:422`.) -/
structure Arr3 (K : Type) where
  data : List (List (List K))
  nf : Nat
  nt : Nat

/-- `X.shape`.  (`rdst.py:223`.) -/
def Arr3.shape {K : Type} (A : Arr3 K) : List Nat := [A.data.length, A.nf, A.nt]

/-- The element types distinguished by the code.  (`rdst.py:317-322`.) -/
inductive DType
  | int64
  | float64
  /-- any other element type (float32, int32, bool, ...) except object -/
  | otherDtype
  deriving DecidableEq

/-- What may be passed as `X`: a Python list of 2D arrays, an object array of 2D arrays, a 3D array,
or an array with another number of dimensions.  (`rdst.py:297-309`.) -/
inductive XIn (K : Type)
  | list (X : List (Mat K))
  | objArray (X : List (Mat K))
  | array (dt : DType) (A : Arr3 K)
  | arrayOther (dt : DType) (shape : List Nat)

/-- The announced shapes are those of the data: every 2D array is rectangular, every 3D array is a box
and `arrayOther` is not 3D.  (`rdst.py:297-309`.) -/
def XIn.WF {K : Type} : XIn K → Prop
  | .list X => ∀ x ∈ X, x.WF
  | .objArray X => ∀ x ∈ X, x.WF
  | .array _ A => ∀ s ∈ A.data, s.length = A.nf ∧ ∀ r ∈ s, r.length = A.nt
  | .arrayOther _ shape => shape.length ≠ 3

/-! ## Attributes -/

/-- Values of `transform_type`; `null` is Python's `None`.  (`rdst.py:488`.) -/
inductive TType
  | auto
  | uni
  | multi
  | uniVar
  | multiVar
  | null
  deriving DecidableEq

/-- `shapelet_lengths`: an integer or a float array.  (`rdst.py:164`.) -/
inductive LenArr (K : Type)
  | ints (l : List Int)
  | floats (l : List K)

/-- One element of `shapelet_lengths_bounds`.  (`rdst.py:169-176`.) -/
inductive Bound (K : Type)
  | int (b : Int)
  | frac (b : K)

/-- `random_state`: `None` stands for the process-wide generator, otherwise the object has its own
generator, in state `r`.  (`rdst.py:153`.) -/
inductive RState (R : Type)
  | glob
  | own (r : R)

/-- `shapelets_`.  (`rdst.py:234-257`.) -/
inductive Shapelets (K : Type)
  | u (S : UShp K)
  | m (S : MShp K)

/-- Attributes of an `R_DST` instance (`rdst.py:134-160` and those set by `fit`).  The attributes
`fitter` and `transformer` are functions of `transform_type` (`rdst.py:349-381`) and not stored.
`n_shapelets`, `min_len` and `max_channels` are naturals: negative values are not modelled. -/
structure Rdst (K R : Type) where
  transformType : TType
  phase : Bool
  alpha : K
  normalizeOutput : Bool
  nSamples : Option K
  nShp : Nat
  lens : LenArr K
  bounds : Option (Bound K × Bound K)
  reduction : K
  prime : Bool
  pNorm : K
  pMin : K
  pMax : K
  rs : RState R
  nJobs : Int
  maxChannels : Option Nat
  minLen : Option Nat
  shapelets : Option (Shapelets K)

/-- Process-wide state: NumPy's global generator and numba's thread count.  (`rdst.py:158`.) -/
structure World (R : Type) where
  glob : R
  numThreads : Int

/-- The parts of the environment that are not convst's code. `seedG` is numba's `seed`; `nextSeed` is
`rng.randint(np.iinfo(np.uint32).max)`; `resample` is
`sklearn.utils.resample(np.arange(ns), replace=.., n_samples=.., stratify=y)` which draws from the
global generator; `cpu` is `os.cpu_count()`; `maxThreads` is the largest value accepted by
`numba.set_num_threads`.  (`rdst.py:215`.) -/
structure Env (G R L : Type) where
  seedG : Nat → G
  nextSeed : R → Nat × R
  resample : R → Nat → Bool → Int → List L → Res (List Nat × R)
  cpu : Nat
  maxThreads : Nat

variable {G K R L : Type} [Scalar K]

/-! ## Constructor -/

/-- `str.lower` followed by the membership test (`rdst.py:486-491`); the list of valid values is
transcribed with its repetition of `'univariate'`.  (`String.toLower` lowers ASCII letters only; no
non-ASCII character lowers to the letters of these words.) -/
def validateTransformType (s : String) : Res TType :=
  let s := s.toLower
  let valid : List (String × TType) := [("auto", .auto), ("univariate", .uni), ("multivariate", .multi),
    ("univariate", .uni), ("multivariate_variable", .multiVar)]
  match valid.lookup s with
  | some t => .ok t
  | none => .error .valueError

/-- `rdst.py:493-498` (`_validate_percentiles`) on a numeric array. -/
def validatePercentiles (p : List K) : Res (K × K) :=
  match p with
  | [] => .error .valueError
  | [_] => .error .indexError
  | a :: b :: _ => if Scalar.leb a b then .ok (a, b) else .error .valueError

/-- Arguments of the constructor, with the types the checks require (`check_is_boolean`,
`check_is_numeric` and `check_array_1D` raise `ValueError` otherwise).  (`rdst.py:115-133`.) -/
structure Params (K R : Type) where
  transformType : String
  phase : Bool
  alpha : K
  normalizeOutput : Bool
  nSamples : Option K
  nShp : Nat
  lens : LenArr K
  bounds : Option (List (Bound K))
  reduction : K
  prime : Bool
  pNorm : K
  percentiles : List K
  rs : RState R
  maxChannels : Option Nat
  minLen : Option Nat
  nJobs : PyVal K

/-- `numba.set_num_threads(n)`: `ValueError` outside `[1, NUMBA_NUM_THREADS]`.  (`rdst.py:158`.) -/
def setNumThreads (maxThreads : Nat) (w : World R) (n : Int) : World R × Res Unit :=
  if 1 ≤ n ∧ n ≤ maxThreads then ({ w with numThreads := n }, .ok ()) else (w, .error .valueError)

/-- `len` of an array of lengths.  (`rdst.py:180`.) -/
def LenArr.length : LenArr K → Nat
  | .ints l => l.length
  | .floats l => l.length

/-- `R_DST.__init__` (`rdst.py:115-160`). A boolean `n_jobs` is stored without touching the thread
count. -/
def Rdst.init (env : Env G R L) (w : World R) (p : Params K R) : World R × Res (Rdst K R) :=
  match validateTransformType p.transformType with
  | .error e => (w, .error e)
  | .ok tt =>
  if p.lens.length = 0 then (w, .error .valueError) else
  let bounds : Res (Option (Bound K × Bound K)) :=
    match p.bounds with
    | none => .ok none
    | some [b0, b1] => .ok (some (b0, b1))
    | some _ => .error .valueError
  match bounds with
  | .error e => (w, .error e)
  | .ok bounds =>
  if Scalar.leb 1 p.reduction then (w, .error .valueError) else
  match validatePercentiles p.percentiles with
  | .error e => (w, .error e)
  | .ok (pMin, pMax) =>
  let obj (nJobs : Int) : Rdst K R :=
    { transformType := tt, phase := p.phase, alpha := p.alpha, normalizeOutput := p.normalizeOutput,
      nSamples := p.nSamples, nShp := p.nShp, lens := p.lens, bounds := bounds,
      reduction := p.reduction, prime := p.prime, pNorm := p.pNorm, pMin := pMin, pMax := pMax,
      rs := p.rs, nJobs := nJobs, maxChannels := p.maxChannels, minLen := p.minLen,
      shapelets := none }
  match p.nJobs with
  | .bool b => (w, .ok (obj (if b then 1 else 0)))
  | v =>
    match checkNJobs env.cpu v with
    | .error e => (w, .error e)
    | .ok n =>
      match setNumThreads env.maxThreads w n with
      | (w', .error e) => (w', .error e)
      | (w', .ok ()) => (w', .ok (obj n))

/-! ## Input handling -/

/-- A NumPy 3D array seen by the checks.  (`rdst.py:205`.) -/
def Arr3.py (A : Arr3 K) : PyArr (Arr3 K) := ⟨.ndarray, A.shape, A⟩

/-- `np.asarray(X)` inside `check_is_numpy_or_pd` (`checks_utils.py:190-191`).
A list of 2D arrays of equal shapes becomes a 3D array; a ragged list gives a 1D object array (recent
NumPy raises `ValueError`, as the following check does). -/
def asArray (X : XIn K) : PyArr (Arr3 K) :=
  match X with
  | .list [] => ⟨.list, [0], ⟨[], 0, 0⟩⟩
  | .list (x :: xs) =>
    if xs.all fun z => z.rows.length == x.rows.length && z.len == x.len then
      let A : Arr3 K := ⟨(x :: xs).map Mat.rows, x.rows.length, x.len⟩
      ⟨.list, A.shape, A⟩
    else ⟨.list, [xs.length + 1], ⟨[], 0, 0⟩⟩
  | .objArray X => ⟨.ndarray, [X.length], ⟨[], 0, 0⟩⟩
  | .array _ A => A.py
  | .arrayOther _ s => ⟨.ndarray, s, ⟨[], 0, 0⟩⟩

/-- `check_array_3D(X).astype(np.float64)`.  (`rdst.py:209`.) -/
def toArr3 (X : XIn K) : Res (Arr3 K) := do
  let A ← checkArray3D (asArray X)
  pure A.data

/-- `rdst.py:297-328` (`_auto_class`); `null` is the `None` returned for other element types. -/
def autoClass (X : XIn K) : Res TType :=
  let ofList (X : List (Mat K)) : Res TType :=
    match X with
    | [] => .error .indexError
    | x :: _ => .ok (if x.rows.length > 1 then .multiVar else .uniVar)
  let ofArray (dt : DType) : Res TType :=
    if dt = .otherDtype then .ok .null
    else do
      let A ← toArr3 X
      pure (if A.nf > 1 then .multi else .uni)
  match X with
  | .list X => ofList X
  | .objArray X => ofList X
  | .array dt _ => ofArray dt
  | .arrayOther dt _ => ofArray dt

/-- `rdst.py:331-384` (`_set_fit_transform`). -/
def setFitTransform {S : Type} (o : Rdst K S) (X : XIn K) : Rdst K S × Res Unit :=
  let r : Rdst K S × Res Unit :=
    if o.transformType = .auto then
      match autoClass X with
      | .error e => (o, .error e)
      | .ok t => ({ o with transformType := t }, .ok ())
    else (o, .ok ())
  match r with
  | (o, .error e) => (o, .error e)
  | (o, .ok ()) =>
    if o.transformType = .uni ∨ o.transformType = .multi ∨ o.transformType = .uniVar ∨
      o.transformType = .multiVar then (o, .ok ()) else (o, .error .valueError)

/-- The samples of an input as 2D arrays: `X[i]`.  For arrays that are not 3D, `X[i].shape[1]` raises
`IndexError` (4 or more dimensions are not modelled).  (`rdst.py:417-424`.) -/
def samples (X : XIn K) : Res (List (Mat K)) :=
  match X with
  | .list X => .ok X
  | .objArray X => .ok X
  | .array _ A => .ok (A.data.map fun s => ⟨s, A.nt⟩)
  | .arrayOther _ _ => .error .indexError

/-- One padded channel: `X_new[i, c, :len] = row` on a row of zeros.  (`rdst.py:422-424`.) -/
def padRow (nt : Nat) (row : List K) : List K := row ++ List.replicate (nt - row.length) 0

/-- `rdst.py:386-427` (`_format_uneven_timestamps`).  An empty input raises `IndexError` at
`n_ft[0]`. -/
def formatUneven (X : XIn K) : Res (Arr3 K × List Nat) := do
  let xs ← samples X
  match xs with
  | [] => .error .indexError
  | x :: _ =>
    let nFt := xs.map fun s => s.rows.length
    let lengths := xs.map Mat.len
    if nFt.all fun n => n == x.rows.length then
      let nt ← nmax lengths
      pure (⟨xs.map fun s => s.rows.map (padRow nt), x.rows.length, nt⟩, lengths)
    else .error .valueError

/-! ## Parameters of the fit -/

/-- Conversion of an integer to a scalar.  (`rdst.py:165`.) -/
def ofInt (z : Int) : K :=
  match z with
  | .ofNat n => Scalar.ofNat n
  | .negSucc n => -(Scalar.ofNat (n + 1))

/-- `int(b * min_len)` for a fractional bound, `b` otherwise (`rdst.py:172-177`). -/
def boundVal (minLen : Nat) (b : Bound K) : Int :=
  match b with
  | .int z => z
  | .frac x => Scalar.trunc (x * Scalar.ofNat minLen)

/-- `lengths[::step]` for a positive step.  (`rdst.py:184`.) -/
def everyNth {α : Type} (l : List α) (step : Nat) : List α :=
  (List.range ((l.length + step - 1) / step)).filterMap fun i => l[i * step]?

/-- `range(a, b)` on integers.  (`rdst.py:179`.) -/
def intRange (a b : Int) : List Int := (List.range (b - a).toNat).map fun (i : Nat) => a + (i : Int)

/-- `rdst.py:162-185` (`_set_lengths`); `minLen` is `self.min_len`. -/
def setLengths (lens : LenArr K) (bounds : Option (Bound K × Bound K)) (reduction : K)
    (minLen : Nat) : LenArr K :=
  match bounds with
  | none =>
    match lens with
    | .floats l => .floats (l.map fun x => ofInt (Scalar.floor (Scalar.ofNat minLen * x)))
    | .ints l => .ints l
  | some (b0, b1) =>
    let b0 := boundVal minLen b0
    let minL := max 3 b0
    let b1 := boundVal minLen b1
    let maxL := max 4 (max (b0 + 1) (b1 + 1))
    let lengths := intRange minL maxL
    if lengths.length > 3 then
      let nRemove := Scalar.trunc (Scalar.ofNat (K := K) lengths.length * reduction)
      if nRemove > 0 then .ints (everyNth lengths (lengths.length / nRemove.toNat))
      else .ints lengths
    else .ints lengths

/-- `shapelet_lengths.astype(np.int64)` (`rdst.py:467`). -/
def LenArr.astypeInt : LenArr K → List Int
  | .ints l => l
  | .floats l => l.map Scalar.trunc

/-- `rdst.py:463-478` (`_check_params` without the seed): the candidate lengths passed to the
fitter. -/
def checkParams (lens : LenArr K) (n : Nat) : Res (List Nat) :=
  let l : List Int := lens.astypeInt
  if l.length = 0 then .error .valueError
  else if !(l.all fun z => decide (1 < z)) then .error .valueError
  else if !(l.all fun z => decide (z ≤ (n : Int))) then
    if n < 3 then .error .valueError
    else .ok (l.map fun z => if z > (n : Int) then n / 2 else z.toNat)
  else .ok (l.map Int.toNat)

/-- `check_random_state(self.random_state).randint(..)` (`rdst.py:481-482`): draws from the object's
generator, or from the global one when `random_state=None`. -/
def drawSeed (env : Env G R L) (o : Rdst K R) (w : World R) : Rdst K R × World R × Nat :=
  match o.rs with
  | .own r => ({ o with rs := .own (env.nextSeed r).2 }, w, (env.nextSeed r).1)
  | .glob => (o, { w with glob := (env.nextSeed w.glob).2 }, (env.nextSeed w.glob).1)

/-- A call of one of the four fitters.  (`rdst.py:233-257`.) -/
inductive Call (K L : Type)
  | usl (a : FitArgs K L)
  | uvl (a : FitArgs K L) (minLen : Nat) (xLen : List Nat)
  | msl (a : FitArgs K L) (maxChannels : Nat)
  | mvl (a : FitArgs K L) (maxChannels minLen : Nat) (xLen : List Nat)

/-- `a[ids]` on a NumPy array; `IndexError` when out of range.  (`rdst.py:216-217`.) -/
def takeIds {α : Type} (a : List α) (ids : List Nat) : Res (List α) :=
  ids.mapM fun i => match a[i]? with
    | some v => .ok v
    | none => .error .indexError

/-- Loading of the training data (`rdst.py:202-210`): the 3D array, the true lengths for
variable-length types, and `self.min_len`. -/
def loadTrain (o : Rdst K R) (X : XIn K) : Rdst K R × Res (Arr3 K × List Nat) :=
  if o.transformType = .multiVar ∨ o.transformType = .uniVar then
    match formatUneven X with
    | .error e => (o, .error e)
    | .ok (A, xLen) =>
      match checkArray3D A.py with
      | .error e => (o, .error e)
      | .ok _ =>
        match o.minLen with
        | some _ => (o, .ok (A, xLen))
        | none =>
          match nmin xLen with
          | .error e => (o, .error e)
          | .ok m => ({ o with minLen := some m }, .ok (A, xLen))
  else
    match toArr3 X with
    | .error e => (o, .error e)
    | .ok A => ({ o with minLen := some A.nt }, .ok (A, []))

/-- `id_X = resample(..); X = X[id_X]; y = y[id_X]` (`rdst.py:215-217`, `219-221`). -/
def resampleXY (env : Env G R L) (replace : Bool) (p : K) (w : World R) (A : Arr3 K) (y : List L) :
    World R × Res (Arr3 K × List L) :=
  match env.resample w.glob A.data.length replace
      (Scalar.trunc (Scalar.ofNat A.data.length * p)) y with
  | .error e => (w, .error e)
  | .ok (ids, r) =>
    ({ w with glob := r }, do
      let data ← takeIds A.data ids
      let y' ← takeIds y ids
      pure (⟨data, A.nf, A.nt⟩, y'))

/-- Subsampling (`rdst.py:212-221`): `X` and `y` are resampled, `X_len` is not. -/
def subsample (env : Env G R L) (nSamples : Option K) (w : World R) (A : Arr3 K) (y : List L) :
    World R × Res (Arr3 K × List L) :=
  match nSamples with
  | none => (w, .ok (A, y))
  | some p =>
    if Scalar.ltb p 1 then resampleXY env false p w A y
    else if Scalar.ltb 1 p then resampleXY env true p w A y
    else (w, .ok (A, y))

/-- Everything `fit` does before calling the fitter (`rdst.py:202-259`): the new attributes, the new
process-wide state and the call (with the seed), or the error raised. -/
def Rdst.prepare (env : Env G R L) (o : Rdst K R) (w : World R) (X : XIn K) (y : List L) :
    Rdst K R × World R × Res (Call K L × Nat) :=
  match setFitTransform o X with
  | (o, .error e) => (o, w, .error e)
  | (o, .ok ()) =>
  match loadTrain o X with
  | (o, .error e) => (o, w, .error e)
  | (o, .ok (A, xLen)) =>
  match subsample env o.nSamples w A y with
  | (w, .error e) => (o, w, .error e)
  | (w, .ok (A, y)) =>
  let mc := o.maxChannels.getD A.nf
  let o := { o with maxChannels := some mc }
  let minLen := o.minLen.getD 0
  let o := { o with lens := setLengths o.lens o.bounds o.reduction minLen }
  match checkParams o.lens minLen with
  | .error e => (o, w, .error e)
  | .ok sizes =>
  let (o, w, seed) := drawSeed env o w
  let a : FitArgs K L :=
    { X := A.data, nf := A.nf, nt := A.nt, y := y, nShp := o.nShp, sizes := sizes, pNorm := o.pNorm,
      pMin := o.pMin, pMax := o.pMax, alpha := o.alpha, phase := o.phase, prime := o.prime }
  match o.transformType with
  | .uniVar => (o, w, .ok (.uvl a minLen xLen, seed))
  | .multiVar => (o, w, .ok (.mvl a mc minLen xLen, seed))
  | .multi => (o, w, .ok (.msl a mc, seed))
  | .uni => (o, w, .ok (.usl a, seed))
  | _ => (o, w, .error .valueError)

variable [Gen G K] [DecidableEq L]

/-- Execution of a fitter.  (`rdst.py:233-257`.) -/
def Call.run (c : Call K L) (g0 : G) (gs : Nat → G) (order : Nat → List Nat) : Res (Shapelets K) :=
  match c with
  | .usl a => (uslGenerate a g0 gs order).map .u
  | .uvl a n xLen => (uvlGenerate a n xLen g0 gs order).map .u
  | .msl a mc => (mslGenerate a mc g0 gs order).map .m
  | .mvl a mc n xLen => (mvlGenerate a mc n xLen g0 gs order).map .m

/-- `R_DST.fit` (`rdst.py:187-261`).  `gs` and `order` describe the generators and the schedule of the
parallel loop. -/
def Rdst.fit (env : Env G R L) (gs : Nat → G) (order : Nat → List Nat) (o : Rdst K R) (w : World R)
    (X : XIn K) (y : List L) : Rdst K R × World R × Res Unit :=
  match o.prepare env w X y with
  | (o, w, .error e) => (o, w, .error e)
  | (o, w, .ok (c, seed)) =>
    match c.run (env.seedG seed) gs order with
    | .error e => (o, w, .error e)
    | .ok S => ({ o with shapelets := some S }, w, .ok ())

/-- `R_DST.transform` (`rdst.py:264-295`).  Shapelets of the wrong kind cannot occur after `fit`;
the model makes it a `TypeError`. -/
def Rdst.transform (o : Rdst K R) (X : XIn K) : Res (List (List K)) :=
  match o.shapelets with
  | none => .error .notFitted
  | some S =>
    if o.transformType = .multiVar ∨ o.transformType = .uniVar then do
      let (A, xLen) ← formatUneven X
      let _ ← checkArray3D A.py
      match o.transformType, S with
      | .uniVar, .u S => uvlApply A.data S o.phase xLen
      | .multiVar, .m S => mvlApply A.data A.nt S o.phase xLen
      | _, _ => .error .typeError
    else do
      let A ← toArr3 X
      match o.transformType, S with
      | .uni, .u S => uslApply A.data S o.phase
      | .multi, .m S => mslApply A.data A.nt S o.phase
      | _, _ => .error .typeError

end Convst
