import Verif.Model.Random
import Verif.Model.Apply

/-!
# Model of the four `*_generate_shapelet` functions (the `fit` step)

The four functions share the parameter initialisation and the loop over distinct dilations; they
differ in how a position is sampled for one shapelet and where the result is stored.
-/

set_option autoImplicit false

namespace Convst
variable {G K L : Type} [Gen G K] [Scalar K] [DecidableEq L]

/-! ## Initial parameters -/

/-- `floor_divide(n_timestamps - 1, l - 1)`.  numba returns 0 on division by zero, like `Nat` division.
(Naturals: `n_timestamps >= 1` and `l >= 1` are assumed by the model.).  (`_univariate_same_length.py:62`.)
-/
def dilBound (n l : Nat) : Nat := (n - 1) / (l - 1)

/-- `log2(floor_divide(n_timestamps - 1, l - 1))`; `none` is `-inf` (the logarithm of 0).
(`_univariate_same_length.py:62`.) -/
def upperBound (n l : Nat) : Option K :=
  if dilBound n l = 0 then none else some (Scalar.log2 (Scalar.ofNat (dilBound n l)))

/-- `int64(2**ub)`; `2**(-inf) = 0`.  (`_univariate_same_length.py:64`, `:69`.) -/
def powInt (ub : Option K) : Nat :=
  match ub with
  | none => 0
  | some b => (Scalar.trunc (Scalar.pow2 b)).toNat

/-- `upper_bounds.max()`; `ValueError` on an empty array.  (`_univariate_same_length.py:64`.) -/
def maxBound : List (Option K) → Res (Option K)
  | [] => .error .valueError
  | a :: l => .ok (l.foldl (fun m x =>
      match m, x with
      | none, x => x
      | some m, none => some m
      | some m, some x => if Scalar.ltb m x then some x else some m) a)

/-- One dilation without the prime scheme: `floor(power(2, uniform(0, ub)))`
(`_univariate_same_length.py:71-75`).  For `ub = -inf` the product `-inf * u` is `-inf`, giving
dilation 0, except for `u = 0` where it is NaN, whose integer conversion is undefined. -/
def drawDilation (ub : Option K) : RM G Nat :=
  match ub with
  | some b => do
    let p ← uniformM 0 b
    pure (Scalar.floor (Scalar.pow2 p)).toNat
  | none => do
    let u ← unitM
    if Scalar.eqb u 0 then ofRes (.error .oob) else pure 0

/-- One dilation with the prime scheme: `shp_primes[choice_log(shp_primes.shape[0], 1)[0]]`
(`_univariate_same_length.py:68-70`). -/
def drawPrimeDilation (primes : List Nat) (ub : Option K) : RM G Nat := do
  let shp := primes.filter fun p => decide (p ≤ powInt ub)
  let c ← choiceLog shp.length 1
  let j ← ofRes (aget c 0)
  ofRes (aget shp j)

/-- All dilations (`_univariate_same_length.py:61-75` and the same lines of the other three
variants). -/
def drawDilations (n : Nat) (lengths : List Nat) (prime : Bool) : RM G (List Nat) :=
  let ubs : List (Option K) := lengths.map (upperBound n)
  if prime then do
    let mx ← ofRes (maxBound ubs)
    let primes := primeUpTo (powInt mx)
    ubs.mapM (drawPrimeDilation primes)
  else ubs.mapM drawDilation

/-- `max(a)` of an integer array; `ValueError` on an empty array.  (`_univariate_same_length.py:81`,
`_univariate_variable_length.py:151`.) -/
def nmax : List Nat → Res Nat
  | [] => .error .valueError
  | a :: l => .ok (l.foldl max a)

/-- `min(a)` of an integer array; `ValueError` on an empty array.  (`_univariate_same_length.py:159`.) -/
def nmin : List Nat → Res Nat
  | [] => .error .valueError
  | a :: l => .ok (l.foldl min a)

/-- The univariate initial parameters `(values, lengths, dilations, threshold, normalize)`:
`U_SL_init_random_shapelet_params` (`_univariate_same_length.py:25-87`) and
`U_VL_init_random_shapelet_params` (`_univariate_variable_length.py:26-90`), which are identical.
`n` is `n_timestamps`, respectively `min_len`. -/
def uInit (nShp : Nat) (sizes : List Nat) (n : Nat) (pNorm : K) (prime : Bool) :
    RM G (UShp K) := do
  let lengths ← choiceN sizes nShp
  let dilations ← drawDilations n lengths prime
  let threshold := List.replicate nShp (0 : K)
  let mx ← ofRes (nmax sizes)
  let values := List.replicate nShp (List.replicate mx (0 : K))
  let us ← (List.range nShp).mapM fun _ => unitM
  let normalize := us.map fun u => Scalar.ltb u pNorm
  pure ⟨values, lengths, dilations, threshold, normalize⟩

/-- The multivariate initial parameters: `M_SL_init_random_shapelet_params`
(`_multivariate_same_length.py:27-103`) and `M_VL_init_random_shapelet_params`
(`_multivariate_variable_length.py:27-103`), which are identical.  The product
`dot(lengths.astype(float64), n_channels.astype(float64))` is computed on naturals. -/
def mInit (nShp : Nat) (sizes : List Nat) (n : Nat) (pNorm : K) (maxChannels : Nat) (prime : Bool) :
    RM G (MShp K) := do
  let lengths ← choiceN sizes nShp
  let dilations ← drawDilations n lengths prime
  let threshold := List.replicate nShp (0 : K)
  let ch ← choiceN (List.range maxChannels) nShp
  let nChannels := ch.map (· + 1)
  let channelIds := List.replicate nChannels.sum 0
  let values := List.replicate (List.zipWith (· * ·) lengths nChannels).sum (0 : K)
  let us ← (List.range nShp).mapM fun _ => unitM
  let normalize := us.map fun u => Scalar.ltb u pNorm
  pure ⟨values, lengths, dilations, threshold, normalize, nChannels, channelIds⟩

/-! ## The sampling mask -/

/-- The part `mask_sampling[:, i_d]` of the mask belonging to one dilation, as a function of
`(norm, sample, channel, t)`.  The univariate mask has no channel dimension: the model gives it the
single channel 0.  (`_univariate_same_length.py:151-153`, `:168`, `_multivariate_same_length.py:167-169`.)
-/
abbrev SubMask := Bool → Nat → Nat → Nat → Bool

/-- Shape of the sampling mask (without the normalisation and dilation dimensions).
(`_univariate_same_length.py:151-153`, `_multivariate_same_length.py:167-169`.) -/
structure MaskShape where
  ns : Nat
  nc : Nat
  nt : Nat

/-- `mask_sampling[norm, i_d, s, c, t] = False`.  (`_univariate_same_length.py:183-190`.) -/
def unmark (sh : MaskShape) (m : SubMask) (norm : Bool) (s c t : Nat) : Res SubMask :=
  if s < sh.ns ∧ c < sh.nc ∧ t < sh.nt then
    .ok fun n' s' c' t' => if n' = norm ∧ s' = s ∧ c' = c ∧ t' = t then false else m n' s' c' t'
  else .error .oob

/-- Python's `a % n` for a positive `n`; `ZeroDivisionError` for 0.  (`_univariate_same_length.py:185`,
`:189`.) -/
def pyMod (a : Int) (n : Nat) : Res Nat :=
  if n = 0 then .error .zeroDivision else .ok (a % (n : Int)).toNat

/-- `alpha_size = _length - int64(max(1,(1-alpha)*min_l))` (`_univariate_same_length.py:179`). -/
def alphaSize (l : Nat) (alpha : K) (minL : Nat) : Int :=
  let p : K := (1 - alpha) * Scalar.ofNat minL
  (l : Int) - Scalar.trunc (if Scalar.ltb 1 p then p else 1)

/-- The mask update loop (`_univariate_same_length.py:180-190`, `_univariate_variable_length.py:211-221`,
`_multivariate_same_length.py:224-234`, `_multivariate_variable_length.py:254-264`); `n` is the
modulus. -/
def markLoop (sh : MaskShape) (m : SubMask) (norm : Bool) (s c index d n : Nat) (size : Int) :
    Res SubMask :=
  (List.range size.toNat).foldlM (init := m) fun m (j : Nat) => do
    let t1 ← pyMod ((index : Int) - (j : Int) * d) n
    let m1 ← unmark sh m norm s c t1
    let t2 ← pyMod ((index : Int) + (j : Int) * d) n
    unmark sh m1 norm s c t2

/-! ## Pieces shared by the sampling steps -/

/-- What is stored for a sampled shapelet.  (`_univariate_same_length.py:213-216`,
`_multivariate_same_length.py:252-259`.) -/
structure Out (K : Type) where
  values : List K
  channels : List Nat
  threshold : K

/-- Choice of another sample of the same class (`_univariate_same_length.py:197-203` and the same
lines of the other variants). -/
def pickOther (y : List L) (s : Nat) : RM G Nat := do
  let ys ← ofRes (aget y s)
  let loc := whereIdx y.length fun i => y[i]? == some ys
  if loc.length > 1 then choice1 (loc.filter fun i => !(i == s)) else pure s

/-- Threshold between two percentiles (`_univariate_same_length.py:211-215`). -/
def drawThreshold (D : List K) (pMin pMax : K) : RM G K := do
  let p0 ← ofRes (percentile D pMin)
  let p1 ← ofRes (percentile D pMax)
  uniformM p0 p1

/-- The data and options passed to a `*_generate_shapelet` function.  `nt` is the last dimension of
`X`, `nf` the second.  (`_univariate_same_length.py:90-93`, `_multivariate_same_length.py:106-109`.) -/
structure FitArgs (K L : Type) where
  X : List (List (List K))
  nf : Nat
  nt : Nat
  y : List L
  nShp : Nat
  sizes : List Nat
  pNorm : K
  pMin : K
  pMax : K
  alpha : K
  phase : Bool
  prime : Bool

/-- Sampling step for one shapelet, `U_SL` (`_univariate_same_length.py:160-215`). -/
def uslStep (a : FitArgs K L) (lengths dilations : List Nat) (normalize : List Bool)
    (minL : Nat) (m : SubMask) (i : Nat) : RM G (SubMask × Option (Out K)) := do
  let d ← ofRes (aget dilations i)
  let l ← ofRes (aget lengths i)
  let norm ← ofRes (aget normalize i)
  let ns := a.X.length
  let dShape : Int := if a.phase then a.nt else (a.nt : Int) - ((l : Int) - 1) * d
  let stop := sliceStop a.nt dShape
  let cand := (List.range ns).flatMap fun s =>
    (whereIdx stop fun t => m norm s 0 t).map fun t => (s, t)
  if cand.length > 0 then
    let s ← choice1 (cand.map Prod.fst)
    let index ← choice1 ((cand.filter fun p => p.1 == s).map Prod.snd)
    let m' ← ofRes (markLoop ⟨ns, 1, a.nt⟩ m norm s 0 index d a.nt (alphaSize l a.alpha minL))
    let x ← ofRes (aget2 a.X s 0)
    let v ← ofRes (getSubsequence x index l d norm a.phase)
    let test ← pickOther a.y s
    let x' ← ofRes (aget2 a.X test 0)
    let D ← ofRes (computeShapeletDistVector x' v l d norm a.phase)
    let thr ← drawThreshold D a.pMin a.pMax
    pure (m', some ⟨v, [0], thr⟩)
  else pure (m, none)

/-- The slice stop `X_len[i_x]` / `X_len[i_x]-(_length-1)*_dilation` of a mask row with `nt`
columns.  (`_univariate_variable_length.py:186-193`, `:201-206`.) -/
def vlStop (phase : Bool) (nt n l d : Nat) : Nat :=
  sliceStop nt (if phase then (n : Int) else (n : Int) - ((l : Int) - 1) * d)

/-- Sampling step for one shapelet, `U_VL` (`_univariate_variable_length.py:175-245`); `nt` is the
mask width `max_len`. -/
def uvlStep (a : FitArgs K L) (xLen : List Nat) (maxLen : Nat) (lengths dilations : List Nat)
    (normalize : List Bool) (minL : Nat) (m : SubMask) (i : Nat) :
    RM G (SubMask × Option (Out K)) := do
  let d ← ofRes (aget dilations i)
  let l ← ofRes (aget lengths i)
  let norm ← ofRes (aget normalize i)
  let ns := a.X.length
  let rows ← ofRes ((List.range ns).mapM fun s => do
    let n ← aget xLen s
    pure (whereIdx (vlStop a.phase maxLen n l d) fun t => m norm s 0 t))
  let iMask := whereIdx ns fun s => !(rows.getD s []).isEmpty
  if iMask.length > 0 then
    let s ← choice1 iMask
    let n ← ofRes (aget xLen s)
    let index ← choice1 (whereIdx (vlStop a.phase maxLen n l d) fun t => m norm s 0 t)
    let m' ← ofRes (markLoop ⟨ns, 1, maxLen⟩ m norm s 0 index d n (alphaSize l a.alpha minL))
    let x ← ofRes (aget2 a.X s 0)
    let v ← ofRes (getSubsequence (x.take n) index l d norm a.phase)
    let test ← pickOther a.y s
    let x' ← ofRes (aget2 a.X test 0)
    let n' ← ofRes (aget xLen test)
    let D ← ofRes (computeShapeletDistVector (x'.take n') v l d norm a.phase)
    let thr ← drawThreshold D a.pMin a.pMax
    pure (m', some ⟨v, [0], thr⟩)
  else pure (m, none)

/-- `mask_dil[s][channels, t].sum() >= _n_channels*alpha`: enough unmasked channels at `(s, t)`
(`_multivariate_same_length.py:200-202`, `_multivariate_variable_length.py:206-217`). -/
def enough (alpha : K) (m : SubMask) (norm : Bool) (s t : Nat) (channels : List Nat) : Bool :=
  Scalar.leb (Scalar.ofNat channels.length * alpha)
    (Scalar.ofNat (channels.countP fun c => m norm s c t))

/-- `x += y` on arrays; a shape mismatch raises `ValueError`.  (`_multivariate_same_length.py:244`.) -/
def addInto (x y : List K) : Res (List K) :=
  if x.length = y.length then .ok (List.zipWith (· + ·) x y) else .error .valueError

/-- The loop over the channels of a sampled multivariate shapelet: mask update, value extraction,
accumulation of the distance vector (`_multivariate_same_length.py:223-250`,
`_multivariate_variable_length.py:253-280`).  `xs c` and `xt c` are channel `c` of the chosen and of
the compared series, `n` the modulus used in the mask update. -/
def channelLoop (sh : MaskShape) (xs xt : Nat → Res (List K)) (channels : List Nat)
    (m : SubMask) (norm phase : Bool) (s index l d n : Nat) (size : Int) (dist0 : List K) :
    Res (SubMask × List K × List K) := do
  let init := (m, dist0, List.replicate (channels.length * l) (0 : K), 0)
  let r ← (List.range channels.length).foldlM (init := init) fun (m, dist, vals, a3) k => do
    let c ← aget channels k
    let m' ← markLoop sh m norm s c index d n size
    let b3 := a3 + l
    let x ← xs c
    let v ← getSubsequence x index l d norm phase
    let x' ← xt c
    let D ← computeShapeletDistVector x' v l d norm phase
    let dist' ← addInto dist D
    let vals' ← sliceAssign vals a3 b3 v
    pure (m', dist', vals', b3)
  pure (r.1, r.2.1, r.2.2.1)

/-- Sampling step for one shapelet, `M_SL` (`_multivariate_same_length.py:181-259`). -/
def mslStep (a : FitArgs K L) (lengths dilations : List Nat) (normalize : List Bool)
    (nChannels : List Nat) (minL : Nat) (m : SubMask) (i : Nat) :
    RM G (SubMask × Option (Out K)) := do
  let d ← ofRes (aget dilations i)
  let l ← ofRes (aget lengths i)
  let norm ← ofRes (aget normalize i)
  let nc ← ofRes (aget nChannels i)
  let ns := a.X.length
  let dShape : Int := if a.phase then a.nt else (a.nt : Int) - ((l : Int) - 1) * d
  let stop := sliceStop a.nt dShape
  let channels ← choiceNoRep (List.range a.nf) nc
  let cand := (List.range ns).flatMap fun s =>
    (whereIdx stop fun t => enough a.alpha m norm s t channels).map fun t => (s, t)
  if cand.length > 0 then
    let nd ← ofRes (dim dShape)
    let s ← choice1 (cand.map Prod.fst)
    let index ← choice1 ((cand.filter fun p => p.1 == s).map Prod.snd)
    let test ← pickOther a.y s
    let r ← ofRes (channelLoop ⟨ns, a.nf, a.nt⟩ (fun c => aget2 a.X s c) (fun c => aget2 a.X test c)
      channels m norm a.phase s index l d a.nt (alphaSize l a.alpha minL) (List.replicate nd 0))
    let thr ← drawThreshold r.2.1 a.pMin a.pMax
    pure (r.1, some ⟨r.2.2, channels, thr⟩)
  else pure (m, none)

/-- Sampling step for one shapelet, `M_VL` (`_multivariate_variable_length.py:188-290`). -/
def mvlStep (a : FitArgs K L) (xLen : List Nat) (maxLen : Nat) (lengths dilations : List Nat)
    (normalize : List Bool) (nChannels : List Nat) (minL : Nat) (m : SubMask) (i : Nat) :
    RM G (SubMask × Option (Out K)) := do
  let d ← ofRes (aget dilations i)
  let l ← ofRes (aget lengths i)
  let norm ← ofRes (aget normalize i)
  let nc ← ofRes (aget nChannels i)
  let ns := a.X.length
  let channels ← choiceNoRep (List.range a.nf) nc
  let rows ← ofRes ((List.range ns).mapM fun s => do
    let n ← aget xLen s
    pure (whereIdx (vlStop a.phase maxLen n l d) fun t => enough a.alpha m norm s t channels))
  let iMask := whereIdx ns fun s => !(rows.getD s []).isEmpty
  if iMask.length > 0 then
    let s ← choice1 iMask
    let test ← pickOther a.y s
    let n' ← ofRes (aget xLen test)
    let nd ← ofRes (dim (if a.phase then (n' : Int) else (n' : Int) - ((l : Int) - 1) * d))
    let n ← ofRes (aget xLen s)
    let index ← choice1 (whereIdx (vlStop a.phase maxLen n l d) fun t =>
      enough a.alpha m norm s t channels)
    let r ← ofRes (channelLoop ⟨ns, a.nf, maxLen⟩
      (fun c => do let x ← aget2 a.X s c; pure (x.take n))
      (fun c => do let x ← aget2 a.X test c; pure (x.take n'))
      channels m norm a.phase s index l d n (alphaSize l a.alpha minL) (List.replicate nd 0))
    let thr ← drawThreshold r.2.1 a.pMin a.pMax
    pure (r.1, some ⟨r.2.2, channels, thr⟩)
  else pure (m, none)

/-! ## The parallel loop over dilations -/

/-- State of the loop: the sampling mask (indexed by dilation number) and the output arrays.
(`_univariate_same_length.py:151-153`, `:213-216`.) -/
abbrev FitState (A : Type) := (Nat → SubMask) × A

/-- Indices of the shapelets with a given dilation: `where(dilations==unique_dil[i_d])[0]`.
(`_univariate_same_length.py:158`.) -/
def groupIds (dilations : List Nat) (d : Nat) : List Nat :=
  whereIdx dilations.length fun i => dilations[i]? == some d

/-- One iteration of the parallel loop (`_univariate_same_length.py:157-216` and the same lines of
the other variants). -/
def fitGroup {A : Type} (lengths dilations : List Nat)
    (step : Nat → SubMask → Nat → RM G (SubMask × Option (Out K)))
    (write : A → Nat → Option (Out K) → Res A) (st : FitState A) (iD : Nat) :
    RM G (FitState A) := do
  let d ← ofRes (aget (uniqueSorted dilations) iD)
  let ids := groupIds dilations d
  let ls ← ofRes (ids.mapM fun i => aget lengths i)
  let minL ← ofRes (nmin ls)
  ids.foldlM (init := st) fun st i => do
    let r ← step minL (st.1 iD) i
    let arr ← ofRes (write st.2 i r.2)
    pure (Function.update st.1 iD r.1, arr)

/-- The parallel loop executed in the order `order`; iteration `iD` draws from a generator starting
in state `gs iD`.  (numba gives every thread its own generator; which state an iteration starts
from depends on the schedule, so `gs` is arbitrary.).  (`_univariate_same_length.py:156`,
`_univariate_variable_length.py:171`, `_multivariate_same_length.py:177`.) -/
def fitLoop {A : Type} (lengths dilations : List Nat)
    (step : Nat → SubMask → Nat → RM G (SubMask × Option (Out K)))
    (write : A → Nat → Option (Out K) → Res A) (gs : Nat → G) (order : List Nat)
    (st : FitState A) : Res (FitState A) :=
  order.foldlM (init := st) fun st iD => do
    let r ← fitGroup lengths dilations step write st iD (gs iD)
    pure r.1

/-! ## Univariate functions -/

/-- Stores of a sampled univariate shapelet: `threshold[i_shp] = ..`, `values[i_shp,:_length] = v`
(`_univariate_same_length.py:213-216`); nothing is stored when no position is left. -/
def uWrite (lengths : List Nat) (arr : List (List K) × List K) (i : Nat) (o : Option (Out K)) :
    Res (List (List K) × List K) :=
  match o with
  | none => .ok arr
  | some o => do
    let thr ← aset arr.2 i o.threshold
    let row ← aget arr.1 i
    let l ← aget lengths i
    let row' ← sliceAssign row 0 l o.values
    let vals ← aset arr.1 i row'
    pure (vals, thr)

/-- `a[mask]` with a boolean mask.  (`_univariate_same_length.py:224-228`,
`_multivariate_same_length.py:263-264`.) -/
def compress {α : Type} (mask : List Bool) (a : List α) : List α :=
  ((a.zip mask).filter Prod.snd).map Prod.fst

/-- The final selection `mask_values` (`_univariate_same_length.py:218-221`): rows of `values` that
are not all zero. -/
def keepNonZero (values : List (List K)) : List Bool :=
  values.map fun row => !(row.all fun v => Scalar.eqb v 0)

/-- End of the univariate functions.  (`_univariate_same_length.py:218-229`,
`_univariate_variable_length.py:248-259`.) -/
def uFinish (P : UShp K) (arr : List (List K) × List K) : UShp K :=
  let mask := keepNonZero arr.1
  { values := compress mask arr.1
    lengths := compress mask P.lengths
    dilations := compress mask P.dilations
    threshold := compress mask arr.2
    normalize := compress mask P.normalize }

/-- `U_SL_generate_shapelet` (`_univariate_same_length.py:90-229`).  `g0` is the state of the main
generator after `seed(r_seed)`, `gs` the states in which the parallel iterations start, `order` the
order in which the parallel iterations are executed. -/
def uslGenerate (a : FitArgs K L) (g0 : G) (gs : Nat → G) (order : Nat → List Nat) :
    Res (UShp K) := do
  let (P, _) ← uInit a.nShp a.sizes a.nt a.pNorm a.prime g0
  let nDil := (uniqueSorted P.dilations).length
  let mask0 : Nat → SubMask := fun _ _ _ _ _ => true
  let r ← fitLoop P.lengths P.dilations (uslStep a P.lengths P.dilations P.normalize)
    (uWrite P.lengths) gs (order nDil) (mask0, (P.values, P.threshold))
  pure (uFinish P r.2)

/-- `U_VL_generate_shapelet` (`_univariate_variable_length.py:94-259`). -/
def uvlGenerate (a : FitArgs K L) (minLen : Nat) (xLen : List Nat) (g0 : G) (gs : Nat → G)
    (order : Nat → List Nat) : Res (UShp K) := do
  let maxLen ← nmax xLen
  let (P, _) ← uInit a.nShp a.sizes minLen a.pNorm a.prime g0
  let nDil := (uniqueSorted P.dilations).length
  let _ ← (List.range a.X.length).mapM fun s => aget xLen s
  let mask0 : Nat → SubMask := fun _ _ s _ t => decide (t < xLen.getD s 0)
  let r ← fitLoop P.lengths P.dilations (uvlStep a xLen maxLen P.lengths P.dilations P.normalize)
    (uWrite P.lengths) gs (order nDil) (mask0, (P.values, P.threshold))
  pure (uFinish P r.2)

/-! ## Multivariate functions -/

/-- Output arrays of the multivariate functions.  (`_multivariate_same_length.py:161`, `:170`, `:252-261`.)
-/
structure MArr (K : Type) where
  values : List K
  channelIds : List Nat
  threshold : List K
  maskReturn : List Bool

/-- Stores of a sampled multivariate shapelet (`_multivariate_same_length.py:252-261`,
`_multivariate_variable_length.py:283-292`). -/
def mWrite (a1 a2 : List Nat) (arr : MArr K) (i : Nat) (o : Option (Out K)) : Res (MArr K) :=
  match o with
  | none => do
    let mr ← aset arr.maskReturn i false
    pure { arr with maskReturn := mr }
  | some o => do
    let v0 ← aget a1 i
    let v1 ← aget a1 (i + 1)
    let vals ← sliceAssign arr.values v0 v1 o.values
    let c0 ← aget a2 i
    let c1 ← aget a2 (i + 1)
    let ch ← sliceAssign arr.channelIds c0 c1 o.channels
    let thr ← aset arr.threshold i o.threshold
    pure { arr with values := vals, channelIds := ch, threshold := thr }

/-- End of the multivariate functions: compaction of the flattened arrays
(`_multivariate_same_length.py:263-292`, `_multivariate_variable_length.py:294-323`). -/
def mFinish (P : MShp K) (arr : MArr K) : Res (MShp K) := do
  let a1 := offValues P.nChannels P.lengths
  let a2 := offChannels P.nChannels
  let lengths := compress arr.maskReturn P.lengths
  let nChannels := compress arr.maskReturn P.nChannels
  let ids := whereIdx arr.maskReturn.length fun i => arr.maskReturn[i]? == some true
  let ch0 := List.replicate nChannels.sum 0
  let v0 := List.replicate (List.zipWith (· * ·) lengths nChannels).sum (0 : K)
  let r ← (List.range ids.length).foldlM (init := (v0, ch0, 0, 0)) fun (vals, ch, c1, c2) idx => do
    let i ← aget ids idx
    let nc ← aget nChannels idx
    let l ← aget lengths idx
    let d1 := c1 + nc * l
    let d2 := c2 + nc
    let s0 ← aget a1 i
    let s1 ← aget a1 (i + 1)
    let vals' ← sliceAssign vals c1 d1 (slice arr.values s0 s1)
    let k0 ← aget a2 i
    let k1 ← aget a2 (i + 1)
    let ch' ← sliceAssign ch c2 d2 (slice arr.channelIds k0 k1)
    pure (vals', ch', d1, d2)
  pure
    { values := r.1
      lengths := lengths
      dilations := compress arr.maskReturn P.dilations
      threshold := compress arr.maskReturn arr.threshold
      normalize := compress arr.maskReturn P.normalize
      nChannels := nChannels
      channelIds := r.2.1 }

/-- Initial output arrays of the multivariate functions.  (`_multivariate_same_length.py:161-170`.) -/
def mArr0 (P : MShp K) (nShp : Nat) : MArr K :=
  ⟨P.values, P.channelIds, P.threshold, List.replicate nShp true⟩

/-- `M_SL_generate_shapelet` (`_multivariate_same_length.py:106-292`). -/
def mslGenerate (a : FitArgs K L) (maxChannels : Nat) (g0 : G) (gs : Nat → G)
    (order : Nat → List Nat) : Res (MShp K) := do
  let (P, _) ← mInit a.nShp a.sizes a.nt a.pNorm maxChannels a.prime g0
  let nDil := (uniqueSorted P.dilations).length
  let mask0 : Nat → SubMask := fun _ _ _ _ _ => true
  let r ← fitLoop P.lengths P.dilations
    (mslStep a P.lengths P.dilations P.normalize P.nChannels)
    (mWrite (offValues P.nChannels P.lengths) (offChannels P.nChannels)) gs (order nDil)
    (mask0, mArr0 P a.nShp)
  mFinish P r.2

/-- `M_VL_generate_shapelet` (`_multivariate_variable_length.py:106-323`). -/
def mvlGenerate (a : FitArgs K L) (maxChannels minLen : Nat) (xLen : List Nat) (g0 : G)
    (gs : Nat → G) (order : Nat → List Nat) : Res (MShp K) := do
  let maxLen ← nmax xLen
  let (P, _) ← mInit a.nShp a.sizes minLen a.pNorm maxChannels a.prime g0
  let nDil := (uniqueSorted P.dilations).length
  let _ ← (List.range a.X.length).mapM fun s => aget xLen s
  let mask0 : Nat → SubMask := fun _ _ s _ t => decide (t < xLen.getD s 0)
  let r ← fitLoop P.lengths P.dilations
    (mvlStep a xLen maxLen P.lengths P.dilations P.normalize P.nChannels)
    (mWrite (offValues P.nChannels P.lengths) (offChannels P.nChannels)) gs (order nDil)
    (mask0, mArr0 P a.nShp)
  mFinish P r.2

end Convst
