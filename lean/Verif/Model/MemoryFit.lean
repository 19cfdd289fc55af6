import Verif.Model.Fit
import Verif.Model.Memory

/-!
# `fit` at the level of memory

The four `*_generate_shapelet` functions, with the training series, the sampling mask and the output arrays in a memory
shared by the threads of the parallel loops (`Model/Memory.lean`).

The parallel loop over the distinct dilations is executed by workers.  A worker has its own random generator and runs
the iterations it is given one after the other (numba: contiguous blocks of iterations, one for each thread; here: any
lists).  The iterations of the other parallel loops, which draw no random numbers, are threads of their own.

Simplifications: the parameters of the shapelets, drawn before the parallel loop, are values; temporaries seen by one
iteration only (`i_mask`, `v`, `x_dist`, `_values`, …) are values, read from the memory when the expression that makes
them is evaluated; a series is read completely where the code reads some of its elements; the final selection
(`values[mask_values]`, the compaction of the multivariate arrays) is made on the arrays read from the memory, as in
`Model/Fit.lean`, and the arrays returned are values.
-/

set_option autoImplicit false

namespace Convst.Mem

/-- An element of a buffer.  (`_univariate_same_length.py:151-153`.) -/
inductive Cell (K : Type)
  | num (x : K)
  | flag (b : Bool)
  | nat (n : Nat)

instance {K : Type} [Zero K] : Zero (Cell K) := ⟨.num 0⟩

variable {G K L : Type}

/-- The memory with one more buffer, containing `b`.  (`_univariate_same_length.py:151-153`.) -/
def Heap.add {C : Type} (h : Heap C) (b : List C) : Heap C := ⟨h.bufs ++ [b]⟩

/-- Computations of a worker: memory operations and draws from its generator.
(`_univariate_same_length.py:156-216`.) -/
abbrev PM (G K α : Type) := StateT G (Prog (Cell K)) α

/-- Draws.  (`_univariate_same_length.py:175`.) -/
def rand {α : Type} (m : RM G α) : PM G K α := fun g => .ret (m g)

/-- Memory operations.  (`_univariate_same_length.py:183-190`.) -/
def mem {α : Type} (p : Prog (Cell K) α) : PM G K α := fun g => p >>= fun a => pure (a, g)

/-- A sequential loop of a worker.  (`_univariate_same_length.py:160`.) -/
def forPM {ι : Type} : List ι → (ι → PM G K Unit) → PM G K Unit
  | [], _ => pure ()
  | x :: xs, f => do
    f x
    forPM xs f

/-- Read a number.  (`_univariate_same_length.py:194`.) -/
def loadNum (a i : Nat) : Prog (Cell K) K := do
  match ← load a i with
  | .num x => pure x
  | _ => .ret (.error .typeError)

/-- Read a boolean.  (`_univariate_same_length.py:171`.) -/
def loadFlag (a i : Nat) : Prog (Cell K) Bool := do
  match ← load a i with
  | .flag b => pure b
  | _ => .ret (.error .typeError)

/-- Read an integer.  (`_multivariate_same_length.py:279`.) -/
def loadNat (a i : Nat) : Prog (Cell K) Nat := do
  match ← load a i with
  | .nat n => pure n
  | _ => .ret (.error .typeError)

/-- `a[s:e] = v` for a row of `len` elements starting at element `base` of buffer `a`.
(`_univariate_same_length.py:216`.) -/
def storeSlice (a base len s e : Nat) (v : List (Cell K)) : Prog (Cell K) Unit :=
  if min e len - min s len = v.length then storeRow a (base + s) v else .ret (.error .valueError)

/-! ## The sampling mask -/

/-- `mask_sampling`, of shape `(2, n_dilations, n_samples, n_channels, n_timestamps)`, C-contiguous; without the
dimension of the channels (`nc = 1`) in the univariate functions (`_univariate_same_length.py:151-153`,
`_univariate_variable_length.py:163-165`, `_multivariate_same_length.py:167-169`,
`_multivariate_variable_length.py:171-173`). -/
structure MaskBuf where
  addr : Nat
  nDil : Nat
  ns : Nat
  nc : Nat
  nt : Nat

/-- Position of `mask_sampling[norm, i_d, s, c, t]`.  (`_univariate_same_length.py:184-185`.) -/
def MaskBuf.pos (mk : MaskBuf) (norm : Bool) (iD s c t : Nat) : Nat :=
  ((((if norm then 1 else 0) * mk.nDil + iD) * mk.ns + s) * mk.nc + c) * mk.nt + t

/-- Number of elements of the mask.  (`_univariate_same_length.py:151-153`.) -/
def MaskBuf.size (mk : MaskBuf) : Nat := 2 * mk.nDil * mk.ns * mk.nc * mk.nt

/-- `mask_sampling[norm, i_d, s, c, :stop]`.  (`_univariate_same_length.py:171`.) -/
def readMask (mk : MaskBuf) (norm : Bool) (iD s c stop : Nat) : Prog (Cell K) (List Bool) :=
  collect (List.range stop) fun t => loadFlag mk.addr (mk.pos norm iD s c t)

/-- The mask update loop (`_univariate_same_length.py:180-190`, `_univariate_variable_length.py:211-221`,
`_multivariate_same_length.py:224-234`, `_multivariate_variable_length.py:254-264`). -/
def markLoopMem (mk : MaskBuf) (norm : Bool) (iD s c index d n : Nat) (size : Int) : Prog (Cell K) Unit :=
  forEach (List.range size.toNat) fun (j : Nat) => do
    let t1 ← .ret (pyMod ((index : Int) - (j : Int) * d) n)
    store mk.addr (mk.pos norm iD s c t1) (.flag false)
    let t2 ← .ret (pyMod ((index : Int) + (j : Int) * d) n)
    store mk.addr (mk.pos norm iD s c t2) (.flag false)

/-- `mask_sampling[:, :, i, :, X_len[i]:] = False` (`_univariate_variable_length.py:167-168`,
`_multivariate_variable_length.py:180-181`). -/
def fillMask (mk : MaskBuf) (xLen : List Nat) (i : Nat) : Prog (Cell K) Unit := do
  let n ← .ret (aget xLen i)
  forEach [false, true] fun norm => forEach (List.range mk.nDil) fun iD => forEach (List.range mk.nc) fun c =>
    forEach (List.range' n (mk.nt - n)) fun t => store mk.addr (mk.pos norm iD i c t) (.flag false)

/-! ## Arguments -/

/-- The arguments of the functions, as in `FitArgs`, with the series in memory.
(`_univariate_same_length.py:90-93`.) -/
structure FitIn (K L : Type) where
  X : List View
  nf : Nat
  nt : Nat
  y : List L
  nShp : Nat
  sizes : List Nat
  pNorm : K
  pMin : K
  pMax : K
  alpha : K
  phase : Bool
  prime : Bool

/-- `X[s, c, :n]`.  (`_univariate_variable_length.py:224`.) -/
def readSeries (xs : List View) (s c n : Nat) : Prog (Cell K) (List K) := do
  let v ← .ret (aget xs s)
  collect (List.range n) fun t => loadNum v.addr (v.pos c t)

variable [Gen G K] [Scalar K] [DecidableEq L]

/-! ## Sampling -/

/-- Sampling of one shapelet, `U_SL` (`_univariate_same_length.py:160-216`). -/
def uslSample (b : FitIn K L) (mk : MaskBuf) (lengths dilations : List Nat) (normalize : List Bool)
    (iD minL i : Nat) : PM G K (Option (Out K)) := do
  let d ← rand (ofRes (aget dilations i))
  let l ← rand (ofRes (aget lengths i))
  let norm ← rand (ofRes (aget normalize i))
  let ns := b.X.length
  let dShape : Int := if b.phase then b.nt else (b.nt : Int) - ((l : Int) - 1) * d
  let stop := sliceStop b.nt dShape
  let rows ← mem (collect (List.range ns) fun s => readMask mk norm iD s 0 stop)
  let cand := (List.range ns).flatMap fun s =>
    (whereIdx stop fun t => (rows.getD s []).getD t false).map fun t => (s, t)
  if cand.length > 0 then
    let s ← rand (choice1 (cand.map Prod.fst))
    let index ← rand (choice1 ((cand.filter fun p => p.1 == s).map Prod.snd))
    mem (markLoopMem mk norm iD s 0 index d b.nt (alphaSize l b.alpha minL))
    let x ← mem (readSeries b.X s 0 b.nt)
    let v ← rand (ofRes (getSubsequence x index l d norm b.phase))
    let test ← rand (pickOther b.y s)
    let x' ← mem (readSeries b.X test 0 b.nt)
    let D ← rand (ofRes (computeShapeletDistVector x' v l d norm b.phase))
    let thr ← rand (drawThreshold D b.pMin b.pMax)
    pure (some ⟨v, [0], thr⟩)
  else pure none

/-- Sampling of one shapelet, `U_VL` (`_univariate_variable_length.py:175-246`). -/
def uvlSample (b : FitIn K L) (xLen : List Nat) (maxLen : Nat) (mk : MaskBuf) (lengths dilations : List Nat)
    (normalize : List Bool) (iD minL i : Nat) : PM G K (Option (Out K)) := do
  let d ← rand (ofRes (aget dilations i))
  let l ← rand (ofRes (aget lengths i))
  let norm ← rand (ofRes (aget normalize i))
  let ns := b.X.length
  let rows ← mem (collect (List.range ns) fun s => do
    let n ← .ret (aget xLen s)
    readMask mk norm iD s 0 (vlStop b.phase maxLen n l d))
  let iMask := whereIdx ns fun s => (rows.getD s []).any id
  if iMask.length > 0 then
    let s ← rand (choice1 iMask)
    let n ← rand (ofRes (aget xLen s))
    let row ← mem (readMask mk norm iD s 0 (vlStop b.phase maxLen n l d))
    let index ← rand (choice1 (whereIdx (vlStop b.phase maxLen n l d) fun t => row.getD t false))
    mem (markLoopMem mk norm iD s 0 index d n (alphaSize l b.alpha minL))
    let x ← mem (readSeries b.X s 0 n)
    let v ← rand (ofRes (getSubsequence x index l d norm b.phase))
    let test ← rand (pickOther b.y s)
    let n' ← rand (ofRes (aget xLen test))
    let x' ← mem (readSeries b.X test 0 n')
    let D ← rand (ofRes (computeShapeletDistVector x' v l d norm b.phase))
    let thr ← rand (drawThreshold D b.pMin b.pMax)
    pure (some ⟨v, [0], thr⟩)
  else pure none

/-- `mask_dil[s][channels, t].sum() >= _n_channels*alpha` for the rows `block` read from the mask.
(`_multivariate_same_length.py:200-202`.) -/
def enoughRows (alpha : K) (block : List (List Bool)) (t : Nat) : Bool :=
  Scalar.leb (Scalar.ofNat block.length * alpha) (Scalar.ofNat (block.countP fun row => row.getD t false))

/-- The loop over the channels of a sampled multivariate shapelet (`_multivariate_same_length.py:223-250`,
`_multivariate_variable_length.py:253-280`). -/
def channelLoopMem (mk : MaskBuf) (iD : Nat) (xs xt : Nat → Prog (Cell K) (List K)) (channels : List Nat)
    (norm phase : Bool) (s index l d n : Nat) (size : Int) (dist0 : List K) : Prog (Cell K) (List K × List K) := do
  let init := (dist0, List.replicate (channels.length * l) (0 : K), 0)
  let r ← (List.range channels.length).foldlM (init := init) fun (dist, vals, a3) k => do
    let c ← .ret (aget channels k)
    markLoopMem mk norm iD s c index d n size
    let b3 := a3 + l
    let x ← xs c
    let v ← .ret (getSubsequence x index l d norm phase)
    let x' ← xt c
    let D ← .ret (computeShapeletDistVector x' v l d norm phase)
    let dist' ← .ret (addInto dist D)
    let vals' ← .ret (sliceAssign vals a3 b3 v)
    pure (dist', vals', b3)
  pure (r.1, r.2.1)

/-- Sampling of one shapelet, `M_SL` (`_multivariate_same_length.py:181-261`). -/
def mslSample (b : FitIn K L) (mk : MaskBuf) (lengths dilations : List Nat) (normalize : List Bool)
    (nChannels : List Nat) (iD minL i : Nat) : PM G K (Option (Out K)) := do
  let d ← rand (ofRes (aget dilations i))
  let l ← rand (ofRes (aget lengths i))
  let norm ← rand (ofRes (aget normalize i))
  let nc ← rand (ofRes (aget nChannels i))
  let ns := b.X.length
  let dShape : Int := if b.phase then b.nt else (b.nt : Int) - ((l : Int) - 1) * d
  let stop := sliceStop b.nt dShape
  let channels ← rand (choiceNoRep (List.range b.nf) nc)
  let blocks ← mem (collect (List.range ns) fun s => collect channels fun c => readMask mk norm iD s c stop)
  let cand := (List.range ns).flatMap fun s =>
    (whereIdx stop fun t => enoughRows b.alpha (blocks.getD s []) t).map fun t => (s, t)
  if cand.length > 0 then
    let nd ← rand (ofRes (dim dShape))
    let s ← rand (choice1 (cand.map Prod.fst))
    let index ← rand (choice1 ((cand.filter fun p => p.1 == s).map Prod.snd))
    let test ← rand (pickOther b.y s)
    let r ← mem (channelLoopMem mk iD (fun c => readSeries b.X s c b.nt) (fun c => readSeries b.X test c b.nt)
      channels norm b.phase s index l d b.nt (alphaSize l b.alpha minL) (List.replicate nd 0))
    let thr ← rand (drawThreshold r.1 b.pMin b.pMax)
    pure (some ⟨r.2, channels, thr⟩)
  else pure none

/-- Sampling of one shapelet, `M_VL` (`_multivariate_variable_length.py:188-292`). -/
def mvlSample (b : FitIn K L) (xLen : List Nat) (maxLen : Nat) (mk : MaskBuf) (lengths dilations : List Nat)
    (normalize : List Bool) (nChannels : List Nat) (iD minL i : Nat) : PM G K (Option (Out K)) := do
  let d ← rand (ofRes (aget dilations i))
  let l ← rand (ofRes (aget lengths i))
  let norm ← rand (ofRes (aget normalize i))
  let nc ← rand (ofRes (aget nChannels i))
  let ns := b.X.length
  let channels ← rand (choiceNoRep (List.range b.nf) nc)
  let oks ← mem (collect (List.range ns) fun s => do
    let n ← .ret (aget xLen s)
    let block ← collect channels fun c => readMask mk norm iD s c (vlStop b.phase maxLen n l d)
    pure ((List.range (vlStop b.phase maxLen n l d)).any fun t => enoughRows b.alpha block t))
  let iMask := whereIdx ns fun s => oks.getD s false
  if iMask.length > 0 then
    let s ← rand (choice1 iMask)
    let test ← rand (pickOther b.y s)
    let n' ← rand (ofRes (aget xLen test))
    let nd ← rand (ofRes (dim (if b.phase then (n' : Int) else (n' : Int) - ((l : Int) - 1) * d)))
    let n ← rand (ofRes (aget xLen s))
    let block ← mem (collect channels fun c => readMask mk norm iD s c (vlStop b.phase maxLen n l d))
    let index ← rand (choice1 (whereIdx (vlStop b.phase maxLen n l d) fun t => enoughRows b.alpha block t))
    let r ← mem (channelLoopMem mk iD (fun c => readSeries b.X s c n) (fun c => readSeries b.X test c n')
      channels norm b.phase s index l d n (alphaSize l b.alpha minL) (List.replicate nd 0))
    let thr ← rand (drawThreshold r.1 b.pMin b.pMax)
    pure (some ⟨r.2, channels, thr⟩)
  else pure none

/-! ## Stores -/

/-- Addresses of the output arrays of the univariate functions; `values` has rows of `width` elements.
(`_univariate_same_length.py:145`.) -/
structure UOut where
  values : Nat
  width : Nat
  threshold : Nat

/-- `threshold[i_shp] = ..`, `values[i_shp,:_length] = v` (`_univariate_same_length.py:213-216`,
`_univariate_variable_length.py:243-246`). -/
def uWriteMem (o : UOut) (lengths : List Nat) (i : Nat) (r : Option (Out K)) : Prog (Cell K) Unit :=
  match r with
  | none => pure ()
  | some r => do
    store o.threshold i (.num r.threshold)
    let l ← .ret (aget lengths i)
    storeSlice o.values (i * o.width) o.width 0 l (r.values.map .num)

/-- Addresses of the output arrays of the multivariate functions, and the sizes of the flattened ones.
(`_multivariate_same_length.py:161`.) -/
structure MOut where
  values : Nat
  nValues : Nat
  channelIds : Nat
  nIds : Nat
  threshold : Nat
  maskReturn : Nat

/-- Stores of a sampled multivariate shapelet (`_multivariate_same_length.py:252-261`,
`_multivariate_variable_length.py:283-292`). In the code the threshold is drawn between the stores of the channels and
of the threshold; here before all three, which the thread alone can see. -/
def mWriteMem (o : MOut) (a1 a2 : List Nat) (i : Nat) (r : Option (Out K)) : Prog (Cell K) Unit :=
  match r with
  | none => store o.maskReturn i (.flag false)
  | some r => do
    let v0 ← .ret (aget a1 i)
    let v1 ← .ret (aget a1 (i + 1))
    storeSlice o.values 0 o.nValues v0 v1 (r.values.map .num)
    let c0 ← .ret (aget a2 i)
    let c1 ← .ret (aget a2 (i + 1))
    storeSlice o.channelIds 0 o.nIds c0 c1 (r.channels.map .nat)
    store o.threshold i (.num r.threshold)

/-! ## The parallel loop over dilations -/

/-- One iteration of the parallel loop over dilations (`_univariate_same_length.py:156-216` and the same lines of the
other functions). -/
def groupMem (lengths dilations : List Nat) (sample : Nat → Nat → Nat → PM G K (Option (Out K)))
    (write : Nat → Option (Out K) → Prog (Cell K) Unit) (iD : Nat) : PM G K Unit := do
  let d ← rand (ofRes (aget (uniqueSorted dilations) iD))
  let ids := groupIds dilations d
  let ls ← rand (ofRes (ids.mapM fun i => aget lengths i))
  let minL ← rand (ofRes (nmin ls))
  forPM ids fun i => do
    let r ← sample iD minL i
    mem (write i r)

/-- A worker with the iterations `w.1`, whose generator is in state `w.2`.
(`_univariate_same_length.py:156`.) -/
def workerMem (lengths dilations : List Nat) (sample : Nat → Nat → Nat → PM G K (Option (Out K)))
    (write : Nat → Option (Out K) → Prog (Cell K) Unit) (w : List Nat × G) : Prog (Cell K) Unit := do
  let _ ← forPM w.1 (groupMem lengths dilations sample write) w.2
  pure ()

/-! ## The functions -/

/-- The arrays of a univariate call, before the parallel loop: `threshold` and `values` of zeros, and the
mask of
ones, in new buffers.  (`_univariate_same_length.py:78-81`.) -/
def uAlloc (h : Heap (Cell K)) (P : UShp K) (ns nt : Nat) : Heap (Cell K) × UOut × MaskBuf :=
  let mk : MaskBuf := ⟨h.bufs.length + 2, (uniqueSorted P.dilations).length, ns, 1, nt⟩
  (((h.add (P.threshold.map .num)).add (P.values.flatten.map .num)).add (List.replicate mk.size (.flag true)),
    ⟨h.bufs.length + 1, (P.values.head?.map List.length).getD 0, h.bufs.length⟩, mk)

/-- The arrays of a multivariate call, before the parallel loop.  (`_multivariate_same_length.py:84-97`.) -/
def mAlloc (h : Heap (Cell K)) (P : MShp K) (nShp ns nf nt : Nat) : Heap (Cell K) × MOut × MaskBuf :=
  let mk : MaskBuf := ⟨h.bufs.length + 4, (uniqueSorted P.dilations).length, ns, nf, nt⟩
  (((((h.add (P.threshold.map .num)).add (P.channelIds.map .nat)).add (P.values.map .num)).add
      (List.replicate nShp (.flag true))).add (List.replicate mk.size (.flag true)),
    ⟨h.bufs.length + 2, P.values.length, h.bufs.length + 1, P.channelIds.length, h.bufs.length, h.bufs.length + 3⟩, mk)

/-- The threads of the parallel loop of `U_SL_generate_shapelet` (`_univariate_same_length.py:156-216`). -/
def uslThreads (b : FitIn K L) (P : UShp K) (o : UOut) (mk : MaskBuf) (workers : List (List Nat × G)) :
    List (Prog (Cell K) Unit) :=
  workers.map (workerMem P.lengths P.dilations (uslSample b mk P.lengths P.dilations P.normalize)
    (uWriteMem o P.lengths))

/-- The only thread of the loop over the samples of `U_VL_generate_shapelet`
(`_univariate_variable_length.py:167-168`), which is sequential. -/
def uvlFill (mk : MaskBuf) (xLen : List Nat) : List (Prog (Cell K) Unit) :=
  [forEach (List.range mk.ns) (fillMask mk xLen)]

/-- The threads of the parallel loop of `U_VL_generate_shapelet` (`_univariate_variable_length.py:171-246`). -/
def uvlThreads (b : FitIn K L) (xLen : List Nat) (P : UShp K) (o : UOut) (mk : MaskBuf)
    (workers : List (List Nat × G)) : List (Prog (Cell K) Unit) :=
  workers.map (workerMem P.lengths P.dilations (uvlSample b xLen mk.nt mk P.lengths P.dilations P.normalize)
    (uWriteMem o P.lengths))

/-- The threads of the parallel loop of `M_SL_generate_shapelet` (`_multivariate_same_length.py:177-261`). -/
def mslThreads (b : FitIn K L) (P : MShp K) (o : MOut) (mk : MaskBuf) (workers : List (List Nat × G)) :
    List (Prog (Cell K) Unit) :=
  workers.map (workerMem P.lengths P.dilations (mslSample b mk P.lengths P.dilations P.normalize P.nChannels)
    (mWriteMem o (offValues P.nChannels P.lengths) (offChannels P.nChannels)))

/-- The threads of the parallel loop over the samples of `M_VL_generate_shapelet`
(`_multivariate_variable_length.py:180-181`). -/
def mvlFill (mk : MaskBuf) (xLen : List Nat) : List (Prog (Cell K) Unit) :=
  (List.range mk.ns).map (fillMask mk xLen)

/-- The threads of the parallel loop of `M_VL_generate_shapelet` (`_multivariate_variable_length.py:184-292`). -/
def mvlThreads (b : FitIn K L) (xLen : List Nat) (P : MShp K) (o : MOut) (mk : MaskBuf)
    (workers : List (List Nat × G)) : List (Prog (Cell K) Unit) :=
  workers.map (workerMem P.lengths P.dilations
    (mvlSample b xLen mk.nt mk P.lengths P.dilations P.normalize P.nChannels)
    (mWriteMem o (offValues P.nChannels P.lengths) (offChannels P.nChannels)))

/-- An iteration of the second parallel loop of the univariate functions, `mask_values` being buffer `mv`
(`_univariate_same_length.py:218-221`, `_univariate_variable_length.py:248-251`). -/
def keepTask (o : UOut) (mv i : Nat) : Prog (Cell K) Unit := do
  let row ← collect (List.range o.width) fun j => loadNum o.values (i * o.width + j)
  if row.all fun v => Scalar.eqb v 0 then store mv i (.flag false) else pure ()

/-- The threads of that loop.  (`_univariate_same_length.py:219`.) -/
def keepThreads (o : UOut) (mv n : Nat) : List (Prog (Cell K) Unit) := (List.range n).map (keepTask o mv)

/-- The end of the univariate functions (`_univariate_same_length.py:223-229`, `_univariate_variable_length.py:253-259`):
selection by `mask_values`, buffer `mv`. -/
def uEndMem (P : UShp K) (o : UOut) (mv : Nat) : Prog (Cell K) (UShp K) := do
  let n := P.lengths.length
  let mask ← collect (List.range n) fun i => loadFlag mv i
  let values ← collect (List.range n) fun i => collect (List.range o.width) fun j => loadNum o.values (i * o.width + j)
  let threshold ← collect (List.range n) fun i => loadNum o.threshold i
  pure
    { values := compress mask values
      lengths := compress mask P.lengths
      dilations := compress mask P.dilations
      threshold := compress mask threshold
      normalize := compress mask P.normalize }

/-- The end of the multivariate functions (`_multivariate_same_length.py:263-292`,
`_multivariate_variable_length.py:294-323`). -/
def mEndMem (P : MShp K) (o : MOut) : Prog (Cell K) (MShp K) := do
  let mr ← collect (List.range P.lengths.length) fun i => loadFlag o.maskReturn i
  let values ← collect (List.range o.nValues) fun i => loadNum o.values i
  let ids ← collect (List.range o.nIds) fun i => loadNat o.channelIds i
  let threshold ← collect (List.range P.lengths.length) fun i => loadNum o.threshold i
  .ret (mFinish P ⟨values, ids, threshold, mr⟩)

end Convst.Mem
