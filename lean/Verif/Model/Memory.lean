import Verif.Model.Rdst

/-!
# `transform` at the level of memory

The other files model arrays as values.  Here arrays live in a memory shared by the caller, the fitted model and the
threads of the parallel loop, so that it can be asked which arrays are written and what happens when the memory
operations of the threads are interleaved.

A program is a tree of memory operations (`Prog`).  Every iteration `(i_sample, i_shp_param)` of the double `prange`
loop is a thread of its own (`Conf`, `Conf.Step`); the executions of numba, which gives each worker a block of
iterations to run one after the other, are among those considered here.

Simplifications: all buffers contain scalars; the integer and boolean arrays of the shapelets, the grouping of the
shapelets and the shapes are values, as in `Model/Apply.lean`; temporaries that are read only by the expression that
makes them (`_str - mean(_str)`, `strides[_channels]`, the arguments of `apply_one_shapelet_one_sample_*`) are lists
read from the memory when the expression is evaluated.  Freeing memory is not modelled.
-/

set_option autoImplicit false

namespace Convst.Mem
variable {K : Type}

/-- The memory: the buffers allocated so far, buffer `a` being the `a`-th allocated.
(`_univariate_same_length.py:293`.) -/
structure Heap (K : Type) where
  bufs : List (List K)

/-- The element `i` of buffer `a`, if there is one.  (`_commons.py:99`.) -/
def Heap.get (h : Heap K) (a i : Nat) : Option K := (h.bufs[a]?).bind fun b => b[i]?

/-- The memory after writing `v` to element `i` of buffer `a`, if there is such an element.
(`_commons.py:99`.) -/
def Heap.set (h : Heap K) (a i : Nat) (v : K) : Option (Heap K) :=
  match h.bufs[a]? with
  | some b => if i < b.length then some ⟨h.bufs.set a (b.set i v)⟩ else none
  | none => none

/-- The memory with one more buffer of `n` zeros (`numpy.zeros`).  (`_commons.py:96`.) -/
def Heap.push [Zero K] (h : Heap K) (n : Nat) : Heap K := ⟨h.bufs ++ [List.replicate n 0]⟩

/-- Programs: what a thread still has to do.  `ret` is the end of the computation, successful or not.
(What a thread does in `_univariate_same_length.py:294-329`, one array access at a time.) -/
inductive Prog (K α : Type)
  | ret (r : Res α)
  | alloc (n : Nat) (k : Nat → Prog K α)
  | read (a i : Nat) (k : K → Prog K α)
  | write (a i : Nat) (v : K) (k : Prog K α)

/-- One program after the other.  (What a thread does in `_univariate_same_length.py:294-329`, one array
access at a time.) -/
def Prog.bind {α β : Type} : Prog K α → (α → Prog K β) → Prog K β
  | .ret (.ok a), f => f a
  | .ret (.error e), _ => .ret (.error e)
  | .alloc n k, f => .alloc n fun a => (k a).bind f
  | .read a i k, f => .read a i fun v => (k v).bind f
  | .write a i v k, f => .write a i v (k.bind f)

instance : Monad (Prog K) where
  pure a := .ret (.ok a)
  bind := Prog.bind

/-- One memory operation; an access outside a buffer ends the program with `oob`.  (What a thread does in
`_univariate_same_length.py:294-329`, one array access at a time.) -/
def Prog.step [Zero K] {α : Type} (h : Heap K) : Prog K α → Option (Heap K × Prog K α)
  | .ret _ => none
  | .alloc n k => some (h.push n, k h.bufs.length)
  | .read a i k =>
    match h.get a i with
    | some v => some (h, k v)
    | none => some (h, .ret (.error .oob))
  | .write a i v k =>
    match h.set a i v with
    | some h' => some (h', k)
    | none => some (h, .ret (.error .oob))

/-- Sequential execution.  (What a thread does in `_univariate_same_length.py:294-329`, one array access at
a time.) -/
def Prog.run [Zero K] {α : Type} (h : Heap K) : Prog K α → Heap K × Res α
  | .ret r => (h, r)
  | .alloc n k => (k h.bufs.length).run (h.push n)
  | .read a i k =>
    match h.get a i with
    | some v => (k v).run h
    | none => (h, .error .oob)
  | .write a i v k =>
    match h.set a i v with
    | some h' => k.run h'
    | none => (h, .error .oob)

/-- A memory and the threads working on it.  (The loops whose iterations run concurrently are
`_univariate_same_length.py:294-296` and the same of the other kernels.) -/
structure Conf (K : Type) where
  heap : Heap K
  threads : List (Prog K Unit)

/-- One of the threads performs one memory operation.  (The loops whose iterations run concurrently are
`_univariate_same_length.py:294-296` and the same of the other kernels.) -/
inductive Conf.Step [Zero K] : Conf K → Conf K → Prop
  | mk {h h' : Heap K} {ts : List (Prog K Unit)} {i : Nat} {p p' : Prog K Unit} (hi : ts[i]? = some p)
      (hs : p.step h = some (h', p')) : Conf.Step ⟨h, ts⟩ ⟨h', ts.set i p'⟩

/-! ## Operations on arrays -/

/-- `zeros(n)`: the address of a new buffer.  (`_commons.py:96`.) -/
def zeros (n : Nat) : Prog K Nat := .alloc n fun a => .ret (.ok a)

/-- Read one element.  (`_commons.py:99`.) -/
def load (a i : Nat) : Prog K K := .read a i fun v => .ret (.ok v)

/-- Write one element.  (`_commons.py:99`.) -/
def store (a i : Nat) (v : K) : Prog K Unit := .write a i v (.ret (.ok ()))

/-- A sequential loop.  (`_univariate_same_length.py:307`.) -/
def forEach {ι : Type} : List ι → (ι → Prog K Unit) → Prog K Unit
  | [], _ => pure ()
  | x :: xs, f => do
    f x
    forEach xs f

/-- A loop collecting results.  (`_univariate_same_length.py:312-314`.) -/
def collect {ι β : Type} : List ι → (ι → Prog K β) → Prog K (List β)
  | [], _ => pure []
  | x :: xs, f => do
    let y ← f x
    let ys ← collect xs f
    pure (y :: ys)

/-- Read `n` consecutive elements.  (`_univariate_same_length.py:319`.) -/
def loadRow (a off : Nat) : Nat → Prog K (List K)
  | 0 => pure []
  | n + 1 => do
    let v ← load a off
    let vs ← loadRow a (off + 1) n
    pure (v :: vs)

/-- Write consecutive elements.  (`_univariate_same_length.py:320`.) -/
def storeRow (a off : Nat) : List K → Prog K Unit
  | [] => pure ()
  | v :: vs => do
    store a off v
    storeRow a (off + 1) vs

section
variable [Scalar K]

/-! ## Windows -/

/-- A window array `(nf, n, w)` in memory, C-contiguous (`nf = 1` for the univariate kernels).
(`_commons.py:128`.) -/
structure Win where
  addr : Nat
  nf : Nat
  n : Nat
  w : Nat

/-- `generate_strides_1D` and `generate_strides_2D` (`_commons.py:55-195`) on a slice of a C-contiguous array:
channel `c` starts at `off + c * pitch` of buffer `a` and has `len` points. -/
def strides (a off pitch nf len w d : Nat) (phase : Bool) : Prog K Win := do
  let n ← .ret (if phase then .ok len else dim ((len : Int) - ((w : Int) - 1) * d))
  let b ← zeros (nf * n * w)
  forEach (List.range nf) fun c => forEach (List.range n) fun i => forEach (List.range w) fun j => do
    let v ← load a (off + c * pitch + if phase then (i + j * d) % len else i + j * d)
    store b ((c * n + i) * w + j) v
  pure ⟨b, nf, n, w⟩

/-- The in-place normalisation of the windows (`_univariate_same_length.py:318-320`,
`_univariate_variable_length.py:350-352`, `_multivariate_same_length.py:391-395`,
`_multivariate_variable_length.py:422-426`). -/
def normaliseWin (s : Win) : Prog K Unit :=
  forEach (List.range s.nf) fun c => forEach (List.range s.n) fun i => do
    let r ← loadRow s.addr ((c * s.n + i) * s.w) s.w
    storeRow s.addr ((c * s.n + i) * s.w) (znorm r)

/-- The windows of channel `c`.  (`_multivariate_same_length.py:385`.) -/
def readChannel (s : Win) (c : Nat) : Prog K (List (List K)) :=
  collect (List.range s.n) fun i => loadRow s.addr ((c * s.n + i) * s.w) s.w

/-! ## Shapelets -/

/-- The arrays of the univariate shapelets: `values`, of shape `(n_shapelets, width)`, and `threshold` are
in
memory.  (`_univariate_same_length.py:267`.) -/
structure UArr where
  values : Nat
  width : Nat
  threshold : Nat
  lengths : List Nat
  dilations : List Nat
  normalize : List Bool

/-- The arrays of the multivariate shapelets: `values`, of shape `(size,)`, and `threshold` are in memory.
(`_multivariate_same_length.py:329-330`.) -/
structure MArr where
  values : Nat
  size : Nat
  threshold : Nat
  lengths : List Nat
  dilations : List Nat
  normalize : List Bool
  nChannels : List Nat
  channelIds : List Nat

/-- Features of shapelet `k` of the univariate kernels (`_univariate_same_length.py:308-314`, `:323-329`,
`_univariate_variable_length.py:340-346`, `:355-361`). -/
def uFeatureMem (S : UArr) (s : Win) (l k : Nat) : Prog K (Feat K) := do
  let v ← loadRow S.values (k * S.width) (min l S.width)
  let t ← load S.threshold k
  let rows ← readChannel s 0
  .ret (applyOneUni rows v t)

/-- Features of shapelet `k` of the multivariate kernels (`_multivariate_same_length.py:377-386`, `:398-407`,
`_multivariate_variable_length.py:408-417`, `:429-438`). -/
def mFeatureMem (S : MArr) (s : Win) (l k : Nat) : Prog K (Feat K) := do
  let c0 ← .ret (aget (offChannels S.nChannels) k)
  let c1 ← .ret (aget (offChannels S.nChannels) (k + 1))
  let v0 ← .ret (aget (offValues S.nChannels S.lengths) k)
  let v1 ← .ret (aget (offValues S.nChannels S.lengths) (k + 1))
  let flat ← loadRow S.values v0 (min (v1 - v0) (S.size - v0))
  let nc ← .ret (aget S.nChannels k)
  let values ← .ret (reshape flat nc l)
  let t ← load S.threshold k
  let rows ← collect (slice S.channelIds c0 c1) fun c => readChannel s c
  .ret (applyOneMulti ⟨s.n, rows⟩ values t)

/-! ## One iteration -/

/-- The parts in which the kernels differ.  (`_univariate_same_length.py:294-329`.) -/
structure MemKernel (K : Type) where
  windows : Nat → Nat → Nat → Prog K Win
  feature : Win → Nat → Nat → Prog K (Feat K)

/-- `X_new[i_sample, 3*i_shp : 3*i_shp+3] = (a, b, c)`, where the row starts at `base` of buffer `xn`.
(`_univariate_same_length.py:311`.) -/
def storeFeat (xn base k : Nat) (f : Feat K) : Prog K Unit := do
  store xn (base + 3 * k) f.1
  store xn (base + (3 * k + 1)) f.2.1
  store xn (base + (3 * k + 2)) f.2.2

/-- One iteration of the double parallel loop over samples and parameter groups
(`_univariate_same_length.py:297-329`, `_univariate_variable_length.py:330-361`,
`_multivariate_same_length.py:366-407`, `_multivariate_variable_length.py:398-438`); `X_new` is buffer `xn`, with
`cols` columns. -/
def task (kern : MemKernel K) (normalize : List Bool) (g : Groups) (xn cols i ip : Nat) : Prog K Unit := do
  let p ← .ret (aget g.params ip)
  let s ← kern.windows i p.1 p.2
  let lo ← .ret (aget g.cum ip)
  let hi ← .ret (aget g.cum (ip + 1))
  let noNorm ← .ret (selectNorm normalize (slice g.idxShp lo hi) false)
  forEach noNorm fun k => do
    let f ← kern.feature s p.1 k
    storeFeat xn (i * cols) k f
  let yesNorm ← .ret (selectNorm normalize (slice g.idxShp lo hi) true)
  if yesNorm.length > 0 then do
    normaliseWin s
    forEach yesNorm fun k => do
      let f ← kern.feature s p.1 k
      storeFeat xn (i * cols) k f
  else pure ()

/-! ## The call -/

/-- A series given by the caller: an array of shape `(nf, nt)` with any memory layout, element `(c, t)`
being element
`pos c t` of buffer `addr` (slices, transposes and broadcasts of larger arrays included).
(`rdst.py:417-424`.) -/
structure View where
  addr : Nat
  nf : Nat
  nt : Nat
  pos : Nat → Nat → Nat

/-- Copy of the series into a new array of shape `(n_samples, nf, nt)`: `astype(np.float64)` of a 3D array, or
`_format_uneven_timestamps` (`rdst.py:421-425`), where shorter series are followed by zeros.
(NumPy's `astype` may keep another layout; the copy is C-contiguous here.) -/
def copyIn (nf nt : Nat) (xs : List View) : Prog K Nat := do
  let b ← zeros (xs.length * nf * nt)
  forEach xs.zipIdx fun vi => forEach (List.range nf) fun c => forEach (List.range vi.1.nt) fun t => do
    let v ← load vi.1.addr (vi.1.pos c t)
    store b ((vi.2 * nf + c) * nt + t) v
  pure b

/-- `astype(np.float64)` of an array of `size` elements made by `_format_uneven_timestamps`.
(`rdst.py:286`.) -/
def copyFlat (a size : Nat) : Prog K Nat := do
  let b ← zeros size
  forEach (List.range size) fun i => do
    let v ← load a i
    store b i v
  pure b

/-- The arrays of the shapelets of a fitted model.  (`rdst.py:288`.) -/
inductive ShpArr
  | u (S : UArr)
  | m (S : MArr)

/-- `lengths`.  (`_univariate_same_length.py:267`.) -/
def ShpArr.lengths : ShpArr → List Nat
  | .u S => S.lengths
  | .m S => S.lengths

/-- `dilations`.  (`_univariate_same_length.py:267`.) -/
def ShpArr.dilations : ShpArr → List Nat
  | .u S => S.dilations
  | .m S => S.dilations

/-- `normalize`.  (`_univariate_same_length.py:267`.) -/
def ShpArr.normalize : ShpArr → List Bool
  | .u S => S.normalize
  | .m S => S.normalize

/-- The kernel working on the copy `x`, of shape `(_, nf, nt)`; `len i` is the number of points used of
sample `i`:
`X_len[i]` in the kernels for variable lengths, `nt` in the others.  (`rdst.py:355-381`.) -/
def kernelOf (S : ShpArr) (x nf nt : Nat) (len : Nat → Nat) (phase : Bool) : MemKernel K :=
  match S with
  | .u S => ⟨fun i l d => strides x (i * nf * nt) nt 1 (len i) l d phase, uFeatureMem S⟩
  | .m S => ⟨fun i l d => strides x (i * nf * nt) nt nf (len i) l d phase, mFeatureMem S⟩

/-- The test of `rdst.py:284`, which chooses the kernels for series of different lengths. -/
def isVariable (t : TType) : Bool := t == .multiVar || t == .uniVar

/-- `R_DST.transform` (`rdst.py:286-294`) after the checks, which look at shapes only, up to the start of the parallel
loop: the copies of the series `xs`, the grouping of the shapelets and `X_new`.  The result is the state in which the
threads start, and the address of `X_new`, which is returned when all threads have finished.  `variableLen` is the test
of `rdst.py:284`; the copy has the number of channels of the first series and the length of the longest one (which is
the length of all series when `variableLen` does not hold). -/
def start (h : Heap K) (S : ShpArr) (variableLen phase : Bool) (xs : List View) : Res (Conf K × Nat) := do
  let nf := (xs.head?.map View.nf).getD 0
  let nt ← nmax (xs.map View.nt)
  let (h1, r) := Prog.run h (if variableLen then do
      let a ← copyIn nf nt xs
      copyFlat a (xs.length * nf * nt)
    else copyIn nf nt xs)
  let x ← r
  let g ← groupShapelets S.lengths S.dilations
  let xn := h1.bufs.length
  let kern : MemKernel K := kernelOf S x nf nt
    (fun i => if variableLen then (xs[i]?.map View.nt).getD 0 else nt) phase
  let cols := 3 * S.lengths.length
  pure (⟨h1.push (xs.length * cols), (List.range xs.length).flatMap fun i =>
    (List.range (g.cum.length - 1)).map fun ip => task kern S.normalize g xn cols i ip⟩, xn)

/-! ## `z_norm_3D` -/

/-- `dataset_utils.py:14-36` (`z_norm_3D`) on a C-contiguous array of shape `(n, nf, nt)` in buffer `a`: every row is
replaced by its z-normalisation and the array that was given is returned.  `prange` is a sequential loop here, as
`parallel` is not requested. -/
def zNorm3DMem (a n nf nt : Nat) : Prog K Nat := do
  forEach (List.range n) fun i => forEach (List.range nf) fun c => do
    let r ← loadRow a ((i * nf + c) * nt) nt
    storeRow a ((i * nf + c) * nt) (znorm r)
  pure a

end

end Convst.Mem
