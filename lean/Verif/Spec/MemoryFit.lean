import Verif.Model.MemoryFit
import Verif.Spec.Memory

/-!
# What is expected of `fit` at the level of memory

Vocabulary for C112.
-/

set_option autoImplicit false

namespace Convst.Spec
open Mem

/-- Whatever the order in which the threads of `c` perform their memory operations: the execution ends, no thread fails
or accesses an element outside of an array, some thread can go on as long as not all have finished, the buffers of `h0`
are the same at every moment, and when all threads have finished the memory is `h'`. -/
structure EndsIn {C : Type} [Zero C] (h0 : Heap C) (c : Conf C) (h' : Heap C) : Prop where
  terminates : Terminates c
  noCrash : ∀ c', Reaches c c' → ¬ Crashed c'
  live : ∀ c', Reaches c c' → AllDone c' ∨ ∃ c'', Conf.Step c' c''
  unchanged : ∀ c', Reaches c c' → Unchanged h0 c'.heap
  result : ∀ c', Reaches c c' → AllDone c' → c'.heap = h'

/-- The arguments `b`, whose series are in the memory `h`, are the arguments `a`. -/
structure FitHeld {K L : Type} (h : Heap (Cell K)) (b : FitIn K L) (a : FitArgs K L) : Prop where
  samples : b.X.length = a.X.length
  series : ∀ (s c t : Nat) (v : View) (x : List (List K)) (row : List K) (e : K), b.X[s]? = some v →
    a.X[s]? = some x → x[c]? = some row → row[t]? = some e → h.get v.addr (v.pos c t) = some (.num e)
  nf : b.nf = a.nf
  nt : b.nt = a.nt
  y : b.y = a.y
  nShp : b.nShp = a.nShp
  sizes : b.sizes = a.sizes
  pNorm : b.pNorm = a.pNorm
  pMin : b.pMin = a.pMin
  pMax : b.pMax = a.pMax
  alpha : b.alpha = a.alpha
  phase : b.phase = a.phase
  prime : b.prime = a.prime

/-- `workers` execute every one of the iterations `0 .. n-1` once. -/
def Divides {G : Type} (workers : List (List Nat × G)) (n : Nat) : Prop :=
  (workers.flatMap Prod.fst).Perm (List.range n)

/-- The generator of a worker passes from one of its iterations to the next: the first iteration starts with the state
the worker was given, every other one with the state the iteration before it left.  `gs i` is the state in which
iteration `i` starts, `next i g g'` tells that iteration `i` started with `g` leaves `g'`. -/
structure PassesOn {G : Type} (next : Nat → G → G → Prop) (workers : List (List Nat × G)) (gs : Nat → G) : Prop where
  first : ∀ w ∈ workers, ∀ i ∈ w.1.head?, gs i = w.2
  later : ∀ w ∈ workers, ∀ pre i j post, w.1 = pre ++ i :: j :: post → next i (gs i) (gs j)

section
variable {G K L : Type} [Gen G K] [Scalar K] [DecidableEq L]

/-- Iteration `i` of the loop over dilations of `U_SL_generate_shapelet`, executed alone with the generator in state
`g`, leaves it in state `g'`. -/
def UslLeaves (a : FitArgs K L) (P : UShp K) (i : Nat) (g g' : G) : Prop :=
  ∃ st, fitGroup P.lengths P.dilations (uslStep a P.lengths P.dilations P.normalize) (uWrite P.lengths)
    (fun _ _ _ _ _ => true, (P.values, P.threshold)) i g = .ok (st, g')

/-- The same for `U_VL_generate_shapelet`. -/
def UvlLeaves (a : FitArgs K L) (xLen : List Nat) (P : UShp K) (i : Nat) (g g' : G) : Prop :=
  ∃ maxLen st, nmax xLen = .ok maxLen ∧
    fitGroup P.lengths P.dilations (uvlStep a xLen maxLen P.lengths P.dilations P.normalize) (uWrite P.lengths)
      (fun _ _ s _ t => decide (t < xLen.getD s 0), (P.values, P.threshold)) i g = .ok (st, g')

/-- The same for `M_SL_generate_shapelet`. -/
def MslLeaves (a : FitArgs K L) (P : MShp K) (i : Nat) (g g' : G) : Prop :=
  ∃ st, fitGroup P.lengths P.dilations (mslStep a P.lengths P.dilations P.normalize P.nChannels)
    (mWrite (offValues P.nChannels P.lengths) (offChannels P.nChannels))
    (fun _ _ _ _ _ => true, mArr0 P a.nShp) i g = .ok (st, g')

/-- The same for `M_VL_generate_shapelet`. -/
def MvlLeaves (a : FitArgs K L) (xLen : List Nat) (P : MShp K) (i : Nat) (g g' : G) : Prop :=
  ∃ maxLen st, nmax xLen = .ok maxLen ∧
    fitGroup P.lengths P.dilations (mvlStep a xLen maxLen P.lengths P.dilations P.normalize P.nChannels)
      (mWrite (offValues P.nChannels P.lengths) (offChannels P.nChannels))
      (fun _ _ s _ t => decide (t < xLen.getD s 0), mArr0 P a.nShp) i g = .ok (st, g')

/-- Whatever the order in which the threads perform their memory operations, a univariate call that has arrived at its
parallel loop over dilations, with memory `h1` and threads `threads`, returns `S`, and the arrays of the caller (`h`)
are the same at every moment. -/
def UEnds (h : Heap (Cell K)) (nShp : Nat) (P : UShp K) (o : UOut) (h1 : Heap (Cell K))
    (threads : List (Prog (Cell K) Unit)) (S : UShp K) : Prop :=
  ∃ h2 h3, EndsIn h ⟨h1, threads⟩ h2 ∧
    EndsIn h ⟨h2.add (List.replicate nShp (.flag true)), keepThreads o h2.bufs.length nShp⟩ h3 ∧
    ((uEndMem P o h2.bufs.length).run h3).2 = .ok S

/-- The same for a multivariate call. -/
def MEnds (h : Heap (Cell K)) (P : MShp K) (o : MOut) (h1 : Heap (Cell K)) (threads : List (Prog (Cell K) Unit))
    (S : MShp K) : Prop :=
  ∃ h2, EndsIn h ⟨h1, threads⟩ h2 ∧ ((mEndMem P o).run h2).2 = .ok S

/-- `U_SL_generate_shapelet`, called in memory `h` and having drawn the parameters `P`, returns `S`, whatever the order
in which its threads perform their memory operations; `workers n` tells how `n` iterations are given to workers. -/
def UslReturns (h : Heap (Cell K)) (b : FitIn K L) (P : UShp K) (workers : Nat → List (List Nat × G)) (S : UShp K) :
    Prop :=
  let A := uAlloc h P b.X.length b.nt
  UEnds h b.nShp P A.2.1 A.1 (uslThreads b P A.2.1 A.2.2 (workers A.2.2.nDil)) S

/-- `U_VL_generate_shapelet`. -/
def UvlReturns (h : Heap (Cell K)) (b : FitIn K L) (xLen : List Nat) (P : UShp K)
    (workers : Nat → List (List Nat × G)) (S : UShp K) : Prop :=
  ∃ maxLen, nmax xLen = .ok maxLen ∧
    let A := uAlloc h P b.X.length maxLen
    ∃ h1, EndsIn h ⟨A.1, uvlFill A.2.2 xLen⟩ h1 ∧
      UEnds h b.nShp P A.2.1 h1 (uvlThreads b xLen P A.2.1 A.2.2 (workers A.2.2.nDil)) S

/-- `M_SL_generate_shapelet`. -/
def MslReturns (h : Heap (Cell K)) (b : FitIn K L) (P : MShp K) (workers : Nat → List (List Nat × G)) (S : MShp K) :
    Prop :=
  let A := mAlloc h P b.nShp b.X.length b.nf b.nt
  MEnds h P A.2.1 A.1 (mslThreads b P A.2.1 A.2.2 (workers A.2.2.nDil)) S

/-- `M_VL_generate_shapelet`. -/
def MvlReturns (h : Heap (Cell K)) (b : FitIn K L) (xLen : List Nat) (P : MShp K)
    (workers : Nat → List (List Nat × G)) (S : MShp K) : Prop :=
  ∃ maxLen, nmax xLen = .ok maxLen ∧
    let A := mAlloc h P b.nShp b.X.length b.nf maxLen
    ∃ h1, EndsIn h ⟨A.1, mvlFill A.2.2 xLen⟩ h1 ∧
      MEnds h P A.2.1 h1 (mvlThreads b xLen P A.2.1 A.2.2 (workers A.2.2.nDil)) S

end

end Convst.Spec
