import Verif.Model.Prelude

/-!
# Model of `convst/transformers/_commons.py`

Series are lists, window matrices are lists of rows.
Loops `for i in prange(n)` over independent array cells are modelled by `mapM` over `List.range n`;
loops accumulating a scalar by `foldlM`.
-/

set_option autoImplicit false

namespace Convst
variable {K : Type} [Scalar K]

/-! ## Distance functions -/

/-- `_commons.py:22-26`. -/
def euclidean (x y : List K) : Res K := do
  let s ← (List.range x.length).foldlM (init := (0 : K)) fun s i => do
    let a ← aget x i
    let b ← aget y i
    pure (s + (a - b) * (a - b))
  pure (Scalar.sqrt s)

/-- `_commons.py:31-35`. -/
def squaredEuclidean (x y : List K) : Res K :=
  (List.range x.length).foldlM (init := (0 : K)) fun s i => do
    let a ← aget x i
    let b ← aget y i
    pure (s + (a - b) * (a - b))

/-- `_commons.py:40-44`. -/
def manhattan (x y : List K) : Res K :=
  (List.range x.length).foldlM (init := (0 : K)) fun s i => do
    let a ← aget x i
    let b ← aget y i
    pure (s + Scalar.abs (a - b))

/-! ## Subsequence extraction -/

/-- `_commons.py:75-100` (`_generate_strides_1D`). -/
def strides1DPlain (x : List K) (w d : Nat) : Res (List (List K)) := do
  let n ← dim ((x.length : Int) - ((w : Int) - 1) * d)
  (List.range n).mapM fun i => (List.range w).mapM fun j => aget x (i + j * d)

/-- `_commons.py:139-163` (`_generate_strides_1D_phase`). -/
def strides1DPhase (x : List K) (w d : Nat) : Res (List (List K)) :=
  let n := x.length
  (List.range n).mapM fun i => (List.range w).mapM fun j => aget x ((i + j * d) % n)

/-- `_commons.py:55-59` (`generate_strides_1D`). -/
def generateStrides1D (x : List K) (w d : Nat) (usePhase : Bool) : Res (List (List K)) :=
  if usePhase then strides1DPhase x w d else strides1DPlain x w d

/-- A 3D array of windows `(n_features, n_windows, window_size)`; the second dimension is kept
explicitly because it is needed even when there is no channel.  (`_commons.py:128`, `:190`.) -/
structure Strides2D (K : Type) where
  nCand : Nat
  rows : List (List (List K))

/-- `_commons.py:106-133` (`_generate_strides_2D`).  The 2D input is a list of rows with its
second dimension `nt`. -/
def strides2DPlain (X : List (List K)) (nt : Nat) (w d : Nat) : Res (Strides2D K) := do
  let n ← dim ((nt : Int) - ((w : Int) - 1) * d)
  let rows ← X.mapM fun x =>
    (List.range n).mapM fun i => (List.range w).mapM fun j => aget x (i + j * d)
  pure ⟨n, rows⟩

/-- `_commons.py:169-195` (`_generate_strides_2D_phase`). -/
def strides2DPhase (X : List (List K)) (nt : Nat) (w d : Nat) : Res (Strides2D K) := do
  let rows ← X.mapM fun x =>
    (List.range nt).mapM fun i => (List.range w).mapM fun j => aget x ((i + j * d) % nt)
  pure ⟨nt, rows⟩

/-- `_commons.py:65-69` (`generate_strides_2D`). -/
def generateStrides2D (X : List (List K)) (nt : Nat) (w d : Nat) (usePhase : Bool) :
    Res (Strides2D K) :=
  if usePhase then strides2DPhase X nt w d else strides2DPlain X nt w d

/-- The reading loop of `_commons.py:239-244` and `:277-283`: `length` values are read at a running
index that is advanced by `step` after each read. -/
def readRun (x : List K) (step : Nat → Nat) : Nat → Nat → Res (List K)
  | 0, _ => .ok []
  | length + 1, idx => do
    let v ← aget x idx
    let vs ← readRun x step length (step idx)
    pure (v :: vs)

/-- `_commons.py:215-248` (`_get_subsequence`). -/
def getSubsequencePlain (x : List K) (iStart length d : Nat) (normalize : Bool) : Res (List K) := do
  let v ← readRun x (fun idx => idx + d) length iStart
  pure (if normalize then znorm v else v)

/-- `_commons.py:254-289` (`_get_subsequence_phase`). -/
def getSubsequencePhase (x : List K) (iStart length d : Nat) (normalize : Bool) : Res (List K) := do
  let nts := x.length
  let v ← readRun x (fun idx => (idx + d) % nts) length iStart
  pure (if normalize then znorm v else v)

/-- `_commons.py:201-209` (`get_subsequence`). -/
def getSubsequence (x : List K) (index length d : Nat) (normalize usePhase : Bool) : Res (List K) :=
  if usePhase then getSubsequencePhase x index length d normalize
  else getSubsequencePlain x index length d normalize

/-! ## Distance vectors -/

/-- `_commons.py:327-357` (`_compute_shapelet_dist_vector`). -/
def distVectorPlain (x values : List K) (length dilation : Nat) : Res (List K) := do
  let c ← strides1DPlain x length dilation
  c.mapM fun w => manhattan w values

/-- `_commons.py:363-394` (`_compute_shapelet_dist_vector_norm`). -/
def distVectorNorm (x values : List K) (length dilation : Nat) : Res (List K) := do
  let c ← strides1DPlain x length dilation
  c.mapM fun w => manhattan (znorm w) values

/-- `_commons.py:400-430` (`_compute_shapelet_dist_vector_phase`). -/
def distVectorPhase (x values : List K) (length dilation : Nat) : Res (List K) := do
  let c ← strides1DPhase x length dilation
  c.mapM fun w => manhattan w values

/-- `_commons.py:436-467` (`_compute_shapelet_dist_vector_norm_phase`). -/
def distVectorNormPhase (x values : List K) (length dilation : Nat) : Res (List K) := do
  let c ← strides1DPhase x length dilation
  c.mapM fun w => manhattan (znorm w) values

/-- `_commons.py:301-321` (`compute_shapelet_dist_vector`). -/
def computeShapeletDistVector (x values : List K) (length dilation : Nat)
    (normalize usePhase : Bool) : Res (List K) :=
  if normalize && usePhase then distVectorNormPhase x values length dilation
  else if normalize && !usePhase then distVectorNorm x values length dilation
  else if !normalize && usePhase then distVectorPhase x values length dilation
  else if !normalize && !usePhase then distVectorPlain x values length dilation
  else .error .valueError

/-! ## Feature extraction -/

/-- The three features written to the output for one (series, shapelet) pair; already converted to
floats (`float_`).  (`_commons.py:520`, `:574`.) -/
abbrev Feat (K : Type) := K × K × K

/-- Running state `(_min, _argmin, _n_match)` of `_commons.py:505-518`. -/
abbrev FeatAcc (K : Type) := K × Nat × Nat

/-- Body of the loop `_commons.py:510-518` / `:561-572` once the distance is known. -/
def featStep (threshold : K) (acc : FeatAcc K) (i : Nat) (dist : K) : FeatAcc K :=
  let (mn, am, nm) := acc
  let (mn', am') := if Scalar.ltb dist mn || Scalar.eqb mn (-1) then (dist, i) else (mn, am)
  let nm' := if Scalar.leb dist threshold then nm + 1 else nm
  (mn', am', nm')

/-- Initial state `_n_match = 0, _min = -1., _argmin = 0` (`_commons.py:505-507`, `:556-558`). -/
def featInit : FeatAcc K := (-1, 0, 0)

/-- The returned tuple `_min, float_(_argmin), float_(_n_match)` (`_commons.py:520`, `:574`). -/
def featOut (acc : FeatAcc K) : Feat K := (acc.1, Scalar.ofNat acc.2.1, Scalar.ofNat acc.2.2)

/-- `_commons.py:474-520` (`apply_one_shapelet_one_sample_univariate`).
`strides` is the window matrix. -/
def applyOneUni (strides : List (List K)) (values : List K) (threshold : K) : Res (Feat K) := do
  let acc ← (List.range strides.length).foldlM (init := featInit) fun acc i => do
    let w ← aget strides i
    let dist ← manhattan w values
    pure (featStep threshold acc i dist)
  pure (featOut acc)

/-- `_commons.py:526-574` (`apply_one_shapelet_one_sample_multivariate`).
`strides.rows[ft][i]` is window `i` of channel `ft`. -/
def applyOneMulti (strides : Strides2D K) (values : List (List K)) (threshold : K) :
    Res (Feat K) := do
  let acc ← (List.range strides.nCand).foldlM (init := featInit) fun acc i => do
    let dist ← (List.range strides.rows.length).foldlM (init := (0 : K)) fun s ft => do
      let ch ← aget strides.rows ft
      let w ← aget ch i
      let v ← aget values ft
      let m ← manhattan w v
      pure (s + m)
    pure (featStep threshold acc i dist)
  pure (featOut acc)

/-! ## Small integer helpers -/

/-- `numpy.unique(x)` on a 1D integer array: sorted distinct values.  (`_commons.py:601-602`,
`_univariate_same_length.py:150`.) -/
def uniqueSorted (x : List Nat) : List Nat := (x.mergeSort (· ≤ ·)).dedup

/-- `where(u == v)[0][0]` in compiled code.  (`_commons.py:606`.) -/
def firstEq (u : List Nat) (v : Nat) : Res Nat := do
  aget (whereIdx u.length fun i => u[i]? == some v) 0

/-- `m[i, j]` on a 2D array in compiled code.  (`_commons.py:610`.) -/
def aget2 {α : Type} (m : List (List α)) (i j : Nat) : Res α := do
  let r ← aget m i
  aget r j

/-- `m[i, j] = v` on a 2D array in compiled code.  (`_commons.py:606`, `:613`.) -/
def aset2 {α : Type} (m : List (List α)) (i j : Nat) (v : α) : Res (List (List α)) := do
  let r ← aget m i
  let r' ← aset r j v
  aset m i r'

/-- `m.sum()` of a boolean matrix.  (`_commons.py:607`.) -/
def countTrue (m : List (List Bool)) : Nat := (m.map fun r => r.count true).sum

/-- `_commons.py:581-615` (`_combinations_1d`).  The two integer columns of the result are kept as
a list of pairs. -/
def combinations1d (x y : List Nat) : Res (List (Nat × Nat)) := do
  let ux := uniqueSorted x
  let uy := uniqueSorted y
  let mask0 := List.replicate ux.length (List.replicate uy.length false)
  let mask1 ← (List.range x.length).foldlM (init := mask0) fun m i => do
    let xi ← aget x i
    let yi ← aget y i
    let p ← firstEq ux xi
    let q ← firstEq uy yi
    aset2 m p q true
  let comb0 := List.replicate (countTrue mask1) ((0 : Nat), (0 : Nat))
  let (_, comb, _) ← (List.range x.length).foldlM (init := (mask1, comb0, 0))
    fun (m, comb, ic) i => do
      let xi ← aget x i
      let yi ← aget y i
      let p ← firstEq ux xi
      let q ← firstEq uy yi
      let b ← aget2 m p q
      if b then
        let comb' ← aset comb ic (xi, yi)
        let m' ← aset2 m p q false
        pure (m', comb', ic + 1)
      else
        pure (m, comb, ic)
  pure comb

/-- `_commons.py:630-636` (`is_prime`).  `int64(sqrt(n))` is modelled by the integer square root
(exact for every integer below 2^52). -/
def isPrime (n : Nat) : Bool :=
  if (n % 2 == 0 && decide (n > 2)) || n == 0 then false
  else (List.range' 3 ((Nat.sqrt n + 1 - 3 + 1) / 2) 2).all fun i => !(n % i == 0)

/-- `_commons.py:620-624` (`prime_up_to`). -/
def primeUpTo (n : Nat) : List Nat := whereIdx (n + 1) isPrime

end Convst
