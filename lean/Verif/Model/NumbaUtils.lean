import Verif.Model.Commons

/-!
# Model of `convst/utils/numba_utils.py`

2D arrays are lists of rows.  Entries are taken in any type with a decidable order and equality
(NaN, for which comparison is not an order, is not modelled).
-/

set_option autoImplicit false

namespace Convst

/-- `numba_utils.py:19-25` (`_np_all_axis0`): conjunction of the rows. -/
def npAllAxis0 (arr : List (List Bool)) : Res (List Bool) := do
  let r0 ← aget arr 0
  let r1 ← aget arr 1
  let out := List.zipWith (fun a b => a && b) r0 r1
  (arr.drop 2).foldlM (init := out) fun out v =>
    (List.range v.length).foldlM (init := out) fun out idx => do
      let v2 ← aget v idx
      let o ← aget out idx
      aset out idx (v2 && o)

/-- `numba_utils.py:32-38` (`_np_all_axis1`): conjunction of the columns. -/
def npAllAxis1 (arr : List (List Bool)) : Res (List Bool) := do
  let out ← arr.mapM fun r => do
    let a ← aget r 0
    let b ← aget r 1
    pure (a && b)
  (List.range arr.length).foldlM (init := out) fun out idx => do
    let r ← aget arr idx
    (r.drop 2).foldlM (init := out) fun out v2 => do
      let o ← aget out idx
      aset out idx (v2 && o)

variable {α : Type} [LinearOrder α]

/-- `keys.argsort(kind="mergesort")`: the stable sorting permutation.  (`numba_utils.py:114`.) -/
def argsortStable (keys : List α) : List Nat :=
  (keys.zipIdx.mergeSort fun p q => decide (p.1 ≤ q.1)).map Prod.snd

/-- `a[ids]` for an array of indices, in compiled code.  (`numba_utils.py:117-118`.) -/
def gather {β : Type} (a : List β) (ids : List Nat) : Res (List β) := ids.mapM (aget a)

/-- `input_data.T`; `c` is the number of columns.  (`numba_utils.py:104`.) -/
def transposeM (data : List (List α)) (c : Nat) : Res (List (List α)) :=
  (List.range c).mapM fun j => data.mapM fun r => aget r j

/-- `np.nonzero(m)[0]` of a 2D boolean array: the row of every true cell, in row-major order.
(`numba_utils.py:124`.) -/
def nonzeroRows (m : List (List Bool)) : List Nat :=
  (m.zipIdx).flatMap fun (r, i) => (r.filter id).map fun _ => i

/-- `numba_utils.py:103-107`: the array whose rows are compared, with its number of columns. -/
def orient (input : List (List α)) (c : Nat) (axis : Nat) : Res (List (List α) × Nat) :=
  if axis = 1 then do
    let t ← transposeM input c
    pure (t, input.length)
  else pure (input, c)

/-- `numba_utils.py:113-118`: the body of the sorting loop. -/
def sortByColumn (st : List (List α) × List Nat) (i : Nat) : Res (List (List α) × List Nat) := do
  let key ← st.1.mapM fun r => aget r i
  let sorter := argsortStable key
  let data' ← gather st.1 sorter
  let origIdx' ← gather st.2 sorter
  pure (data', origIdx')

/-- `data[:-1] == data[1:]`.  (`numba_utils.py:123`.) -/
def eqRows (D : List (List α)) : List (List Bool) :=
  List.zipWith (fun r s => List.zipWith (fun a b => decide (a = b)) r s) D.dropLast (D.drop 1)

/-- `numba_utils.py:122-127`: `additional_uniques`. -/
def additionalUniques (data : List (List α)) (cols : Nat) : Res (List Nat) :=
  if cols > 1 then do
    let all ← npAllAxis1 (eqRows data)
    pure ((whereIdx all.length fun i => all[i]? == some false).map (· + 1))
  else
    pure ((nonzeroRows ((eqRows data).map fun r => r.map (!·))).map (· + 1))

/-- `numba_utils.py:83-133` (`nb_unique`).  `c` is the number of columns of the array. Returns the unique
rows (columns for `axis = 1`), their first positions and their multiplicities. -/
def nbUnique (input : List (List α)) (c : Nat) (axis : Nat) :
    Res (List (List α) × List Nat × List Nat) := do
  let d ← orient input c axis
  let st ← ((List.range d.2).reverse).foldlM sortByColumn (d.1, List.range d.1.length)
  let additional ← additionalUniques st.1 d.2
  let idx := 0 :: additional
  let counts := List.zipWith (· - ·) (idx.drop 1 ++ [st.1.length]) idx
  let rows ← gather st.1 idx
  let ids ← gather st.2 idx
  pure (rows, ids, counts)

end Convst
