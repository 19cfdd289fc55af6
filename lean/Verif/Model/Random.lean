import Verif.Model.Commons

/-!
# Random generators and the random primitives used by `fit`

The pseudo random generator is abstract: a type of states with two primitive draws.  Everything
proved about `fit` holds for every such generator (hence for every seed and every sequence of
outcomes).
-/

set_option autoImplicit false

namespace Convst

/-- A generator with states `G`.  `randint lo hi` models numba's `np.random.randint(lo, hi)` on a
non-empty range, `unit` models `np.random.random()` / `np.random.rand()`.
(`_univariate_same_length.py:142`.) -/
class Gen (G : Type) (K : outParam Type) where
  randint : Nat → Nat → G → Nat × G
  unit : G → K × G

/-- Computations that draw from a generator and may fail.  (`_univariate_same_length.py:142`.) -/
abbrev RM (G α : Type) := StateT G (Except Err) α

variable {G K α : Type}

/-- A computation without draws.  (`_univariate_same_length.py:142`.) -/
def ofRes (r : Res α) : RM G α := fun g =>
  match r with
  | .ok a => .ok (a, g)
  | .error e => .error e

section
variable [Gen G K]

/-- `np.random.randint(lo, hi)`; an empty range raises `ValueError`.  (`_commons.py:647`.) -/
def draw (lo hi : Nat) : RM G Nat := fun g =>
  if lo < hi then .ok (Gen.randint lo hi g) else .error .valueError

/-- `np.random.random()`.  (`_commons.py:647`.) -/
def unitM : RM G K := fun g => .ok (Gen.unit g)

/-- numba's `np.random.choice(a)`: `a[randint(0, len(a))]`.  (`_univariate_same_length.py:175-177`.) -/
def choice1 (a : List α) : RM G α := do
  let j ← draw 0 a.length
  ofRes (aget a j)

/-- numba's `np.random.choice(a, size=n)` (with replacement).  (`_univariate_same_length.py:60`.) -/
def choiceN (a : List α) (n : Nat) : RM G (List α) := (List.range n).mapM fun _ => choice1 a

/-- numba's `np.random.choice(a, k, replace=False)`: a partial Fisher-Yates shuffle of a copy;
`ValueError` when `k > len(a)`.  (`_multivariate_same_length.py:196-198`.) -/
def choiceNoRep (a : List α) (k : Nat) : RM G (List α) := do
  if a.length < k then ofRes (.error .valueError)
  else
    let r ← (List.range k).foldlM (init := (a, ([] : List α))) fun (src, out) i => do
      let j ← draw i a.length
      let v ← ofRes (aget src j)
      let si ← ofRes (aget src i)
      let src' ← ofRes (aset src j si)
      pure (src', out ++ [v])
    pure r.2

variable [Scalar K]

/-- numba's `np.random.uniform(a, b)`: `a + (b - a) * random()`.  (`_univariate_same_length.py:74`.) -/
def uniformM (a b : K) : RM G K := do
  let u ← unitM
  pure (a + (b - a) * u)

/-- The weights `[1/2**log(i) for i in range(1, n+1)]` of `_commons.py:643`. -/
def logWeights (n : Nat) : List K :=
  (List.range n).map fun i => 1 / Scalar.pow2 (Scalar.log (Scalar.ofNat (i + 1)))

/-- `P.cumsum()`.  (`_commons.py:644`.) -/
def scumsum : K → List K → List K
  | _, [] => []
  | acc, a :: l => (acc + a) :: scumsum (acc + a) l

/-- The cumulated, normalised weights `P.cumsum()/P.sum()` of `_commons.py:644`. -/
def logCdf (n : Nat) : List K :=
  (scumsum 0 (logWeights n)).map fun a => a / ssum (logWeights (K := K) n)

/-- `where(P >= u)[0][0]` (`_commons.py:647`): the first index whose cumulated weight reaches `u`. -/
def firstGe (P : List K) (u : K) : Res Nat :=
  aget (whereIdx P.length fun i => P[i]?.any fun p => Scalar.leb u p) 0

/-- `_commons.py:641-650` (`choice_log`). -/
def choiceLog (nChoice nSample : Nat) : RM G (List Nat) :=
  if nChoice > 1 then
    (List.range nSample).mapM fun _ => do
      let u ← unitM
      ofRes (firstGe (logCdf nChoice) u)
  else pure (List.replicate nSample 0)

end

section
variable [Scalar K]

/-- `sorted(a)`.  (`_univariate_same_length.py:212`.) -/
def ssort (a : List K) : List K := a.mergeSort fun x y => Scalar.leb x y

/-- `np.max(a)` on floats; `ValueError` on an empty array.  (`_univariate_same_length.py:64`.) -/
def smax : List K → Res K
  | [] => .error .valueError
  | a :: l => .ok (l.foldl (fun m x => if Scalar.ltb m x then x else m) a)

/-- `np.max(a)`, replaced by `NaN` when it is infinite (then `v - v` is not 0), as in `_collect_percentiles_inner` of
numba.  (`_univariate_same_length.py:212`.) -/
def maxOrNan (a : List K) : Res K := do
  let v ← smax a
  pure (if Scalar.eqb (v - v) 0 then v else v - v)

/-- One entry of `np.percentile(a, q)` on values other than `NaN` as implemented by numba
(`_collect_percentiles_inner`): linear interpolation between the two closest ranks.  The quickselect of numba is
modelled by sorting.  (`_univariate_same_length.py:212`.) -/
def percentileInner (a : List K) (q : K) : Res K :=
  if a.length = 1 then aget a 0
  else if Scalar.eqb q (Scalar.ofNat 100) then maxOrNan a
  else do
    let rank : K := 1 + Scalar.ofNat (a.length - 1) * (q / Scalar.ofNat 100)
    let f := Scalar.floor rank
    let m : K := rank - Scalar.ofNat f.toNat
    let lower ← aget (ssort a) (f - 1).toNat
    let upper ← aget (ssort a) f.toNat
    pure (lower * (1 - m) + upper * m)

/-- One entry of `np.percentile(a, q)` as implemented by numba (`_collect_percentiles`): `q` outside `[0, 100]`
raises `ValueError`; when some entry is `NaN` (different from itself) so is the result
(`_can_collect_percentiles`).  (`_univariate_same_length.py:212`.) -/
def percentile (a : List K) (q : K) : Res K :=
  if Scalar.leb 0 q && Scalar.leb q (Scalar.ofNat 100) then
    match a.find? (fun x => !(Scalar.eqb x x)) with
    | some x => .ok x
    | none => percentileInner a q
  else .error .valueError

end

end Convst
