import Verif.Model.Commons

/-!
# Model of `PaperScripts/early_vs_material.py`

The script times three ways of computing the least distance of a shapelet to the windows of a series: without
speed-up, leaving the sum of a window as soon as it exceeds the least distance so far ("early abandon"), and the
latter with the windows in random order.  `generate_strides_1D(x, length, 1)` is imported from a module that the
library no longer has; it is read as the function that `_commons.py:75-100` defines now (dilation 1, no phase).
`fastmath` reassociations of the sums are not modelled; `prange` without `parallel=True` is `range`.
The timing loop and the figures are not modelled.
-/

set_option autoImplicit false

namespace Convst
variable {K : Type} [Scalar K]

/-- The inner loop of `early_vs_material.py:24-26`: `for j in prange(length): _dist += abs(x[i, j] - values[j])`. -/
def windowSum (w values : List K) : List Nat → K → Res K
  | [], s => .ok s
  | j :: js, s => do
    let a ← aget w j
    let b ← aget values j
    windowSum w values js (s + Scalar.abs (a - b))

/-- The inner loop of `early_vs_material.py:45-49` and `:68-72`, with `if _dist > _min: break`. -/
def windowSumEA (m : K) (w values : List K) : List Nat → K → Res K
  | [], s => .ok s
  | j :: js, s => do
    let a ← aget w j
    let b ← aget values j
    if Scalar.ltb m (s + Scalar.abs (a - b)) then pure (s + Scalar.abs (a - b))
    else windowSumEA m w values js (s + Scalar.abs (a - b))

/-- The outer loop over the windows `candidates_index` (`early_vs_material.py:21-29`, `:42-52`, `:65-75`), where `dist`
is the inner loop, which knows the least distance so far. -/
def scanWindows (dist : K → List K → Res K) (c : List (List K)) : List Nat → K → Res K
  | [], m => .ok m
  | i :: is, m => do
    let w ← aget c i
    let d ← dist m w
    scanWindows dist c is (if Scalar.ltb d m then d else m)

/-- `apply_one_shapelet_one_sample` (`early_vs_material.py:13-31`); `big` is the constant `1e+100`. -/
def minPlain (big : K) (x values : List K) : Res K := do
  let c ← strides1DPlain x values.length 1
  scanWindows (fun _ w => windowSum w values (List.range values.length) 0) c (List.range c.length) big

/-- `apply_one_shapelet_one_sample_ea` (`early_vs_material.py:57-77`). -/
def minEA (big : K) (x values : List K) : Res K := do
  let c ← strides1DPlain x values.length 1
  scanWindows (fun m w => windowSumEA m w values (List.range values.length) 0) c (List.range c.length) big

/-- `apply_one_shapelet_one_sample_ea_random` (`early_vs_material.py:33-54`); `shuffle` is what `np.random.shuffle`
does to `candidates_index`. -/
def minEARandom (shuffle : List Nat → List Nat) (big : K) (x values : List K) : Res K := do
  let c ← strides1DPlain x values.length 1
  scanWindows (fun m w => windowSumEA m w values (List.range values.length) 0) c (shuffle (List.range c.length)) big

end Convst
