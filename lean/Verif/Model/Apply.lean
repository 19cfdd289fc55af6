import Verif.Model.Commons

/-!
# Model of the four `*_apply_all_shapelets` kernels (the `transform` step)

The four kernels share, line by line, the grouping of shapelets by `(length, dilation)` and the
loop over samples and groups; they differ in how the windows of a sample are built and in how the
features of one shapelet are computed from them.  The shared text is modelled once
(`groupShapelets`, `groupTask`, `applyAll`) and instantiated four times.
-/

set_option autoImplicit false

namespace Convst
variable {K : Type} [Scalar K]

/-- The fitted univariate shapelets: the 5-tuple `(values, lengths, dilations, threshold,
normalize)` unpacked at `_univariate_same_length.py:267`, `_univariate_variable_length.py:300`. -/
structure UShp (K : Type) where
  values : List (List K)
  lengths : List Nat
  dilations : List Nat
  threshold : List K
  normalize : List Bool

/-- The fitted multivariate shapelets: the 7-tuple unpacked at
`_multivariate_same_length.py:329-330`, `_multivariate_variable_length.py:362-363`.
`values` and `channelIds` are flattened. -/
structure MShp (K : Type) where
  values : List K
  lengths : List Nat
  dilations : List Nat
  threshold : List K
  normalize : List Bool
  nChannels : List Nat
  channelIds : List Nat

/-- `a[s:e] = v` on a 1D array in compiled code; a size mismatch raises `ValueError`.
(`_univariate_same_length.py:287`.) -/
def sliceAssign {α : Type} (a : List α) (s e : Nat) (v : List α) : Res (List α) :=
  if min e a.length - min s a.length = v.length then
    .ok (a.take s ++ v ++ a.drop (s + v.length))
  else .error .valueError

/-- `a[s:e]`.  (`_univariate_same_length.py:304`.) -/
def slice {α : Type} (a : List α) (s e : Nat) : List α := (a.drop s).take (e - s)

/-- `numpy.cumsum` on integers.  (`_univariate_same_length.py:291`.) -/
def cumsumFrom : Nat → List Nat → List Nat
  | _, [] => []
  | acc, a :: l => (acc + a) :: cumsumFrom (acc + a) l

/-- `numpy.cumsum` on integers.  (`_univariate_same_length.py:291`.) -/
def cumsum (l : List Nat) : List Nat := cumsumFrom 0 l

/-- Shapelet indices with the given length and dilation:
`where((lengths == _length) & (dilations == _dilation))[0]`
(`_univariate_same_length.py:284`, `_univariate_variable_length.py:317`,
`_multivariate_same_length.py:353`, `_multivariate_variable_length.py:386`). -/
def idxWith (lengths dilations : List Nat) (l d : Nat) : List Nat :=
  whereIdx lengths.length fun k => lengths[k]? == some l && dilations[k]? == some d

/-- The arrays `params_shp`, `idx_shp`, `n_shp_params` (after `cumsum`).
(`_univariate_same_length.py:272-291`.) -/
structure Groups where
  params : List (Nat × Nat)
  idxShp : List Nat
  cum : List Nat

/-- Grouping of the shapelets by `(length, dilation)`:
`_univariate_same_length.py:273-291`, `_univariate_variable_length.py:306-324`,
`_multivariate_same_length.py:336-360`, `_multivariate_variable_length.py:369-393`. -/
def groupShapelets (lengths dilations : List Nat) : Res Groups := do
  let params ← combinations1d lengths dilations
  let (idx, cnt, _) ← (List.range params.length).foldlM
    (init := (List.replicate lengths.length 0, List.replicate (params.length + 1) 0, 0))
    fun (idx, cnt, a) i => do
      let p ← aget params i
      let ix := idxWith lengths dilations p.1 p.2
      let b := a + ix.length
      let idx' ← sliceAssign idx a b ix
      let cnt' ← aset cnt (i + 1) ix.length
      pure (idx', cnt', b)
  pure ⟨params, idx, cumsum cnt⟩

/-- One scalar store `X_new[row, col] = v`.  (`_univariate_same_length.py:311-314`.) -/
structure Store (K : Type) where
  row : Nat
  col : Nat
  v : K

/-- Execution of one store.  (`_univariate_same_length.py:311-314`.) -/
def doStore (m : List (List K)) (s : Store K) : Res (List (List K)) := aset2 m s.row s.col s.v

/-- The assignment `X_new[i_sample, 3*i_shp : 3*i_shp+3] = (a, b, c)` as three scalar stores
(`_univariate_same_length.py:311`, `:326` and the same lines of the other kernels). -/
def featStores (row k : Nat) (f : Feat K) : List (Store K) :=
  [⟨row, 3 * k, f.1⟩, ⟨row, 3 * k + 1, f.2.1⟩, ⟨row, 3 * k + 2, f.2.2⟩]

/-- The parts in which the four kernels differ. `W` is the type of window arrays.
(`_univariate_same_length.py:294-329`.) -/
structure Kernel (K W : Type) where
  /-- windows of sample `i` for a given length and dilation -/
  windows : Nat → Nat → Nat → Res W
  /-- the in-place z-normalisation of all windows -/
  normalise : W → W
  /-- features of shapelet `k` (of the given length) from the windows -/
  feature : W → Nat → Nat → Res (Feat K)

/-- `_idx_shp[where(normalize[_idx_shp] == flag)[0]]`
(`_univariate_same_length.py:306`, `:316` and the same lines of the other kernels). -/
def selectNorm (normalize : List Bool) (idx : List Nat) (flag : Bool) : Res (List Nat) := do
  let flags ← idx.mapM fun k => aget normalize k
  (whereIdx flags.length fun i => flags[i]? == some flag).mapM fun i => aget idx i

/-- One iteration of the double parallel loop over samples and parameter groups
(`_univariate_same_length.py:297-329`, `_univariate_variable_length.py:330-361`,
`_multivariate_same_length.py:366-407`, `_multivariate_variable_length.py:398-438`).
The iteration never reads `X_new`, so it is modelled by the list of stores it performs. -/
def groupTask {W : Type} (kern : Kernel K W) (normalize : List Bool) (g : Groups)
    (iSample iParam : Nat) : Res (List (Store K)) := do
  let p ← aget g.params iParam
  let strides ← kern.windows iSample p.1 p.2
  let lo ← aget g.cum iParam
  let hi ← aget g.cum (iParam + 1)
  let idx := slice g.idxShp lo hi
  let noNorm ← selectNorm normalize idx false
  let s1 ← noNorm.mapM fun k => do
    let f ← kern.feature strides p.1 k
    pure (featStores iSample k f)
  let yesNorm ← selectNorm normalize idx true
  let s2 ← if yesNorm.length > 0 then
      let strides' := kern.normalise strides
      yesNorm.mapM fun k => do
        let f ← kern.feature strides' p.1 k
        pure (featStores iSample k f)
    else pure []
  pure (s1.flatten ++ s2.flatten)

/-- All iterations of the double loop, each with its stores, in program order.
(`_univariate_same_length.py:294-296`.) -/
def allTasks {W : Type} (kern : Kernel K W) (nSamples : Nat) (normalize : List Bool) (g : Groups) :
    Res (List (List (Store K))) :=
  ((List.range nSamples).flatMap fun i => (List.range (g.cum.length - 1)).map fun p => (i, p)).mapM
    fun ip => groupTask kern normalize g ip.1 ip.2

/-- The whole kernel: grouping, allocation of `X_new`, all iterations, all stores in program
order (`_univariate_same_length.py:267-331` and the corresponding lines of the other kernels). -/
def applyAll {W : Type} (kern : Kernel K W) (nSamples : Nat) (lengths dilations : List Nat)
    (normalize : List Bool) : Res (List (List K)) := do
  let g ← groupShapelets lengths dilations
  let x0 : List (List K) := List.replicate nSamples (List.replicate (3 * lengths.length) 0)
  let stores ← allTasks kern nSamples normalize g
  stores.flatten.foldlM doStore x0

/-- The per-shapelet part of the univariate kernels: `values[i_shp, :_length]`, `threshold[i_shp]`
and the feature extraction (`_univariate_same_length.py:308-314`, `:323-329`). -/
def uFeature (S : UShp K) (strides : List (List K)) (l k : Nat) : Res (Feat K) := do
  let v ← aget S.values k
  let t ← aget S.threshold k
  applyOneUni strides (v.take l) t

/-- Variant part of `U_SL_apply_all_shapelets` (`_univariate_same_length.py:300-302`, `:318-320`). -/
def uslKernel (X : List (List (List K))) (S : UShp K) (usePhase : Bool) :
    Kernel K (List (List K)) where
  windows i l d := do
    let x ← aget2 X i 0
    generateStrides1D x l d usePhase
  normalise strides := strides.map znorm
  feature := uFeature S

/-- `_univariate_same_length.py:233-331` (`U_SL_apply_all_shapelets`). -/
def uslApply (X : List (List (List K))) (S : UShp K) (usePhase : Bool) : Res (List (List K)) :=
  applyAll (uslKernel X S usePhase) X.length S.lengths S.dilations S.normalize

/-- Variant part of `U_VL_apply_all_shapelets` (`_univariate_variable_length.py:332-334`,
`:350-352`). -/
def uvlKernel (X : List (List (List K))) (S : UShp K) (usePhase : Bool) (xLen : List Nat) :
    Kernel K (List (List K)) where
  windows i l d := do
    let x ← aget2 X i 0
    let n ← aget xLen i
    generateStrides1D (x.take n) l d usePhase
  normalise strides := strides.map znorm
  feature := uFeature S

/-- `_univariate_variable_length.py:263-363` (`U_VL_apply_all_shapelets`). -/
def uvlApply (X : List (List (List K))) (S : UShp K) (usePhase : Bool) (xLen : List Nat) :
    Res (List (List K)) :=
  applyAll (uvlKernel X S usePhase xLen) X.length S.lengths S.dilations S.normalize

/-- `a.reshape(r, c)` of a 1D array; a size mismatch raises `ValueError`.
(`_multivariate_same_length.py:379-381`.) -/
def reshape {α : Type} (a : List α) (r c : Nat) : Res (List (List α)) :=
  if a.length = r * c then .ok ((List.range r).map fun i => slice a (i * c) ((i + 1) * c))
  else .error .valueError

/-- The offset array `concatenate((zeros(1), cumsum(n_channels*lengths)))`
(`_multivariate_same_length.py:343`, `_multivariate_variable_length.py:376`). -/
def offValues (nChannels lengths : List Nat) : List Nat :=
  0 :: cumsum (List.zipWith (· * ·) nChannels lengths)

/-- The offset array `concatenate((zeros(1), cumsum(n_channels)))`
(`_multivariate_same_length.py:345`, `_multivariate_variable_length.py:378`). -/
def offChannels (nChannels : List Nat) : List Nat := 0 :: cumsum nChannels

/-- `strides[_channels]`: selection of channels of a window array.  (`_multivariate_same_length.py:385`.) -/
def Strides2D.select (s : Strides2D K) (channels : List Nat) : Res (Strides2D K) := do
  let rows ← channels.mapM fun c => aget s.rows c
  pure ⟨s.nCand, rows⟩

/-- The per-shapelet part of the multivariate kernels
(`_multivariate_same_length.py:377-386`, `:398-407`, `_multivariate_variable_length.py:408-417`,
`:429-438`). -/
def mFeature (S : MShp K) (strides : Strides2D K) (l k : Nat) : Res (Feat K) := do
  let c0 ← aget (offChannels S.nChannels) k
  let c1 ← aget (offChannels S.nChannels) (k + 1)
  let channels := slice S.channelIds c0 c1
  let v0 ← aget (offValues S.nChannels S.lengths) k
  let v1 ← aget (offValues S.nChannels S.lengths) (k + 1)
  let nc ← aget S.nChannels k
  let values ← reshape (slice S.values v0 v1) nc l
  let t ← aget S.threshold k
  let sub ← strides.select channels
  applyOneMulti sub values t

/-- In-place z-normalisation of all windows of all channels (`_multivariate_same_length.py:391-395`,
`_multivariate_variable_length.py:422-426`). -/
def Strides2D.normalise (s : Strides2D K) : Strides2D K :=
  ⟨s.nCand, s.rows.map fun ch => ch.map znorm⟩

/-- Variant part of `M_SL_apply_all_shapelets`; `nt` is `X.shape[2]`.
(`_multivariate_same_length.py:369-407`.) -/
def mslKernel (X : List (List (List K))) (nt : Nat) (S : MShp K) (usePhase : Bool) :
    Kernel K (Strides2D K) where
  windows i l d := do
    let x ← aget X i
    generateStrides2D x nt l d usePhase
  normalise := Strides2D.normalise
  feature := mFeature S

/-- `_multivariate_same_length.py:295-408` (`M_SL_apply_all_shapelets`). -/
def mslApply (X : List (List (List K))) (nt : Nat) (S : MShp K) (usePhase : Bool) :
    Res (List (List K)) :=
  applyAll (mslKernel X nt S usePhase) X.length S.lengths S.dilations S.normalize

/-- Variant part of `M_VL_apply_all_shapelets` (`_multivariate_variable_length.py:400-402`):
the slice `X[i, :, :X_len[i]]` has second dimension `min(X_len[i], nt)`. -/
def mvlKernel (X : List (List (List K))) (nt : Nat) (S : MShp K) (usePhase : Bool)
    (xLen : List Nat) : Kernel K (Strides2D K) where
  windows i l d := do
    let x ← aget X i
    let n ← aget xLen i
    generateStrides2D (x.map fun ch => ch.take n) (min n nt) l d usePhase
  normalise := Strides2D.normalise
  feature := mFeature S

/-- `_multivariate_variable_length.py:326-439` (`M_VL_apply_all_shapelets`). -/
def mvlApply (X : List (List (List K))) (nt : Nat) (S : MShp K) (usePhase : Bool)
    (xLen : List Nat) : Res (List (List K)) :=
  applyAll (mvlKernel X nt S usePhase xLen) X.length S.lengths S.dilations S.normalize

end Convst
