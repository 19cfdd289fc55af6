import Verif.Proofs.ApplyAll

/-! # The four kernels instantiate the generic one correctly -/

set_option linter.unusedSectionVars false
set_option autoImplicit false
set_option linter.unusedVariables false

namespace Convst
variable {K : Type} [Scalar K]
open Spec

/-! ## Univariate -/

theorem map_seen (norm : Bool) (phase : Bool) (x : List K) (l d n : Nat) :
    (if norm then ((List.range n).map fun i => window phase x l d i).map znorm
      else (List.range n).map fun i => window phase x l d i) =
    (List.range n).map fun i => seen norm (window phase x l d i) := by
  cases norm <;> simp [seen]

theorem uFeature_ok {S : UShp K} (hS : UWF S) {phase : Bool} {x : List K} {k l d : Nat}
    (hl : S.lengths[k]? = some l) (hd : S.dilations[k]? = some d) :
    uFeature S (if S.normalize.getD k false then
        ((List.range (nWin phase x.length l d)).map fun i => window phase x l d i).map znorm
        else (List.range (nWin phase x.length l d)).map fun i => window phase x l d i) l k =
      .ok (uFeatures phase S x k) := by
  have hk : k < S.lengths.length := (List.getElem?_eq_some_iff.1 hl).1
  have hlD : S.lengths.getD k 0 = l := by simp [List.getD, hl]
  have hdD : S.dilations.getD k 0 = d := by simp [List.getD, hd]
  unfold uFeature
  rw [aget_getD [] (by rw [hS.values]; exact hk), Res.bind_ok,
    aget_getD 0 (by rw [hS.threshold]; exact hk), Res.bind_ok, map_seen, applyOneUni_windows]
  · simp only [uFeatures, uDistances, uValues, hlD, hdD]
  · have := hS.room k hk
    rw [hlD] at this
    rw [List.length_take]; omega

theorem uslParam_ok {X : List (List (List K))} {S : UShp K} (hS : UWF S) {phase : Bool} {i : Nat}
    {x : List K} (hx : aget2 X i 0 = .ok x) {k l d : Nat}
    (hl : S.lengths[k]? = some l) (hd : S.dilations[k]? = some d)
    (hfit : Fits phase x.length l d)
    {F : Nat → Nat → Feat K} (hF : ∀ k, F i k = uFeatures phase S x k) :
    ParamOK (uslKernel X S phase) S.lengths S.dilations S.normalize F i l d := by
  have hk : k < S.lengths.length := (List.getElem?_eq_some_iff.1 hl).1
  have hlD : S.lengths.getD k 0 = l := by simp [List.getD, hl]
  have h1 := hS.pos k hk
  rw [hlD] at h1
  refine ⟨(List.range (nWin phase x.length l d)).map fun i => window phase x l d i, ?_, ?_⟩
  · show (aget2 X i 0 >>= fun x => generateStrides1D x l d phase) = _
    rw [hx, Res.bind_ok, generateStrides1D_ok h1 hfit]
  · intro k' hl' hd'
    rw [hF]
    exact uFeature_ok hS hl' hd'

theorem uslKernel_ok {X : List (List (List K))} {S : UShp K} (hS : UWF S) {phase : Bool} {i : Nat}
    {x : List K} (hx : aget2 X i 0 = .ok x)
    (hfit : ∀ k, k < S.lengths.length →
      Fits phase x.length (S.lengths.getD k 0) (S.dilations.getD k 0))
    {F : Nat → Nat → Feat K} (hF : ∀ k, F i k = uFeatures phase S x k) :
    KernelOK (uslKernel X S phase) S.lengths S.dilations S.normalize F i where
  ok := by
    intro k l d hl hd
    have hk : k < S.lengths.length := (List.getElem?_eq_some_iff.1 hl).1
    have h2 := hfit k hk
    rw [show S.lengths.getD k 0 = l by simp [List.getD, hl],
      show S.dilations.getD k 0 = d by simp [List.getD, hd]] at h2
    exact uslParam_ok hS hx hl hd h2 hF

theorem uvlParam_ok {X : List (List (List K))} {S : UShp K} (hS : UWF S) {phase : Bool} {i : Nat}
    {xLen : List Nat} {x : List K} {n : Nat} (hx : aget2 X i 0 = .ok x) (hn : xLen[i]? = some n)
    {k l d : Nat} (hl : S.lengths[k]? = some l) (hd : S.dilations[k]? = some d)
    (hfit : Fits phase (x.take n).length l d)
    {F : Nat → Nat → Feat K} (hF : ∀ k, F i k = uFeatures phase S (x.take n) k) :
    ParamOK (uvlKernel X S phase xLen) S.lengths S.dilations S.normalize F i l d := by
  have hk : k < S.lengths.length := (List.getElem?_eq_some_iff.1 hl).1
  have hlD : S.lengths.getD k 0 = l := by simp [List.getD, hl]
  have h1 := hS.pos k hk
  rw [hlD] at h1
  refine ⟨(List.range (nWin phase (x.take n).length l d)).map fun i =>
    window phase (x.take n) l d i, ?_, ?_⟩
  · show (aget2 X i 0 >>= fun x => aget xLen i >>= fun n =>
      generateStrides1D (x.take n) l d phase) = _
    rw [hx, Res.bind_ok, aget_eq_ok.2 hn, Res.bind_ok, generateStrides1D_ok h1 hfit]
  · intro k' hl' hd'
    rw [hF]
    exact uFeature_ok hS hl' hd'

theorem uvlKernel_ok {X : List (List (List K))} {S : UShp K} (hS : UWF S) {phase : Bool} {i : Nat}
    {xLen : List Nat} {x : List K} {n : Nat} (hx : aget2 X i 0 = .ok x) (hn : xLen[i]? = some n)
    (hfit : ∀ k, k < S.lengths.length →
      Fits phase (x.take n).length (S.lengths.getD k 0) (S.dilations.getD k 0))
    {F : Nat → Nat → Feat K} (hF : ∀ k, F i k = uFeatures phase S (x.take n) k) :
    KernelOK (uvlKernel X S phase xLen) S.lengths S.dilations S.normalize F i where
  ok := by
    intro k l d hl hd
    have hk : k < S.lengths.length := (List.getElem?_eq_some_iff.1 hl).1
    have h2 := hfit k hk
    rw [show S.lengths.getD k 0 = l by simp [List.getD, hl],
      show S.dilations.getD k 0 = d by simp [List.getD, hd]] at h2
    exact uvlParam_ok hS hx hn hl hd h2 hF

/-! ## Multivariate -/

theorem off_getElem? (l : List Nat) (k : Nat) (h : k ≤ l.length) :
    (0 :: cumsum l)[k]? = some (l.take k).sum := by
  cases k with
  | zero => simp
  | succ k =>
    rw [List.getElem?_cons_succ, cumsum, cumsumFrom_getElem? _ _ _ (by omega)]
    simp

theorem zipWith_mul_take (a b : List Nat) (h : a.length = b.length) (k : Nat) (hk : k ≤ a.length) :
    ((List.zipWith (· * ·) a b).take k).sum =
      ((List.range k).map fun i => a.getD i 0 * b.getD i 0).sum := by
  congr 1
  apply List.ext_getElem
  · simp; omega
  · intro i h1 h2
    have hi : i < k := by simpa using h2
    have ha : i < a.length := by omega
    have hb : i < b.length := by omega
    simp [List.getD, ha, hb]

theorem mChanOff_succ {S : MShp K} {k : Nat} (hk : k < S.nChannels.length) :
    mChanOff S (k + 1) = mChanOff S k + S.nChannels.getD k 0 := by
  unfold mChanOff
  rw [List.take_add_one, List.getElem?_eq_getElem hk, getD_lt 0 hk, List.sum_append]; simp

theorem mValOff_succ (S : MShp K) (k : Nat) :
    mValOff S (k + 1) = mValOff S k + S.nChannels.getD k 0 * S.lengths.getD k 0 := by
  unfold mValOff; rw [List.range_succ, List.map_append, List.sum_append]; rfl

theorem mValOff_mono (S : MShp K) {a b : Nat} (h : a ≤ b) : mValOff S a ≤ mValOff S b := by
  induction h with
  | refl => exact Nat.le_refl _
  | step _ ih => rw [mValOff_succ]; omega

theorem mChanOff_mono (S : MShp K) {a b : Nat} (h : a ≤ b) : mChanOff S a ≤ mChanOff S b :=
  (List.take_sublist_take_left h).sum_le_sum (by simp)

theorem mChannels_length {S : MShp K} {nf : Nat} (hS : MWF S nf) {k : Nat}
    (hk : k < S.lengths.length) : (mChannels S k).length = S.nChannels.getD k 0 := by
  have hk' : k < S.nChannels.length := by rw [hS.nChannels]; exact hk
  have h1 : mChanOff S (k + 1) ≤ S.channelIds.length := by
    rw [hS.channels]
    have := mChanOff_mono S (show k + 1 ≤ S.nChannels.length by omega)
    simpa [mChanOff] using this
  rw [mChanOff_succ hk'] at h1
  simp only [mChannels, List.length_take, List.length_drop]
  omega

theorem mValues_length {S : MShp K} {nf : Nat} (hS : MWF S nf) {k c : Nat}
    (hk : k < S.lengths.length) (hc : c < S.nChannels.getD k 0) :
    (mValues S k c).length = S.lengths.getD k 0 := by
  have h1 : mValOff S (k + 1) ≤ S.values.length := by
    rw [hS.values]; exact mValOff_mono S hk
  rw [mValOff_succ] at h1
  have h2 : (c + 1) * S.lengths.getD k 0 ≤ S.nChannels.getD k 0 * S.lengths.getD k 0 :=
    Nat.mul_le_mul_right _ hc
  rw [Nat.succ_mul] at h2
  simp only [mValues, List.length_take, List.length_drop]
  omega

theorem slice_slice {α : Type} (v : List α) (a b c l : Nat) (h : c + l ≤ b - a) :
    slice (slice v a b) c (c + l) = (v.drop (a + c)).take l := by
  unfold slice
  rw [List.drop_take, List.take_take, List.drop_drop]
  congr 1
  omega

theorem reshape_values {S : MShp K} {nf : Nat} (hS : MWF S nf) {k : Nat}
    (hk : k < S.lengths.length) :
    reshape (slice S.values (mValOff S k) (mValOff S (k + 1))) (S.nChannels.getD k 0)
      (S.lengths.getD k 0) = .ok ((List.range (S.nChannels.getD k 0)).map (mValues S k)) := by
  have h1 : mValOff S (k + 1) ≤ S.values.length := by
    rw [hS.values]; exact mValOff_mono S hk
  have h2 := mValOff_succ S k
  unfold reshape
  rw [if_pos]
  · congr 1
    apply List.map_congr_left
    intro c hc
    rw [List.mem_range] at hc
    have h3 : (c + 1) * S.lengths.getD k 0 ≤ S.nChannels.getD k 0 * S.lengths.getD k 0 :=
      Nat.mul_le_mul_right _ hc
    rw [Nat.succ_mul] at h3
    rw [Nat.succ_mul, slice_slice _ _ _ _ _ (by omega)]
    rfl
  · simp only [slice, List.length_take, List.length_drop]
    omega

/-- Windows of all channels of a sample. -/
def allWindows (phase : Bool) (x : List (List K)) (nt l d : Nat) : Strides2D K :=
  ⟨nWin phase nt l d, x.map fun ch => (List.range (nWin phase nt l d)).map fun i =>
    window phase ch l d i⟩

theorem map_seen2 (norm : Bool) (phase : Bool) (x : List (List K)) (nt l d : Nat) :
    (if norm then (allWindows phase x nt l d).normalise else allWindows phase x nt l d) =
    ⟨nWin phase nt l d, x.map fun ch => (List.range (nWin phase nt l d)).map fun i =>
      seen norm (window phase ch l d i)⟩ := by
  cases norm <;> simp [seen, allWindows, Strides2D.normalise, Function.comp_def]

theorem mFeature_ok {S : MShp K} {nf : Nat} (hS : MWF S nf) {phase : Bool} {x : List (List K)}
    {nt : Nat} (hx : x.length = nf) {k l d : Nat}
    (hl : S.lengths[k]? = some l) (hd : S.dilations[k]? = some d) :
    mFeature S (if S.normalize.getD k false then (allWindows phase x nt l d).normalise
        else allWindows phase x nt l d) l k = .ok (mFeatures phase S x nt k) := by
  have hk : k < S.lengths.length := (List.getElem?_eq_some_iff.1 hl).1
  have hk' : k < S.nChannels.length := by rw [hS.nChannels]; exact hk
  have hlD : S.lengths.getD k 0 = l := by simp [List.getD, hl]
  have hdD : S.dilations.getD k 0 = d := by simp [List.getD, hd]
  have hchan : ∀ j, j ≤ S.nChannels.length →
      aget (offChannels S.nChannels) j = .ok (mChanOff S j) := fun j hj =>
    aget_eq_ok.2 (off_getElem? _ _ hj)
  have hval : ∀ j, j ≤ S.nChannels.length →
      aget (offValues S.nChannels S.lengths) j = .ok (mValOff S j) := by
    intro j hj
    rw [offValues, aget_eq_ok, off_getElem? _ _ (by rw [List.length_zipWith, ← hS.nChannels]; omega),
      zipWith_mul_take _ _ hS.nChannels _ hj]
    rfl
  have hslice : slice S.channelIds (mChanOff S k) (mChanOff S (k + 1)) = mChannels S k := by
    rw [mChanOff_succ hk', slice, mChannels]; congr 1; omega
  have hresh := reshape_values hS hk
  rw [hlD] at hresh
  rw [map_seen2]
  unfold mFeature
  rw [hchan k (by omega), Res.bind_ok, hchan (k + 1) (by omega), Res.bind_ok]
  simp only [hslice]
  rw [hval k (by omega), Res.bind_ok, hval (k + 1) (by omega), Res.bind_ok,
    aget_getD 0 hk', Res.bind_ok, hresh, Res.bind_ok,
    aget_getD 0 (by rw [hS.threshold]; exact hk), Res.bind_ok]
  unfold Strides2D.select
  have hcl : (mChannels S k).length = S.nChannels.getD k 0 := mChannels_length hS hk
  have hcr : ∀ c ∈ mChannels S k, c < x.length := by
    intro c hc
    rw [hx]
    exact hS.range c (List.mem_of_mem_drop (List.mem_of_mem_take hc))
  simp only
  rw [mapM_ok (g := fun c => (List.range (nWin phase nt l d)).map fun i =>
      seen (S.normalize.getD k false) (window phase (x.getD c []) l d i))]
  swap
  · intro c hc
    have := hcr c hc
    rw [aget_ok (by simpa using this)]
    simp [List.getD, this]
  simp only [Res.bind_ok, Res.pure_eq]
  rw [applyOneMulti_ok (mDistances phase S x nt k)]
  · rfl
  · simp [mDistances, hl, hd]
  · intro i hi
    simp only at hi
    rw [foldlM_ok (g := fun s c => s + l1 (seen (S.normalize.getD k false)
          (window phase (x.getD ((mChannels S k).getD c 0) []) (S.lengths.getD k 0)
            (S.dilations.getD k 0) i)) (mValues S k c))]
    · have : i < (mDistances phase S x nt k).length := by simpa [mDistances, hl, hd] using hi
      rw [getD_lt 0 this]
      simp only [mDistances, List.getElem_map, List.getElem_range, List.length_map]
      rfl
    · intro s c hc
      rw [List.mem_range, List.length_map] at hc
      have hc' : c < S.nChannels.getD k 0 := hcl ▸ hc
      rw [aget_ok (by simpa using hc), Res.bind_ok]
      rw [aget_ok (by simpa using hi), Res.bind_ok]
      rw [aget_range_map hc', Res.bind_ok, manhattan_ok]
      · simp [List.getD, hc, hl, hd]
      · rw [mValues_length hS hk hc', hlD]
        simp [seen_length, window_length]

theorem mslParam_ok {X : List (List (List K))} {nt nf : Nat} {S : MShp K} (hS : MWF S nf)
    {phase : Bool} {i : Nat} {x : List (List K)} (hx : X[i]? = some x) (hrect : Rect x nf nt)
    {k l d : Nat} (hl : S.lengths[k]? = some l) (hd : S.dilations[k]? = some d)
    (hfit : Fits phase nt l d)
    {F : Nat → Nat → Feat K} (hF : ∀ k, F i k = mFeatures phase S x nt k) :
    ParamOK (mslKernel X nt S phase) S.lengths S.dilations S.normalize F i l d := by
  have hk : k < S.lengths.length := (List.getElem?_eq_some_iff.1 hl).1
  have hlD : S.lengths.getD k 0 = l := by simp [List.getD, hl]
  have h1 := hS.pos k hk
  rw [hlD] at h1
  refine ⟨allWindows phase x nt l d, ?_, ?_⟩
  · show (aget X i >>= fun x => generateStrides2D x nt l d phase) = _
    rw [aget_eq_ok.2 hx, Res.bind_ok, generateStrides2D_ok h1 hrect.2 hfit]
    rfl
  · intro k' hl' hd'
    rw [hF]
    exact mFeature_ok hS hrect.1 hl' hd'

theorem mvlParam_ok {X : List (List (List K))} {nt nf : Nat} {S : MShp K} (hS : MWF S nf)
    {phase : Bool} {i n : Nat} {xLen : List Nat} {x : List (List K)} (hx : X[i]? = some x)
    (hrect : Rect x nf nt) (hn : xLen[i]? = some n)
    {k l d : Nat} (hl : S.lengths[k]? = some l) (hd : S.dilations[k]? = some d)
    (hfit : Fits phase (min n nt) l d)
    {F : Nat → Nat → Feat K}
    (hF : ∀ k, F i k = mFeatures phase S (x.map fun ch => ch.take n) (min n nt) k) :
    ParamOK (mvlKernel X nt S phase xLen) S.lengths S.dilations S.normalize F i l d := by
  have hk : k < S.lengths.length := (List.getElem?_eq_some_iff.1 hl).1
  have hlD : S.lengths.getD k 0 = l := by simp [List.getD, hl]
  have h1 := hS.pos k hk
  rw [hlD] at h1
  have hrect' : ∀ ch ∈ x.map (fun ch => ch.take n), ch.length = min n nt := by
    intro ch hch
    obtain ⟨c, hc, rfl⟩ := List.mem_map.1 hch
    rw [List.length_take, hrect.2 c hc]
  refine ⟨allWindows phase (x.map fun ch => ch.take n) (min n nt) l d, ?_, ?_⟩
  · show (aget X i >>= fun x => aget xLen i >>= fun n =>
      generateStrides2D (x.map fun ch => ch.take n) (min n nt) l d phase) = _
    rw [aget_eq_ok.2 hx, Res.bind_ok, aget_eq_ok.2 hn, Res.bind_ok,
      generateStrides2D_ok h1 hrect' hfit]
    rfl
  · intro k' hl' hd'
    rw [hF]
    exact mFeature_ok hS (by rw [List.length_map]; exact hrect.1) hl' hd'

/-! ## The four kernels: full result, success and failure -/

theorem getD_some {α : Type} {l : List α} {k : Nat} {a d : α} (h : l[k]? = some a) :
    l.getD k d = a := by simp [List.getD, h]

theorem some_getD {α : Type} {l : List α} {k : Nat} (d : α) (h : k < l.length) :
    l[k]? = some (l.getD k d) := by simp [List.getD, h]

theorem map_range_getElem? {α β : Type} (X : List α) (d : α) (f : α → β) :
    ((List.range X.length).map fun i => f (X.getD i d)) = X.map f := by
  apply List.ext_getElem
  · simp
  · intro i h1 h2
    have : i < X.length := by simpa using h2
    simp [List.getD, this]

theorem uslApply_ok {X : List (List (List K))} {S : UShp K} (hS : UWF S) {phase : Bool}
    (hX : ∀ s ∈ X, s ≠ [])
    (hfit : ∀ s ∈ X, ∀ k, k < S.lengths.length →
      Fits phase (s.getD 0 []).length (S.lengths.getD k 0) (S.dilations.getD k 0)) :
    uslApply X S phase = .ok (X.map fun s => uRow phase S (s.getD 0 [])) := by
  unfold uslApply
  rw [applyAll_ok (F := fun i k => uFeatures phase S ((X.getD i []).getD 0 []) k)
    hS.dilations.symm hS.normalize]
  · congr 1
    unfold targetMatrix
    exact map_range_getElem? X [] fun s => uRow phase S (s.getD 0 [])
  · intro i hi
    have hmem := List.getElem_mem hi
    have hne := hX _ hmem
    have hpos : 0 < X[i].length := List.length_pos_iff.2 hne
    apply uslKernel_ok hS (x := (X.getD i []).getD 0 [])
    · rw [aget2_eq_ok]
      refine ⟨X[i], by simp [hi], ?_⟩
      rw [getD_lt _ hi]
      exact some_getD _ hpos
    · rw [getD_lt _ hi]; exact hfit _ hmem
    · intro k; rfl

theorem uslApply_err {X : List (List (List K))} {S : UShp K} (hS : UWF S) {phase : Bool}
    (hX : ∀ s ∈ X, s ≠ [])
    (hfit : ∃ s ∈ X, ∃ k, k < S.lengths.length ∧
      ¬ Fits phase (s.getD 0 []).length (S.lengths.getD k 0) (S.dilations.getD k 0)) :
    uslApply X S phase = .error .valueError := by
  unfold uslApply
  have hget : ∀ i, i < X.length → aget2 X i 0 = .ok ((X.getD i []).getD 0 []) := by
    intro i hi
    have hpos : 0 < X[i].length := List.length_pos_iff.2 (hX _ (List.getElem_mem hi))
    rw [aget2_eq_ok]
    refine ⟨X[i], by simp [hi], ?_⟩
    rw [getD_lt _ hi]
    exact some_getD _ hpos
  have hwin : ∀ i k l d : Nat, i < X.length → S.lengths[k]? = some l →
      ¬ Fits phase ((X.getD i []).getD 0 []).length l d →
      (uslKernel X S phase).windows i l d = .error .valueError := by
    intro i k l d hi hl hnf
    show (aget2 X i 0 >>= fun x => generateStrides1D x l d phase) = _
    rw [hget i hi, Res.bind_ok]
    have := hS.pos k (List.getElem?_eq_some_iff.1 hl).1
    rw [getD_some hl] at this
    exact generateStrides1D_err this hnf
  apply applyAll_err (F := fun i k => uFeatures phase S ((X.getD i []).getD 0 []) k)
    hS.dilations.symm hS.normalize
  · intro i k l d hi hl hd
    by_cases h : Fits phase ((X.getD i []).getD 0 []).length l d
    · exact Or.inl (uslParam_ok hS (hget i hi) hl hd h (fun _ => rfl))
    · exact Or.inr (hwin i k l d hi hl h)
  · obtain ⟨s, hs, k, hk, hnf⟩ := hfit
    obtain ⟨i, hi, rfl⟩ := List.getElem_of_mem hs
    refine ⟨i, k, _, _, hi, some_getD 0 hk, some_getD 0 (hS.dilations ▸ hk), ?_⟩
    exact hwin i k _ _ hi (some_getD 0 hk) (by rw [getD_lt _ hi]; exact hnf)

/-- The true prefix of sample `i`, channel 0. -/
def uPrefix (X : List (List (List K))) (xLen : List Nat) (i : Nat) : List K :=
  ((X.getD i []).getD 0 []).take (xLen.getD i 0)

theorem uvlApply_ok {X : List (List (List K))} {S : UShp K} (hS : UWF S) {phase : Bool}
    {xLen : List Nat} (hX : ∀ s ∈ X, s ≠ []) (hlen : X.length ≤ xLen.length)
    (hfit : ∀ i, i < X.length → ∀ k, k < S.lengths.length →
      Fits phase (uPrefix X xLen i).length (S.lengths.getD k 0) (S.dilations.getD k 0)) :
    uvlApply X S phase xLen =
      .ok ((List.range X.length).map fun i => uRow phase S (uPrefix X xLen i)) := by
  unfold uvlApply
  rw [applyAll_ok (F := fun i k => uFeatures phase S (uPrefix X xLen i) k)
    hS.dilations.symm hS.normalize]
  · rfl
  · intro i hi
    have hmem := List.getElem_mem hi
    have hpos : 0 < X[i].length := List.length_pos_iff.2 (hX _ hmem)
    apply uvlKernel_ok hS (x := (X.getD i []).getD 0 []) (n := xLen.getD i 0)
    · rw [aget2_eq_ok]
      refine ⟨X[i], by simp [hi], ?_⟩
      rw [getD_lt _ hi]
      exact some_getD _ hpos
    · exact some_getD 0 (by omega)
    · exact hfit i hi
    · intro k; rfl

theorem uvlApply_err {X : List (List (List K))} {S : UShp K} (hS : UWF S) {phase : Bool}
    {xLen : List Nat} (hX : ∀ s ∈ X, s ≠ []) (hlen : X.length ≤ xLen.length)
    (hfit : ∃ i, i < X.length ∧ ∃ k, k < S.lengths.length ∧
      ¬ Fits phase (uPrefix X xLen i).length (S.lengths.getD k 0) (S.dilations.getD k 0)) :
    uvlApply X S phase xLen = .error .valueError := by
  unfold uvlApply
  have hget : ∀ i, i < X.length → aget2 X i 0 = .ok ((X.getD i []).getD 0 []) := by
    intro i hi
    have hpos : 0 < X[i].length := List.length_pos_iff.2 (hX _ (List.getElem_mem hi))
    rw [aget2_eq_ok]
    refine ⟨X[i], by simp [hi], ?_⟩
    rw [getD_lt _ hi]
    exact some_getD _ hpos
  have hwin : ∀ i k l d : Nat, i < X.length → S.lengths[k]? = some l →
      ¬ Fits phase (uPrefix X xLen i).length l d →
      (uvlKernel X S phase xLen).windows i l d = .error .valueError := by
    intro i k l d hi hl hnf
    show (aget2 X i 0 >>= fun x => aget xLen i >>= fun n =>
      generateStrides1D (x.take n) l d phase) = _
    rw [hget i hi, Res.bind_ok, aget_getD 0 (by omega), Res.bind_ok]
    have := hS.pos k (List.getElem?_eq_some_iff.1 hl).1
    rw [getD_some hl] at this
    exact generateStrides1D_err this hnf
  apply applyAll_err (F := fun i k => uFeatures phase S (uPrefix X xLen i) k)
    hS.dilations.symm hS.normalize
  · intro i k l d hi hl hd
    by_cases h : Fits phase (uPrefix X xLen i).length l d
    · exact Or.inl (uvlParam_ok hS (hget i hi) (some_getD 0 (by omega)) hl hd h (fun _ => rfl))
    · exact Or.inr (hwin i k l d hi hl h)
  · obtain ⟨i, hi, k, hk, hnf⟩ := hfit
    exact ⟨i, k, _, _, hi, some_getD 0 hk, some_getD 0 (hS.dilations ▸ hk),
      hwin i k _ _ hi (some_getD 0 hk) hnf⟩

theorem mslApply_ok {X : List (List (List K))} {nt nf : Nat} {S : MShp K} (hS : MWF S nf)
    {phase : Bool} (hX : ∀ x ∈ X, Rect x nf nt)
    (hfit : ∀ k, k < S.lengths.length →
      Fits phase nt (S.lengths.getD k 0) (S.dilations.getD k 0)) :
    mslApply X nt S phase = .ok (X.map fun x => mRow phase S x nt) := by
  unfold mslApply
  rw [applyAll_ok (F := fun i k => mFeatures phase S (X.getD i []) nt k)
    hS.dilations.symm hS.normalize]
  · congr 1
    unfold targetMatrix
    exact map_range_getElem? X [] fun x => mRow phase S x nt
  · intro i hi
    refine ⟨fun k l d hl hd => ?_⟩
    have h2 := hfit k (List.getElem?_eq_some_iff.1 hl).1
    rw [getD_some hl, getD_some hd] at h2
    refine mslParam_ok hS (some_getD [] hi) ?_ hl hd h2 (fun _ => rfl)
    rw [getD_lt _ hi]; exact hX _ (List.getElem_mem hi)

theorem mslApply_err {X : List (List (List K))} {nt nf : Nat} {S : MShp K} (hS : MWF S nf)
    {phase : Bool} (hX : ∀ x ∈ X, Rect x nf nt) (hne : X ≠ [])
    (hfit : ∃ k, k < S.lengths.length ∧
      ¬ Fits phase nt (S.lengths.getD k 0) (S.dilations.getD k 0)) :
    mslApply X nt S phase = .error .valueError := by
  unfold mslApply
  have hwin : ∀ i k l d : Nat, i < X.length → S.lengths[k]? = some l →
      ¬ Fits phase nt l d → (mslKernel X nt S phase).windows i l d = .error .valueError := by
    intro i k l d hi hl hnf
    show (aget X i >>= fun x => generateStrides2D x nt l d phase) = _
    rw [aget_ok hi, Res.bind_ok]
    have := hS.pos k (List.getElem?_eq_some_iff.1 hl).1
    rw [getD_some hl] at this
    exact generateStrides2D_err this hnf
  apply applyAll_err (F := fun i k => mFeatures phase S (X.getD i []) nt k)
    hS.dilations.symm hS.normalize
  · intro i k l d hi hl hd
    by_cases h : Fits phase nt l d
    · refine Or.inl (mslParam_ok hS (some_getD [] hi) ?_ hl hd h (fun _ => rfl))
      rw [getD_lt _ hi]; exact hX _ (List.getElem_mem hi)
    · exact Or.inr (hwin i k l d hi hl h)
  · obtain ⟨k, hk, hnf⟩ := hfit
    exact ⟨0, k, _, _, List.length_pos_iff.2 hne, some_getD 0 hk,
      some_getD 0 (hS.dilations ▸ hk), hwin 0 k _ _ (List.length_pos_iff.2 hne) (some_getD 0 hk) hnf⟩

/-- The true prefix of sample `i`, all channels. -/
def mPrefix (X : List (List (List K))) (xLen : List Nat) (i : Nat) : List (List K) :=
  (X.getD i []).map fun ch => ch.take (xLen.getD i 0)

theorem mvlApply_ok {X : List (List (List K))} {nt nf : Nat} {S : MShp K} (hS : MWF S nf)
    {phase : Bool} {xLen : List Nat} (hX : ∀ x ∈ X, Rect x nf nt) (hlen : X.length ≤ xLen.length)
    (hfit : ∀ i, i < X.length → ∀ k, k < S.lengths.length →
      Fits phase (min (xLen.getD i 0) nt) (S.lengths.getD k 0) (S.dilations.getD k 0)) :
    mvlApply X nt S phase xLen = .ok ((List.range X.length).map fun i =>
      mRow phase S (mPrefix X xLen i) (min (xLen.getD i 0) nt)) := by
  unfold mvlApply
  rw [applyAll_ok (F := fun i k => mFeatures phase S (mPrefix X xLen i) (min (xLen.getD i 0) nt) k)
    hS.dilations.symm hS.normalize]
  · rfl
  · intro i hi
    refine ⟨fun k l d hl hd => ?_⟩
    have h2 := hfit i hi k (List.getElem?_eq_some_iff.1 hl).1
    rw [getD_some hl, getD_some hd] at h2
    refine mvlParam_ok hS (some_getD [] hi) ?_ (some_getD 0 (by omega)) hl hd h2 (fun _ => rfl)
    rw [getD_lt _ hi]; exact hX _ (List.getElem_mem hi)

theorem mvlApply_err {X : List (List (List K))} {nt nf : Nat} {S : MShp K} (hS : MWF S nf)
    {phase : Bool} {xLen : List Nat} (hX : ∀ x ∈ X, Rect x nf nt) (hlen : X.length ≤ xLen.length)
    (hfit : ∃ i, i < X.length ∧ ∃ k, k < S.lengths.length ∧
      ¬ Fits phase (min (xLen.getD i 0) nt) (S.lengths.getD k 0) (S.dilations.getD k 0)) :
    mvlApply X nt S phase xLen = .error .valueError := by
  unfold mvlApply
  have hwin : ∀ i k l d : Nat, i < X.length → S.lengths[k]? = some l →
      ¬ Fits phase (min (xLen.getD i 0) nt) l d →
      (mvlKernel X nt S phase xLen).windows i l d = .error .valueError := by
    intro i k l d hi hl hnf
    show (aget X i >>= fun x => aget xLen i >>= fun n =>
      generateStrides2D (x.map fun ch => ch.take n) (min n nt) l d phase) = _
    rw [aget_ok hi, Res.bind_ok, aget_getD 0 (by omega), Res.bind_ok]
    have := hS.pos k (List.getElem?_eq_some_iff.1 hl).1
    rw [getD_some hl] at this
    exact generateStrides2D_err this hnf
  apply applyAll_err
    (F := fun i k => mFeatures phase S (mPrefix X xLen i) (min (xLen.getD i 0) nt) k)
    hS.dilations.symm hS.normalize
  · intro i k l d hi hl hd
    by_cases h : Fits phase (min (xLen.getD i 0) nt) l d
    · refine Or.inl (mvlParam_ok hS (some_getD [] hi) ?_ (some_getD 0 (by omega)) hl hd h
        (fun _ => rfl))
      rw [getD_lt _ hi]; exact hX _ (List.getElem_mem hi)
    · exact Or.inr (hwin i k l d hi hl h)
  · obtain ⟨i, hi, k, hk, hnf⟩ := hfit
    exact ⟨i, k, _, _, hi, some_getD 0 hk, some_getD 0 (hS.dilations ▸ hk),
      hwin i k _ _ hi (some_getD 0 hk) hnf⟩

end Convst
