import Verif.Proofs.Mirror
import Verif.Props.Law
import Verif.Props.Rounded

/-!
# C126: recordings played backwards

When every series and every shapelet is reversed in time, the distances and the numbers of occurrences stay the same.
When all shapelets have the same length `fit` on the reversed series is the mirror image of `fit` on the series, in law;
with several lengths it is not.
-/

set_option autoImplicit false
set_option linter.unusedSectionVars false

namespace Convst.Props
open Convst Spec MeasureTheory
open scoped ENNReal

/-! ## Transform -/

/-- The distances to the windows of the reversed series. -/
theorem distances_mirror {S S' : Shapelets ℝ} (hM : Mirror S S') {nf : Nat} (hwf : ShpWF S nf) (phase : Bool)
    {x : List (List ℝ)} {T : Nat} (hx : Rect x nf T) (hnf : 1 ≤ nf) {k : Nat} (hk : k < shpCount S) :
    shpDistances phase S' (x.map List.reverse) T k =
      (List.range (nWin phase T (shpLength S k) (shpDilation S k))).map fun t =>
        (shpDistances phase S x T k).getD (mirrorAt phase T (shpLength S k) (shpDilation S k) t) 0 := by
  have hch : ∀ c, c < nf → (x.map List.reverse).getD c [] = (x.getD c []).reverse ∧ (x.getD c []).length = T := by
    intro c hc
    have hcx : c < x.length := by rw [hx.1]; exact hc
    rw [getD_lt _ (by simpa using hcx), getD_lt _ hcx, List.getElem_map]
    exact ⟨rfl, hx.2 _ (List.getElem_mem hcx)⟩
  cases S with
  | u S =>
    cases S' with
    | m S' => exact absurd hM id
    | u S' =>
      have hM : UMirror S S' := hM
      have hS : UWF S := hwf
      have hk : k < S.lengths.length := hk
      have hl := hS.pos k hk
      obtain ⟨e1, e2⟩ := hch 0 (by omega)
      simp only [shpDistances, shpLength, shpDilation, uDistances, distances, hM.lengths, hM.dilations, hM.normalize,
        hM.values k hk, e1, e2, List.length_reverse]
      apply List.map_congr_left
      intro t ht
      have ht := List.mem_range.1 ht
      have hm := mirrorAt_lt hl ht
      rw [getD_lt (0 : ℝ) (by simpa using hm), List.getElem_map, List.getElem_range]
      have hw := window_reverse (x := x.getD 0 []) (by rw [e2]; exact hm)
      rw [e2, mirrorAt_mirrorAt hl ht] at hw
      rw [hw, seen_reverse, l1_reverse]
      rw [uValues_length hS hk, seen_len]
      simp [window]
  | m S =>
    cases S' with
    | u S' => exact absurd hM id
    | m S' =>
      have hM : MMirror S S' := hM
      have hS : MWF S nf := hwf
      have hk : k < S.lengths.length := hk
      have hl := hS.pos k hk
      simp only [shpDistances, shpLength, shpDilation, mDistances, hM.lengths, hM.dilations]
      apply List.map_congr_left
      intro t ht
      have ht := List.mem_range.1 ht
      have hm := mirrorAt_lt hl ht
      rw [getD_lt _ (by simpa using hm), List.getElem_map, List.getElem_range, mDist_eq_sum, mDist_eq_sum, hM.channels k hk]
      apply Finset.sum_congr rfl
      intro c hc
      have hcl : c < (mChannels S k).length := Finset.mem_range.1 hc
      have hcn : c < S.nChannels.getD k 0 := by
        have := List.length_take_le (S.nChannels.getD k 0) (S.channelIds.drop (mChanOff S k))
        unfold mChannels at hcl
        omega
      obtain ⟨e1, e2⟩ := hch ((mChannels S k).getD c 0) (by
        rw [getD_lt _ hcl]
        exact hS.range _ (List.mem_of_mem_drop (List.mem_of_mem_take (List.getElem_mem hcl))))
      rw [hM.normalize, hM.lengths, hM.dilations, hM.values k hk c hcn, e1]
      have hw := window_reverse (x := x.getD ((mChannels S k).getD c 0) []) (by rw [e2]; exact hm)
      rw [e2, mirrorAt_mirrorAt hl ht] at hw
      rw [hw, seen_reverse, l1_reverse]
      rw [mValues_length hS hk hcn, seen_len]
      simp [window]

/-- **C126.** The rows of features of a series and of the reversed series, for shapelets and reversed shapelets. -/
theorem C126_rows {S S' : Shapelets ℝ} (hM : Mirror S S') {nf : Nat} (hwf : ShpWF S nf) (phase : Bool)
    {x : List (List ℝ)} {T : Nat} (hx : Rect x nf T) (hnf : 1 ≤ nf) {k : Nat} (hk : k < shpCount S)
    (hW : HasWindow phase T (shpLength S k) (shpDilation S k)) :
    MirrorAt (shpDistances phase S x T k) phase T (shpLength S k) (shpDilation S k) k (shpRow phase S x T)
      (shpRow phase S' (x.map List.reverse) T) := by
  have hl : 1 ≤ shpLength S k := by
    cases S with
    | u S => exact UWF.pos hwf k hk
    | m S => exact MWF.pos hwf k hk
  have hk' : k < shpCount S' := by
    cases S <;> cases S' <;> first | exact absurd hM id | (simp only [shpCount] at *; rw [hM.lengths]; exact hk)
  have hthr : shpThreshold S' k = shpThreshold S k := by
    cases S <;> cases S' <;> first | exact absurd hM id | (simp only [shpThreshold]; rw [hM.threshold])
  have hD := distances_mirror hM hwf phase hx hnf hk
  have hlen : (shpDistances phase S x T k).length = nWin phase T (shpLength S k) (shpDilation S k) := shpDistances_len hx hnf
  have hnn := shpDistances_nonneg phase S x T k
  have hnn' := shpDistances_nonneg phase S' (x.map List.reverse) T k
  set l := shpLength S k
  set d := shpDilation S k
  set D := shpDistances phase S x T k
  set D' := shpDistances phase S' (x.map List.reverse) T k
  have hpos : 0 < nWin phase T l d := by
    unfold HasWindow at hW
    unfold nWin
    split <;> simp_all <;> omega
  have hlen' : D'.length = nWin phase T l d := by rw [hD]; simp
  have hget : ∀ t, t < nWin phase T l d → D'[t]? = D[mirrorAt phase T l d t]? := by
    intro t ht
    have hm := mirrorAt_lt hl ht
    rw [hD, List.getElem?_map, List.getElem?_range ht, Option.map_some, getD_lt _ (by rw [hlen]; exact hm),
      List.getElem?_eq_getElem (by rw [hlen]; exact hm)]
  have hperm : D'.Perm D := by
    have e : D = (List.range (nWin phase T l d)).map fun t => D.getD t 0 := by
      apply List.ext_getElem (by simp [hlen])
      intro i h1 h2
      rw [List.getElem_map, List.getElem_range, getD_lt _ h1]
    rw [hD]
    conv_rhs => rw [e]
    have := (mirror_perm (phase := phase) (T := T) (d := d) hl).map fun t => D.getD t 0
    rwa [List.map_map] at this
  obtain ⟨f1, f2⟩ := features_perm (thr := shpThreshold S k) hperm hnn
  have hne : D ≠ [] := List.ne_nil_of_length_pos (by omega)
  have hne' : D' ≠ [] := List.ne_nil_of_length_pos (by omega)
  obtain ⟨-, ⟨p, hp, hpD, -⟩, -⟩ := features_isFeatures (thr := shpThreshold S k) hne hnn
  obtain ⟨-, ⟨p', hp', hpD', -⟩, -⟩ := features_isFeatures (thr := shpThreshold S k) hne' hnn'
  obtain ⟨c0, c1, c2⟩ := shpRow_cells phase S x T hk
  obtain ⟨d0, d1, d2⟩ := shpRow_cells phase S' (x.map List.reverse) T hk'
  unfold shpFeatures at c0 c1 c2 d0 d1 d2
  rw [hthr] at d0 d1 d2
  have hlt' : p' < nWin phase T l d := by rw [← hlen']; exact (List.getElem?_eq_some_iff.1 hpD').1
  have hat : D[mirrorAt phase T l d p']? = some (features D (shpThreshold S k)).1 := by
    rw [← hget p' hlt', hpD', f1]
  refine ⟨(features D (shpThreshold S k)).1, (features D (shpThreshold S k)).2.2, p, p', c0, hp ▸ c1, c2, f1 ▸ d0,
    hp' ▸ d1, f2 ▸ d2, hat, ?_⟩
  intro huniq
  have e : mirrorAt phase T l d p' = p := by
    by_contra h
    exact huniq _ h hat
  exact ⟨e, by rw [← e, mirrorAt_mirrorAt hl hlt']⟩

/-- The series reversed in time. -/
def Mat.reversed (x : Mat ℝ) : Mat ℝ := ⟨x.rows.map List.reverse, x.len⟩

/-- **C126.** `transform` of any data set and of the reversed one, by an object and by the same object with reversed
shapelets: row by row, for every shapelet that has a window in the series. -/
theorem C126_transform {R : Type} {o : Rdst ℝ R} {S S' : Shapelets ℝ} (hS : o.shapelets = some S) (hM : Mirror S S') {nf : Nat}
    (hnf1 : 1 ≤ nf) (hwf : ShpWF S nf) (hwf' : ShpWF S' nf) {X X' : XIn ℝ} (hX : X.WF) (hX' : X'.WF) {xs : List (Mat ℝ)}
    (hxs : samples X = .ok xs) (hxs' : samples X' = .ok (xs.map Mat.reversed)) (hnf : ∀ x ∈ xs, x.rows.length = nf)
    {M M' : List (List ℝ)} (h : o.transform X = .ok M)
    (h' : Rdst.transform { o with shapelets := some S' } X' = .ok M') :
    M.length = xs.length ∧ M'.length = xs.length ∧
    ∀ (i : Nat) x row row', xs[i]? = some x → M[i]? = some row → M'[i]? = some row' → ∀ k, k < shpCount S →
      HasWindow o.phase x.len (shpLength S k) (shpDilation S k) →
      MirrorAt (shpDistances o.phase S x.rows x.len k) o.phase x.len (shpLength S k) (shpDilation S k) k row row' := by
  obtain ⟨e1, -⟩ := transform_rows hS hwf hX hxs hnf h
  obtain ⟨e2, -⟩ := transform_rows (o := { o with shapelets := some S' }) rfl hwf' hX' hxs' (by
    intro x hx
    obtain ⟨z, hz, rfl⟩ := List.mem_map.1 hx
    simpa [Mat.reversed] using hnf z hz) h'
  refine ⟨by rw [e1, List.length_map], by rw [e2]; simp, ?_⟩
  intro i x row row' hx hr hr' k hk hW
  rw [e1, List.getElem?_map, hx, Option.map_some, Option.some.injEq] at hr
  rw [e2, List.getElem?_map, List.getElem?_map, hx, Option.map_some, Option.map_some, Option.some.injEq] at hr'
  rw [← hr, ← hr', objRow_shpRow, objRow_shpRow]
  have hmem := List.mem_of_getElem? hx
  exact C126_rows hM hwf o.phase ⟨hnf x hmem, samples_wf hX hxs x hmem⟩ hnf1 hk hW

/-- The shapelet `0, 1` and the same read backwards. -/
theorem exStep_mirror (thr : ℝ) : Mirror (exStep thr) (.u ⟨[[1, 0]], [2], [1], [thr], [false]⟩) :=
  ⟨rfl, rfl, rfl, rfl, fun k hk => by
    replace hk : k < 1 := hk
    obtain rfl : k = 0 := by omega
    simp [uValues]⟩

theorem exStep_back_wf (thr : ℝ) : ShpWF (.u ⟨[[1, 0]], [2], [1], [thr], [false]⟩ : Shapelets ℝ) 1 := by
  refine ⟨rfl, rfl, rfl, rfl, ?_, ?_⟩ <;> intro k hk <;> replace hk : k < 1 := hk <;>
    obtain rfl : k = 0 := by omega
  all_goals simp

/-- `transform` of `0, 1, 3` with the shapelet `0, 1` and of `3, 1, 0` with the shapelet `1, 0`. -/
example {R : Type} {o : Rdst ℝ R} (ht : o.transformType = .uni) (hS : o.shapelets = some (exStep 1)) :
    ∃ row row', o.transform (.array .float64 ⟨[[[0, 1, 3]]], 1, 3⟩) = .ok [row] ∧
      Rdst.transform { o with shapelets := some (.u ⟨[[1, 0]], [2], [1], [1], [false]⟩) }
        (.array .float64 ⟨[[[3, 1, 0]]], 1, 3⟩) = .ok [row'] ∧
      MirrorAt (shpDistances o.phase (exStep 1) [[0, 1, 3]] 3 0) o.phase 3 2 1 0 row row' := by
  have w1 : (XIn.array DType.float64 (⟨[[[0, 1, 3]]], 1, 3⟩ : Arr3 ℝ)).WF := by simp [XIn.WF]
  have w2 : (XIn.array DType.float64 (⟨[[[3, 1, 0]]], 1, 3⟩ : Arr3 ℝ)).WF := by simp [XIn.WF]
  have h1 := transform_array_uni ht hS (exStep_fitted 1).wf w1 (by simp) (by simp) (by simp)
    (by intro k hk; simp at hk; subst hk; simp)
  have h2 := transform_array_uni (o := { o with shapelets := some (.u ⟨[[1, 0]], [2], [1], [1], [false]⟩) }) ht rfl
    (exStep_back_wf 1) w2 (by simp) (by simp) (by simp) (by intro k hk; simp at hk; subst hk; simp)
  obtain ⟨l1, l2, h⟩ := C126_transform hS (exStep_mirror 1) (nf := 1) le_rfl (exStep_fitted 1).wf (exStep_back_wf 1) w1 w2
    (xs := [⟨[[0, 1, 3]], 3⟩]) rfl rfl (by simp) h1 h2
  exact ⟨_, _, h1, h2, h 0 _ _ _ rfl rfl rfl 0 (by simp [exStep, shpCount])
    (by simp [exStep, HasWindow, shpLength, shpDilation])⟩

/-! ## Fit with one length -/

section law
variable {L : Type}

theorem getD_map_nil {α β : Type} (f : List α → List β) (hf : f [] = []) (l : List (List α)) (i : Nat) :
    (l.map f).getD i [] = f (l.getD i []) := by
  rw [List.getD_eq_getElem?_getD, List.getElem?_map, List.getD_eq_getElem?_getD]
  cases l[i]? with
  | none => exact hf.symm
  | some v => rfl

theorem train_reversedSL (a : FitArgs ℝ L) : trainSL (reversedSL a) = (trainSL a).reversed := by
  unfold trainSL Train.reversed reversedSL
  simp only [List.length_map, Train.mk.injEq, true_and, and_true]
  funext s c
  rw [getD_map_nil _ (by simp), getD_map_nil _ (by simp)]

theorem take_reversed (n : Nat) (ch : List ℝ) : ((ch.take n).reverse ++ ch.drop n).take n = (ch.take n).reverse := by
  rcases le_total n ch.length with h | h
  · exact List.take_left' (by simp [h])
  · rw [List.drop_eq_nil_of_le h, List.append_nil]
    exact List.take_of_length_le (by simp)

theorem train_reversedVL (a : FitArgs ℝ L) (xLen : List Nat) :
    trainVL (reversedVL a xLen) xLen = (trainVL a xLen).reversed := by
  unfold trainVL Train.reversed reversedVL
  simp only [List.length_mapIdx, Train.mk.injEq, true_and, and_true]
  funext s c
  have e : (List.mapIdx (fun s x => x.map fun ch => (ch.take (xLen.getD s 0)).reverse ++ ch.drop (xLen.getD s 0)) a.X).getD s []
      = (a.X.getD s []).map fun ch => (ch.take (xLen.getD s 0)).reverse ++ ch.drop (xLen.getD s 0) := by
    rw [List.getD_eq_getElem?_getD, List.getElem?_mapIdx, List.getD_eq_getElem?_getD (l := a.X)]
    cases a.X[s]? <;> rfl
  rw [e, getD_map_nil _ (by simp), take_reversed]

theorem reversedSL_valid {a : FitArgs ℝ L} (hv : ValidSL a) : ValidSL (reversedSL a) := by
  refine ⟨⟨by simpa [reversedSL] using hv.data.y, ?_, ?_⟩, hv.nf, ⟨hv.perc.lo, hv.perc.le, hv.perc.hi⟩, hv.nShp, hv.sizes,
    hv.bounds⟩
  · intro s hs
    obtain ⟨z, hz, rfl⟩ := List.mem_map.1 hs
    exact (List.length_map _).trans (hv.data.nf z hz)
  · intro s hs x hx
    obtain ⟨z, hz, rfl⟩ := List.mem_map.1 hs
    obtain ⟨c, hc, rfl⟩ := List.mem_map.1 hx
    exact List.length_reverse.trans (hv.data.nt z hz c hc)

theorem reversedVL_valid {a : FitArgs ℝ L} {minLen : Nat} {xLen : List Nat} (hv : ValidVL a minLen xLen) :
    ValidVL (reversedVL a xLen) minLen xLen := by
  have key : ∀ s ∈ (reversedVL a xLen).X, ∃ z ∈ a.X, ∃ n, s = z.map fun ch => (ch.take n).reverse ++ ch.drop n := by
    intro s hs
    obtain ⟨i, hi, rfl⟩ := List.getElem_of_mem hs
    have hi' : i < a.X.length := by simpa [reversedVL] using hi
    refine ⟨a.X[i], List.getElem_mem hi', xLen.getD i 0, ?_⟩
    simp [reversedVL]
  refine ⟨⟨by simpa [reversedVL] using hv.data.y, by simpa [reversedVL] using hv.data.len, ?_, ?_, hv.data.le, hv.data.ge⟩,
    ?_, hv.nf, ⟨hv.perc.lo, hv.perc.le, hv.perc.hi⟩, hv.nShp, hv.sizes, hv.bounds⟩
  · intro s hs
    obtain ⟨z, hz, n, rfl⟩ := key s hs
    exact (List.length_map _).trans (hv.data.nf z hz)
  · intro s hs x hx
    obtain ⟨z, hz, n, rfl⟩ := key s hs
    obtain ⟨c, hc, rfl⟩ := List.mem_map.1 hx
    have h1 : c.length = a.nt := hv.data.nt z hz c hc
    show ((c.take n).reverse ++ c.drop n).length = a.nt
    simp only [List.length_append, List.length_reverse, List.length_take, List.length_drop]
    omega
  · intro h
    have := hv.ne
    have h2 := congrArg List.length h
    simp only [reversedVL, List.length_mapIdx, List.length_nil] at h2
    exact this (List.length_eq_zero_iff.1 h2)

theorem seriesSL_len {a : FitArgs ℝ L} (hv : ValidSL a) :
    ∀ s, s < (trainSL a).ns → ∀ c, c < (trainSL a).nf → ((trainSL a).series s c).length = (trainSL a).len s := by
  intro s hs c hc
  have hs : s < a.X.length := hs
  have hc : c < a.nf := hc
  show ((a.X.getD s []).getD c []).length = a.nt
  rw [getD_lt _ hs]
  have hl := hv.data.nf _ (List.getElem_mem hs)
  rw [getD_lt _ (by omega)]
  exact hv.data.nt _ (List.getElem_mem hs) _ (List.getElem_mem _)

theorem seriesVL_len {a : FitArgs ℝ L} {minLen : Nat} {xLen : List Nat} (hv : ValidVL a minLen xLen) :
    ∀ s, s < (trainVL a xLen).ns → ∀ c, c < (trainVL a xLen).nf →
      ((trainVL a xLen).series s c).length = (trainVL a xLen).len s := by
  intro s hs c hc
  have hs : s < a.X.length := hs
  have hc : c < a.nf := hc
  show (((a.X.getD s []).getD c []).take (xLen.getD s 0)).length = xLen.getD s 0
  rw [getD_lt _ hs]
  have hl := hv.data.nf _ (List.getElem_mem hs)
  have hx : s < xLen.length := by rw [hv.data.len]; exact hs
  rw [getD_lt 0 hx, getD_lt [] (by omega), List.length_take, hv.data.nt _ (List.getElem_mem hs) _ (List.getElem_mem _)]
  have := hv.data.le _ (List.getElem_mem hx)
  omega

theorem one_length {sizes : List Nat} {m l : Nat} (h : sizes ≠ []) (hb : ∀ x ∈ sizes, 2 ≤ x ∧ x ≤ m)
    (hsz : ∀ x ∈ sizes, x = l) : 1 ≤ l := by
  obtain ⟨x, hx⟩ := List.exists_mem_of_ne_nil _ h
  have := (hb x hx).1
  rw [hsz x hx] at this
  omega

variable {G : Type} [MeasurableSpace G] [Gen G ℝ] [LawfulGen G] [DecidableEq L] {μ : Measure G}

/-- **C126.** Univariate series of equal length, shapelets of one length: any choices are as probable as the mirrored
choices on the reversed series. -/
theorem C126_law_univariate_same_length [IsProbabilityMeasure μ] (hf : Fair G μ) {a : FitArgs ℝ L} (hv : ValidSL a)
    {l : Nat} (hsz : ∀ x ∈ a.sizes, x = l) :
    ∃ pick pick' : G × (Nat → G) → Choices,
      (∀ ω order, IsSchedule order → ∃ S S',
        uslGenerate a ω.1 ω.2 order = .ok S ∧ uslGenerate (reversedSL a) ω.1 ω.2 order = .ok S' ∧
        uShown S = uListed (pick ω).par ((pick ω).out (trainSL a) (optOf a)) ∧
        uShown S' = uListed (pick' ω).par ((pick' ω).out (trainSL a).reversed (optOf a))) ∧
      ∀ d, d.InData (trainSL a) a.phase →
        tapes μ {ω | (pick' ω).Within (d.mirrored (trainSL a) a.phase)} = tapes μ {ω | (pick ω).Within d} := by
  obtain ⟨pick, h1, h2⟩ := C102_univariate_same_length hf hv
  obtain ⟨pick', h1', h2'⟩ := C102_univariate_same_length hf (reversedSL_valid hv)
  refine ⟨pick, pick', ?_, ?_⟩
  · intro ω order ho
    obtain ⟨S, s1, s2⟩ := h1 ω order ho
    obtain ⟨S', s1', s2'⟩ := h1' ω order ho
    rw [train_reversedSL] at s2'
    exact ⟨S, S', s1, s1', s2, s2'⟩
  · intro d hd
    rw [(h2 d).2, (h2' _).2, train_reversedSL]
    exact law_mirror rfl rfl hd hv.nf (seriesSL_len hv) (one_length hv.sizes hv.bounds hsz) hsz true

/-- **C126.** Univariate series of different lengths. -/
theorem C126_law_univariate_variable_length [IsProbabilityMeasure μ] (hf : Fair G μ) {a : FitArgs ℝ L} {minLen : Nat}
    {xLen : List Nat} (hv : ValidVL a minLen xLen) {l : Nat} (hsz : ∀ x ∈ a.sizes, x = l) :
    ∃ pick pick' : G × (Nat → G) → Choices,
      (∀ ω order, IsSchedule order → ∃ S S',
        uvlGenerate a minLen xLen ω.1 ω.2 order = .ok S ∧ uvlGenerate (reversedVL a xLen) minLen xLen ω.1 ω.2 order = .ok S' ∧
        uShown S = uListed (pick ω).par ((pick ω).out (trainVL a xLen) (optOf a)) ∧
        uShown S' = uListed (pick' ω).par ((pick' ω).out (trainVL a xLen).reversed (optOf a))) ∧
      ∀ d, d.InData (trainVL a xLen) a.phase →
        tapes μ {ω | (pick' ω).Within (d.mirrored (trainVL a xLen) a.phase)} = tapes μ {ω | (pick ω).Within d} := by
  obtain ⟨pick, h1, h2⟩ := C102_univariate_variable_length hf hv
  obtain ⟨pick', h1', h2'⟩ := C102_univariate_variable_length hf (reversedVL_valid hv)
  refine ⟨pick, pick', ?_, ?_⟩
  · intro ω order ho
    obtain ⟨S, s1, s2⟩ := h1 ω order ho
    obtain ⟨S', s1', s2'⟩ := h1' ω order ho
    rw [train_reversedVL] at s2'
    exact ⟨S, S', s1, s1', s2, s2'⟩
  · intro d hd
    rw [(h2 d).2, (h2' _).2, train_reversedVL]
    exact law_mirror rfl rfl hd hv.nf (seriesVL_len hv) (one_length hv.sizes hv.bounds hsz) hsz false

/-- **C126.** Multivariate series of equal length. -/
theorem C126_law_multivariate_same_length [IsProbabilityMeasure μ] (hf : Fair G μ) {a : FitArgs ℝ L} (hv : ValidSL a)
    {mc : Nat} (hmc : 1 ≤ mc) (hmcf : mc ≤ a.nf) {l : Nat} (hsz : ∀ x ∈ a.sizes, x = l) :
    ∃ pick pick' : G × (Nat → G) → Choices,
      (∀ ω order, IsSchedule order → ∃ S S',
        mslGenerate a mc ω.1 ω.2 order = .ok S ∧ mslGenerate (reversedSL a) mc ω.1 ω.2 order = .ok S' ∧
        mShown S = mListed (pick ω).par ((pick ω).out (trainSL a) (optOf a)) ∧
        mShown S' = mListed (pick' ω).par ((pick' ω).out (trainSL a).reversed (optOf a))) ∧
      ∀ d, d.InData (trainSL a) a.phase →
        tapes μ {ω | (pick' ω).Within (d.mirrored (trainSL a) a.phase)} = tapes μ {ω | (pick ω).Within d} := by
  obtain ⟨pick, h1, h2⟩ := C102_multivariate_same_length hf hv hmc hmcf
  obtain ⟨pick', h1', h2'⟩ := C102_multivariate_same_length hf (reversedSL_valid hv) hmc hmcf
  refine ⟨pick, pick', ?_, ?_⟩
  · intro ω order ho
    obtain ⟨S, s1, s2⟩ := h1 ω order ho
    obtain ⟨S', s1', s2'⟩ := h1' ω order ho
    rw [train_reversedSL] at s2'
    exact ⟨S, S', s1, s1', s2, s2'⟩
  · intro d hd
    rw [(h2 d).2, (h2' _).2, train_reversedSL]
    exact law_mirror rfl rfl hd hv.nf (seriesSL_len hv) (one_length hv.sizes hv.bounds hsz) hsz true

/-- **C126.** Multivariate series of different lengths. -/
theorem C126_law_multivariate_variable_length [IsProbabilityMeasure μ] (hf : Fair G μ) {a : FitArgs ℝ L} {minLen : Nat}
    {xLen : List Nat} (hv : ValidVL a minLen xLen) {mc : Nat} (hmc : 1 ≤ mc) (hmcf : mc ≤ a.nf) {l : Nat}
    (hsz : ∀ x ∈ a.sizes, x = l) :
    ∃ pick pick' : G × (Nat → G) → Choices,
      (∀ ω order, IsSchedule order → ∃ S S',
        mvlGenerate a mc minLen xLen ω.1 ω.2 order = .ok S ∧
        mvlGenerate (reversedVL a xLen) mc minLen xLen ω.1 ω.2 order = .ok S' ∧
        mShown S = mListed (pick ω).par ((pick ω).out (trainVL a xLen) (optOf a)) ∧
        mShown S' = mListed (pick' ω).par ((pick' ω).out (trainVL a xLen).reversed (optOf a))) ∧
      ∀ d, d.InData (trainVL a xLen) a.phase →
        tapes μ {ω | (pick' ω).Within (d.mirrored (trainVL a xLen) a.phase)} = tapes μ {ω | (pick ω).Within d} := by
  obtain ⟨pick, h1, h2⟩ := C102_multivariate_variable_length hf hv hmc hmcf
  obtain ⟨pick', h1', h2'⟩ := C102_multivariate_variable_length hf (reversedVL_valid hv) hmc hmcf
  refine ⟨pick, pick', ?_, ?_⟩
  · intro ω order ho
    obtain ⟨S, s1, s2⟩ := h1 ω order ho
    obtain ⟨S', s1', s2'⟩ := h1' ω order ho
    rw [train_reversedVL] at s2'
    exact ⟨S, S', s1, s1', s2, s2'⟩
  · intro d hd
    rw [(h2 d).2, (h2' _).2, train_reversedVL]
    exact law_mirror rfl rfl hd hv.nf (seriesVL_len hv) (one_length hv.sizes hv.bounds hsz) hsz false

/-- **C126.** The shapelets of the mirrored choices are the shapelets read backwards, channel by channel, with the same
thresholds. -/
theorem C126_shapelets_reversed {T : Train L} {a : FitArgs ℝ L} {c : Choices} (hc : c.InData T a.phase) {i : Nat}
    (hi : i < c.par.n) {r : Src} (hr : c.src i = some r) (hlen : ∀ ch ∈ r.channels, (T.series r.sample ch).length = T.len r.sample) :
    c.out T (optOf a) i = some ⟨r.channels.flatMap fun k => subseq T c.par (optOf a) i r.sample k r.index, r.channels, c.thr i⟩ ∧
    (c.mirrored T a.phase).out T.reversed (optOf a) i = some ⟨r.channels.flatMap fun k =>
      (subseq T c.par (optOf a) i r.sample k r.index).reverse, r.channels, c.thr i⟩ :=
  ⟨by unfold Choices.out; rw [hr]; rfl, out_mirrored hc hi hr hlen⟩

/-- The first series of `lawEx` holds both sources. -/
theorem lawExChoices_inData (x : Nat → ℝ) : (lawExChoices x).InData (trainSL lawEx) lawEx.phase := by
  intro i hi r hr
  have hi : i < 2 := hi
  obtain rfl := Option.some.inj hr
  refine ⟨by show 0 < 2; omega, ?_⟩
  show i < nWin false 3 2 1
  have e : nWin false 3 2 1 = 2 := rfl
  omega

/-- The shapelets `1, 2` and `2, 4` of the series `1, 2, 4` have probability 1/12 (see C104), so `2, 1` and `4, 2` of the
reversed series `4, 2, 1`, read from its points 2 and 1, have probability 1/12. -/
example : ∃ (x : Nat → ℝ) (pick' : Tape × (Nat → Tape) → Choices),
    (∀ ω order, IsSchedule order → ∃ S', uslGenerate (reversedSL lawEx) ω.1 ω.2 order = .ok S' ∧
      uShown S' = uListed (pick' ω).par ((pick' ω).out (trainSL lawEx).reversed (optOf lawEx))) ∧
    (∀ i, i < 2 → ∃ r, ((lawExChoices x).mirrored (trainSL lawEx) false).src i = some r ∧ r.sample = 0 ∧ r.index = 1 - i) ∧
    tapes tapeLaw {ω | (pick' ω).Within ((lawExChoices x).mirrored (trainSL lawEx) false)} = 12⁻¹ := by
  obtain ⟨x, hx⟩ := lawEx_law
  obtain ⟨pick', e1, e2⟩ := C102_univariate_same_length tape_fair (reversedSL_valid lawEx_valid)
  rw [train_reversedSL] at e1 e2
  refine ⟨x, pick', e1, ?_, ?_⟩
  · intro i hi
    refine ⟨_, rfl, rfl, ?_⟩
    show mirrorAt false 3 2 1 i = 1 - i
    interval_cases i <;> rfl
  · rw [(e2 _).2]
    refine Eq.trans ?_ (hx true)
    exact law_mirror rfl rfl (lawExChoices_inData x) lawEx_valid.nf (seriesSL_len lawEx_valid) (l := 2) (by omega)
      (by simp [lawEx]) true

/-- The hypotheses of the four theorems are met. -/
example : Fair Tape tapeLaw ∧ ValidSL lawEx ∧ ValidVL lawEx 3 [3, 3] ∧ (∀ x ∈ lawEx.sizes, x = 2) ∧
    ∀ x, (lawExChoices x).InData (trainSL lawEx) lawEx.phase :=
  ⟨tape_fair, lawEx_valid, lawEx_validVL, by simp [lawEx], lawExChoices_inData⟩

end law

/-! ## Fit with several lengths -/

theorem filterMap_two {α : Type} {f : Nat → Option α} {x y : α} (h : (List.range 2).filterMap f = [x, y]) :
    f 0 = some x ∧ f 1 = some y := by
  have e : List.range 2 = [0, 1] := rfl
  rw [e] at h
  cases h0 : f 0 <;> cases h1 : f 1 <;> simp_all

/-- **C126 (violated with several lengths).** On the series `1, 2, 4`, with lengths 2 and 3 and `alpha=1`, `fit` can
return the shapelet `2, 4` and then `1, 2, 4`.  On the reversed series `4, 2, 1` it never returns `4, 2` and then
`4, 2, 1`, whatever the generator and the schedule. -/
theorem C126_several_lengths_violated :
    (∃ (t0 t1 : ℝ) (g0 : Script) (gs : Nat → Script) (S : UShp ℝ),
      (∀ order, IsSchedule order → uslGenerate exC g0 gs order = .ok S) ∧
      uShown S = [⟨2, 1, false, t0, [0], [2, 4]⟩, ⟨3, 1, false, t1, [0], [1, 2, 4]⟩]) ∧
    ∀ (G : Type) [Gen G ℝ] [LawfulGen G] (g0 : G) (gs : Nat → G) (order : Nat → List Nat), IsSchedule order →
      ∃ S, uslGenerate (reversedSL exC) g0 gs order = .ok S ∧
        ∀ t0 t1 : ℝ, uShown S ≠ [⟨2, 1, false, t0, [0], [4, 2]⟩, ⟨3, 1, false, t1, [0], [4, 2, 1]⟩] := by
  constructor
  · obtain ⟨t0, t1, g0, gs, S, h1, h2, -⟩ := C25_longer_can_exceed
    exact ⟨t0, t1, g0, gs, S, h1, h2⟩
  · intro G _ _ g0 gs order ho
    obtain ⟨S, hS, P, rec, out, hP, hg, hl⟩ := C79_sound_same_length (reversedSL_valid exC_valid) g0 gs ho
    refine ⟨S, hS, ?_⟩
    intro t0 t1 h
    rw [hl] at h
    have hn : P.n = 2 := hP.count
    unfold uListed at h
    rw [hn] at h
    obtain ⟨h0, h1⟩ := filterMap_two h
    obtain ⟨v0, hv0, e0⟩ := Option.map_eq_some_iff.1 h0
    obtain ⟨v1, hv1, e1⟩ := Option.map_eq_some_iff.1 h1
    have o0 := (Option.filter_eq_some_iff.1 hv0).1
    have o1 := (Option.filter_eq_some_iff.1 hv1).1
    simp only [showOut, Shown.mk.injEq] at e0 e1
    obtain ⟨l0, d0, n0, -, c0, w0⟩ := e0
    obtain ⟨l1, d1, n1, -, c1, w1⟩ := e1
    obtain ⟨ch0, -, ⟨-, q, -⟩ | ⟨r0, u0, hr0, hu0, hc0, ha0, hs0⟩⟩ := hg 0 (by omega)
    · rw [o0] at q; cases q
    obtain ⟨ch1, hch1, ⟨-, q, -⟩ | ⟨r1, u1, hr1, hu1, hc1, ha1, hs1⟩⟩ := hg 1 (by omega)
    · rw [o1] at q; cases q
    rw [o0] at hu0
    rw [o1] at hu1
    cases hu0
    cases hu1
    have hser : (trainSL (reversedSL exC)).series 0 0 = [4, 2, 1] := by simp [trainSL, reversedSL, exC]
    have s0 : r0.sample = 0 := by
      have h : r0.sample < 1 := ha0.1
      omega
    have s1 : r1.sample = 0 := by
      have h : r1.sample < 1 := ha1.1
      omega
    have i1 : r1.index = 0 := by
      have h : r1.index < nWin false 3 (P.length 1) (P.dilation 1) := ha1.2.1
      rw [l1, d1] at h
      have : nWin false 3 3 1 = 1 := rfl
      omega
    have rc0 : r0.channels = [0] := hs0.channels.symm.trans c0
    have i0 : r0.index = 0 := by
      have h : r0.index < nWin false 3 (P.length 0) (P.dilation 0) := ha0.2.1
      rw [l0, d0] at h
      have e : nWin false 3 2 1 = 2 := rfl
      rw [e] at h
      have hv := hs0.values
      rw [w0, rc0, s0] at hv
      simp only [List.flatMap_cons, List.flatMap_nil, List.append_nil] at hv
      unfold subseq at hv
      rw [n0, l0, d0, hser] at hv
      have hph : (optOf (reversedSL exC)).phase = false := rfl
      rw [hph] at hv
      have hlt : r0.index = 0 ∨ r0.index = 1 := by omega
      rcases hlt with h | h
      · exact h
      · rw [h] at hv
        simp [seen, window, pos, List.range_succ] at hv
    have hal : ∀ m : Nat, allowance (optOf (reversedSL exC)).alpha m = 1 := by
      intro m
      unfold allowance
      show ⌊max 1 ((1 - (1 : ℝ)) * (m : ℝ))⌋.toNat = 1
      norm_num
    apply ha1.2.2
    refine ⟨0, 2, r0, by omega, by rw [d0, d1], by rw [n0, n1], hr0, by rw [s0, s1], by rw [rc0]; simp, ?_, ?_⟩
    · refine ⟨⟨0, by omega, by rw [d0, d1], l0⟩, ?_⟩
      intro j hj _
      rw [hn] at hj
      have : j = 0 ∨ j = 1 := by omega
      rcases this with rfl | rfl <;> omega
    · rw [hal, l0, d0, i0, i1]
      refine ⟨0, by omega, Or.inl ?_⟩
      simp

end Convst.Props
