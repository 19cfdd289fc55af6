import Verif.Proofs.FitAll
import Verif.Proofs.RealFeatures
import Verif.Proofs.ZNorm
import Verif.Props.Transform

/-! # Consequences of the specification of `fit` for single shapelets -/

set_option autoImplicit false
set_option linter.unusedSectionVars false

namespace Convst
open Spec
variable {L : Type} [DecidableEq L]

section Common
variable {T : Train L} {P : Par} {o : Opt}

theorem distTo_nonneg (i : Nat) (r : Src) (s : Nat) : ∀ x ∈ distTo T P o i r s, 0 ≤ x := by
  intro x hx
  obtain ⟨t, -, rfl⟩ := List.mem_map.1 hx
  refine List.sum_nonneg ?_
  intro y hy
  obtain ⟨c, -, rfl⟩ := List.mem_map.1 hy
  exact l1_nonneg _ _

theorem distTo_self {i : Nat} {r : Src}
    (h : r.index < nWin o.phase (T.len r.sample) (P.length i) (P.dilation i)) :
    0 ∈ distTo T P o i r r.sample := by
  refine List.mem_map.2 ⟨r.index, List.mem_range.2 h, ?_⟩
  have : (r.channels.map fun c => l1 (subseq T P o i r.sample c r.index)
      (subseq T P o i r.sample c r.index)) = r.channels.map fun _ => (0 : ℝ) :=
    List.map_congr_left fun c _ => l1_self _
  rw [this]; simp

/-- The least feature is 0 when 0 is one of the distances. -/
theorem features_zero {D : List ℝ} {thr : ℝ} (hD : ∀ x ∈ D, 0 ≤ x) (h0 : 0 ∈ D) :
    (features D thr).1 = 0 := by
  have h := features_isFeatures (thr := thr) (List.ne_nil_of_mem h0) hD
  exact le_antisymm (h.1.2 0 h0) (hD _ h.1.1)

/-- The count feature is at least 1 when the threshold reaches a percentile. -/
theorem features_count {D : List ℝ} {thr q p : ℝ} (hD : ∀ x ∈ D, 0 ≤ x) (hne : D ≠ [])
    (h0 : 0 ≤ q) (h1 : q ≤ 100) (hp : percentile D q = .ok p) (hthr : p ≤ thr) :
    1 ≤ (features D thr).2.2 := by
  have h := features_isFeatures (thr := thr) hne hD
  obtain ⟨p', e, ⟨x, hx, hxp⟩, -⟩ := percentile_ok hne h0 h1
  rw [hp] at e; obtain rfl := Except.ok.inj e
  rw [h.2.2]
  have : 0 < D.countP fun x => decide (x ≤ thr) :=
    List.countP_pos_iff.2 ⟨x, hx, by simpa using hxp.trans hthr⟩
  exact_mod_cast this

end Common

/-- Everything known about shapelet `k` of a univariate result. -/
structure UShapelet (T : Train L) (P : Par) (o : Opt) (S : UShp ℝ) (k i : Nat) (r : Src) : Prop where
  lt : i < P.n
  channels : r.channels = [0]
  length : S.lengths.getD k 0 = P.length i
  dilation : S.dilations.getD k 0 = P.dilation i
  normalize : S.normalize.getD k false = P.normalize i
  sample : r.sample < T.ns
  index : r.index < nWin o.phase (T.len r.sample) (P.length i) (P.dilation i)
  values : uValues S k = subseq T P o i r.sample 0 r.index
  sampled : Sampled T P o i r ⟨uValues S k, [0], S.threshold.getD k 0⟩

theorem UFitted.shapelet {T : Train L} {a : FitArgs ℝ L} {n : Nat} {P : Par}
    {rec : Nat → Option Src} {out : Nat → Option (Out ℝ)} {kept : List Nat} {S : UShp ℝ}
    (h : UFitted T a n P rec out kept S) {k : Nat} (hk : k < S.lengths.length) :
    ∃ i r, kept[k]? = some i ∧ rec i = some r ∧
      Admissible T P (optOf a) false rec i [0] r.sample r.index ∧
      UShapelet T P (optOf a) S k i r := by
  have hkl : k < kept.length := by rw [← h.from_.count]; exact hk
  have hki : kept[k]? = some kept[k] := List.getElem?_eq_getElem hkl
  obtain ⟨v, hv, hval, hthr⟩ := h.from_.shapelet k _ hki
  have hlt := ((h.from_.mem _).1 (List.getElem_mem hkl)).1
  obtain ⟨ch, hch, ⟨-, h2, -⟩ | ⟨r, v', h1, h2, h3, h4, h5⟩⟩ := h.good _ hlt
  · rw [hv] at h2; simp at h2
  · rw [hv] at h2; obtain rfl := Option.some.inj h2
    have hch : ch = [0] := by simpa [ChannelsOK] using hch
    subst hch
    have hvals : v.values = subseq T P (optOf a) kept[k] r.sample 0 r.index := by
      rw [h5.values, h3]; simp
    refine ⟨kept[k], r, hki, h1, h4, hlt, h3, getD_some (h.from_.lengths k _ hki),
      getD_some (h.from_.dilations k _ hki), getD_some (h.from_.normalize k _ hki), h4.1, h4.2.1, ?_, ?_⟩
    · rw [hval, hvals]
    · rw [hval, getD_some hthr]
      exact ⟨h3.symm, h5.values, h5.test_lt, h5.same_class, h5.other, h5.threshold⟩

theorem UShapelet.distances {T : Train L} {P : Par} {o : Opt} {S : UShp ℝ} {k i : Nat} {r : Src}
    (h : UShapelet T P o S k i r) {s : Nat} (hlen : (T.series s 0).length = T.len s) :
    uDistances o.phase S (T.series s 0) k = distTo T P o i r s := by
  rw [distTo_single h.channels hlen, uDistances, h.length, h.dilation, h.normalize, h.values]

/-- Everything known about shapelet `k` of a multivariate result. -/
structure MShapelet (T : Train L) (P : Par) (o : Opt) (S : MShp ℝ) (k i : Nat) (r : Src) : Prop where
  lt : i < P.n
  channels : mChannels S k = r.channels
  nodup : r.channels.Nodup
  range : ∀ c ∈ r.channels, c < T.nf
  count : S.nChannels.getD k 0 = r.channels.length
  length : S.lengths.getD k 0 = P.length i
  dilation : S.dilations.getD k 0 = P.dilation i
  normalize : S.normalize.getD k false = P.normalize i
  sample : r.sample < T.ns
  index : r.index < nWin o.phase (T.len r.sample) (P.length i) (P.dilation i)
  values : ∀ c : Nat, c < r.channels.length →
    mValues S k c = subseq T P o i r.sample (r.channels.getD c 0) r.index
  sampled : ∃ v, Sampled T P o i r v ∧ v.threshold = S.threshold.getD k 0

theorem blocks_eq {α : Type} {n l : Nat} {f g : Nat → List α} (hf : ∀ c, c < n → (f c).length = l)
    (hg : ∀ c, c < n → (g c).length = l)
    (h : (List.range n).flatMap f = (List.range n).flatMap g) {c : Nat} (hc : c < n) : f c = g c := by
  have h1 := Props.flatMap_range_block f (fun _ => l) n c hc hf
  have h2 := Props.flatMap_range_block g (fun _ => l) n c hc hg
  rw [h] at h1
  rw [← h1, h2]

theorem MFitted.shapelet {T : Train L} {a : FitArgs ℝ L} {n mc : Nat} {P : Par} {nch : Nat → Nat}
    {rec : Nat → Option Src} {out : Nat → Option (Out ℝ)} {kept : List Nat} {S : MShp ℝ}
    (h : MFitted T a n mc P nch rec out kept S) {k : Nat} (hk : k < S.lengths.length) :
    ∃ i r, kept[k]? = some i ∧ rec i = some r ∧ S.nChannels.getD k 0 = nch i ∧
      Admissible T P (optOf a) true rec i r.channels r.sample r.index ∧
      MShapelet T P (optOf a) S k i r := by
  have hkl : k < kept.length := by rw [← h.from_.count]; exact hk
  have hki : kept[k]? = some kept[k] := List.getElem?_eq_getElem hkl
  obtain ⟨v, hv, hcs, hval, hthr⟩ := h.from_.shapelet k _ hki
  have hlt := ((h.from_.mem _).1 (List.getElem_mem hkl)).1
  obtain ⟨ch, hch, ⟨-, h2, -⟩ | ⟨r, v', h1, h2, h3, h4, h5⟩⟩ := h.good _ hlt
  · rw [hv] at h2; simp at h2
  · rw [hv] at h2; obtain rfl := Option.some.inj h2
    obtain ⟨hnd, hnl, hrng⟩ : ch.Nodup ∧ ch.length = nch kept[k] ∧ ∀ c ∈ ch, c < T.nf := by
      simpa [ChannelsOK] using hch
    subst h3
    have hcnt : S.nChannels.getD k 0 = nch kept[k] := getD_some (h.from_.nChannels k _ hki)
    have hlen : S.lengths.getD k 0 = P.length kept[k] := getD_some (h.from_.lengths k _ hki)
    refine ⟨kept[k], r, hki, h1, hcnt, h4, hlt, hcs.trans h5.channels, hnd, hrng, by rw [hcnt, hnl],
      hlen,
      getD_some (h.from_.dilations k _ hki), getD_some (h.from_.normalize k _ hki), h4.1, h4.2.1, ?_,
      v, h5, (getD_some hthr).symm⟩
    intro c hc
    have hsrc : r.channels.flatMap (fun c => subseq T P (optOf a) kept[k] r.sample c r.index) =
        (List.range r.channels.length).flatMap fun c =>
          subseq T P (optOf a) kept[k] r.sample (r.channels.getD c 0) r.index := by
      conv_lhs => rw [eq_range_map r.channels 0]
      rw [List.flatMap_map]
    rw [h5.values, hcnt, ← hnl, hsrc] at hval
    refine blocks_eq (l := P.length kept[k]) ?_ ?_ hval hc
    · intro c hc
      rw [← hlen]
      exact mValues_length h.wf hk (by rw [hcnt, ← hnl]; exact hc)
    · intro c _
      exact subseq_length _ _ _ _

theorem MShapelet.distances {T : Train L} {P : Par} {o : Opt} {S : MShp ℝ} {k i : Nat} {r : Src}
    (h : MShapelet T P o S k i r) {s : Nat} {x : List (List ℝ)}
    (hx : ∀ c, c < T.nf → x.getD c [] = T.series s c) :
    mDistances o.phase S x (T.len s) k = distTo T P o i r s := by
  unfold mDistances distTo
  rw [h.length, h.dilation]
  refine List.map_congr_left fun t _ => ?_
  rw [mDist_eq_sum, h.channels]
  conv_rhs => rw [eq_range_map r.channels 0, List.map_map]
  rw [Finset.sum_range, ← List.sum_ofFn]
  congr 1
  apply List.ext_getElem
  · simp
  · intro c h1 h2
    have hc : c < r.channels.length := by simpa using h1
    rw [List.getElem_ofFn, List.getElem_map, List.getElem_range]
    simp only [Function.comp_apply]
    rw [h.values c hc, hx _ (h.range _ (by rw [getD_lt _ hc]; exact List.getElem_mem hc))]
    unfold subseq
    rw [h.length, h.dilation, h.normalize]

/-- Rows of a list of rows built by `map`. -/
theorem row_get {α β : Type} {X : List α} (f : α → β) {s : Nat} (d : α) (hs : s < X.length) :
    (X.map f)[s]? = some (f (X.getD s d)) := by
  rw [List.getElem?_map, List.getElem?_eq_getElem hs, getD_lt _ hs]; rfl

end Convst
