import Verif.Proofs.FitAll
import Verif.Proofs.Reach

/-!
# Completeness of the sampling: everything the specification of `fit` allows can happen

Converse of `FitUni`, `FitMulti`, `FitLoop`, `FitAll`: for every outcome allowed by the specification some
sequence of draws produces it.
-/

set_option autoImplicit false
set_option linter.unusedSectionVars false

namespace Convst
open Spec

section Draws
variable {α L : Type} [DecidableEq L]

/-- The threshold can be any number from the lower percentile (included) to the upper one (excluded unless
they are equal). -/
theorem reach_drawThreshold {D : List ℝ} {pMin pMax p0 p1 thr : ℝ} (e0 : percentile D pMin = .ok p0)
    (e1 : percentile D pMax = .ok p1) (h0 : p0 ≤ thr) (h1 : thr ≤ p1) (h2 : thr < p1 ∨ p0 = p1) :
    Reach (drawThreshold D pMin pMax) thr := by
  unfold drawThreshold
  refine Reach.bindRes e0 (Reach.bindRes e1 (reach_uniform h0 ?_))
  rcases h2 with h2 | h2
  · exact Or.inl h2
  · exact Or.inr (by linarith)

/-- Every other sample of the class can be picked; the sample itself when it is alone in its class. -/
theorem reach_pickOther {y : List L} {s t : Nat} (hs : s < y.length) (ht : t < y.length)
    (hc : y[t]? = y[s]?) (ho : (∃ s', s' < y.length ∧ s' ≠ s ∧ y[s']? = y[s]?) → t ≠ s) :
    Reach (pickOther y s) t := by
  unfold pickOther
  refine Reach.bindRes (aget_ok hs) ?_
  have hmem : ∀ t, t ∈ whereIdx y.length (fun i => y[i]? == some y[s]) ↔
      t < y.length ∧ y[t]? = y[s]? := by
    intro t
    rw [mem_whereIdx, beq_iff_eq, List.getElem?_eq_getElem hs]
  have hnd := whereIdx_nodup y.length (fun i => y[i]? == some y[s])
  generalize whereIdx y.length (fun i => y[i]? == some y[s]) = loc at hmem hnd
  have hsl : s ∈ loc := (hmem s).2 ⟨hs, rfl⟩
  have htl : t ∈ loc := (hmem t).2 ⟨ht, hc⟩
  simp only
  split
  · rename_i hlen
    refine reach_choice1 (List.mem_filter.2 ⟨htl, ?_⟩)
    have : ∃ s' ∈ loc, s' ≠ s := by
      by_contra hcon
      have hall : ∀ u ∈ loc, u = s := by
        intro u hu
        by_contra hne
        exact hcon ⟨u, hu, hne⟩
      match loc, hlen, hnd, hall with
      | a :: b :: l, _, hnd, hall =>
        have h1 := hall a (by simp)
        have h2 := hall b (by simp)
        simp [h1, h2] at hnd
    obtain ⟨s', h1, h2⟩ := this
    have := ho ⟨s', ((hmem s').1 h1).1, h2, ((hmem s').1 h1).2⟩
    simpa using this
  · rename_i hlen
    have : t = s := by
      match loc, hlen, hsl, htl with
      | [a], _, hsl, htl => simp at hsl htl; rw [hsl, htl]
      | _ :: _ :: _, hlen, _, _ => simp at hlen
    rw [this]
    exact Reach.pure _

theorem Reach.foldlM_range {σ : Type} {k : Nat} {f : σ → Nat → RM Script σ} {s0 : σ}
    {P : Nat → σ → Prop} (h0 : P 0 s0)
    (hs : ∀ i s, i < k → P i s → ∃ s', Reach (f s i) s' ∧ P (i + 1) s') :
    ∃ s', Reach ((List.range k).foldlM f s0) s' ∧ P k s' := by
  induction k with
  | zero => exact ⟨s0, by simpa using Reach.pure s0, h0⟩
  | succ k ih =>
    obtain ⟨s1, r1, p1⟩ := ih (fun i s hi => hs i s (by omega))
    obtain ⟨s2, r2, p2⟩ := hs k s1 (by omega) p1
    refine ⟨s2, ?_, p2⟩
    rw [List.range_succ, List.foldlM_append]
    refine Reach.bind r1 ?_
    simpa using r2

/-- Every choice without repetition can be drawn. -/
theorem reach_choiceNoRep {a r : List α} (hr : r.Nodup) (hsub : ∀ v ∈ r, v ∈ a) (hk : r.length ≤ a.length) :
    Reach (choiceNoRep a r.length) r := by
  unfold choiceNoRep
  rw [if_neg (by omega)]
  obtain ⟨s', h1, h2, -⟩ := Reach.foldlM_range (k := r.length) (s0 := (a, ([] : List α)))
    (f := fun (x : List α × List α) i => do
        let j ← draw i a.length
        let v ← ofRes (aget x.1 j)
        let si ← ofRes (aget x.1 i)
        let src' ← ofRes (aset x.1 j si)
        Pure.pure (src', x.2 ++ [v]))
    (P := fun i s => s.2 = r.take i ∧ s.1.length = a.length ∧ (s.2 ++ s.1.drop i).Perm a)
    (by simp) (by
      rintro i ⟨src, out⟩ hi ⟨h1, h2, h3⟩
      simp only at h1 h2 h3
      have hi' : i < src.length := by omega
      have hmem : r[i] ∈ src.drop i := by
        have : r[i] ∈ out ++ src.drop i := h3.symm.subset (hsub _ (List.getElem_mem hi))
        rcases List.mem_append.1 this with h | h
        · exfalso
          rw [h1] at h
          obtain ⟨j, hj, e⟩ := List.mem_take_iff_getElem.1 h
          have := (List.Nodup.getElem_inj_iff hr).1 e
          omega
        · exact h
      obtain ⟨j0, hj0, e⟩ := List.mem_iff_getElem.1 hmem
      rw [List.getElem_drop] at e
      rw [List.length_drop] at hj0
      have hj' : i + j0 < src.length := by omega
      refine ⟨(src.set (i + j0) src[i], out ++ [src[i + j0]]), ?_, ?_, by simp [h2], ?_⟩
      · refine Reach.bind (reach_draw (j := i + j0) (by omega) (by omega)) ?_
        refine Reach.bindRes (aget_ok hj') ?_
        refine Reach.bindRes (aget_ok hi') ?_
        exact Reach.bindRes (aset_ok hj') (Reach.pure _)
      · simp only
        rw [h1, e, List.take_succ_eq_append_getElem hi]
      · refine List.Perm.trans ?_ h3
        simp only
        rw [List.append_assoc]
        refine List.Perm.append_left _ ?_
        have hd : src.drop i = src[i] :: src.drop (i + 1) := List.drop_eq_getElem_cons hi'
        rw [hd]
        rcases Nat.eq_zero_or_pos j0 with heq | hlt
        · subst heq
          rw [List.drop_set_of_lt (by omega)]
          simp
        · have hset : (src.set (i + j0) src[i]).drop (i + 1) =
              (src.drop (i + 1)).set (i + j0 - (i + 1)) src[i] := by
            rw [List.drop_set, if_neg (by omega)]
          rw [hset]
          have hk' : i + j0 - (i + 1) < (src.drop (i + 1)).length := by
            rw [List.length_drop]; omega
          have hv : (src.drop (i + 1))[i + j0 - (i + 1)] = src[i + j0] := by
            rw [List.getElem_drop]
            congr 1
            omega
          have := perm_cons_set src[i] (src.drop (i + 1)) (i + j0 - (i + 1)) hk'
          rw [hv] at this
          exact this)
  refine Reach.bind h1 ?_
  rw [h2, List.take_length]
  exact Reach.pure _

end Draws

/-! ## The sampling steps -/

section Steps
variable {L : Type} [DecidableEq L]

theorem mask_ext {m m' : SubMask} {Q : Bool → Nat → Nat → Nat → Prop} (h : ∀ n s c t, m n s c t = true ↔ Q n s c t)
    (h' : ∀ n s c t, m' n s c t = true ↔ Q n s c t) : m = m' := by
  funext n s c t
  exact Bool.eq_iff_iff.2 ((h n s c t).trans (h' n s c t).symm)

theorem uslStep_reach {a : FitArgs ℝ L} (hd : DataSL a) (hnf : 1 ≤ a.nf)
    {lengths dilations : List Nat} {normalize : List Bool}
    (hP : ParOK lengths dilations normalize a.nt) {i : Nat} (hi : i < lengths.length)
    {nch : Nat → Nat} {minL : Nat} {m : SubMask} {res : SubMask × Option (Out ℝ)}
    (hres : StepPost (trainSL a) (parOf lengths dilations normalize) (optOf a) false nch minL m i res) :
    Reach (uslStep a lengths dilations normalize minL m i) res := by
  have hpos := hP.pos i hi
  have hroom := hP.room i hi
  unfold uslStep
  refine Reach.bindRes (aget_getD 0 (by rw [hP.dil]; exact hi)) ?_
  refine Reach.bindRes (aget_getD 0 hi) ?_
  refine Reach.bindRes (aget_getD false (by rw [hP.norm]; exact hi)) ?_
  have hstop := vlStop_eq (phase := a.phase) hpos hroom.le (le_refl a.nt)
  unfold vlStop at hstop
  simp only [hstop]
  have hcand : ∀ s t, (s, t) ∈ ((List.range a.X.length).flatMap fun s =>
      (whereIdx (nWin a.phase a.nt (lengths.getD i 0) (dilations.getD i 0))
        fun t => m (normalize.getD i false) s 0 t).map fun t => (s, t)) ↔
      s < a.X.length ∧ t < nWin a.phase a.nt (lengths.getD i 0) (dilations.getD i 0) ∧
        m (normalize.getD i false) s 0 t = true := by
    intro s t
    simp only [List.mem_flatMap, List.mem_range, List.mem_map, Prod.mk.injEq, mem_whereIdx]
    constructor
    · rintro ⟨s', h1, t', ⟨h2, h3⟩, rfl, rfl⟩; exact ⟨h1, h2, h3⟩
    · rintro ⟨h1, h2, h3⟩; exact ⟨s, h1, t, ⟨h2, h3⟩, rfl, rfl⟩
  generalize ((List.range a.X.length).flatMap fun s =>
      (whereIdx (nWin a.phase a.nt (lengths.getD i 0) (dilations.getD i 0))
        fun t => m (normalize.getD i false) s 0 t).map fun t => (s, t)) = cand at hcand
  obtain ⟨res1, res2⟩ := res
  obtain ⟨ch, hch, ⟨h1, h2, h3⟩ | ⟨r, v, h1, h2, h3, h4, h5, h6, h7⟩⟩ := hres
  · simp only at h1 h2
    subst h1 h2
    rw [if_neg]
    · exact Reach.pure _
    · rw [gt_iff_lt, List.length_pos_iff, not_not]
      rw [List.eq_nil_iff_forall_not_mem]
      rintro ⟨s, t⟩ hm
      obtain ⟨c1, c2, c3⟩ := (hcand s t).1 hm
      refine h3 s t c1 c2 ?_
      simp only [EnoughFree, Bool.false_eq_true, if_false]
      simp only [parOf, c3]; simp
  · simp only at h1 h7
    subst h1
    have hch : ch = [0] := by simpa [ChannelsOK] using hch
    subst hch
    have hsl : r.sample < a.X.length := h3
    have htl : r.index < nWin a.phase a.nt (lengths.getD i 0) (dilations.getD i 0) := h4
    have hmt : m (normalize.getD i false) r.sample 0 r.index = true := by
      simpa [EnoughFree, parOf] using h5
    have hmem := (hcand r.sample r.index).2 ⟨hsl, htl, hmt⟩
    rw [if_pos (List.length_pos_of_mem hmem)]
    refine Reach.bind (reach_choice1 (v := r.sample) (List.mem_map.2 ⟨_, hmem, rfl⟩)) ?_
    refine Reach.bind (reach_choice1 (v := r.index) (List.mem_map.2 ⟨_, List.mem_filter.2 ⟨hmem, by simp⟩, rfl⟩)) ?_
    have hnt : 0 < a.nt := by omega
    obtain ⟨m', e1, hm'⟩ := markLoop_ok (sh := ⟨a.X.length, 1, a.nt⟩) m (normalize.getD i false)
      (s := r.sample) (c := 0) (n := a.nt) r.index (dilations.getD i 0)
      (alphaSize (lengths.getD i 0) a.alpha minL) hsl (by simp) hnt (le_refl _)
    refine Reach.bindRes e1 ?_
    obtain ⟨e2, len2⟩ := hd.get hsl (by omega : 0 < a.nf)
    refine Reach.bindRes e2 ?_
    refine Reach.bindRes (getSubsequence_ok (by rw [len2]; exact htl)) ?_
    have ht1 : r.test < a.X.length := h6.test_lt
    refine Reach.bind (reach_pickOther (t := r.test) (by rw [hd.y]; exact hsl) (by rw [hd.y]; exact ht1)
      h6.same_class (by rw [hd.y]; exact h6.other)) ?_
    obtain ⟨e3, len3⟩ := hd.get ht1 (by omega : 0 < a.nf)
    refine Reach.bindRes e3 ?_
    refine Reach.bindRes (Props.C17_dist_vector _ _ _ _ _ _ hpos ?_ ?_) ?_
    · rw [seen_length, window_length]
    · rw [len3]; exact fits_of_lt hroom
    obtain ⟨p0, p1, q0, q1, l0, l1, l2⟩ := h6.threshold
    rw [distTo_single h2 len3] at q0 q1
    refine Reach.bind (reach_drawThreshold q0 q1 l0 l1 l2) ?_
    have hm : res1 = m' := by
      refine mask_ext h7 ?_
      intro n s c t
      rw [hm']
      simp only [parOf, Near, alphaSize_iff, optOf, trainSL, h2, List.mem_singleton]
    obtain ⟨vv, vc, vt⟩ := v
    have hvv : vv = subseq (trainSL a) (parOf lengths dilations normalize) (optOf a) i r.sample 0 r.index := by
      have := h6.values
      rw [h2] at this
      simpa using this
    have hvc : vc = [0] := h6.channels.trans h2
    subst hm hvv hvc
    exact Reach.pure _

theorem uvlStep_reach {a : FitArgs ℝ L} {xLen : List Nat} {n : Nat} (hd : DataVL a xLen n)
    (hnf : 1 ≤ a.nf) {lengths dilations : List Nat} {normalize : List Bool}
    (hP : ParOK lengths dilations normalize n) {i : Nat} (hi : i < lengths.length) {maxLen : Nat}
    (hmax : ∀ s, s < a.X.length → xLen.getD s 0 ≤ maxLen)
    {nch : Nat → Nat} {minL : Nat} {m : SubMask} {res : SubMask × Option (Out ℝ)}
    (hres : StepPost (trainVL a xLen) (parOf lengths dilations normalize) (optOf a) false nch minL m i res) :
    Reach (uvlStep a xLen maxLen lengths dilations normalize minL m i) res := by
  have hpos := hP.pos i hi
  have hroom := hP.room i hi
  unfold uvlStep
  refine Reach.bindRes (aget_getD 0 (by rw [hP.dil]; exact hi)) ?_
  refine Reach.bindRes (aget_getD 0 hi) ?_
  refine Reach.bindRes (aget_getD false (by rw [hP.norm]; exact hi)) ?_
  refine Reach.bindRes (rows_ok hd hpos hroom (fun s t => m (normalize.getD i false) s 0 t) hmax) ?_
  have hmem := fun s => iMask_mem (ns := a.X.length)
    (w := fun s => whereIdx (nWin a.phase (xLen.getD s 0) (lengths.getD i 0) (dilations.getD i 0))
      fun t => m (normalize.getD i false) s 0 t) (s := s)
  simp only
  generalize (whereIdx a.X.length fun s => !(List.getD ((List.range a.X.length).map fun s =>
      whereIdx (nWin a.phase (xLen.getD s 0) (lengths.getD i 0) (dilations.getD i 0))
        fun t => m (normalize.getD i false) s 0 t) s []).isEmpty) = iMask
    at hmem ⊢
  obtain ⟨res1, res2⟩ := res
  obtain ⟨ch, hch, ⟨h1, h2, h3⟩ | ⟨r, v, h1, h2, h3, h4, h5, h6, h7⟩⟩ := hres
  · simp only at h1 h2
    subst h1 h2
    rw [if_neg]
    · exact Reach.pure _
    · rw [gt_iff_lt, List.length_pos_iff, not_not]
      rw [List.eq_nil_iff_forall_not_mem]
      intro s hs
      obtain ⟨c1, c2⟩ := (hmem s).1 hs
      obtain ⟨t, ht⟩ := List.exists_mem_of_ne_nil _ c2
      obtain ⟨c3, c4⟩ := mem_whereIdx.1 ht
      refine h3 s t c1 c3 ?_
      simp only [EnoughFree, Bool.false_eq_true, if_false]
      simp only [parOf, c4]; simp
  · simp only at h1 h7
    subst h1
    have hch : ch = [0] := by simpa [ChannelsOK] using hch
    subst hch
    have hsl : r.sample < a.X.length := h3
    have htl : r.index < nWin a.phase (xLen.getD r.sample 0) (lengths.getD i 0) (dilations.getD i 0) := h4
    have hmt : m (normalize.getD i false) r.sample 0 r.index = true := by
      simpa [EnoughFree, parOf] using h5
    have hw : r.index ∈ whereIdx (nWin a.phase (xLen.getD r.sample 0) (lengths.getD i 0) (dilations.getD i 0))
      fun t => m (normalize.getD i false) r.sample 0 t := mem_whereIdx.2 ⟨htl, hmt⟩
    have hmm := (hmem r.sample).2 ⟨hsl, List.ne_nil_of_mem hw⟩
    rw [if_pos (List.length_pos_of_mem hmm)]
    refine Reach.bind (reach_choice1 hmm) ?_
    obtain ⟨ex, hxn⟩ := hd.xlen hsl
    refine Reach.bindRes ex ?_
    rw [vlStop_eq hpos (by omega) (hmax _ hsl)]
    refine Reach.bind (reach_choice1 hw) ?_
    obtain ⟨m', e1, hm'⟩ := markLoop_ok (sh := ⟨a.X.length, 1, maxLen⟩) m (normalize.getD i false)
      (s := r.sample) (c := 0)
      (n := xLen.getD r.sample 0) r.index (dilations.getD i 0) (alphaSize (lengths.getD i 0) a.alpha minL) hsl
      (by simp) (by omega) (hmax _ hsl)
    refine Reach.bindRes e1 ?_
    obtain ⟨⟨x, e2, hx⟩, len2⟩ := hd.get hsl (by omega : 0 < a.nf)
    refine Reach.bindRes e2 ?_
    rw [hx]
    refine Reach.bindRes (getSubsequence_ok (by rw [len2]; exact htl)) ?_
    have ht1 : r.test < a.X.length := h6.test_lt
    refine Reach.bind (reach_pickOther (t := r.test) (by rw [hd.y]; exact hsl) (by rw [hd.y]; exact ht1)
      h6.same_class (by rw [hd.y]; exact h6.other)) ?_
    obtain ⟨⟨x', e3, hx'⟩, len3⟩ := hd.get ht1 (by omega : 0 < a.nf)
    obtain ⟨ex', hxn'⟩ := hd.xlen ht1
    refine Reach.bindRes e3 ?_
    refine Reach.bindRes ex' ?_
    rw [hx']
    refine Reach.bindRes (Props.C17_dist_vector _ _ _ _ _ _ hpos ?_ ?_) ?_
    · rw [seen_length, window_length]
    · rw [len3]; exact fits_of_lt (by omega)
    obtain ⟨p0, p1, q0, q1, l0, l1, l2⟩ := h6.threshold
    rw [distTo_single h2 len3] at q0 q1
    refine Reach.bind (reach_drawThreshold q0 q1 l0 l1 l2) ?_
    have hm : res1 = m' := by
      refine mask_ext h7 ?_
      intro n' s c t
      rw [hm']
      simp only [parOf, Near, alphaSize_iff, optOf, trainVL, h2, List.mem_singleton]
      refine and_congr_right fun _ => not_congr ⟨?_, ?_⟩
      · rintro ⟨g1, rfl, g3⟩; exact ⟨g1, rfl, g3⟩
      · rintro ⟨g1, rfl, g3⟩; exact ⟨g1, rfl, g3⟩
    obtain ⟨vv, vc, vt⟩ := v
    have hvv : vv = subseq (trainVL a xLen) (parOf lengths dilations normalize) (optOf a) i r.sample 0 r.index := by
      have := h6.values
      rw [h2] at this
      simpa using this
    have hvc : vc = [0] := h6.channels.trans h2
    subst hm hvv hvc
    exact Reach.pure _

theorem reach_channels {nf k : Nat} {channels : List Nat} (h : ChannelsOK true nf k channels) :
    Reach (choiceNoRep (List.range nf) k) channels := by
  rw [ChannelsOK, if_pos rfl] at h
  obtain ⟨h1, rfl, h3⟩ := h
  refine reach_choiceNoRep h1 (fun v hv => List.mem_range.2 (h3 v hv)) ?_
  exact (List.Nodup.subperm h1 fun v hv => List.mem_range.2 (h3 v hv)).length_le

theorem mslStep_reach {a : FitArgs ℝ L} (hd : DataSL a)
    {lengths dilations : List Nat} {normalize : List Bool} {nChannels : List Nat}
    (hP : ParOK lengths dilations normalize a.nt) {i : Nat} (hi : i < lengths.length)
    (hnch : nChannels.length = lengths.length)
    {minL : Nat} {m : SubMask} {res : SubMask × Option (Out ℝ)}
    (hres : StepPost (trainSL a) (parOf lengths dilations normalize) (optOf a) true
        (fun i => nChannels.getD i 0) minL m i res) :
    Reach (mslStep a lengths dilations normalize nChannels minL m i) res := by
  have hpos := hP.pos i hi
  have hroom := hP.room i hi
  obtain ⟨res1, res2⟩ := res
  obtain ⟨channels, hch, hres⟩ := hres
  have hc3 : ∀ c ∈ channels, c < a.nf := by
    rw [ChannelsOK, if_pos rfl] at hch; exact hch.2.2
  unfold mslStep
  refine Reach.bindRes (aget_getD 0 (by rw [hP.dil]; exact hi)) ?_
  refine Reach.bindRes (aget_getD 0 hi) ?_
  refine Reach.bindRes (aget_getD false (by rw [hP.norm]; exact hi)) ?_
  refine Reach.bindRes (aget_getD 0 (by rw [hnch]; exact hi)) ?_
  have hstop := vlStop_eq (phase := a.phase) hpos hroom.le (le_refl a.nt)
  have hdim := nWin_dim (phase := a.phase) hpos hroom
  unfold vlStop at hstop
  simp only [hstop]
  refine Reach.bind (reach_channels hch) ?_
  have hcand : ∀ s t, (s, t) ∈ ((List.range a.X.length).flatMap fun s =>
      (whereIdx (nWin a.phase a.nt (lengths.getD i 0) (dilations.getD i 0)) fun t =>
        enough a.alpha m (normalize.getD i false) s t channels).map fun t => (s, t)) ↔
      s < a.X.length ∧ t < nWin a.phase a.nt (lengths.getD i 0) (dilations.getD i 0) ∧
        enough a.alpha m (normalize.getD i false) s t channels = true := by
    intro s t
    simp only [List.mem_flatMap, List.mem_range, List.mem_map, Prod.mk.injEq, mem_whereIdx]
    constructor
    · rintro ⟨s', h1, t', ⟨h2, h3⟩, rfl, rfl⟩; exact ⟨h1, h2, h3⟩
    · rintro ⟨h1, h2, h3⟩; exact ⟨s, h1, t, ⟨h2, h3⟩, rfl, rfl⟩
  generalize ((List.range a.X.length).flatMap fun s =>
      (whereIdx (nWin a.phase a.nt (lengths.getD i 0) (dilations.getD i 0)) fun t =>
        enough a.alpha m (normalize.getD i false) s t channels).map fun t => (s, t)) = cand at hcand
  rcases hres with ⟨h1, h2, h3⟩ | ⟨r, v, h1, h2, h3, h4, h5, h6, h7⟩
  · simp only at h1 h2
    subst h1 h2
    rw [if_neg]
    · exact Reach.pure _
    · rw [gt_iff_lt, List.length_pos_iff, not_not]
      rw [List.eq_nil_iff_forall_not_mem]
      rintro ⟨s, t⟩ hm
      obtain ⟨c1, c2, c3⟩ := (hcand s t).1 hm
      exact h3 s t c1 c2 (enough_iff.1 c3)
  · simp only at h1 h7
    subst h1
    have hsl : r.sample < a.X.length := h3
    have htl : r.index < nWin a.phase a.nt (lengths.getD i 0) (dilations.getD i 0) := h4
    have hmem := (hcand r.sample r.index).2 ⟨hsl, htl, enough_iff.2 h5⟩
    rw [if_pos (List.length_pos_of_mem hmem)]
    refine Reach.bindRes hdim ?_
    refine Reach.bind (reach_choice1 (v := r.sample) (List.mem_map.2 ⟨_, hmem, rfl⟩)) ?_
    refine Reach.bind (reach_choice1 (v := r.index) (List.mem_map.2 ⟨_, List.mem_filter.2 ⟨hmem, by simp⟩, rfl⟩)) ?_
    have hnt : 0 < a.nt := by omega
    have ht1 : r.test < a.X.length := h6.test_lt
    refine Reach.bind (reach_pickOther (t := r.test) (by rw [hd.y]; exact hsl) (by rw [hd.y]; exact ht1)
      h6.same_class (by rw [hd.y]; exact h6.other)) ?_
    obtain ⟨m', e1, hm'⟩ := channelLoop_ok (sh := ⟨a.X.length, a.nf, a.nt⟩)
      (xs := fun c => aget2 a.X r.sample c) (xt := fun c => aget2 a.X r.test c)
      (S := fun c => (trainSL a).series r.sample c) (S' := fun c => (trainSL a).series r.test c)
      (channels := channels) hc3 (Ts := a.nt) (Tt := a.nt) (fun c hc => hd.get hsl (hc3 c hc))
      (fun c hc => hd.get ht1 (hc3 c hc)) m (normalize.getD i false) a.phase
      (alphaSize (lengths.getD i 0) a.alpha minL) hsl hpos htl
      (fits_of_lt hroom) hnt (le_refl _)
    refine Reach.bindRes e1 ?_
    obtain ⟨p0, p1, q0, q1, l0, l1, l2⟩ := h6.threshold
    rw [distTo, h2] at q0 q1
    refine Reach.bind (reach_drawThreshold q0 q1 l0 l1 l2) ?_
    have hm : res1 = m' := by
      refine mask_ext h7 ?_
      intro n s c t
      rw [hm']
      simp only [parOf, Near, alphaSize_iff, optOf, trainSL, h2]
    obtain ⟨vv, vc, vt⟩ := v
    have hvv := h6.values
    have hvc : vc = channels := h6.channels.trans h2
    rw [h2] at hvv
    simp only at hvv
    subst hm hvv hvc
    exact Reach.pure _

theorem mvlStep_reach {a : FitArgs ℝ L} {xLen : List Nat} {n : Nat} (hd : DataVL a xLen n)
    {lengths dilations : List Nat} {normalize : List Bool} {nChannels : List Nat}
    (hP : ParOK lengths dilations normalize n) {i : Nat} (hi : i < lengths.length)
    (hnch : nChannels.length = lengths.length) {maxLen : Nat}
    (hmax : ∀ s, s < a.X.length → xLen.getD s 0 ≤ maxLen)
    {minL : Nat} {m : SubMask} {res : SubMask × Option (Out ℝ)}
    (hres : StepPost (trainVL a xLen) (parOf lengths dilations normalize) (optOf a) true
        (fun i => nChannels.getD i 0) minL m i res) :
    Reach (mvlStep a xLen maxLen lengths dilations normalize nChannels minL m i) res := by
  have hpos := hP.pos i hi
  have hroom := hP.room i hi
  obtain ⟨res1, res2⟩ := res
  obtain ⟨channels, hch, hres⟩ := hres
  have hc3 : ∀ c ∈ channels, c < a.nf := by
    rw [ChannelsOK, if_pos rfl] at hch; exact hch.2.2
  unfold mvlStep
  refine Reach.bindRes (aget_getD 0 (by rw [hP.dil]; exact hi)) ?_
  refine Reach.bindRes (aget_getD 0 hi) ?_
  refine Reach.bindRes (aget_getD false (by rw [hP.norm]; exact hi)) ?_
  refine Reach.bindRes (aget_getD 0 (by rw [hnch]; exact hi)) ?_
  refine Reach.bind (reach_channels hch) ?_
  refine Reach.bindRes (rows_ok hd hpos hroom
    (fun s t => enough a.alpha m (normalize.getD i false) s t channels) hmax) ?_
  have hmem := fun s => iMask_mem (ns := a.X.length)
    (w := fun s => whereIdx (nWin a.phase (xLen.getD s 0) (lengths.getD i 0) (dilations.getD i 0)) fun t =>
      enough a.alpha m (normalize.getD i false) s t channels) (s := s)
  simp only
  generalize (whereIdx a.X.length fun s => !(List.getD ((List.range a.X.length).map fun s =>
      whereIdx (nWin a.phase (xLen.getD s 0) (lengths.getD i 0) (dilations.getD i 0)) fun t =>
        enough a.alpha m (normalize.getD i false) s t channels)
        s []).isEmpty) = iMask at hmem ⊢
  rcases hres with ⟨h1, h2, h3⟩ | ⟨r, v, h1, h2, h3, h4, h5, h6, h7⟩
  · simp only at h1 h2
    subst h1 h2
    rw [if_neg]
    · exact Reach.pure _
    · rw [gt_iff_lt, List.length_pos_iff, not_not]
      rw [List.eq_nil_iff_forall_not_mem]
      intro s hs
      obtain ⟨c1, c2⟩ := (hmem s).1 hs
      obtain ⟨t, ht⟩ := List.exists_mem_of_ne_nil _ c2
      obtain ⟨c3, c4⟩ := mem_whereIdx.1 ht
      exact h3 s t c1 c3 (enough_iff.1 c4)
  · simp only at h1 h7
    subst h1
    have hsl : r.sample < a.X.length := h3
    have htl : r.index < nWin a.phase (xLen.getD r.sample 0) (lengths.getD i 0) (dilations.getD i 0) := h4
    have hw : r.index ∈ whereIdx (nWin a.phase (xLen.getD r.sample 0) (lengths.getD i 0) (dilations.getD i 0))
      fun t => enough a.alpha m (normalize.getD i false) r.sample t channels :=
      mem_whereIdx.2 ⟨htl, enough_iff.2 h5⟩
    have hmm := (hmem r.sample).2 ⟨hsl, List.ne_nil_of_mem hw⟩
    rw [if_pos (List.length_pos_of_mem hmm)]
    refine Reach.bind (reach_choice1 hmm) ?_
    obtain ⟨ex, hxn⟩ := hd.xlen hsl
    have ht1 : r.test < a.X.length := h6.test_lt
    refine Reach.bind (reach_pickOther (t := r.test) (by rw [hd.y]; exact hsl) (by rw [hd.y]; exact ht1)
      h6.same_class (by rw [hd.y]; exact h6.other)) ?_
    obtain ⟨ex', hxn'⟩ := hd.xlen ht1
    refine Reach.bindRes ex' ?_
    refine Reach.bindRes (nWin_dim (phase := a.phase) hpos (by omega)) ?_
    refine Reach.bindRes ex ?_
    rw [vlStop_eq hpos (by omega) (hmax _ hsl)]
    refine Reach.bind (reach_choice1 hw) ?_
    have hget : ∀ s', s' < a.X.length → ∀ c ∈ channels,
        (do let x ← aget2 a.X s' c; pure (x.take (xLen.getD s' 0)) : Res _) =
          .ok ((trainVL a xLen).series s' c) ∧
        ((trainVL a xLen).series s' c).length = xLen.getD s' 0 := by
      intro s' hs' c hc
      obtain ⟨⟨x, e, hx⟩, hlen⟩ := hd.get hs' (hc3 c hc)
      exact ⟨by rw [e, Res.bind_ok, hx]; rfl, hlen⟩
    obtain ⟨m', e1, hm'⟩ := channelLoop_ok (sh := ⟨a.X.length, a.nf, maxLen⟩)
      (xs := fun c => do let x ← aget2 a.X r.sample c; pure (x.take (xLen.getD r.sample 0)))
      (xt := fun c => do let x ← aget2 a.X r.test c; pure (x.take (xLen.getD r.test 0)))
      (S := fun c => (trainVL a xLen).series r.sample c) (S' := fun c => (trainVL a xLen).series r.test c)
      (channels := channels) hc3 (Ts := xLen.getD r.sample 0) (Tt := xLen.getD r.test 0)
      (hget _ hsl) (hget _ ht1) m (normalize.getD i false) a.phase (alphaSize (lengths.getD i 0) a.alpha minL)
      hsl hpos htl (fits_of_lt (by omega)) (n := xLen.getD r.sample 0) (by omega) (hmax _ hsl)
    refine Reach.bindRes e1 ?_
    obtain ⟨p0, p1, q0, q1, l0, l1, l2⟩ := h6.threshold
    rw [distTo, h2] at q0 q1
    refine Reach.bind (reach_drawThreshold q0 q1 l0 l1 l2) ?_
    have hm : res1 = m' := by
      refine mask_ext h7 ?_
      intro n' s c t
      rw [hm']
      simp only [parOf, Near, alphaSize_iff, optOf, trainVL, h2]
      refine and_congr_right fun _ => not_congr ⟨?_, ?_⟩
      · rintro ⟨g1, rfl, g3⟩; exact ⟨g1, rfl, g3⟩
      · rintro ⟨g1, rfl, g3⟩; exact ⟨g1, rfl, g3⟩
    obtain ⟨vv, vc, vt⟩ := v
    have hvv := h6.values
    have hvc : vc = channels := h6.channels.trans h2
    rw [h2] at hvv
    simp only at hvv
    subst hm hvv hvc
    exact Reach.pure _

end Steps

/-! ## The loop -/

section Loop
variable {G L : Type}

/-- The fit loop, when the outcome of every group is known. -/
theorem fitLoop_run [Gen G ℝ] {A : Type}
    {lengths dilations : List Nat} {normalize : List Bool} (hdil : dilations.length = lengths.length)
    {step : Nat → SubMask → Nat → RM G (SubMask × Option (Out ℝ))}
    {write : A → Nat → Option (Out ℝ) → Res A} {target : (Nat → Option (Option (Out ℝ))) → A}
    {shape : Nat → Option (Out ℝ) → Prop}
    (hw : ∀ S i v, i < lengths.length → S i = none → shape i v →
      write (target S) i v = .ok (target (Function.update S i (some v))))
    {out : Nat → Option (Out ℝ)} (hshape : ∀ i, i < lengths.length → shape i (out i))
    {m0 : SubMask} {gs : Nat → G}
    (hlocal : ∀ iD, iD < (uniqueSorted dilations).length → ∀ minL,
      (∀ i ∈ groupIds dilations ((uniqueSorted dilations).getD iD 0),
        IsMinLength (parOf lengths dilations normalize) i minL) →
      ∃ m' out' g', localRun (step minL) (groupIds dilations ((uniqueSorted dilations).getD iD 0))
          (m0, fun _ => none) (gs iD) = .ok ((m', out'), g') ∧
        ∀ i ∈ groupIds dilations ((uniqueSorted dilations).getD iD 0), out' i = out i)
    {order : List Nat} (hord : order.Perm (List.range (uniqueSorted dilations).length)) :
    ∃ masks, fitLoop lengths dilations step write gs order (fun _ => m0, target fun _ => none) =
      .ok (masks, target fun i => if i < lengths.length then some (out i) else none) := by
  classical
  have : Nonempty G := ⟨gs 0⟩
  set U := uniqueSorted dilations with hU
  have hids : ∀ d i, i ∈ groupIds dilations d ↔
      i < (parOf lengths dilations normalize).n ∧
        (parOf lengths dilations normalize).dilation i = d := by
    intro d i
    rw [mem_groupIds]
    simp only [parOf]
    constructor
    · intro h
      have hi : i < dilations.length := by
        by_contra hc; rw [List.getElem?_eq_none (by omega)] at h; cases h
      refine ⟨by omega, ?_⟩
      rw [getD_lt _ hi]
      rw [List.getElem?_eq_getElem hi] at h
      exact Option.some.inj h
    · rintro ⟨h1, h2⟩
      rw [getD_lt _ (by omega)] at h2
      rw [List.getElem?_eq_getElem (by omega), h2]
  have hprep : ∀ iD, iD < U.length → ∃ minL,
      ((groupIds dilations (U.getD iD 0)).mapM fun i => aget lengths i) =
        (.ok ((groupIds dilations (U.getD iD 0)).map fun i => lengths.getD i 0) : Res _) ∧
      nmin ((groupIds dilations (U.getD iD 0)).map fun i => lengths.getD i 0) = .ok minL ∧
      ∀ i ∈ groupIds dilations (U.getD iD 0),
        IsMinLength (parOf lengths dilations normalize) i minL := by
    intro iD hiD
    have hne : groupIds dilations (U.getD iD 0) ≠ [] := by
      have : U.getD iD 0 ∈ dilations := by
        rw [← mem_uniqueSorted, ← hU, getD_lt _ hiD]; exact List.getElem_mem _
      obtain ⟨k, hk⟩ := List.mem_iff_getElem?.1 this
      exact List.ne_nil_of_mem (mem_groupIds.2 hk)
    obtain ⟨minL, e, h1, h2⟩ := nmin_ok
      (a := (groupIds dilations (U.getD iD 0)).map fun i => lengths.getD i 0) (by simpa using hne)
    refine ⟨minL, ?_, e, ?_⟩
    · refine mapM_ok ?_
      intro i hi
      exact aget_getD 0 ((hids _ i).1 hi).1
    · intro i hi
      obtain ⟨hi1, hi2⟩ := (hids _ i).1 hi
      refine ⟨?_, ?_⟩
      · obtain ⟨j, hj, rfl⟩ := List.mem_map.1 h1
        obtain ⟨hj1, hj2⟩ := (hids _ j).1 hj
        exact ⟨j, hj1, by rw [hj2, hi2], rfl⟩
      · intro j hj1 hj2
        exact h2 _ (List.mem_map.2 ⟨j, (hids _ j).2 ⟨hj1, by rw [hj2, hi2]⟩, rfl⟩)
  choose! minL hmin1 hmin2 hmin3 using hprep
  have hloc := fun iD hiD => hlocal iD hiD (minL iD) (hmin3 iD hiD)
  choose! lm lout lg hl1 hl2 using hloc
  -- the group of a shapelet
  have hgrp : ∀ i, i < lengths.length → ∃ iD, iD < U.length ∧ i ∈ groupIds dilations (U.getD iD 0) := by
    intro i hi
    have hi' : i < dilations.length := by omega
    have : dilations[i] ∈ U := mem_uniqueSorted.2 (List.getElem_mem hi')
    obtain ⟨iD, h1, h2⟩ := List.mem_iff_getElem.1 this
    refine ⟨iD, h1, mem_groupIds.2 ?_⟩
    rw [getD_lt _ h1, h2, List.getElem?_eq_getElem hi']
  choose! grp hgrp1 hgrp2 using hgrp
  have hgu : ∀ i iD, iD < U.length → i ∈ groupIds dilations (U.getD iD 0) → iD = grp i := by
    intro i iD h1 h2
    have hi : i < lengths.length := ((hids _ i).1 h2).1
    have e1 := ((hids _ i).1 h2).2
    have e2 := ((hids _ i).1 (hgrp2 i hi)).2
    rw [getD_lt _ h1] at e1
    rw [getD_lt _ (hgrp1 i hi)] at e2
    exact (List.Nodup.getElem_inj_iff (uniqueSorted_nodup dilations)).1 (e1.symm.trans e2)
  have hfg : ∀ (masks : Nat → SubMask) S iD, iD < U.length → masks iD = m0 →
      (∀ i ∈ groupIds dilations (U.getD iD 0), S i = none) →
      fitGroup lengths dilations step write (masks, target S) iD (gs iD) =
        .ok ((Function.update masks iD (lm iD), target fun i =>
          if i ∈ groupIds dilations (U.getD iD 0) then some (out i) else S i), lg iD) := by
    intro masks S iD hiD hmk hS
    unfold fitGroup
    rw [RM.bind_apply, ← hU]
    simp only [aget_getD 0 hiD, ofRes, Res.bind_ok]
    rw [RM.bind_apply]
    simp only [hmin1 iD hiD, ofRes, Res.bind_ok]
    rw [RM.bind_apply]
    simp only [hmin2 iD hiD, ofRes, Res.bind_ok]
    have := groupRun_eq hw (groupIds_sorted _ _ |>.imp (fun h => ne_of_lt h))
      (fun i hi => ((hids _ i).1 hi).1) iD (hl1 iD hiD)
      (fun i hi => by rw [hl2 iD hiD i hi]; exact hshape i ((hids _ i).1 hi).1) hmk hS
    rw [this]
    congr 4
    funext i
    by_cases hi : i ∈ groupIds dilations (U.getD iD 0)
    · rw [if_pos hi, if_pos hi, hl2 iD hiD i hi]
    · rw [if_neg hi, if_neg hi]
  have hmemo : ∀ iD, iD ∈ order ↔ iD < U.length := by
    intro iD; rw [hord.mem_iff, List.mem_range]
  have hndo : order.Nodup := hord.nodup_iff.2 List.nodup_range
  obtain ⟨⟨masks, arr⟩, h1, h2, h3⟩ := foldlM_inv (l := order)
    (s := ((fun _ => m0 : Nat → SubMask), target fun _ => none))
    (f := fun st iD => do
      let r ← fitGroup lengths dilations step write st iD (gs iD)
      pure r.1)
    (P := fun pre st => (∀ iD, iD ∉ pre → st.1 iD = m0) ∧
      st.2 = target fun i => if i < lengths.length ∧ grp i ∈ pre then some (out i) else none)
    (by simp) (by
      rintro pre iD post ⟨masks, arr⟩ hl ⟨hp1, hp2⟩
      simp only at hp1 hp2
      have hiD : iD < U.length := (hmemo iD).1 (by rw [hl]; simp)
      have hnp : iD ∉ pre := by
        rw [hl] at hndo
        intro h
        exact (List.disjoint_of_nodup_append hndo) h (by simp)
      have := hfg masks (fun i => if i < lengths.length ∧ grp i ∈ pre then
          some (out i) else none) iD hiD (hp1 iD hnp) (by
        intro i hi
        rw [if_neg]
        rintro ⟨_, h⟩
        rw [← hgu i iD hiD hi] at h
        exact hnp h)
      rw [← hp2] at this
      rw [this]
      refine ⟨_, rfl, ?_, ?_⟩
      · intro k hk
        rw [List.mem_append, List.mem_singleton, not_or] at hk
        simp only
        rw [Function.update_of_ne hk.2]
        exact hp1 k hk.1
      · simp only
        congr 1
        funext i
        by_cases hi : i ∈ groupIds dilations (U.getD iD 0)
        · have hil : i < lengths.length := ((hids _ i).1 hi).1
          have hg := hgu i iD hiD hi
          rw [if_pos hi, if_pos ⟨hil, by simp [hg]⟩]
        · rw [if_neg hi]
          by_cases hil : i < lengths.length
          · have hne : grp i ≠ iD := by
              rintro rfl
              exact hi (hgrp2 i hil)
            simp [hil, hne]
          · simp [hil])
  refine ⟨masks, ?_⟩
  unfold fitLoop
  rw [h1]
  simp only at h3
  rw [h3]
  congr 3
  funext i
  by_cases hi : i < lengths.length
  · rw [if_pos ⟨hi, (hmemo _).2 (hgrp1 i hi)⟩, if_pos hi]
  · simp [hi]

theorem Reach.foldlM {α σ : Type} {l : List α} {f : σ → α → RM Script σ} {s0 : σ}
    {P : List α → σ → Prop} (h0 : P [] s0)
    (hs : ∀ pre i post s, l = pre ++ i :: post → P pre s → ∃ s', Reach (f s i) s' ∧ P (pre ++ [i]) s') :
    ∃ s', Reach (l.foldlM f s0) s' ∧ P l s' := by
  suffices h : ∀ post pre s, l = pre ++ post → P pre s → ∃ s', Reach (post.foldlM f s) s' ∧ P l s' from
    h l [] s0 rfl h0
  intro post
  induction post with
  | nil =>
    intro pre s hl hp
    refine ⟨s, by simpa using Reach.pure s, ?_⟩
    rw [hl, List.append_nil]; exact hp
  | cons i post ih =>
    intro pre s hl hp
    obtain ⟨s1, r1, p1⟩ := hs pre i post s hl hp
    obtain ⟨s2, r2, p2⟩ := ih (pre ++ [i]) s1 (by simp [hl]) p1
    refine ⟨s2, ?_, p2⟩
    rw [List.foldlM_cons]
    exact Reach.bind r1 r2

/-- A group can produce every outcome that meets the specification. -/
theorem localRun_reach {T : Train L} {P : Par} {o : Opt} {multi : Bool} {nch : Nat → Nat}
    {step : SubMask → Nat → RM Script (SubMask × Option (Out ℝ))} {ids : List Nat} {d minL : Nat}
    {m0 : SubMask} (hids : ∀ i, i ∈ ids ↔ i < P.n ∧ P.dilation i = d) (hsort : ids.Pairwise (· < ·))
    (hmin : ∀ i ∈ ids, IsMinLength P i minL)
    (hm0 : ∀ n s c t, s < T.ns → t < T.len s → m0 n s c t = true)
    (hstep : ∀ m, ∀ i ∈ ids, ∀ res, StepPost T P o multi nch minL m i res → Reach (step m i) res)
    {rec : Nat → Option Src} {out : Nat → Option (Out ℝ)}
    (hgood : ∀ i ∈ ids, GoodAt T P o multi nch rec out i) :
    ∃ res, Reach (localRun step ids (m0, fun _ => none)) res ∧ ∀ i ∈ ids, res.2 i = out i := by
  unfold localRun
  refine (Reach.foldlM (l := ids) (s0 := (m0, (fun _ => none : Nat → Option (Out ℝ))))
    (f := fun st i => do
      let r ← step st.1 i
      pure (r.1, Function.update st.2 i r.2))
    (P := fun (pre : List Nat) (st : SubMask × (Nat → Option (Out ℝ))) =>
      (∀ i ∈ pre, st.2 i = out i) ∧
      ∀ n s c t, st.1 n s c t = true ↔ m0 n s c t = true ∧ ¬ ∃ j ∈ pre, ∃ r, P.normalize j = n ∧
        rec j = some r ∧ r.sample = s ∧ c ∈ r.channels ∧
        Near (T.len s) (P.length j) (P.dilation j) (allowance o.alpha minL) r.index t)
    ⟨by simp, by simp⟩ ?_).imp fun res h => ⟨h.1, h.2.1⟩
  · rintro pre i post ⟨m, out1⟩ hl ⟨hg, hm⟩
    have hi : i ∈ ids := by rw [hl]; simp
    have hpre : ∀ j, j ∈ pre ↔ j < i ∧ P.dilation j = P.dilation i := by
      intro j
      have hdi := ((hids i).1 hi).2
      rw [hl, List.pairwise_append] at hsort
      obtain ⟨_, hs2, hs3⟩ := hsort
      rw [List.pairwise_cons] at hs2
      constructor
      · intro hj
        exact ⟨hs3 j hj i (by simp), by rw [hdi]; exact ((hids j).1 (by rw [hl]; simp [hj])).2⟩
      · rintro ⟨hj1, hj2⟩
        have : j ∈ ids := (hids j).2 ⟨lt_trans hj1 ((hids i).1 hi).1, by rw [hj2, hdi]⟩
        rw [hl, List.mem_append, List.mem_cons] at this
        rcases this with h | h | h
        · exact h
        · omega
        · have := hs2.1 j h; omega
    have hblock : ∀ s c t, s < T.ns → t < T.len s →
        (m (P.normalize i) s c t = false ↔ Blocked T P o rec i s c t) := by
      intro s c t hs ht
      rw [← Bool.not_eq_true, hm]
      simp only at hm ⊢
      rw [not_and, not_not]
      constructor
      · intro h
        obtain ⟨j, hj, r, h1, h2, h3, h4, h5⟩ := h (hm0 _ s c t hs ht)
        obtain ⟨h6, h7⟩ := (hpre j).1 hj
        exact ⟨j, minL, r, h6, h7, h1, h2, h3, h4, hmin i hi, h5⟩
      · rintro ⟨j, mm, r, h1, h2, h3, h4, h5, h6, h7, h8⟩ _
        rw [isMinLength_unique h7 (hmin i hi)] at h8
        exact ⟨j, (hpre j).2 ⟨h1, h2⟩, r, h3, h4, h5, h6, h8⟩
    have hfree : ∀ (ch : List Nat) s t, s < T.ns →
        t < nWin o.phase (T.len s) (P.length i) (P.dilation i) →
        (EnoughFree multi o.alpha ch (fun c => m (P.normalize i) s c t = false) ↔
          EnoughFree multi o.alpha ch fun c => Blocked T P o rec i s c t) := by
      intro ch s t hs ht
      exact enoughFree_congr fun c => hblock s c t hs (lt_of_lt_of_le ht (nWin_le _ _ _ _))
    have hni : i ∉ pre := fun h => by have := (hpre i).1 h; omega
    have hnei : ∀ j ∈ pre, j ≠ i := fun j hj h => hni (h ▸ hj)
    have hout : ∀ v, v = out i → ∀ j ∈ pre ++ [i], Function.update out1 i v j = out j := by
      intro v hv j hj
      rw [List.mem_append, List.mem_singleton] at hj
      rcases hj with hj | rfl
      · rw [Function.update_of_ne (hnei j hj)]; exact hg j hj
      · rw [Function.update_self]; exact hv
    obtain ⟨ch, hch, ⟨g1, g2, g3⟩ | ⟨r, v, g1, g2, g3, g4, g5⟩⟩ := hgood i hi
    · refine ⟨(m, Function.update out1 i none), Reach.bind (hstep m i hi (m, none) ⟨ch, hch, Or.inl ⟨rfl, rfl, ?_⟩⟩)
        (Reach.pure _), hout _ g2.symm, ?_⟩
      · intro s t hs ht hf
        exact g3 s t ⟨hs, ht, (hfree ch s t hs ht).1 hf⟩
      · intro n s c t
        simp only at hm ⊢
        rw [hm]
        refine and_congr_right fun _ => not_congr ?_
        constructor
        · rintro ⟨j, hj, r, e1, e2, e3⟩
          exact ⟨j, by simp [hj], r, e1, e2, e3⟩
        · rintro ⟨j, hj, r, e1, e2, e3⟩
          rw [List.mem_append, List.mem_singleton] at hj
          rcases hj with hj | rfl
          · exact ⟨j, hj, r, e1, e2, e3⟩
          · rw [g1] at e2; simp at e2
    · classical
      let m' : SubMask := fun n s c t => m n s c t && !decide (n = P.normalize i ∧ s = r.sample ∧
          c ∈ r.channels ∧ Near (T.len s) (P.length i) (P.dilation i) (allowance o.alpha minL) r.index t)
      have hm' : ∀ n s c t, m' n s c t = true ↔ m n s c t = true ∧ ¬ (n = P.normalize i ∧ s = r.sample ∧
          c ∈ r.channels ∧ Near (T.len s) (P.length i) (P.dilation i) (allowance o.alpha minL) r.index t) := by
        intro n s c t
        simp only [m', Bool.and_eq_true, Bool.not_eq_true', decide_eq_false_iff_not]
      refine ⟨(m', Function.update out1 i (some v)), Reach.bind (hstep m i hi (m', some v)
        ⟨ch, hch, Or.inr ⟨r, v, rfl, g3, g4.1, g4.2.1, (hfree ch _ _ g4.1 g4.2.1).2 g4.2.2, g5, hm'⟩⟩)
        (Reach.pure _), hout _ g2.symm, ?_⟩
      intro n s c t
      simp only at hm ⊢
      rw [hm', hm, and_assoc, ← not_or]
      refine and_congr_right fun _ => not_congr ?_
      constructor
      · rintro (⟨j, hj, r, e1, e2, e3⟩ | ⟨e1, e2, e3, e4⟩)
        · exact ⟨j, by simp [hj], r, e1, e2, e3⟩
        · exact ⟨i, by simp, r, e1.symm, g1, e2.symm, e3, e4⟩
      · rintro ⟨j, hj, r', e1, e2, e3⟩
        rw [List.mem_append, List.mem_singleton] at hj
        rcases hj with hj | rfl
        · exact Or.inl ⟨j, hj, r', e1, e2, e3⟩
        · rw [g1, Option.some.injEq] at e2
          subst e2
          exact Or.inr ⟨e1.symm, e3.1.symm, e3.2.1, e3.2.2⟩

/-- The fit loop can produce every outcome that meets the specification. -/
theorem fitLoop_reach {A : Type} {T : Train L} {o : Opt} {multi : Bool} {nch : Nat → Nat}
    {lengths dilations : List Nat} {normalize : List Bool} (hdil : dilations.length = lengths.length)
    {step : Nat → SubMask → Nat → RM Script (SubMask × Option (Out ℝ))}
    {write : A → Nat → Option (Out ℝ) → Res A} {target : (Nat → Option (Option (Out ℝ))) → A}
    {shape : Nat → Option (Out ℝ) → Prop}
    (hw : ∀ S i v, i < lengths.length → S i = none → shape i v →
      write (target S) i v = .ok (target (Function.update S i (some v))))
    {rec : Nat → Option Src} {out : Nat → Option (Out ℝ)}
    (hgood : ∀ i, i < lengths.length → GoodAt T (parOf lengths dilations normalize) o multi nch rec out i)
    (hshape : ∀ i, i < lengths.length → shape i (out i))
    {m0 : SubMask} (hm0 : ∀ n s c t, s < T.ns → t < T.len s → m0 n s c t = true)
    (hstep : ∀ minL m i res, i < lengths.length →
      StepPost T (parOf lengths dilations normalize) o multi nch minL m i res → Reach (step minL m i) res) :
    ∃ gs : Nat → Script, ∀ order : List Nat, order.Perm (List.range (uniqueSorted dilations).length) →
      ∃ masks, fitLoop lengths dilations step write gs order (fun _ => m0, target fun _ => none) =
        .ok (masks, target fun i => if i < lengths.length then some (out i) else none) := by
  classical
  set U := uniqueSorted dilations with hU
  have hids : ∀ d i, i ∈ groupIds dilations d ↔
      i < (parOf lengths dilations normalize).n ∧
        (parOf lengths dilations normalize).dilation i = d := by
    intro d i
    rw [mem_groupIds]
    simp only [parOf]
    constructor
    · intro h
      have hi : i < dilations.length := by
        by_contra hc; rw [List.getElem?_eq_none (by omega)] at h; cases h
      refine ⟨by omega, ?_⟩
      rw [getD_lt _ hi]
      rw [List.getElem?_eq_getElem hi] at h
      exact Option.some.inj h
    · rintro ⟨h1, h2⟩
      rw [getD_lt _ (by omega)] at h2
      rw [List.getElem?_eq_getElem (by omega), h2]
  let g' : Script := ⟨fun _ => 0, fun _ => 0⟩
  have key : ∀ iD, ∃ g : Script, iD < U.length → ∀ minL,
      (∀ i ∈ groupIds dilations (U.getD iD 0), IsMinLength (parOf lengths dilations normalize) i minL) →
      ∃ m' out' g', localRun (step minL) (groupIds dilations (U.getD iD 0)) (m0, fun _ => none) g =
          .ok ((m', out'), g') ∧ ∀ i ∈ groupIds dilations (U.getD iD 0), out' i = out i := by
    intro iD
    by_cases hc : iD < U.length ∧ ∃ minL, ∀ i ∈ groupIds dilations (U.getD iD 0),
        IsMinLength (parOf lengths dilations normalize) i minL
    · obtain ⟨hiD, minL, hmin⟩ := hc
      obtain ⟨⟨m', out'⟩, hr, ho⟩ := localRun_reach (T := T) (o := o) (multi := multi) (nch := nch)
        (step := step minL) (m0 := m0) (hids (U.getD iD 0)) (groupIds_sorted _ _) hmin hm0
        (fun m i hi res => hstep minL m i res ((hids _ i).1 hi).1)
        (fun i hi => hgood i ((hids _ i).1 hi).1)
      obtain ⟨g, hg⟩ := hr g'
      refine ⟨g, fun _ minL2 hmin2 => ?_⟩
      have hne : groupIds dilations (U.getD iD 0) ≠ [] := by
        have : U.getD iD 0 ∈ dilations := by
          rw [← mem_uniqueSorted, ← hU, getD_lt _ hiD]; exact List.getElem_mem _
        obtain ⟨k, hk⟩ := List.mem_iff_getElem?.1 this
        exact List.ne_nil_of_mem (mem_groupIds.2 hk)
      obtain ⟨i, hi⟩ := List.exists_mem_of_ne_nil _ hne
      rw [isMinLength_unique (hmin2 i hi) (hmin i hi)]
      exact ⟨m', out', g', hg, ho⟩
    · refine ⟨g', fun hiD minL hmin => absurd ⟨hiD, minL, hmin⟩ hc⟩
  choose gs hgs using key
  refine ⟨gs, fun order hord => ?_⟩
  exact fitLoop_run (normalize := normalize) hdil hw hshape (fun iD hiD minL hmin => hgs iD hiD minL hmin) hord

end Loop

/-! ## Initial parameters -/

section Init

theorem forall₂_range {α : Type} {R : Nat → α → Prop} {l : List α} (h : ∀ i (hi : i < l.length), R i l[i]) :
    List.Forall₂ R (List.range l.length) l := by
  rw [List.forall₂_iff_get]
  refine ⟨by simp, fun i h1 h2 => ?_⟩
  simpa using h i h2

/-- Every list of flags can be drawn unless the probability is at most 0 or at least 1. -/
theorem reach_normalize {pNorm : ℝ} {bs : List Bool} (h0 : pNorm ≤ 0 → ∀ b ∈ bs, b = false)
    (h1 : 1 ≤ pNorm → ∀ b ∈ bs, b = true) :
    ∃ us : List ℝ, Reach ((List.range bs.length).mapM fun _ => unitM) us ∧
      (us.map fun u => Scalar.ltb u pNorm) = bs := by
  refine ⟨bs.map fun b => if b then 0 else max 0 pNorm, ?_, ?_⟩
  · have := Reach.mapM (f := fun _ : Nat => (unitM : RM Script ℝ)) (l := List.range bs.length)
      (bs := bs.map fun b => if b then 0 else max 0 pNorm) ?_
    · exact this
    · rw [List.forall₂_map_right_iff]
      refine forall₂_range fun i hi => ?_
      refine reach_unit ?_ ?_
      · split
        · exact le_refl _
        · exact le_max_left _ _
      · split
        · norm_num
        · rename_i hb
          refine max_lt (by norm_num) ?_
          by_contra hc
          exact hb (h1 (by linarith) _ (List.getElem_mem hi))
  · rw [List.map_map]
    conv_rhs => rw [← List.map_id bs]
    refine List.map_congr_left fun b hb => ?_
    simp only [Function.comp]
    cases b with
    | true =>
      have : 0 < pNorm := by
        by_contra hc
        exact absurd (h0 (by linarith) _ hb) (by simp)
      simp only [if_true, id]
      rw [real_ltb]; exact this
    | false =>
      simp only [Bool.false_eq_true, if_false, id]
      rw [← Bool.not_eq_true, real_ltb]
      exact not_lt.2 (le_max_right _ _)

theorem forall₂_dil {n nShp : Nat} {prime : Bool} {lengths dilations : List Nat}
    (hl : lengths.length = nShp) (hd : dilations.length = nShp)
    (h : ∀ i, i < nShp → DilOK n prime (lengths.getD i 0) (dilations.getD i 0)) :
    List.Forall₂ (if prime then DilPrime n else DilPlain n) lengths dilations := by
  rw [List.forall₂_iff_get]
  refine ⟨by omega, fun i h1 h2 => ?_⟩
  obtain ⟨d1, d2, d3, d4⟩ := h i (by omega)
  rw [getD_lt _ h1, getD_lt _ h2] at *
  cases prime with
  | true => exact ⟨d2, d3 rfl⟩
  | false => exact ⟨d1, (d4 rfl).symm⟩

theorem uInit_reach {nShp : Nat} {sizes : List Nat} {n : Nat} {pNorm : ℝ} {prime : Bool}
    {lengths dilations : List Nat} {normalize : List Bool}
    (hn : 1 ≤ nShp) (hne : sizes ≠ []) (hs : ∀ l ∈ sizes, 2 ≤ l ∧ l ≤ n)
    (hI : InitOK nShp sizes n pNorm prime lengths dilations normalize) :
    ∃ mx, (∀ l ∈ sizes, l ≤ mx) ∧ Reach (uInit nShp sizes n pNorm prime)
      ⟨List.replicate nShp (List.replicate mx 0), lengths, dilations, List.replicate nShp 0, normalize⟩ := by
  obtain ⟨mx, e, h1, h2⟩ := nmax_ok hne
  refine ⟨mx, h2, ?_⟩
  unfold uInit
  refine Reach.bind (reach_choiceN hI.len hI.mem) ?_
  refine Reach.bind (reach_drawDilations (by rw [← List.length_pos_iff, hI.len]; omega)
    (fun l hl => hs l (hI.mem l hl)) (forall₂_dil hI.len hI.dlen hI.dil)) ?_
  refine Reach.bindRes e ?_
  obtain ⟨us, hr, hus⟩ := reach_normalize hI.norm_none hI.norm_all
  rw [hI.nlen] at hr
  refine Reach.bind hr ?_
  rw [hus]
  exact Reach.pure _

theorem mInit_reach {nShp : Nat} {sizes : List Nat} {n : Nat} {pNorm : ℝ} {prime : Bool} {mc : Nat}
    {lengths dilations nChannels : List Nat} {normalize : List Bool}
    (hn : 1 ≤ nShp) (hs : ∀ l ∈ sizes, 2 ≤ l ∧ l ≤ n)
    (hI : InitOK nShp sizes n pNorm prime lengths dilations normalize)
    (hcl : nChannels.length = nShp) (hc : ∀ c ∈ nChannels, 1 ≤ c ∧ c ≤ mc) :
    Reach (mInit nShp sizes n pNorm mc prime)
      ⟨List.replicate (List.zipWith (· * ·) lengths nChannels).sum 0, lengths, dilations,
        List.replicate nShp 0, normalize, nChannels, List.replicate nChannels.sum 0⟩ := by
  unfold mInit
  refine Reach.bind (reach_choiceN hI.len hI.mem) ?_
  refine Reach.bind (reach_drawDilations (by rw [← List.length_pos_iff, hI.len]; omega)
    (fun l hl => hs l (hI.mem l hl)) (forall₂_dil hI.len hI.dlen hI.dil)) ?_
  refine Reach.bind (reach_choiceN (r := nChannels.map (· - 1)) (by rw [List.length_map, hcl]) ?_) ?_
  · intro v hv
    obtain ⟨c, hcm, rfl⟩ := List.mem_map.1 hv
    rw [List.mem_range]
    have := hc c hcm
    omega
  · have e : (nChannels.map (· - 1)).map (· + 1) = nChannels := by
      rw [List.map_map]
      conv_rhs => rw [← List.map_id nChannels]
      refine List.map_congr_left fun c hcm => ?_
      have := hc c hcm
      simp only [Function.comp, id]
      omega
    obtain ⟨us, hr, hus⟩ := reach_normalize hI.norm_none hI.norm_all
    rw [hI.nlen] at hr
    rw [e]
    refine Reach.bind hr ?_
    rw [hus]
    exact Reach.pure _

/-- Drawable parameters as arrays. -/
theorem init_of_parDrawn {L : Type} {a : FitArgs ℝ L} {n : Nat} {P : Par} (h : ParDrawn a n P) :
    InitOK a.nShp a.sizes n a.pNorm a.prime ((List.range P.n).map P.length) ((List.range P.n).map P.dilation)
      ((List.range P.n).map P.normalize) where
  len := by simp [h.count]
  mem l hl := by
    obtain ⟨i, hi, rfl⟩ := List.mem_map.1 hl
    exact h.length i (List.mem_range.1 hi)
  dlen := by simp [h.count]
  dil i hi := by
    rw [← h.count] at hi
    rw [getD_range_map _ hi, getD_range_map _ hi]
    exact h.dilation i hi
  nlen := by simp [h.count]
  norm_none hp b hb := by
    obtain ⟨i, hi, rfl⟩ := List.mem_map.1 hb
    exact h.norm_none hp i (List.mem_range.1 hi)
  norm_all hp b hb := by
    obtain ⟨i, hi, rfl⟩ := List.mem_map.1 hb
    exact h.norm_all hp i (List.mem_range.1 hi)

end Init

/-! ## Independence of the specification from the representation of the parameters -/

section Congr
variable {L : Type}

/-- Equal parameters for all shapelets. -/
structure SamePar (P Q : Par) : Prop where
  n : Q.n = P.n
  length : ∀ i, i < P.n → Q.length i = P.length i
  dilation : ∀ i, i < P.n → Q.dilation i = P.dilation i
  normalize : ∀ i, i < P.n → Q.normalize i = P.normalize i

theorem samePar_parOf (P : Par) : SamePar P (parOf ((List.range P.n).map P.length)
    ((List.range P.n).map P.dilation) ((List.range P.n).map P.normalize)) where
  n := by simp [parOf]
  length i hi := getD_range_map _ hi
  dilation i hi := getD_range_map _ hi
  normalize i hi := getD_range_map _ hi

theorem SamePar.symm {P Q : Par} (h : SamePar P Q) : SamePar Q P where
  n := h.n.symm
  length i hi := (h.length i (h.n ▸ hi)).symm
  dilation i hi := (h.dilation i (h.n ▸ hi)).symm
  normalize i hi := (h.normalize i (h.n ▸ hi)).symm

theorem SamePar.isMinLength {P Q : Par} (h : SamePar P Q) {i m : Nat} (hi : i < P.n)
    (hm : IsMinLength P i m) : IsMinLength Q i m := by
  obtain ⟨⟨j, h1, h2, h3⟩, h4⟩ := hm
  refine ⟨⟨j, by rw [h.n]; exact h1, by rw [h.dilation _ h1, h.dilation _ hi]; exact h2,
    by rw [h.length _ h1]; exact h3⟩, ?_⟩
  intro k hk hd
  rw [h.n] at hk
  rw [h.dilation _ hk, h.dilation _ hi] at hd
  rw [h.length _ hk]
  exact h4 k hk hd

theorem SamePar.blocked {T : Train L} {o : Opt} {P Q : Par} (h : SamePar P Q) {rec : Nat → Option Src}
    {i s c t : Nat} (hi : i < P.n) (hb : Blocked T P o rec i s c t) : Blocked T Q o rec i s c t := by
  obtain ⟨j, m, r, h1, h2, h3, h4, h5, h6, h7, h8⟩ := hb
  have hj : j < P.n := by omega
  refine ⟨j, m, r, h1, ?_, ?_, h4, h5, h6, h.isMinLength hi h7, ?_⟩
  · rw [h.dilation _ hj, h.dilation _ hi]; exact h2
  · rw [h.normalize _ hj, h.normalize _ hi]; exact h3
  · rw [h.length _ hj, h.dilation _ hj]; exact h8

theorem SamePar.blocked_iff {T : Train L} {o : Opt} {P Q : Par} (h : SamePar P Q) {rec : Nat → Option Src}
    {i s c t : Nat} (hi : i < P.n) : Blocked T Q o rec i s c t ↔ Blocked T P o rec i s c t :=
  ⟨fun hb => h.symm.blocked (by rw [h.n]; exact hi) hb, h.blocked hi⟩

theorem SamePar.goodAt {T : Train L} {o : Opt} {multi : Bool} {nch nch' : Nat → Nat} {P Q : Par} (h : SamePar P Q)
    {rec : Nat → Option Src} {out : Nat → Option (Out ℝ)} {i : Nat} (hi : i < P.n) (hnch : nch' i = nch i)
    (hg : GoodAt T P o multi nch rec out i) : GoodAt T Q o multi nch' rec out i := by
  have hadm : ∀ ch s t, Admissible T Q o multi rec i ch s t ↔ Admissible T P o multi rec i ch s t := by
    intro ch s t
    unfold Admissible
    rw [enoughFree_congr fun c => h.blocked_iff hi, h.length i hi, h.dilation i hi]
  have hsub : ∀ s c t, subseq T Q o i s c t = subseq T P o i s c t := by
    intro s c t
    unfold subseq
    rw [h.normalize i hi, h.length i hi, h.dilation i hi]
  have hdist : ∀ r s, distTo T Q o i r s = distTo T P o i r s := by
    intro r s
    unfold distTo
    simp only [hsub, h.length i hi, h.dilation i hi]
  obtain ⟨ch, hch, ⟨g1, g2, g3⟩ | ⟨r, v, g1, g2, g3, g4, g5⟩⟩ := hg
  · exact ⟨ch, by rw [hnch]; exact hch, Or.inl ⟨g1, g2, fun s t => by rw [hadm]; exact g3 s t⟩⟩
  · refine ⟨ch, by rw [hnch]; exact hch, Or.inr ⟨r, v, g1, g2, g3, (hadm _ _ _).2 g4, ?_⟩⟩
    exact ⟨g5.channels, by simp only [hsub]; exact g5.values, g5.test_lt, g5.same_class, g5.other,
      by simp only [hdist]; exact g5.threshold⟩

theorem SamePar.uFrom {P Q : Par} (h : SamePar P Q) {out : Nat → Option (Out ℝ)} {kept : List Nat} {S : UShp ℝ}
    (hf : UFrom P out kept S) : UFrom Q out kept S := by
  have hlt : ∀ k i : Nat, kept[k]? = some i → i < P.n := fun k i hk => ((hf.mem i).1 (List.mem_of_getElem? hk)).1
  exact
    { sorted := hf.sorted
      mem := fun i => by rw [h.n]; exact hf.mem i
      count := hf.count
      lengths := fun k i hk => by rw [h.length i (hlt k i hk)]; exact hf.lengths k i hk
      dilations := fun k i hk => by rw [h.dilation i (hlt k i hk)]; exact hf.dilations k i hk
      normalize := fun k i hk => by rw [h.normalize i (hlt k i hk)]; exact hf.normalize k i hk
      shapelet := hf.shapelet }

theorem SamePar.mFrom {P Q : Par} (h : SamePar P Q) {nch nch' : Nat → Nat} (hn : ∀ i, i < P.n → nch' i = nch i)
    {out : Nat → Option (Out ℝ)} {kept : List Nat} {S : MShp ℝ}
    (hf : MFrom P nch out kept S) : MFrom Q nch' out kept S := by
  have hlt : ∀ k i : Nat, kept[k]? = some i → i < P.n := fun k i hk => ((hf.mem i).1 (List.mem_of_getElem? hk)).1
  exact
    { sorted := hf.sorted
      mem := fun i => by rw [h.n]; exact hf.mem i
      count := hf.count
      lengths := fun k i hk => by rw [h.length i (hlt k i hk)]; exact hf.lengths k i hk
      dilations := fun k i hk => by rw [h.dilation i (hlt k i hk)]; exact hf.dilations k i hk
      normalize := fun k i hk => by rw [h.normalize i (hlt k i hk)]; exact hf.normalize k i hk
      nChannels := fun k i hk => by rw [hn i (hlt k i hk)]; exact hf.nChannels k i hk
      shapelet := hf.shapelet }

end Congr

/-! ## The four functions -/

section Generate
variable {L : Type} [DecidableEq L]

theorem uslGenerate_reach {a : FitArgs ℝ L} (hv : ValidSL a) {P : Par} {rec : Nat → Option Src}
    {out : Nat → Option (Out ℝ)} (hP : ParDrawn a a.nt P)
    (hgood : ∀ i, i < P.n → GoodAt (trainSL a) P (optOf a) false (fun _ => 1) rec out i) :
    ∃ (g0 : Script) (gs : Nat → Script) (kept : List Nat) (S : UShp ℝ),
      UFitted (trainSL a) a a.nt P rec out kept S ∧
      ∀ order, IsSchedule order → uslGenerate a g0 gs order = .ok S := by
  have hI := init_of_parDrawn hP
  have hsame := samePar_parOf P
  generalize (List.range P.n).map P.length = lengths at hI hsame
  generalize (List.range P.n).map P.dilation = dilations at hI hsame
  generalize (List.range P.n).map P.normalize = normalize at hI hsame
  have hlen : lengths.length = P.n := hsame.n
  have hgood' : ∀ i, i < lengths.length → GoodAt (trainSL a) (parOf lengths dilations normalize)
      (optOf a) false (fun _ => 1) rec out i := fun i hi => hsame.goodAt (hlen ▸ hi) rfl (hgood i (hlen ▸ hi))
  obtain ⟨mx, hmx, hr⟩ := uInit_reach hv.nShp hv.sizes hv.bounds hI
  obtain ⟨g0, hg0⟩ := hr ⟨fun _ => 0, fun _ => 0⟩
  have hpok := parOK_of_init hv.bounds hI
  have hmx' : ∀ l ∈ lengths, l ≤ mx := fun l hl => hmx l (hI.mem l hl)
  have h0 : (List.replicate a.nShp (List.replicate mx (0 : ℝ)), List.replicate a.nShp (0 : ℝ)) =
      uTarget lengths mx fun _ => none := by
    unfold uTarget
    simp [uRowOf, thrOf, List.map_const', hI.len]
  obtain ⟨gs, hrun⟩ := fitLoop_reach (T := trainSL a) (o := optOf a) (multi := false)
    (nch := fun _ => 1) (normalize := normalize) hpok.dil
    (write := uWrite lengths) (target := uTarget lengths mx)
    (shape := fun i v => ∀ o, v = some o → o.values.length = lengths.getD i 0)
    (fun S i v hi hS hvv => uWrite_ok hmx' S i v hi hS hvv)
    hgood' (fun i hi o ho => by simpa [parOf] using (goodAt_values (hgood' i hi) ho).1)
    (m0 := fun _ _ _ _ => true)
    (fun _ _ _ _ _ _ => rfl)
    (step := uslStep a lengths dilations normalize)
    (fun minL m i res hi hres => uslStep_reach hv.data hv.nf hpok hi hres)
  obtain ⟨kept, hfrom, hwf⟩ := uFinish_from (fun x => real_eqb x 0) (P := ⟨List.replicate a.nShp (List.replicate mx 0), lengths,
      dilations, List.replicate a.nShp 0, normalize⟩) hmx' hpok.dil hpok.norm (out := out)
    (fun i v hi hvv => by simpa [parOf] using (goodAt_values (hgood' i hi) hvv).1) hpok.pos
  refine ⟨g0, gs, kept, _, ⟨hP, hgood, hsame.symm.uFrom hfrom, hwf⟩, ?_⟩
  intro order ho
  obtain ⟨masks, hm⟩ := hrun (order (uniqueSorted dilations).length) (ho _)
  unfold uslGenerate
  rw [hg0, Res.bind_ok]
  simp only
  rw [h0, hm, Res.bind_ok]
  rfl

theorem uvlGenerate_reach {a : FitArgs ℝ L} {minLen : Nat} {xLen : List Nat}
    (hv : ValidVL a minLen xLen) {P : Par} {rec : Nat → Option Src}
    {out : Nat → Option (Out ℝ)} (hP : ParDrawn a minLen P)
    (hgood : ∀ i, i < P.n → GoodAt (trainVL a xLen) P (optOf a) false (fun _ => 1) rec out i) :
    ∃ (g0 : Script) (gs : Nat → Script) (kept : List Nat) (S : UShp ℝ),
      UFitted (trainVL a xLen) a minLen P rec out kept S ∧
      ∀ order, IsSchedule order → uvlGenerate a minLen xLen g0 gs order = .ok S := by
  have hI := init_of_parDrawn hP
  have hsame := samePar_parOf P
  generalize (List.range P.n).map P.length = lengths at hI hsame
  generalize (List.range P.n).map P.dilation = dilations at hI hsame
  generalize (List.range P.n).map P.normalize = normalize at hI hsame
  have hlen : lengths.length = P.n := hsame.n
  have hgood' : ∀ i, i < lengths.length → GoodAt (trainVL a xLen) (parOf lengths dilations normalize)
      (optOf a) false (fun _ => 1) rec out i := fun i hi => hsame.goodAt (hlen ▸ hi) rfl (hgood i (hlen ▸ hi))
  obtain ⟨mx, hmx, hr⟩ := uInit_reach hv.nShp hv.sizes hv.bounds hI
  obtain ⟨g0, hg0⟩ := hr ⟨fun _ => 0, fun _ => 0⟩
  obtain ⟨maxLen, hM1, hM2⟩ := maxLen_ok hv.data hv.ne
  obtain ⟨lens, hlens⟩ := lens_read hv.data
  have hpok := parOK_of_init hv.bounds hI
  have hmx' : ∀ l ∈ lengths, l ≤ mx := fun l hl => hmx l (hI.mem l hl)
  have h0 : (List.replicate a.nShp (List.replicate mx (0 : ℝ)), List.replicate a.nShp (0 : ℝ)) =
      uTarget lengths mx fun _ => none := by
    unfold uTarget
    simp [uRowOf, thrOf, List.map_const', hI.len]
  obtain ⟨gs, hrun⟩ := fitLoop_reach (T := trainVL a xLen) (o := optOf a) (multi := false)
    (nch := fun _ => 1) (normalize := normalize) hpok.dil
    (write := uWrite lengths) (target := uTarget lengths mx)
    (shape := fun i v => ∀ o, v = some o → o.values.length = lengths.getD i 0)
    (fun S i v hi hS hvv => uWrite_ok hmx' S i v hi hS hvv)
    hgood' (fun i hi o ho => by simpa [parOf] using (goodAt_values (hgood' i hi) ho).1)
    (m0 := fun _ s _ t => decide (t < xLen.getD s 0))
    (fun _ _ _ _ _ ht => decide_eq_true ht)
    (step := uvlStep a xLen maxLen lengths dilations normalize)
    (fun minL m i res hi hres => uvlStep_reach hv.data hv.nf hpok hi hM2 hres)
  obtain ⟨kept, hfrom, hwf⟩ := uFinish_from (fun x => real_eqb x 0) (P := ⟨List.replicate a.nShp (List.replicate mx 0), lengths,
      dilations, List.replicate a.nShp 0, normalize⟩) hmx' hpok.dil hpok.norm (out := out)
    (fun i v hi hvv => by simpa [parOf] using (goodAt_values (hgood' i hi) hvv).1) hpok.pos
  refine ⟨g0, gs, kept, _, ⟨hP, hgood, hsame.symm.uFrom hfrom, hwf⟩, ?_⟩
  intro order ho
  obtain ⟨masks, hm⟩ := hrun (order (uniqueSorted dilations).length) (ho _)
  unfold uvlGenerate
  rw [hM1, Res.bind_ok, hg0, Res.bind_ok]
  simp only
  rw [hlens, Res.bind_ok, h0, hm, Res.bind_ok]
  rfl

theorem mslGenerate_reach {a : FitArgs ℝ L} (hv : ValidSL a) {mc : Nat} {P : Par} {nch : Nat → Nat}
    {rec : Nat → Option Src} {out : Nat → Option (Out ℝ)} (hP : ParDrawn a a.nt P)
    (hch : ∀ i, i < P.n → 1 ≤ nch i ∧ nch i ≤ mc)
    (hgood : ∀ i, i < P.n → GoodAt (trainSL a) P (optOf a) true nch rec out i) :
    ∃ (g0 : Script) (gs : Nat → Script) (kept : List Nat) (S : MShp ℝ),
      MFitted (trainSL a) a a.nt mc P nch rec out kept S ∧
      ∀ order, IsSchedule order → mslGenerate a mc g0 gs order = .ok S := by
  have hnv : ∀ i, i < P.n → ((List.range P.n).map nch).getD i 0 = nch i := fun i hi => getD_range_map _ hi
  have hncl : ((List.range P.n).map nch).length = P.n := by simp
  have hnc : ∀ c ∈ (List.range P.n).map nch, 1 ≤ c ∧ c ≤ mc := by
    intro c hc
    obtain ⟨i, hi, rfl⟩ := List.mem_map.1 hc
    exact hch i (List.mem_range.1 hi)
  generalize (List.range P.n).map nch = nChannels at hnv hncl hnc
  have hI := init_of_parDrawn hP
  have hsame := samePar_parOf P
  generalize (List.range P.n).map P.length = lengths at hI hsame
  generalize (List.range P.n).map P.dilation = dilations at hI hsame
  generalize (List.range P.n).map P.normalize = normalize at hI hsame
  have hlen : lengths.length = P.n := hsame.n
  have hncl' : nChannels.length = lengths.length := by rw [hncl, hlen]
  have hgood' : ∀ i, i < lengths.length → GoodAt (trainSL a) (parOf lengths dilations normalize)
      (optOf a) true (fun i => nChannels.getD i 0) rec out i :=
    fun i hi => hsame.goodAt (hlen ▸ hi) (hnv i (hlen ▸ hi)) (hgood i (hlen ▸ hi))
  have hr := mInit_reach (mc := mc) hv.nShp hv.bounds hI (by rw [hncl', hI.len]) hnc
  obtain ⟨g0, hg0⟩ := hr ⟨fun _ => 0, fun _ => 0⟩
  have hpok := parOK_of_init hv.bounds hI
  generalize hQ : (⟨List.replicate (List.zipWith (· * ·) lengths nChannels).sum 0, lengths, dilations,
    List.replicate a.nShp 0, normalize, nChannels, List.replicate nChannels.sum 0⟩ : MShp ℝ) = Q at hg0
  have hq1 : lengths = Q.lengths := by rw [← hQ]
  have hq2 : dilations = Q.dilations := by rw [← hQ]
  have hq3 : normalize = Q.normalize := by rw [← hQ]
  have hq4 : nChannels = Q.nChannels := by rw [← hQ]
  have h0 := mArr0_eq (P := Q) (nShp := a.nShp) (by rw [← hq1, hI.len]) (by rw [← hq4, hncl', hI.len])
    (by rw [← hQ]) (by rw [← hQ]) (by rw [← hQ])
  subst hq1 hq2 hq3 hq4
  obtain ⟨gs, hrun⟩ := fitLoop_reach (T := trainSL a) (o := optOf a) (multi := true)
    (nch := fun i => Q.nChannels.getD i 0) (normalize := Q.normalize) hpok.dil
    (write := mWrite (offValues Q.nChannels Q.lengths) (offChannels Q.nChannels))
    (target := mTarget Q.lengths Q.nChannels)
    (shape := fun i v => ∀ o, v = some o →
      o.values.length = Q.nChannels.getD i 0 * Q.lengths.getD i 0 ∧
      o.channels.length = Q.nChannels.getD i 0)
    (fun S i v hi hS hvv => mWrite_ok hncl' S i v hi hS hvv)
    hgood' (fun i hi o ho => by
      have := goodAt_values (hgood' i hi) ho
      exact ⟨this.1, (this.2 rfl).1⟩)
    (m0 := fun _ _ _ _ => true)
    (fun _ _ _ _ _ _ => rfl)
    (step := mslStep a Q.lengths Q.dilations Q.normalize Q.nChannels)
    (fun minL m i res hi hres => mslStep_reach hv.data hpok hi hncl' hres)
  obtain ⟨S, kept, hfin, hfrom, hwf⟩ := mFinish_from (P := Q) hpok.dil hpok.norm hncl' (out := out)
    (nf := a.nf)
    (fun i v hi hvv => by
      have := goodAt_values (hgood' i hi) hvv
      exact ⟨this.1, this.2 rfl⟩) hpok.pos
  refine ⟨g0, gs, kept, S, ⟨hP, hch, hgood, hsame.symm.mFrom (fun i hi => (hnv i (hlen ▸ hi)).symm) hfrom,
    hwf⟩, ?_⟩
  intro order ho
  obtain ⟨masks, hm⟩ := hrun (order (uniqueSorted Q.dilations).length) (ho _)
  unfold mslGenerate
  rw [hg0, Res.bind_ok]
  simp only
  rw [h0, hm, Res.bind_ok]
  exact hfin

theorem mvlGenerate_reach {a : FitArgs ℝ L} {minLen : Nat} {xLen : List Nat}
    (hv : ValidVL a minLen xLen) {mc : Nat} {P : Par} {nch : Nat → Nat}
    {rec : Nat → Option Src} {out : Nat → Option (Out ℝ)} (hP : ParDrawn a minLen P)
    (hch : ∀ i, i < P.n → 1 ≤ nch i ∧ nch i ≤ mc)
    (hgood : ∀ i, i < P.n → GoodAt (trainVL a xLen) P (optOf a) true nch rec out i) :
    ∃ (g0 : Script) (gs : Nat → Script) (kept : List Nat) (S : MShp ℝ),
      MFitted (trainVL a xLen) a minLen mc P nch rec out kept S ∧
      ∀ order, IsSchedule order → mvlGenerate a mc minLen xLen g0 gs order = .ok S := by
  have hnv : ∀ i, i < P.n → ((List.range P.n).map nch).getD i 0 = nch i := fun i hi => getD_range_map _ hi
  have hncl : ((List.range P.n).map nch).length = P.n := by simp
  have hnc : ∀ c ∈ (List.range P.n).map nch, 1 ≤ c ∧ c ≤ mc := by
    intro c hc
    obtain ⟨i, hi, rfl⟩ := List.mem_map.1 hc
    exact hch i (List.mem_range.1 hi)
  generalize (List.range P.n).map nch = nChannels at hnv hncl hnc
  have hI := init_of_parDrawn hP
  have hsame := samePar_parOf P
  generalize (List.range P.n).map P.length = lengths at hI hsame
  generalize (List.range P.n).map P.dilation = dilations at hI hsame
  generalize (List.range P.n).map P.normalize = normalize at hI hsame
  have hlen : lengths.length = P.n := hsame.n
  have hncl' : nChannels.length = lengths.length := by rw [hncl, hlen]
  have hgood' : ∀ i, i < lengths.length → GoodAt (trainVL a xLen) (parOf lengths dilations normalize)
      (optOf a) true (fun i => nChannels.getD i 0) rec out i :=
    fun i hi => hsame.goodAt (hlen ▸ hi) (hnv i (hlen ▸ hi)) (hgood i (hlen ▸ hi))
  have hr := mInit_reach (mc := mc) hv.nShp hv.bounds hI (by rw [hncl', hI.len]) hnc
  obtain ⟨g0, hg0⟩ := hr ⟨fun _ => 0, fun _ => 0⟩
  obtain ⟨maxLen, hM1, hM2⟩ := maxLen_ok hv.data hv.ne
  obtain ⟨lens, hlens⟩ := lens_read hv.data
  have hpok := parOK_of_init hv.bounds hI
  generalize hQ : (⟨List.replicate (List.zipWith (· * ·) lengths nChannels).sum 0, lengths, dilations,
    List.replicate a.nShp 0, normalize, nChannels, List.replicate nChannels.sum 0⟩ : MShp ℝ) = Q at hg0
  have hq1 : lengths = Q.lengths := by rw [← hQ]
  have hq2 : dilations = Q.dilations := by rw [← hQ]
  have hq3 : normalize = Q.normalize := by rw [← hQ]
  have hq4 : nChannels = Q.nChannels := by rw [← hQ]
  have h0 := mArr0_eq (P := Q) (nShp := a.nShp) (by rw [← hq1, hI.len]) (by rw [← hq4, hncl', hI.len])
    (by rw [← hQ]) (by rw [← hQ]) (by rw [← hQ])
  subst hq1 hq2 hq3 hq4
  obtain ⟨gs, hrun⟩ := fitLoop_reach (T := trainVL a xLen) (o := optOf a) (multi := true)
    (nch := fun i => Q.nChannels.getD i 0) (normalize := Q.normalize) hpok.dil
    (write := mWrite (offValues Q.nChannels Q.lengths) (offChannels Q.nChannels))
    (target := mTarget Q.lengths Q.nChannels)
    (shape := fun i v => ∀ o, v = some o →
      o.values.length = Q.nChannels.getD i 0 * Q.lengths.getD i 0 ∧
      o.channels.length = Q.nChannels.getD i 0)
    (fun S i v hi hS hvv => mWrite_ok hncl' S i v hi hS hvv)
    hgood' (fun i hi o ho => by
      have := goodAt_values (hgood' i hi) ho
      exact ⟨this.1, (this.2 rfl).1⟩)
    (m0 := fun _ s _ t => decide (t < xLen.getD s 0))
    (fun _ _ _ _ _ ht => decide_eq_true ht)
    (step := mvlStep a xLen maxLen Q.lengths Q.dilations Q.normalize Q.nChannels)
    (fun minL m i res hi hres => mvlStep_reach hv.data hpok hi hncl' hM2 hres)
  obtain ⟨S, kept, hfin, hfrom, hwf⟩ := mFinish_from (P := Q) hpok.dil hpok.norm hncl' (out := out)
    (nf := a.nf)
    (fun i v hi hvv => by
      have := goodAt_values (hgood' i hi) hvv
      exact ⟨this.1, this.2 rfl⟩) hpok.pos
  refine ⟨g0, gs, kept, S, ⟨hP, hch, hgood, hsame.symm.mFrom (fun i hi => (hnv i (hlen ▸ hi)).symm) hfrom,
    hwf⟩, ?_⟩
  intro order ho
  obtain ⟨masks, hm⟩ := hrun (order (uniqueSorted Q.dilations).length) (ho _)
  unfold mvlGenerate
  rw [hM1, Res.bind_ok, hg0, Res.bind_ok]
  simp only
  rw [hlens, Res.bind_ok, h0, hm, Res.bind_ok]
  exact hfin

end Generate

end Convst
