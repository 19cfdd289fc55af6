import Verif.Proofs.FitSteps

/-! # The univariate sampling steps meet their specification -/

set_option autoImplicit false
set_option linter.unusedSectionVars false

namespace Convst
open Spec

variable {G L : Type} [Gen G ℝ] [LawfulGen G] [DecidableEq L]

theorem nWin_pos {phase : Bool} {T l d : Nat} (h : (l - 1) * d < T) : 0 < nWin phase T l d := by
  unfold nWin; split <;> omega

theorem fits_of_lt {phase : Bool} {T l d : Nat} (h : (l - 1) * d < T) : Fits phase T l d :=
  Or.inr h.le

theorem range_map_ne_nil {α : Type} {n : Nat} (f : Nat → α) (h : 0 < n) :
    (List.range n).map f ≠ [] := by
  rw [ne_eq, List.map_eq_nil_iff, List.range_eq_nil]; omega

/-- The distances to one channel. -/
theorem distTo_single {T : Train L} {P : Par} {o : Opt} {i : Nat} {r : Src} {s : Nat}
    (hr : r.channels = [0]) (hlen : (T.series s 0).length = T.len s) :
    distTo T P o i r s = distances o.phase (P.normalize i) (T.series s 0)
      (subseq T P o i r.sample 0 r.index) (P.length i) (P.dilation i) := by
  unfold distTo distances
  rw [hlen]
  simp [hr, subseq]

theorem subseq_length {T : Train L} {P : Par} {o : Opt} (i s c t : Nat) :
    (subseq T P o i s c t).length = P.length i := by
  unfold subseq; rw [seen_length, window_length]

/-- Common part of the univariate steps once the sample and position are chosen. -/
theorem sampled_single {T : Train L} {P : Par} {o : Opt} {i s t test : Nat} {thr : ℝ}
    (ht : test < T.ns) (hc : T.label test = T.label s)
    (ho : (∃ s', s' < T.ns ∧ s' ≠ s ∧ T.label s' = T.label s) → test ≠ s)
    (hlen : (T.series test 0).length = T.len test)
    (hthr : ∃ p0 p1, percentile (distances o.phase (P.normalize i) (T.series test 0)
        (subseq T P o i s 0 t) (P.length i) (P.dilation i)) o.pMin = .ok p0 ∧
      percentile (distances o.phase (P.normalize i) (T.series test 0)
        (subseq T P o i s 0 t) (P.length i) (P.dilation i)) o.pMax = .ok p1 ∧ p0 ≤ thr ∧ thr ≤ p1 ∧
      (thr < p1 ∨ p0 = p1)) :
    Sampled T P o i ⟨s, t, test, [0]⟩ ⟨subseq T P o i s 0 t, [0], thr⟩ where
  channels := rfl
  values := by simp
  test_lt := ht
  same_class := hc
  other := ho
  threshold := by
    simp only
    rw [distTo_single rfl hlen]
    exact hthr

theorem uslStep_wp {a : FitArgs ℝ L} (hd : DataSL a) (hnf : 1 ≤ a.nf) (hp : PercOK a)
    {lengths dilations : List Nat} {normalize : List Bool}
    (hP : ParOK lengths dilations normalize a.nt) {i : Nat} (hi : i < lengths.length)
    (nch : Nat → Nat) (minL : Nat) (m : SubMask) :
    Wp (G := G) (uslStep a lengths dilations normalize minL m i)
      (StepPost (trainSL a) (parOf lengths dilations normalize) (optOf a) false nch minL m i) := by
  have hpos := hP.pos i hi
  have hroom := hP.room i hi
  unfold uslStep
  refine Wp.bindRes (aget_getD 0 (by rw [hP.dil]; exact hi)) ?_
  refine Wp.bindRes (aget_getD 0 hi) ?_
  refine Wp.bindRes (aget_getD false (by rw [hP.norm]; exact hi)) ?_
  have hstop := vlStop_eq (phase := a.phase) hpos hroom.le (le_refl a.nt)
  unfold vlStop at hstop
  simp only [hstop]
  generalize hl : lengths.getD i 0 = l at *
  generalize hdl : dilations.getD i 0 = d at *
  generalize hnm : normalize.getD i false = norm at *
  have hcand : ∀ s t, (s, t) ∈ ((List.range a.X.length).flatMap fun s =>
      (whereIdx (nWin a.phase a.nt l d) fun t => m norm s 0 t).map fun t => (s, t)) ↔
      s < a.X.length ∧ t < nWin a.phase a.nt l d ∧ m norm s 0 t = true := by
    intro s t
    simp only [List.mem_flatMap, List.mem_range, List.mem_map, Prod.mk.injEq, mem_whereIdx]
    constructor
    · rintro ⟨s', h1, t', ⟨h2, h3⟩, rfl, rfl⟩; exact ⟨h1, h2, h3⟩
    · rintro ⟨h1, h2, h3⟩; exact ⟨s, h1, t, ⟨h2, h3⟩, rfl, rfl⟩
  generalize ((List.range a.X.length).flatMap fun s =>
      (whereIdx (nWin a.phase a.nt l d) fun t => m norm s 0 t).map fun t => (s, t)) = cand at hcand
  split
  · rename_i hne
    have hne' : cand ≠ [] := List.length_pos_iff.1 hne
    refine Wp.bind (wp_choice1 (by simpa using hne')) fun s hs => ?_
    obtain ⟨⟨s', t0⟩, h1, rfl⟩ := List.mem_map.1 hs
    refine Wp.bind (wp_choice1 (a := (cand.filter fun p => p.1 == s').map Prod.snd) ?_)
      fun t ht => ?_
    · intro h
      rw [List.map_eq_nil_iff, List.filter_eq_nil_iff] at h
      exact h _ h1 (by simp)
    obtain ⟨⟨s'', t'⟩, h2, rfl⟩ := List.mem_map.1 ht
    rw [List.mem_filter] at h2
    have hss : s'' = s' := by simpa using h2.2
    subst hss
    obtain ⟨hsl, htl, hmt⟩ := (hcand s'' t').1 h2.1
    simp only
    have hnt : 0 < a.nt := by omega
    obtain ⟨m', e1, hm'⟩ := markLoop_ok (sh := ⟨a.X.length, 1, a.nt⟩) m norm (s := s'') (c := 0)
      (n := a.nt) t' d (alphaSize l a.alpha minL) hsl (by simp) hnt (le_refl _)
    refine Wp.bindRes e1 ?_
    obtain ⟨e2, len2⟩ := hd.get hsl (by omega : 0 < a.nf)
    refine Wp.bindRes e2 ?_
    refine Wp.bindRes (getSubsequence_ok (by rw [len2]; exact htl)) ?_
    refine Wp.bind (wp_pickOther (by rw [hd.y]; exact hsl)) fun test htest => ?_
    obtain ⟨ht1, ht2, ht3⟩ := htest
    rw [hd.y] at ht1
    obtain ⟨e3, len3⟩ := hd.get ht1 (by omega : 0 < a.nf)
    refine Wp.bindRes e3 ?_
    refine Wp.bindRes (Props.C17_dist_vector _ _ _ _ _ _ hpos ?_ ?_) ?_
    · rw [seen_length, window_length]
    · rw [len3]; exact fits_of_lt hroom
    refine Wp.bind (wp_drawThreshold ?_ hp.lo hp.le hp.hi) fun thr hthr => ?_
    · unfold distances
      exact range_map_ne_nil _ (by rw [len3]; exact nWin_pos hroom)
    refine Wp.pure ⟨[0], by simp [ChannelsOK], Or.inr
      ⟨⟨s'', t', test, [0]⟩, _, rfl, rfl, hsl, ?_, ?_, ?_, ?_⟩⟩
    · simpa only [parOf, optOf, trainSL, hl, hdl] using htl
    · simp only [EnoughFree, parOf, hnm, Bool.false_eq_true, if_false, hmt]; simp
    · have := sampled_single (T := trainSL a) (P := parOf lengths dilations normalize)
        (o := optOf a) (i := i) (s := s'') (t := t') (test := test) (thr := thr) ht1 ht2
        (by rw [hd.y] at ht3; exact ht3) len3
        (by simpa only [parOf, optOf, subseq, hl, hdl, hnm] using hthr)
      simpa only [parOf, optOf, subseq, hl, hdl, hnm] using this
    · intro n s c t
      rw [hm']
      simp only [parOf, hl, hdl, hnm, Near, alphaSize_iff, List.mem_singleton, optOf, trainSL]
  · rename_i hne
    have hnil : cand = [] := by
      rw [gt_iff_lt, List.length_pos_iff, not_not] at hne; exact hne
    refine Wp.pure ⟨[0], by simp [ChannelsOK], Or.inl ⟨rfl, rfl, ?_⟩⟩
    intro s t hs ht
    have := (hcand s t).not.1 (by simp [hnil])
    simp only [EnoughFree, Bool.false_eq_true, if_false, not_not]
    simp only [parOf, optOf, trainSL, hl, hdl, hnm] at hs ht ⊢
    by_contra hc
    exact this ⟨hs, ht, by simpa using hc⟩

/-- The candidate samples of the variable-length steps. -/
theorem rows_ok {K : Type} {a : FitArgs K L} {xLen : List Nat} {n : Nat} (hd : DataVL a xLen n) {l d : Nat}
    (hl : 1 ≤ l) (hroom : (l - 1) * d < n) (p : Nat → Nat → Bool) {maxLen : Nat}
    (hmax : ∀ s, s < a.X.length → xLen.getD s 0 ≤ maxLen) :
    ((List.range a.X.length).mapM fun s => do
      let n ← aget xLen s
      pure (whereIdx (vlStop a.phase maxLen n l d) fun t => p s t)) =
    (.ok ((List.range a.X.length).map fun s =>
      whereIdx (nWin a.phase (xLen.getD s 0) l d) fun t => p s t) : Res _) := by
  refine mapM_ok ?_
  intro s hs
  rw [List.mem_range] at hs
  obtain ⟨h1, h2⟩ := hd.xlen hs
  rw [h1, Res.bind_ok, vlStop_eq hl (by omega) (hmax s hs)]
  rfl

theorem iMask_mem {ns : Nat} {w : Nat → List Nat} {s : Nat} :
    s ∈ whereIdx ns (fun s => !(((List.range ns).map w).getD s []).isEmpty) ↔
      s < ns ∧ w s ≠ [] := by
  rw [mem_whereIdx]
  constructor
  · rintro ⟨h1, h2⟩
    rw [getD_range_map _ h1] at h2
    exact ⟨h1, by simpa using h2⟩
  · rintro ⟨h1, h2⟩
    rw [getD_range_map _ h1]
    exact ⟨h1, by simpa using h2⟩

theorem uvlStep_wp {a : FitArgs ℝ L} {xLen : List Nat} {n : Nat} (hd : DataVL a xLen n)
    (hnf : 1 ≤ a.nf) (hp : PercOK a) {lengths dilations : List Nat} {normalize : List Bool}
    (hP : ParOK lengths dilations normalize n) {i : Nat} (hi : i < lengths.length) {maxLen : Nat}
    (hmax : ∀ s, s < a.X.length → xLen.getD s 0 ≤ maxLen)
    (nch : Nat → Nat) (minL : Nat) (m : SubMask) :
    Wp (G := G) (uvlStep a xLen maxLen lengths dilations normalize minL m i)
      (StepPost (trainVL a xLen) (parOf lengths dilations normalize) (optOf a) false nch minL m i) := by
  have hpos := hP.pos i hi
  have hroom := hP.room i hi
  unfold uvlStep
  refine Wp.bindRes (aget_getD 0 (by rw [hP.dil]; exact hi)) ?_
  refine Wp.bindRes (aget_getD 0 hi) ?_
  refine Wp.bindRes (aget_getD false (by rw [hP.norm]; exact hi)) ?_
  generalize hl : lengths.getD i 0 = l at *
  generalize hdl : dilations.getD i 0 = d at *
  generalize hnm : normalize.getD i false = norm at *
  refine Wp.bindRes (rows_ok hd hpos hroom (fun s t => m norm s 0 t) hmax) ?_
  have hmem := fun s => iMask_mem (ns := a.X.length)
    (w := fun s => whereIdx (nWin a.phase (xLen.getD s 0) l d) fun t => m norm s 0 t) (s := s)
  simp only
  generalize (whereIdx a.X.length fun s => !(List.getD ((List.range a.X.length).map fun s =>
      whereIdx (nWin a.phase (xLen.getD s 0) l d) fun t => m norm s 0 t) s []).isEmpty) = iMask
    at hmem ⊢
  split
  · rename_i hne
    refine Wp.bind (wp_choice1 (List.length_pos_iff.1 hne)) fun s hs => ?_
    obtain ⟨hsl, hw⟩ := (hmem s).1 hs
    obtain ⟨ex, hxn⟩ := hd.xlen hsl
    refine Wp.bindRes ex ?_
    rw [vlStop_eq hpos (by omega) (hmax s hsl)]
    refine Wp.bind (wp_choice1 hw) fun t ht => ?_
    obtain ⟨htl, hmt⟩ := mem_whereIdx.1 ht
    obtain ⟨m', e1, hm'⟩ := markLoop_ok (sh := ⟨a.X.length, 1, maxLen⟩) m norm (s := s) (c := 0)
      (n := xLen.getD s 0) t d (alphaSize l a.alpha minL) hsl (by simp) (by omega) (hmax s hsl)
    refine Wp.bindRes e1 ?_
    obtain ⟨⟨x, e2, hx⟩, len2⟩ := hd.get hsl (by omega : 0 < a.nf)
    refine Wp.bindRes e2 ?_
    rw [hx]
    refine Wp.bindRes (getSubsequence_ok (by rw [len2]; exact htl)) ?_
    refine Wp.bind (wp_pickOther (by rw [hd.y]; exact hsl)) fun test htest => ?_
    obtain ⟨ht1, ht2, ht3⟩ := htest
    rw [hd.y] at ht1
    obtain ⟨⟨x', e3, hx'⟩, len3⟩ := hd.get ht1 (by omega : 0 < a.nf)
    obtain ⟨ex', hxn'⟩ := hd.xlen ht1
    refine Wp.bindRes e3 ?_
    refine Wp.bindRes ex' ?_
    rw [hx']
    refine Wp.bindRes (Props.C17_dist_vector _ _ _ _ _ _ hpos ?_ ?_) ?_
    · rw [seen_length, window_length]
    · rw [len3]; exact fits_of_lt (by omega)
    refine Wp.bind (wp_drawThreshold ?_ hp.lo hp.le hp.hi) fun thr hthr => ?_
    · unfold distances
      exact range_map_ne_nil _ (by rw [len3]; exact nWin_pos (by omega))
    refine Wp.pure ⟨[0], by simp [ChannelsOK], Or.inr
      ⟨⟨s, t, test, [0]⟩, _, rfl, rfl, hsl, ?_, ?_, ?_, ?_⟩⟩
    · simpa only [parOf, optOf, trainVL, hl, hdl] using htl
    · simp only [EnoughFree, parOf, hnm, Bool.false_eq_true, if_false, hmt]; simp
    · have := sampled_single (T := trainVL a xLen) (P := parOf lengths dilations normalize)
        (o := optOf a) (i := i) (s := s) (t := t) (test := test) (thr := thr) ht1 ht2
        (by rw [hd.y] at ht3; exact ht3) len3
        (by simpa only [parOf, optOf, subseq, hl, hdl, hnm] using hthr)
      simpa only [parOf, optOf, subseq, hl, hdl, hnm] using this
    · intro n' s' c t'
      rw [hm']
      simp only [parOf, hl, hdl, hnm, Near, alphaSize_iff, List.mem_singleton, optOf, trainVL]
      constructor
      · rintro ⟨h1, h2⟩
        refine ⟨h1, ?_⟩
        rintro ⟨h3, rfl, h5⟩
        exact h2 ⟨h3, rfl, h5⟩
      · rintro ⟨h1, h2⟩
        refine ⟨h1, ?_⟩
        rintro ⟨h3, rfl, h5⟩
        exact h2 ⟨h3, rfl, h5⟩
  · rename_i hne
    have hnil : iMask = [] := by
      rw [gt_iff_lt, List.length_pos_iff, not_not] at hne; exact hne
    refine Wp.pure ⟨[0], by simp [ChannelsOK], Or.inl ⟨rfl, rfl, ?_⟩⟩
    intro s t hs ht
    have := (hmem s).not.1 (by simp [hnil])
    simp only [EnoughFree, Bool.false_eq_true, if_false, not_not]
    simp only [parOf, optOf, trainVL, hl, hdl, hnm] at hs ht ⊢
    by_contra hc
    refine this ⟨hs, ?_⟩
    intro hw
    have hmm : t ∈ whereIdx (nWin a.phase (xLen.getD s 0) l d) fun t => m norm s 0 t :=
      mem_whereIdx.2 ⟨ht, by simpa using hc⟩
    rw [hw] at hmm
    simp at hmm

end Convst
