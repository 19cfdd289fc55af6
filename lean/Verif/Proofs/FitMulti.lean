import Verif.Proofs.FitUni
import Verif.Proofs.Groups

/-! # The multivariate sampling steps meet their specification -/

set_option autoImplicit false
set_option linter.unusedSectionVars false

namespace Convst
open Spec

theorem sliceAssign_mid {α : Type} {p q r v : List α} {s e : Nat} (hq : q.length = v.length)
    (hs : s = p.length) (he : e = p.length + v.length) :
    sliceAssign (p ++ q ++ r) s e v = .ok (p ++ v ++ r) := by
  subst hs he
  rw [sliceAssign_ok rfl (by simp; omega)]
  congr 1
  rw [List.append_assoc p q r, List.take_left, List.drop_append, ← hq]
  simp

/-- The loop over the channels of a multivariate shapelet. -/
theorem channelLoop_ok {sh : MaskShape} {xs xt : Nat → Res (List ℝ)} {S S' : Nat → List ℝ}
    {channels : List Nat} (hc : ∀ c ∈ channels, c < sh.nc)
    {Ts Tt : Nat} (hxs : ∀ c ∈ channels, xs c = .ok (S c) ∧ (S c).length = Ts)
    (hxt : ∀ c ∈ channels, xt c = .ok (S' c) ∧ (S' c).length = Tt)
    (m : SubMask) (norm phase : Bool) {s index l d n : Nat} (size : Int) (hs : s < sh.ns)
    (hl : 1 ≤ l) (hidx : index < nWin phase Ts l d) (hfit : Fits phase Tt l d) (hn : 0 < n)
    (hnt : n ≤ sh.nt) :
    ∃ m', channelLoop sh xs xt channels m norm phase s index l d n size
        (List.replicate (nWin phase Tt l d) 0) =
      .ok (m', (List.range (nWin phase Tt l d)).map fun t => (channels.map fun c =>
          l1 (seen norm (window phase (S' c) l d t)) (seen norm (window phase (S c) l d index))).sum,
        channels.flatMap fun c => seen norm (window phase (S c) l d index)) ∧
      ∀ n' s' c' t', m' n' s' c' t' = true ↔ m n' s' c' t' = true ∧
        ¬ (n' = norm ∧ s' = s ∧ c' ∈ channels ∧ ∃ j : Nat, (j : Int) < size ∧
          ((t' : Int) = ((index : Int) - j * d) % n ∨ (t' : Int) = ((index : Int) + j * d) % n)) := by
  unfold channelLoop
  have key := forRange_inv (n := channels.length)
    (s := (m, List.replicate (nWin phase Tt l d) (0 : ℝ),
      List.replicate (channels.length * l) (0 : ℝ), 0))
    (f := fun (st : SubMask × List ℝ × List ℝ × Nat) k => do
      let c ← aget channels k
      let m' ← markLoop sh st.1 norm s c index d n size
      let b3 := st.2.2.2 + l
      let x ← xs c
      let v ← getSubsequence x index l d norm phase
      let x' ← xt c
      let D ← computeShapeletDistVector x' v l d norm phase
      let dist' ← addInto st.2.1 D
      let vals' ← sliceAssign st.2.2.1 st.2.2.2 b3 v
      pure (m', dist', vals', b3))
    (P := fun k st =>
      (∀ n' s' c' t', st.1 n' s' c' t' = true ↔ m n' s' c' t' = true ∧
        ¬ (n' = norm ∧ s' = s ∧ c' ∈ channels.take k ∧ ∃ j : Nat, (j : Int) < size ∧
          ((t' : Int) = ((index : Int) - j * d) % n ∨ (t' : Int) = ((index : Int) + j * d) % n))) ∧
      st.2.1 = (List.range (nWin phase Tt l d)).map (fun t => ((channels.take k).map fun c =>
          l1 (seen norm (window phase (S' c) l d t)) (seen norm (window phase (S c) l d index))).sum) ∧
      st.2.2.1 = ((channels.take k).flatMap fun c => seen norm (window phase (S c) l d index)) ++
        List.replicate ((channels.length - k) * l) 0 ∧
      st.2.2.2 = k * l)
    (by refine ⟨by simp, ?_, by simp, by simp⟩
        simp [List.map_const'])
  refine Exists.elim (key ?_) ?_ <;> clear key
  rotate_left
  · rintro ⟨m', dist, vals, a3⟩ ⟨e, h1, h2, h3, h4⟩
    simp only at h1 h2 h3 h4
    refine ⟨m', ?_, ?_⟩
    · simp only at e ⊢
      rw [e, Res.bind_ok]
      simp [h2, h3, Res.pure_eq]
    · simpa only [List.take_length] using h1
  · rintro k ⟨m1, dist, vals, a3⟩ hk ⟨h1, h2, h3, h4⟩
    simp only at h1 h2 h3 h4
    have hmem : channels[k] ∈ channels := List.getElem_mem hk
    obtain ⟨m2, e1, hm2⟩ := markLoop_ok m1 norm index d size hs (hc _ hmem) hn hnt
    obtain ⟨e2, len2⟩ := hxs _ hmem
    obtain ⟨e3, len3⟩ := hxt _ hmem
    have e4 := getSubsequence_ok (x := S channels[k]) (norm := norm) (by rw [len2]; exact hidx)
    have e5 := Props.C17_dist_vector (S' channels[k])
      (seen norm (window phase (S channels[k]) l d index)) l d norm phase hl
      (by rw [seen_length, window_length]) (by rw [len3]; exact hfit)
    have hv : (seen norm (window phase (S channels[k]) l d index)).length = l := by
      rw [seen_length, window_length]
    have htake : channels.take (k + 1) = channels.take k ++ [channels[k]] := by
      rw [List.take_add_one, List.getElem?_eq_getElem hk]; rfl
    have hlen : ((channels.take k).flatMap fun c => seen norm (window phase (S c) l d index)).length
        = k * l := by
      rw [List.length_flatMap]
      simp only [seen_length, window_length, List.map_const', List.sum_replicate, smul_eq_mul,
        List.length_take, Nat.min_eq_left hk.le]
    have hrep : List.replicate ((channels.length - k) * l) (0 : ℝ) =
        List.replicate l 0 ++ List.replicate ((channels.length - (k + 1)) * l) 0 := by
      rw [List.replicate_append_replicate]
      congr 1
      have : channels.length - k = channels.length - (k + 1) + 1 := by omega
      rw [this]; ring
    refine ⟨(m2, (List.range (nWin phase Tt l d)).map (fun t =>
          ((channels.take (k + 1)).map fun c => l1 (seen norm (window phase (S' c) l d t))
            (seen norm (window phase (S c) l d index))).sum),
        ((channels.take (k + 1)).flatMap fun c => seen norm (window phase (S c) l d index)) ++
          List.replicate ((channels.length - (k + 1)) * l) 0, (k + 1) * l), ?_, ?_⟩
    · simp only [aget_ok hk, Res.bind_ok, e1, e2, e3, e4, e5]
      have e6 : addInto dist (distances phase norm (S' channels[k])
          (seen norm (window phase (S channels[k]) l d index)) l d) =
          .ok ((List.range (nWin phase Tt l d)).map (fun t =>
          ((channels.take (k + 1)).map fun c => l1 (seen norm (window phase (S' c) l d t))
            (seen norm (window phase (S c) l d index))).sum)) := by
        unfold addInto
        rw [h2]
        unfold distances
        rw [len3, if_pos (by simp), List.zipWith_map, List.zipWith_self]
        simp only [htake, List.map_append, List.sum_append, List.map_cons, List.map_nil,
          List.sum_cons, List.sum_nil, add_zero]
      have e7 : sliceAssign vals a3 (a3 + l) (seen norm (window phase (S channels[k]) l d index)) =
          .ok (((channels.take (k + 1)).flatMap fun c => seen norm (window phase (S c) l d index)) ++
          List.replicate ((channels.length - (k + 1)) * l) 0) := by
        rw [h3, hrep, ← List.append_assoc, sliceAssign_mid (by simp [hv]) (by rw [hlen, h4])
          (by rw [hlen, hv, h4]), htake, List.flatMap_append]
        simp
      rw [e6, Res.bind_ok, e7, Res.bind_ok, Res.pure_eq, h4]
      congr 4
      ring
    · refine ⟨?_, rfl, rfl, rfl⟩
      intro n' s' c' t'
      simp only
      rw [hm2, h1, htake]
      simp only [List.mem_append, List.mem_singleton]
      constructor
      · rintro ⟨⟨h5, h6⟩, h7⟩
        refine ⟨h5, ?_⟩
        rintro ⟨r1, r2, hc | hc, hj⟩
        · exact h6 ⟨r1, r2, hc, hj⟩
        · exact h7 ⟨r1, r2, hc, hj⟩
      · rintro ⟨h5, h6⟩
        refine ⟨⟨h5, ?_⟩, ?_⟩
        · rintro ⟨r1, r2, hc, hj⟩; exact h6 ⟨r1, r2, Or.inl hc, hj⟩
        · rintro ⟨r1, r2, hc, hj⟩; exact h6 ⟨r1, r2, Or.inr hc, hj⟩

theorem enough_iff {alpha : ℝ} {m : SubMask} {norm : Bool} {s t : Nat} {channels : List Nat} :
    enough alpha m norm s t channels = true ↔
      EnoughFree true alpha channels fun c => m norm s c t = false := by
  unfold enough EnoughFree
  rw [real_leb, if_pos rfl]
  simp only [real_ofNat]
  have : ∀ p q : Nat → Bool, (∀ c, p c = q c) → channels.countP p = channels.countP q :=
    fun p q h => by rw [funext h]
  rw [this]
  intro c
  refine Bool.eq_iff_iff.2 (Iff.trans ?_ (@decide_eq_true_iff _ (_)).symm)
  cases m norm s c t <;> simp

variable {G L : Type} [Gen G ℝ] [LawfulGen G] [DecidableEq L]

theorem nWin_dim {phase : Bool} {T l d : Nat} (hl : 1 ≤ l) (h : (l - 1) * d < T) :
    dim (if phase then (T : Int) else (T : Int) - ((l : Int) - 1) * d) = .ok (nWin phase T l d) := by
  cases phase with
  | true => rw [if_pos rfl, dim_ok (by omega)]; simp [nWin]
  | false =>
    simp only [Bool.false_eq_true, if_false]
    have := stridesDim_ok hl h.le
    rw [this]; rfl

theorem mslStep_wp {a : FitArgs ℝ L} (hd : DataSL a) (hp : PercOK a)
    {lengths dilations : List Nat} {normalize : List Bool} {nChannels : List Nat}
    (hP : ParOK lengths dilations normalize a.nt) {i : Nat} (hi : i < lengths.length)
    (hnch : nChannels.length = lengths.length) (hnc : ∀ c ∈ nChannels, c ≤ a.nf)
    (minL : Nat) (m : SubMask) :
    Wp (G := G) (mslStep a lengths dilations normalize nChannels minL m i)
      (StepPost (trainSL a) (parOf lengths dilations normalize) (optOf a) true
        (fun i => nChannels.getD i 0) minL m i) := by
  have hpos := hP.pos i hi
  have hroom := hP.room i hi
  have hnci : nChannels.getD i 0 ≤ a.nf := by
    rw [getD_lt _ (by omega)]; exact hnc _ (List.getElem_mem _)
  unfold mslStep
  refine Wp.bindRes (aget_getD 0 (by rw [hP.dil]; exact hi)) ?_
  refine Wp.bindRes (aget_getD 0 hi) ?_
  refine Wp.bindRes (aget_getD false (by rw [hP.norm]; exact hi)) ?_
  refine Wp.bindRes (aget_getD 0 (by rw [hnch]; exact hi)) ?_
  have hstop := vlStop_eq (phase := a.phase) hpos hroom.le (le_refl a.nt)
  have hdim := nWin_dim (phase := a.phase) hpos hroom
  unfold vlStop at hstop
  simp only [hstop]
  generalize hl : lengths.getD i 0 = l at *
  generalize hdl : dilations.getD i 0 = d at *
  generalize hnm : normalize.getD i false = norm at *
  refine Wp.bind (wp_choiceNoRep List.nodup_range (by simpa using hnci)) fun channels hch => ?_
  obtain ⟨hc1, hc2, hc3⟩ := hch
  simp only [List.mem_range] at hc3
  have hCOK : ChannelsOK true (trainSL a).nf (nChannels.getD i 0) channels := by
    rw [ChannelsOK, if_pos rfl]; exact ⟨hc2, hc1, hc3⟩
  have hcand : ∀ s t, (s, t) ∈ ((List.range a.X.length).flatMap fun s =>
      (whereIdx (nWin a.phase a.nt l d) fun t => enough a.alpha m norm s t channels).map
        fun t => (s, t)) ↔
      s < a.X.length ∧ t < nWin a.phase a.nt l d ∧ enough a.alpha m norm s t channels = true := by
    intro s t
    simp only [List.mem_flatMap, List.mem_range, List.mem_map, Prod.mk.injEq, mem_whereIdx]
    constructor
    · rintro ⟨s', h1, t', ⟨h2, h3⟩, rfl, rfl⟩; exact ⟨h1, h2, h3⟩
    · rintro ⟨h1, h2, h3⟩; exact ⟨s, h1, t, ⟨h2, h3⟩, rfl, rfl⟩
  generalize ((List.range a.X.length).flatMap fun s =>
      (whereIdx (nWin a.phase a.nt l d) fun t => enough a.alpha m norm s t channels).map
        fun t => (s, t)) = cand at hcand
  split
  · rename_i hne
    have hne' : cand ≠ [] := List.length_pos_iff.1 hne
    refine Wp.bindRes hdim ?_
    refine Wp.bind (wp_choice1 (by simpa using hne')) fun s hs => ?_
    obtain ⟨⟨s', t0⟩, h1, rfl⟩ := List.mem_map.1 hs
    refine Wp.bind (wp_choice1 (a := (cand.filter fun p => p.1 == s').map Prod.snd) ?_)
      fun t ht => ?_
    · intro h
      rw [List.map_eq_nil_iff, List.filter_eq_nil_iff] at h
      exact h _ h1 (by simp)
    obtain ⟨⟨s'', t'⟩, h2, rfl⟩ := List.mem_map.1 ht
    rw [List.mem_filter] at h2
    have hss : s'' = s' := by simpa using h2.2
    subst hss
    obtain ⟨hsl, htl, hmt⟩ := (hcand s'' t').1 h2.1
    simp only
    have hnt : 0 < a.nt := by omega
    refine Wp.bind (wp_pickOther (by rw [hd.y]; exact hsl)) fun test htest => ?_
    obtain ⟨ht1, ht2, ht3⟩ := htest
    rw [hd.y] at ht1 ht3
    obtain ⟨m', e1, hm'⟩ := channelLoop_ok (sh := ⟨a.X.length, a.nf, a.nt⟩)
      (xs := fun c => aget2 a.X s'' c) (xt := fun c => aget2 a.X test c)
      (S := fun c => (trainSL a).series s'' c) (S' := fun c => (trainSL a).series test c)
      (channels := channels) hc3 (Ts := a.nt) (Tt := a.nt) (fun c hc => hd.get hsl (hc3 c hc))
      (fun c hc => hd.get ht1 (hc3 c hc)) m norm a.phase (alphaSize l a.alpha minL) hsl hpos htl
      (fits_of_lt hroom) hnt (le_refl _)
    refine Wp.bindRes e1 ?_
    refine Wp.bind (wp_drawThreshold ?_ hp.lo hp.le hp.hi) fun thr hthr => ?_
    · exact range_map_ne_nil _ (nWin_pos hroom)
    refine Wp.pure ⟨channels, hCOK, Or.inr ⟨⟨s'', t', test, channels⟩, _, rfl, rfl, hsl, ?_, ?_, ?_, ?_⟩⟩
    · simpa only [parOf, optOf, trainSL, hl, hdl] using htl
    · rw [enough_iff] at hmt
      simpa only [parOf, hnm, optOf] using hmt
    · exact
        { channels := rfl
          values := by simp only [subseq, parOf, optOf, hl, hdl, hnm]
          test_lt := ht1
          same_class := ht2
          other := ht3
          threshold := by
            simpa only [distTo, subseq, parOf, optOf, hl, hdl, hnm, trainSL] using hthr }
    · intro n s c t
      simp only
      rw [hm']
      simp only [parOf, hl, hdl, hnm, Near, alphaSize_iff, optOf, trainSL]
  · rename_i hne
    have hnil : cand = [] := by
      rw [gt_iff_lt, List.length_pos_iff, not_not] at hne; exact hne
    refine Wp.pure ⟨channels, hCOK, Or.inl ⟨rfl, rfl, ?_⟩⟩
    intro s t hs ht
    have := (hcand s t).not.1 (by simp [hnil])
    intro hf
    simp only [parOf, optOf, trainSL, hl, hdl, hnm] at hs ht hf
    exact this ⟨hs, ht, enough_iff.2 hf⟩

theorem mvlStep_wp {a : FitArgs ℝ L} {xLen : List Nat} {n : Nat} (hd : DataVL a xLen n)
    (hp : PercOK a) {lengths dilations : List Nat} {normalize : List Bool} {nChannels : List Nat}
    (hP : ParOK lengths dilations normalize n) {i : Nat} (hi : i < lengths.length)
    (hnch : nChannels.length = lengths.length) (hnc : ∀ c ∈ nChannels, c ≤ a.nf) {maxLen : Nat}
    (hmax : ∀ s, s < a.X.length → xLen.getD s 0 ≤ maxLen) (minL : Nat) (m : SubMask) :
    Wp (G := G) (mvlStep a xLen maxLen lengths dilations normalize nChannels minL m i)
      (StepPost (trainVL a xLen) (parOf lengths dilations normalize) (optOf a) true
        (fun i => nChannels.getD i 0) minL m i) := by
  have hpos := hP.pos i hi
  have hroom := hP.room i hi
  have hnci : nChannels.getD i 0 ≤ a.nf := by
    rw [getD_lt _ (by omega)]; exact hnc _ (List.getElem_mem _)
  unfold mvlStep
  refine Wp.bindRes (aget_getD 0 (by rw [hP.dil]; exact hi)) ?_
  refine Wp.bindRes (aget_getD 0 hi) ?_
  refine Wp.bindRes (aget_getD false (by rw [hP.norm]; exact hi)) ?_
  refine Wp.bindRes (aget_getD 0 (by rw [hnch]; exact hi)) ?_
  generalize hl : lengths.getD i 0 = l at *
  generalize hdl : dilations.getD i 0 = d at *
  generalize hnm : normalize.getD i false = norm at *
  refine Wp.bind (wp_choiceNoRep List.nodup_range (by simpa using hnci)) fun channels hch => ?_
  obtain ⟨hc1, hc2, hc3⟩ := hch
  simp only [List.mem_range] at hc3
  have hCOK : ChannelsOK true (trainVL a xLen).nf (nChannels.getD i 0) channels := by
    rw [ChannelsOK, if_pos rfl]; exact ⟨hc2, hc1, hc3⟩
  refine Wp.bindRes (rows_ok hd hpos hroom (fun s t => enough a.alpha m norm s t channels) hmax) ?_
  have hmem := fun s => iMask_mem (ns := a.X.length)
    (w := fun s => whereIdx (nWin a.phase (xLen.getD s 0) l d) fun t =>
      enough a.alpha m norm s t channels) (s := s)
  simp only
  generalize (whereIdx a.X.length fun s => !(List.getD ((List.range a.X.length).map fun s =>
      whereIdx (nWin a.phase (xLen.getD s 0) l d) fun t => enough a.alpha m norm s t channels)
        s []).isEmpty) = iMask at hmem ⊢
  split
  · rename_i hne
    refine Wp.bind (wp_choice1 (List.length_pos_iff.1 hne)) fun s hs => ?_
    obtain ⟨hsl, hw⟩ := (hmem s).1 hs
    obtain ⟨ex, hxn⟩ := hd.xlen hsl
    refine Wp.bind (wp_pickOther (by rw [hd.y]; exact hsl)) fun test htest => ?_
    obtain ⟨ht1, ht2, ht3⟩ := htest
    rw [hd.y] at ht1 ht3
    obtain ⟨ex', hxn'⟩ := hd.xlen ht1
    refine Wp.bindRes ex' ?_
    refine Wp.bindRes (nWin_dim (phase := a.phase) hpos (by omega)) ?_
    refine Wp.bindRes ex ?_
    rw [vlStop_eq hpos (by omega) (hmax s hsl)]
    refine Wp.bind (wp_choice1 hw) fun t ht => ?_
    obtain ⟨htl, hmt⟩ := mem_whereIdx.1 ht
    have hget : ∀ s', s' < a.X.length → ∀ c ∈ channels,
        (do let x ← aget2 a.X s' c; pure (x.take (xLen.getD s' 0)) : Res _) =
          .ok ((trainVL a xLen).series s' c) ∧
        ((trainVL a xLen).series s' c).length = xLen.getD s' 0 := by
      intro s' hs' c hc
      obtain ⟨⟨x, e, hx⟩, hlen⟩ := hd.get hs' (hc3 c hc)
      exact ⟨by rw [e, Res.bind_ok, hx]; rfl, hlen⟩
    obtain ⟨m', e1, hm'⟩ := channelLoop_ok (sh := ⟨a.X.length, a.nf, maxLen⟩)
      (xs := fun c => do let x ← aget2 a.X s c; pure (x.take (xLen.getD s 0)))
      (xt := fun c => do let x ← aget2 a.X test c; pure (x.take (xLen.getD test 0)))
      (S := fun c => (trainVL a xLen).series s c) (S' := fun c => (trainVL a xLen).series test c)
      (channels := channels) hc3 (Ts := xLen.getD s 0) (Tt := xLen.getD test 0)
      (hget s hsl) (hget test ht1) m norm a.phase (alphaSize l a.alpha minL) hsl hpos htl
      (fits_of_lt (by omega)) (n := xLen.getD s 0) (by omega) (hmax s hsl)
    refine Wp.bindRes e1 ?_
    refine Wp.bind (wp_drawThreshold ?_ hp.lo hp.le hp.hi) fun thr hthr => ?_
    · exact range_map_ne_nil _ (nWin_pos (by omega))
    refine Wp.pure ⟨channels, hCOK, Or.inr ⟨⟨s, t, test, channels⟩, _, rfl, rfl, hsl, ?_, ?_, ?_, ?_⟩⟩
    · simpa only [parOf, optOf, trainVL, hl, hdl] using htl
    · rw [enough_iff] at hmt
      simpa only [parOf, hnm, optOf] using hmt
    · exact
        { channels := rfl
          values := by simp only [subseq, parOf, optOf, hl, hdl, hnm]
          test_lt := ht1
          same_class := ht2
          other := ht3
          threshold := by
            simpa only [distTo, subseq, parOf, optOf, hl, hdl, hnm, trainVL] using hthr }
    · intro n' s' c t'
      simp only
      rw [hm']
      simp only [parOf, hl, hdl, hnm, Near, alphaSize_iff, optOf, trainVL]
      constructor
      · rintro ⟨h1, h2⟩
        refine ⟨h1, ?_⟩
        rintro ⟨h3, rfl, h5⟩
        exact h2 ⟨h3, rfl, h5⟩
      · rintro ⟨h1, h2⟩
        refine ⟨h1, ?_⟩
        rintro ⟨h3, rfl, h5⟩
        exact h2 ⟨h3, rfl, h5⟩
  · rename_i hne
    have hnil : iMask = [] := by
      rw [gt_iff_lt, List.length_pos_iff, not_not] at hne; exact hne
    refine Wp.pure ⟨channels, hCOK, Or.inl ⟨rfl, rfl, ?_⟩⟩
    intro s t hs ht hf
    have := (hmem s).not.1 (by simp [hnil])
    simp only [parOf, optOf, trainVL, hl, hdl, hnm] at hs ht hf
    refine this ⟨hs, ?_⟩
    intro hw
    have hmm : t ∈ whereIdx (nWin a.phase (xLen.getD s 0) l d) fun t =>
        enough a.alpha m norm s t channels :=
      mem_whereIdx.2 ⟨ht, enough_iff.2 hf⟩
    rw [hw] at hmm
    simp at hmm

end Convst
