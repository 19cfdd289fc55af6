import Verif.Proofs.FitSafeAll
import Verif.Spec.Sampling

/-! # The sampling steps of `fit` in any arithmetic follow the sampling rules -/

set_option autoImplicit false
set_option linter.unusedSectionVars false

namespace Convst
open Spec

section
variable {K L : Type} [Scalar K]

/-- The setting of equal-length arguments. -/
def settingSL (G : Type) [Gen G K] (a : FitArgs K L) : Setting K L where
  nShp := a.nShp
  sizes := a.sizes
  n := a.nt
  ns := a.X.length
  nf := a.nf
  len := fun _ => a.nt
  series := seriesSL a
  y := a.y
  alpha := a.alpha
  pNorm := a.pNorm
  prime := a.prime
  phase := a.phase
  thr := ThrFrom a.pMin a.pMax (Drawable G)
  draw := Drawable G

/-- The setting of variable-length arguments. -/
def settingVL (G : Type) [Gen G K] (a : FitArgs K L) (n : Nat) (xLen : List Nat) : Setting K L where
  nShp := a.nShp
  sizes := a.sizes
  n := n
  ns := a.X.length
  nf := a.nf
  len := fun s => xLen.getD s 0
  series := seriesVL a xLen
  y := a.y
  alpha := a.alpha
  pNorm := a.pNorm
  prime := a.prime
  phase := a.phase
  thr := ThrFrom a.pMin a.pMax (Drawable G)
  draw := Drawable G

theorem alphaSize_share (l minL : Nat) (alpha : K) : alphaSize l alpha minL = (l : Int) - shareLimit alpha minL := rfl

theorem enough_any {alpha : K} {m : SubMask} {norm : Bool} {s t : Nat} {channels : List Nat} :
    enough alpha m norm s t channels = true ↔
      FreeEnough true alpha channels fun c => m norm s c t = false := by
  unfold enough FreeEnough enoughOf
  rw [if_pos rfl]
  have : ∀ p q : Nat → Bool, (∀ c, p c = q c) → channels.countP p = channels.countP q :=
    fun p q h => by rw [funext h]
  rw [this]
  intro c
  refine Bool.eq_iff_iff.2 (Iff.trans ?_ (@decide_eq_true_iff _ (_)).symm)
  exact Iff.of_eq (Bool.not_eq_false _).symm

/-- What one sampling step does to the mask and what it outputs. -/
def StepTraced (E : Setting K L) (P : Par) (multi : Bool) (nch : Nat → Nat) (minL : Nat) (m : SubMask) (i : Nat)
    (res : SubMask × Option (Out K)) : Prop :=
  ∃ channels, ChannelsOK multi E.nf (nch i) channels ∧
    ((res.2 = none ∧ res.1 = m ∧
        ∀ s t, s < E.ns → t < nWin E.phase (E.len s) (P.length i) (P.dilation i) →
          ¬ FreeEnough multi E.alpha channels fun c => m (P.normalize i) s c t = false) ∨
     ∃ r v, res.2 = some v ∧ r.channels = channels ∧ v.channels = channels ∧ r.sample < E.ns ∧
        r.index < nWin E.phase (E.len r.sample) (P.length i) (P.dilation i) ∧
        FreeEnough multi E.alpha channels (fun c => m (P.normalize i) r.sample c r.index = false) ∧
        v.values = channels.flatMap (fun c => readAt E P i r.sample c r.index) ∧
        Compared E.y r.sample r.test ∧ E.thr (distAt E P multi i r) v.threshold ∧
        ∀ n s c t, res.1 n s c t = true ↔ m n s c t = true ∧ ¬ (n = P.normalize i ∧ s = r.sample ∧
          c ∈ r.channels ∧ NearBy (E.len s) (P.length i) (P.dilation i) (shareLimit E.alpha minL) r.index t))

end

variable {G K L : Type} [Gen G K] [Scalar K] [DecidableEq L] [LawfulInt G]

theorem uslStep_any {a : FitArgs K L} (hd : DataSL a) (hnf : 1 ≤ a.nf) (h0 : PercSafe a.pMin)
    (h1 : PercSafe a.pMax) {lengths dilations : List Nat} {normalize : List Bool}
    (hP : ParOK lengths dilations normalize a.nt) {i : Nat} (hi : i < lengths.length)
    (nch : Nat → Nat) (minL : Nat) (m : SubMask) :
    Wp (G := G) (uslStep a lengths dilations normalize minL m i)
      (StepTraced (settingSL G a) (parOf lengths dilations normalize) false nch minL m i) := by
  have hpos := hP.pos i hi
  have hroom := hP.room i hi
  unfold uslStep
  refine Wp.bindRes (aget_getD 0 (by rw [hP.dil]; exact hi)) ?_
  refine Wp.bindRes (aget_getD 0 hi) ?_
  refine Wp.bindRes (aget_getD false (by rw [hP.norm]; exact hi)) ?_
  have hstop := vlStop_eq (phase := a.phase) hpos hroom.le (le_refl a.nt)
  unfold vlStop at hstop
  simp only [hstop]
  generalize hl : lengths.getD i 0 = l at *
  generalize hdl : dilations.getD i 0 = d at *
  generalize hnm : normalize.getD i false = norm at *
  have hcand : ∀ s t, (s, t) ∈ ((List.range a.X.length).flatMap fun s =>
      (whereIdx (nWin a.phase a.nt l d) fun t => m norm s 0 t).map fun t => (s, t)) ↔
      s < a.X.length ∧ t < nWin a.phase a.nt l d ∧ m norm s 0 t = true := by
    intro s t
    simp only [List.mem_flatMap, List.mem_range, List.mem_map, Prod.mk.injEq, mem_whereIdx]
    constructor
    · rintro ⟨s', h1, t', ⟨h2, h3⟩, rfl, rfl⟩; exact ⟨h1, h2, h3⟩
    · rintro ⟨h1, h2, h3⟩; exact ⟨s, h1, t, ⟨h2, h3⟩, rfl, rfl⟩
  generalize ((List.range a.X.length).flatMap fun s =>
      (whereIdx (nWin a.phase a.nt l d) fun t => m norm s 0 t).map fun t => (s, t)) = cand at hcand
  split
  · rename_i hne
    have hne' : cand ≠ [] := List.length_pos_iff.1 hne
    refine Wp.bind (wp_choice1 (by simpa using hne')) fun s hs => ?_
    obtain ⟨⟨s', t0⟩, h1', rfl⟩ := List.mem_map.1 hs
    refine Wp.bind (wp_choice1 (a := (cand.filter fun p => p.1 == s').map Prod.snd) ?_)
      fun t ht => ?_
    · intro h
      rw [List.map_eq_nil_iff, List.filter_eq_nil_iff] at h
      exact h _ h1' (by simp)
    obtain ⟨⟨s'', t'⟩, h2, rfl⟩ := List.mem_map.1 ht
    rw [List.mem_filter] at h2
    have hss : s'' = s' := by simpa using h2.2
    subst hss
    obtain ⟨hsl, htl, hmt⟩ := (hcand s'' t').1 h2.1
    simp only
    have hnt : 0 < a.nt := by omega
    obtain ⟨m', e1, hm'⟩ := markLoop_ok (sh := ⟨a.X.length, 1, a.nt⟩) m norm (s := s'') (c := 0)
      (n := a.nt) t' d (alphaSize l a.alpha minL) hsl (by simp) hnt (le_refl _)
    refine Wp.bindRes e1 ?_
    obtain ⟨e2, len2⟩ := readSL hd hsl (by omega : 0 < a.nf)
    refine Wp.bindRes e2 ?_
    refine Wp.bindRes (getSubsequence_ok (by rw [len2]; exact htl)) ?_
    refine Wp.bind (wp_pickOther (by rw [hd.y]; exact hsl)) fun test htest => ?_
    have hcmp : Compared a.y _ test := htest
    obtain ⟨ht1, -, -⟩ := htest
    rw [hd.y] at ht1
    obtain ⟨e3, len3⟩ := readSL hd ht1 (by omega : 0 < a.nf)
    refine Wp.bindRes e3 ?_
    refine Wp.bindRes (Props.C17_dist_vector _ _ _ _ _ _ hpos ?_ ?_) ?_
    · rw [seen_length, window_length]
    · rw [len3]; exact fits_of_lt hroom
    refine Wp.bind (drawThreshold_safe ?_ h0 h1) fun thr hthr => ?_
    · unfold distances
      exact range_map_ne_nil _ (by rw [len3]; exact nWin_pos hroom)
    refine Wp.pure ⟨[0], by simp [ChannelsOK], Or.inr ⟨⟨s'', t', test, [0]⟩, _, rfl, rfl, rfl, hsl, ?_, ?_, ?_, hcmp, ?_, ?_⟩⟩
    · simpa only [parOf, settingSL, hl, hdl] using htl
    · simp only [FreeEnough, parOf, hnm, Bool.false_eq_true, if_false, hmt]; simp
    · simp only [readAt, parOf, settingSL, hl, hdl, hnm, List.flatMap_cons, List.flatMap_nil, List.append_nil]
    · unfold distances at hthr
      rw [len3] at hthr
      simpa only [distAt, readAt, parOf, settingSL, hl, hdl, hnm, Bool.false_eq_true, if_false] using hthr
    · intro n' s' c' t'
      simp only
      rw [hm']
      simp only [parOf, settingSL, hl, hdl, hnm, NearBy, alphaSize_share, List.mem_singleton]
  · rename_i hne
    have hnil : cand = [] := by
      rw [gt_iff_lt, List.length_pos_iff, not_not] at hne; exact hne
    refine Wp.pure ⟨[0], by simp [ChannelsOK], Or.inl ⟨rfl, rfl, ?_⟩⟩
    intro s t hs ht hf
    simp only [parOf, settingSL, hl, hdl, hnm] at hs ht hf
    simp only [FreeEnough, Bool.false_eq_true, if_false, Bool.not_eq_false] at hf
    have := (hcand s t).not.1 (by simp [hnil])
    exact this ⟨hs, ht, hf⟩

theorem uvlStep_any {a : FitArgs K L} {xLen : List Nat} {n : Nat} (hd : DataVL a xLen n)
    (hnf : 1 ≤ a.nf) (h0 : PercSafe a.pMin) (h1 : PercSafe a.pMax) {lengths dilations : List Nat}
    {normalize : List Bool}
    (hP : ParOK lengths dilations normalize n) {i : Nat} (hi : i < lengths.length) {maxLen : Nat}
    (hmax : ∀ s, s < a.X.length → xLen.getD s 0 ≤ maxLen)
    (nch : Nat → Nat) (minL : Nat) (m : SubMask) :
    Wp (G := G) (uvlStep a xLen maxLen lengths dilations normalize minL m i)
      (StepTraced (settingVL G a n xLen) (parOf lengths dilations normalize) false nch minL m i) := by
  have hpos := hP.pos i hi
  have hroom := hP.room i hi
  unfold uvlStep
  refine Wp.bindRes (aget_getD 0 (by rw [hP.dil]; exact hi)) ?_
  refine Wp.bindRes (aget_getD 0 hi) ?_
  refine Wp.bindRes (aget_getD false (by rw [hP.norm]; exact hi)) ?_
  generalize hl : lengths.getD i 0 = l at *
  generalize hdl : dilations.getD i 0 = d at *
  generalize hnm : normalize.getD i false = norm at *
  refine Wp.bindRes (rows_ok hd hpos hroom (fun s t => m norm s 0 t) hmax) ?_
  have hmem := fun s => iMask_mem (ns := a.X.length)
    (w := fun s => whereIdx (nWin a.phase (xLen.getD s 0) l d) fun t => m norm s 0 t) (s := s)
  simp only
  generalize (whereIdx a.X.length fun s => !(List.getD ((List.range a.X.length).map fun s =>
      whereIdx (nWin a.phase (xLen.getD s 0) l d) fun t => m norm s 0 t) s []).isEmpty) = iMask
    at hmem ⊢
  split
  · rename_i hne
    refine Wp.bind (wp_choice1 (List.length_pos_iff.1 hne)) fun s hs => ?_
    obtain ⟨hsl, hw⟩ := (hmem s).1 hs
    obtain ⟨ex, hxn⟩ := hd.xlen hsl
    refine Wp.bindRes ex ?_
    rw [vlStop_eq hpos (by omega) (hmax s hsl)]
    refine Wp.bind (wp_choice1 hw) fun t ht => ?_
    obtain ⟨htl, hmt⟩ := mem_whereIdx.1 ht
    obtain ⟨m', e1, hm'⟩ := markLoop_ok (sh := ⟨a.X.length, 1, maxLen⟩) m norm (s := s) (c := 0)
      (n := xLen.getD s 0) t d (alphaSize l a.alpha minL) hsl (by simp) (by omega) (hmax s hsl)
    refine Wp.bindRes e1 ?_
    obtain ⟨⟨x, e2, hx⟩, len2⟩ := readVL hd hsl (by omega : 0 < a.nf)
    refine Wp.bindRes e2 ?_
    rw [hx]
    refine Wp.bindRes (getSubsequence_ok (by rw [len2]; exact htl)) ?_
    refine Wp.bind (wp_pickOther (by rw [hd.y]; exact hsl)) fun test htest => ?_
    have hcmp : Compared a.y _ test := htest
    obtain ⟨ht1, -, -⟩ := htest
    rw [hd.y] at ht1
    obtain ⟨⟨x', e3, hx'⟩, len3⟩ := readVL hd ht1 (by omega : 0 < a.nf)
    obtain ⟨ex', hxn'⟩ := hd.xlen ht1
    refine Wp.bindRes e3 ?_
    refine Wp.bindRes ex' ?_
    rw [hx']
    refine Wp.bindRes (Props.C17_dist_vector _ _ _ _ _ _ hpos ?_ ?_) ?_
    · rw [seen_length, window_length]
    · rw [len3]; exact fits_of_lt (by omega)
    refine Wp.bind (drawThreshold_safe ?_ h0 h1) fun thr hthr => ?_
    · unfold distances
      exact range_map_ne_nil _ (by rw [len3]; exact nWin_pos (by omega))
    refine Wp.pure ⟨[0], by simp [ChannelsOK], Or.inr ⟨⟨s, t, test, [0]⟩, _, rfl, rfl, rfl, hsl, ?_, ?_, ?_, hcmp, ?_, ?_⟩⟩
    · simpa only [parOf, settingVL, hl, hdl] using htl
    · simp only [FreeEnough, parOf, hnm, Bool.false_eq_true, if_false, hmt]; simp
    · simp only [readAt, parOf, settingVL, hl, hdl, hnm, List.flatMap_cons, List.flatMap_nil, List.append_nil]
    · unfold distances at hthr
      rw [len3] at hthr
      simpa only [distAt, readAt, parOf, settingVL, hl, hdl, hnm, Bool.false_eq_true, if_false] using hthr
    · intro n' s' c' t'
      simp only
      rw [hm']
      simp only [parOf, settingVL, hl, hdl, hnm, NearBy, alphaSize_share, List.mem_singleton]
      refine and_congr_right fun _ => not_congr (and_congr_right fun _ => and_congr_right fun e => ?_)
      rw [e]
  · rename_i hne
    have hnil : iMask = [] := by
      rw [gt_iff_lt, List.length_pos_iff, not_not] at hne; exact hne
    refine Wp.pure ⟨[0], by simp [ChannelsOK], Or.inl ⟨rfl, rfl, ?_⟩⟩
    intro s t hs ht hf
    simp only [parOf, settingVL, hl, hdl, hnm] at hs ht hf
    simp only [FreeEnough, Bool.false_eq_true, if_false, Bool.not_eq_false] at hf
    have := (hmem s).not.1 (by simp [hnil])
    have hmm : t ∈ whereIdx (nWin a.phase (xLen.getD s 0) l d) fun t => m norm s 0 t := mem_whereIdx.2 ⟨ht, hf⟩
    exact this ⟨hs, List.ne_nil_of_mem hmm⟩

/-- The loop over the channels of a multivariate shapelet. -/
theorem channelLoop_any {sh : MaskShape} {xs xt : Nat → Res (List K)} {S S' : Nat → List K}
    {channels : List Nat} (hc : ∀ c ∈ channels, c < sh.nc)
    {Ts Tt : Nat} (hxs : ∀ c ∈ channels, xs c = .ok (S c) ∧ (S c).length = Ts)
    (hxt : ∀ c ∈ channels, xt c = .ok (S' c) ∧ (S' c).length = Tt)
    (m : SubMask) (norm phase : Bool) {s index l d n : Nat} (size : Int) (hs : s < sh.ns)
    (hl : 1 ≤ l) (hidx : index < nWin phase Ts l d) (hfit : Fits phase Tt l d) (hn : 0 < n)
    (hnt : n ≤ sh.nt) :
    ∃ m', channelLoop sh xs xt channels m norm phase s index l d n size
        (List.replicate (nWin phase Tt l d) 0) =
      .ok (m', (List.range (nWin phase Tt l d)).map (fun w => channels.foldl (fun a c =>
          a + l1 (seen norm (window phase (S' c) l d w)) (seen norm (window phase (S c) l d index))) 0),
        channels.flatMap fun c => seen norm (window phase (S c) l d index)) ∧
      ∀ n' s' c' t', m' n' s' c' t' = true ↔ m n' s' c' t' = true ∧
        ¬ (n' = norm ∧ s' = s ∧ c' ∈ channels ∧ ∃ j : Nat, (j : Int) < size ∧
          ((t' : Int) = ((index : Int) - j * d) % n ∨ (t' : Int) = ((index : Int) + j * d) % n)) := by
  unfold channelLoop
  have key := forRange_inv (n := channels.length)
    (s := (m, List.replicate (nWin phase Tt l d) (0 : K),
      List.replicate (channels.length * l) (0 : K), 0))
    (f := fun (st : SubMask × List K × List K × Nat) k => do
      let c ← aget channels k
      let m' ← markLoop sh st.1 norm s c index d n size
      let b3 := st.2.2.2 + l
      let x ← xs c
      let v ← getSubsequence x index l d norm phase
      let x' ← xt c
      let D ← computeShapeletDistVector x' v l d norm phase
      let dist' ← addInto st.2.1 D
      let vals' ← sliceAssign st.2.2.1 st.2.2.2 b3 v
      pure (m', dist', vals', b3))
    (P := fun k st => (∀ n' s' c' t', st.1 n' s' c' t' = true ↔ m n' s' c' t' = true ∧
        ¬ (n' = norm ∧ s' = s ∧ c' ∈ channels.take k ∧ ∃ j : Nat, (j : Int) < size ∧
          ((t' : Int) = ((index : Int) - j * d) % n ∨ (t' : Int) = ((index : Int) + j * d) % n))) ∧
      (st.2.1 = (List.range (nWin phase Tt l d)).map fun w => (channels.take k).foldl (fun a c =>
          a + l1 (seen norm (window phase (S' c) l d w)) (seen norm (window phase (S c) l d index))) 0) ∧
      st.2.2.1 = ((channels.take k).flatMap fun c => seen norm (window phase (S c) l d index)) ++
        List.replicate ((channels.length - k) * l) 0 ∧ st.2.2.2 = k * l)
    (by refine ⟨by simp, by simp [List.map_const'], by simp, by simp⟩)
  refine Exists.elim (key ?_) ?_ <;> clear key
  rotate_left
  · rintro ⟨m', dist, vals, a3⟩ ⟨e, h1, h2, h3, h4⟩
    simp only at h1 h2 h3 h4
    refine ⟨m', ?_, ?_⟩
    · simp only at e ⊢
      rw [e, Res.bind_ok]
      simp [h2, h3, Res.pure_eq]
    · simpa only [List.take_length] using h1
  · rintro k ⟨m1, dist, vals, a3⟩ hk ⟨h1, h2, h3, h4⟩
    simp only at h1 h2 h3 h4
    have hmem : channels[k] ∈ channels := List.getElem_mem hk
    obtain ⟨m2, e1, hm2⟩ := markLoop_ok m1 norm index d size hs (hc _ hmem) hn hnt
    obtain ⟨e2, len2⟩ := hxs _ hmem
    obtain ⟨e3, len3⟩ := hxt _ hmem
    have e4 := getSubsequence_ok (x := S channels[k]) (norm := norm) (by rw [len2]; exact hidx)
    have e5 := Props.C17_dist_vector (S' channels[k])
      (seen norm (window phase (S channels[k]) l d index)) l d norm phase hl
      (by rw [seen_length, window_length]) (by rw [len3]; exact hfit)
    have hv : (seen norm (window phase (S channels[k]) l d index)).length = l := by
      rw [seen_length, window_length]
    have htake : channels.take (k + 1) = channels.take k ++ [channels[k]] := by
      rw [List.take_add_one, List.getElem?_eq_getElem hk]; rfl
    have hlen : ((channels.take k).flatMap fun c => seen norm (window phase (S c) l d index)).length
        = k * l := by
      rw [List.length_flatMap]
      simp only [seen_length, window_length, List.map_const', List.sum_replicate, smul_eq_mul,
        List.length_take, Nat.min_eq_left hk.le]
    have hrep : List.replicate ((channels.length - k) * l) (0 : K) =
        List.replicate l 0 ++ List.replicate ((channels.length - (k + 1)) * l) 0 := by
      rw [List.replicate_append_replicate]
      congr 1
      have : channels.length - k = channels.length - (k + 1) + 1 := by omega
      rw [this]; ring
    have hDl : (distances phase norm (S' channels[k])
        (seen norm (window phase (S channels[k]) l d index)) l d).length = nWin phase Tt l d := by
      unfold distances
      rw [List.length_map, List.length_range, len3]
    have e6 : addInto dist (distances phase norm (S' channels[k])
        (seen norm (window phase (S channels[k]) l d index)) l d) =
        .ok (List.zipWith (· + ·) dist (distances phase norm (S' channels[k])
        (seen norm (window phase (S channels[k]) l d index)) l d)) := by
      unfold addInto
      rw [if_pos (by rw [h2, hDl]; simp)]
    have e7 : sliceAssign vals a3 (a3 + l) (seen norm (window phase (S channels[k]) l d index)) =
        .ok (((channels.take (k + 1)).flatMap fun c => seen norm (window phase (S c) l d index)) ++
        List.replicate ((channels.length - (k + 1)) * l) 0) := by
      rw [h3, hrep, ← List.append_assoc, sliceAssign_mid (by simp [hv]) (by rw [hlen, h4])
        (by rw [hlen, hv, h4]), htake, List.flatMap_append]
      simp
    refine ⟨(m2, List.zipWith (· + ·) dist (distances phase norm (S' channels[k])
        (seen norm (window phase (S channels[k]) l d index)) l d),
        ((channels.take (k + 1)).flatMap fun c => seen norm (window phase (S c) l d index)) ++
          List.replicate ((channels.length - (k + 1)) * l) 0, (k + 1) * l), ?_, ?_, ?_, rfl, rfl⟩
    · simp only [aget_ok hk, Res.bind_ok, e1, e2, e3, e4, e5]
      rw [e6, Res.bind_ok, e7, Res.bind_ok, Res.pure_eq, h4]
      congr 4
      ring
    · intro n' s' c' t'
      simp only
      rw [hm2, h1, htake]
      simp only [List.mem_append, List.mem_singleton]
      constructor
      · rintro ⟨⟨h5, h6⟩, h7⟩
        refine ⟨h5, ?_⟩
        rintro ⟨r1, r2, hc | hc, hj⟩
        · exact h6 ⟨r1, r2, hc, hj⟩
        · exact h7 ⟨r1, r2, hc, hj⟩
      · rintro ⟨h5, h6⟩
        refine ⟨⟨h5, ?_⟩, ?_⟩
        · rintro ⟨r1, r2, hc, hj⟩; exact h6 ⟨r1, r2, Or.inl hc, hj⟩
        · rintro ⟨r1, r2, hc, hj⟩; exact h6 ⟨r1, r2, Or.inr hc, hj⟩
    · simp only [h2]
      unfold distances
      rw [len3, List.zipWith_map, List.zipWith_self, htake]
      simp only [List.foldl_append, List.foldl_cons, List.foldl_nil]

theorem mslStep_any {a : FitArgs K L} (hd : DataSL a) (h0 : PercSafe a.pMin) (h1 : PercSafe a.pMax)
    {lengths dilations : List Nat} {normalize : List Bool} {nChannels : List Nat}
    (hP : ParOK lengths dilations normalize a.nt) {i : Nat} (hi : i < lengths.length)
    (hnch : nChannels.length = lengths.length) (hnc : ∀ c ∈ nChannels, c ≤ a.nf)
    (minL : Nat) (m : SubMask) :
    Wp (G := G) (mslStep a lengths dilations normalize nChannels minL m i)
      (StepTraced (settingSL G a) (parOf lengths dilations normalize) true (fun i => nChannels.getD i 0) minL m i) := by
  have hpos := hP.pos i hi
  have hroom := hP.room i hi
  have hnci : nChannels.getD i 0 ≤ a.nf := by
    rw [getD_lt _ (by omega)]; exact hnc _ (List.getElem_mem _)
  unfold mslStep
  refine Wp.bindRes (aget_getD 0 (by rw [hP.dil]; exact hi)) ?_
  refine Wp.bindRes (aget_getD 0 hi) ?_
  refine Wp.bindRes (aget_getD false (by rw [hP.norm]; exact hi)) ?_
  refine Wp.bindRes (aget_getD 0 (by rw [hnch]; exact hi)) ?_
  have hstop := vlStop_eq (phase := a.phase) hpos hroom.le (le_refl a.nt)
  have hdim := nWin_dim (phase := a.phase) hpos hroom
  unfold vlStop at hstop
  simp only [hstop]
  generalize hl : lengths.getD i 0 = l at *
  generalize hdl : dilations.getD i 0 = d at *
  generalize hnm : normalize.getD i false = norm at *
  refine Wp.bind (wp_choiceNoRep List.nodup_range (by simpa using hnci)) fun channels hch => ?_
  obtain ⟨hc1, hc2, hc3⟩ := hch
  simp only [List.mem_range] at hc3
  have hCOK : ChannelsOK true (settingSL G a).nf (nChannels.getD i 0) channels := by
    rw [ChannelsOK, if_pos rfl]; exact ⟨hc2, hc1, hc3⟩
  have hcand : ∀ s t, (s, t) ∈ ((List.range a.X.length).flatMap fun s =>
      (whereIdx (nWin a.phase a.nt l d) fun t => enough a.alpha m norm s t channels).map
        fun t => (s, t)) ↔
      s < a.X.length ∧ t < nWin a.phase a.nt l d ∧ enough a.alpha m norm s t channels = true := by
    intro s t
    simp only [List.mem_flatMap, List.mem_range, List.mem_map, Prod.mk.injEq, mem_whereIdx]
    constructor
    · rintro ⟨s', h1, t', ⟨h2, h3⟩, rfl, rfl⟩; exact ⟨h1, h2, h3⟩
    · rintro ⟨h1, h2, h3⟩; exact ⟨s, h1, t, ⟨h2, h3⟩, rfl, rfl⟩
  generalize ((List.range a.X.length).flatMap fun s =>
      (whereIdx (nWin a.phase a.nt l d) fun t => enough a.alpha m norm s t channels).map
        fun t => (s, t)) = cand at hcand
  split
  · rename_i hne
    have hne' : cand ≠ [] := List.length_pos_iff.1 hne
    refine Wp.bindRes hdim ?_
    refine Wp.bind (wp_choice1 (by simpa using hne')) fun s hs => ?_
    obtain ⟨⟨s', t0⟩, h1', rfl⟩ := List.mem_map.1 hs
    refine Wp.bind (wp_choice1 (a := (cand.filter fun p => p.1 == s').map Prod.snd) ?_)
      fun t ht => ?_
    · intro h
      rw [List.map_eq_nil_iff, List.filter_eq_nil_iff] at h
      exact h _ h1' (by simp)
    obtain ⟨⟨s'', t'⟩, h2, rfl⟩ := List.mem_map.1 ht
    rw [List.mem_filter] at h2
    have hss : s'' = s' := by simpa using h2.2
    subst hss
    obtain ⟨hsl, htl, hmt⟩ := (hcand s'' t').1 h2.1
    simp only
    have hnt : 0 < a.nt := by omega
    refine Wp.bind (wp_pickOther (by rw [hd.y]; exact hsl)) fun test htest => ?_
    have hcmp : Compared a.y _ test := htest
    obtain ⟨ht1, -, -⟩ := htest
    rw [hd.y] at ht1
    obtain ⟨m', e1, hm'⟩ := channelLoop_any (sh := ⟨a.X.length, a.nf, a.nt⟩)
      (xs := fun c => aget2 a.X s'' c) (xt := fun c => aget2 a.X test c)
      (S := fun c => seriesSL a s'' c) (S' := fun c => seriesSL a test c)
      (channels := channels) hc3 (Ts := a.nt) (Tt := a.nt) (fun c hc => readSL hd hsl (hc3 c hc))
      (fun c hc => readSL hd ht1 (hc3 c hc)) m norm a.phase (alphaSize l a.alpha minL) hsl hpos htl
      (fits_of_lt hroom) hnt (le_refl _)
    refine Wp.bindRes e1 ?_
    refine Wp.bind (drawThreshold_safe ?_ h0 h1) fun thr hthr => ?_
    · exact range_map_ne_nil _ (nWin_pos hroom)
    refine Wp.pure ⟨channels, hCOK, Or.inr ⟨⟨s'', t', test, channels⟩, _, rfl, rfl, rfl, hsl, ?_, ?_, ?_, hcmp, ?_, ?_⟩⟩
    · simpa only [parOf, settingSL, hl, hdl] using htl
    · rw [enough_any] at hmt
      simpa only [parOf, hnm, settingSL] using hmt
    · simp only [readAt, parOf, settingSL, hl, hdl, hnm]
    · simpa only [distAt, readAt, parOf, settingSL, hl, hdl, hnm, if_true] using hthr
    · intro n' s' c' t'
      simp only
      rw [hm']
      simp only [parOf, settingSL, hl, hdl, hnm, NearBy, alphaSize_share]
  · rename_i hne
    have hnil : cand = [] := by
      rw [gt_iff_lt, List.length_pos_iff, not_not] at hne; exact hne
    refine Wp.pure ⟨channels, hCOK, Or.inl ⟨rfl, rfl, ?_⟩⟩
    intro s t hs ht hf
    simp only [parOf, settingSL, hl, hdl, hnm] at hs ht hf
    rw [← enough_any] at hf
    have := (hcand s t).not.1 (by simp [hnil])
    exact this ⟨hs, ht, hf⟩

theorem mvlStep_any {a : FitArgs K L} {xLen : List Nat} {n : Nat} (hd : DataVL a xLen n)
    (h0 : PercSafe a.pMin) (h1 : PercSafe a.pMax)
    {lengths dilations : List Nat} {normalize : List Bool} {nChannels : List Nat}
    (hP : ParOK lengths dilations normalize n) {i : Nat} (hi : i < lengths.length)
    (hnch : nChannels.length = lengths.length) (hnc : ∀ c ∈ nChannels, c ≤ a.nf) {maxLen : Nat}
    (hmax : ∀ s, s < a.X.length → xLen.getD s 0 ≤ maxLen) (minL : Nat) (m : SubMask) :
    Wp (G := G) (mvlStep a xLen maxLen lengths dilations normalize nChannels minL m i)
      (StepTraced (settingVL G a n xLen) (parOf lengths dilations normalize) true (fun i => nChannels.getD i 0) minL m i) := by
  have hpos := hP.pos i hi
  have hroom := hP.room i hi
  have hnci : nChannels.getD i 0 ≤ a.nf := by
    rw [getD_lt _ (by omega)]; exact hnc _ (List.getElem_mem _)
  unfold mvlStep
  refine Wp.bindRes (aget_getD 0 (by rw [hP.dil]; exact hi)) ?_
  refine Wp.bindRes (aget_getD 0 hi) ?_
  refine Wp.bindRes (aget_getD false (by rw [hP.norm]; exact hi)) ?_
  refine Wp.bindRes (aget_getD 0 (by rw [hnch]; exact hi)) ?_
  generalize hl : lengths.getD i 0 = l at *
  generalize hdl : dilations.getD i 0 = d at *
  generalize hnm : normalize.getD i false = norm at *
  refine Wp.bind (wp_choiceNoRep List.nodup_range (by simpa using hnci)) fun channels hch => ?_
  obtain ⟨hc1, hc2, hc3⟩ := hch
  simp only [List.mem_range] at hc3
  have hCOK : ChannelsOK true (settingVL G a n xLen).nf (nChannels.getD i 0) channels := by
    rw [ChannelsOK, if_pos rfl]; exact ⟨hc2, hc1, hc3⟩
  refine Wp.bindRes (rows_ok hd hpos hroom (fun s t => enough a.alpha m norm s t channels) hmax) ?_
  have hmem := fun s => iMask_mem (ns := a.X.length)
    (w := fun s => whereIdx (nWin a.phase (xLen.getD s 0) l d) fun t =>
      enough a.alpha m norm s t channels) (s := s)
  simp only
  generalize (whereIdx a.X.length fun s => !(List.getD ((List.range a.X.length).map fun s =>
      whereIdx (nWin a.phase (xLen.getD s 0) l d) fun t => enough a.alpha m norm s t channels)
        s []).isEmpty) = iMask at hmem ⊢
  split
  · rename_i hne
    refine Wp.bind (wp_choice1 (List.length_pos_iff.1 hne)) fun s hs => ?_
    obtain ⟨hsl, hw⟩ := (hmem s).1 hs
    obtain ⟨ex, hxn⟩ := hd.xlen hsl
    refine Wp.bind (wp_pickOther (by rw [hd.y]; exact hsl)) fun test htest => ?_
    have hcmp : Compared a.y _ test := htest
    obtain ⟨ht1, -, -⟩ := htest
    rw [hd.y] at ht1
    obtain ⟨ex', hxn'⟩ := hd.xlen ht1
    refine Wp.bindRes ex' ?_
    refine Wp.bindRes (nWin_dim (phase := a.phase) hpos (by omega)) ?_
    refine Wp.bindRes ex ?_
    rw [vlStop_eq hpos (by omega) (hmax s hsl)]
    refine Wp.bind (wp_choice1 hw) fun t ht => ?_
    obtain ⟨htl, hmt⟩ := mem_whereIdx.1 ht
    have hget : ∀ s', s' < a.X.length → ∀ c ∈ channels,
        (do let x ← aget2 a.X s' c; pure (x.take (xLen.getD s' 0)) : Res _) =
          .ok (seriesVL a xLen s' c) ∧
        (seriesVL a xLen s' c).length = xLen.getD s' 0 := by
      intro s' hs' c hc
      obtain ⟨⟨x, e, hx⟩, hlen⟩ := readVL hd hs' (hc3 c hc)
      exact ⟨by rw [e, Res.bind_ok, hx]; rfl, hlen⟩
    obtain ⟨m', e1, hm'⟩ := channelLoop_any (sh := ⟨a.X.length, a.nf, maxLen⟩)
      (xs := fun c => do let x ← aget2 a.X s c; pure (x.take (xLen.getD s 0)))
      (xt := fun c => do let x ← aget2 a.X test c; pure (x.take (xLen.getD test 0)))
      (S := fun c => seriesVL a xLen s c) (S' := fun c => seriesVL a xLen test c)
      (channels := channels) hc3 (Ts := xLen.getD s 0) (Tt := xLen.getD test 0)
      (hget s hsl) (hget test ht1) m norm a.phase (alphaSize l a.alpha minL) hsl hpos htl
      (fits_of_lt (by omega)) (n := xLen.getD s 0) (by omega) (hmax s hsl)
    refine Wp.bindRes e1 ?_
    refine Wp.bind (drawThreshold_safe ?_ h0 h1) fun thr hthr => ?_
    · exact range_map_ne_nil _ (nWin_pos (by omega))
    refine Wp.pure ⟨channels, hCOK, Or.inr ⟨⟨s, t, test, channels⟩, _, rfl, rfl, rfl, hsl, ?_, ?_, ?_, hcmp, ?_, ?_⟩⟩
    · simpa only [parOf, settingVL, hl, hdl] using htl
    · rw [enough_any] at hmt
      simpa only [parOf, hnm, settingVL] using hmt
    · simp only [readAt, parOf, settingVL, hl, hdl, hnm]
    · simpa only [distAt, readAt, parOf, settingVL, hl, hdl, hnm, if_true] using hthr
    · intro n' s' c' t'
      simp only
      rw [hm']
      simp only [parOf, settingVL, hl, hdl, hnm, NearBy, alphaSize_share]
      refine and_congr_right fun _ => not_congr (and_congr_right fun _ => and_congr_right fun e => ?_)
      rw [e]
  · rename_i hne
    have hnil : iMask = [] := by
      rw [gt_iff_lt, List.length_pos_iff, not_not] at hne; exact hne
    refine Wp.pure ⟨channels, hCOK, Or.inl ⟨rfl, rfl, ?_⟩⟩
    intro s t hs ht hf
    simp only [parOf, settingVL, hl, hdl, hnm] at hs ht hf
    rw [← enough_any] at hf
    have := (hmem s).not.1 (by simp [hnil])
    have hmm : t ∈ whereIdx (nWin a.phase (xLen.getD s 0) l d) fun t => enough a.alpha m norm s t channels := mem_whereIdx.2 ⟨ht, hf⟩
    exact this ⟨hs, List.ne_nil_of_mem hmm⟩

end Convst
