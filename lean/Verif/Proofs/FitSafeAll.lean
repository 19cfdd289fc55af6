import Verif.Proofs.FitFacts
import Verif.Proofs.FitSafe

/-! # The fit loop and the four `*_generate_shapelet` functions in any arithmetic -/

set_option autoImplicit false
set_option linter.unusedSectionVars false

namespace Convst
open Spec

variable {G K L : Type}

/-- Every output of a group comes from one of its steps. -/
theorem localRun_safe {Q : Nat → Out K → Prop} {step : SubMask → Nat → RM G (SubMask × Option (Out K))}
    {ids : List Nat} {m0 : SubMask}
    (hstep : ∀ m, ∀ i ∈ ids, Wp (step m i) fun r => ∀ v, r.2 = some v → Q i v) :
    Wp (localRun step ids (m0, fun _ => none)) fun res => ∀ i v, res.2 i = some v → Q i v := by
  unfold localRun
  refine Wp.foldlM (P := fun (_ : List Nat) (st : SubMask × (Nat → Option (Out K))) =>
    ∀ i v, st.2 i = some v → Q i v) ?_ ?_
  · intro i v h; cases h
  · rintro pre i post ⟨m, out⟩ hl h
    refine Wp.bind (hstep m i (by rw [hl]; simp)) fun r hr => Wp.pure ?_
    intro j v hj
    simp only at hj
    by_cases e : j = i
    · subst e
      rw [Function.update_self] at hj
      exact hr v hj
    · rw [Function.update_of_ne e] at hj
      exact h j v hj

/-- The fit loop: every execution order of the groups gives the same output arrays, and every output comes from
one of the steps. -/
theorem fitLoop_safe {A : Type} {Q : Nat → Out K → Prop}
    {lengths dilations : List Nat} (hdil : dilations.length = lengths.length)
    {step : Nat → SubMask → Nat → RM G (SubMask × Option (Out K))}
    {write : A → Nat → Option (Out K) → Res A} {target : (Nat → Option (Option (Out K))) → A}
    {shape : Nat → Option (Out K) → Prop}
    (hw : ∀ S i v, i < lengths.length → S i = none → shape i v →
      write (target S) i v = .ok (target (Function.update S i (some v))))
    (hshape : ∀ i o, i < lengths.length → (∀ v, o = some v → Q i v) → shape i o) (m0 : SubMask)
    (hstep : ∀ minL m i, i < lengths.length → Wp (step minL m i) fun r => ∀ v, r.2 = some v → Q i v)
    (gs : Nat → G) :
    ∃ out : Nat → Option (Out K), (∀ i, i < lengths.length → ∀ v, out i = some v → Q i v) ∧
      ∀ order : List Nat, order.Perm (List.range (uniqueSorted dilations).length) →
        ∃ masks, fitLoop lengths dilations step write gs order (fun _ => m0, target fun _ => none) =
          .ok (masks, target fun i => if i < lengths.length then some (out i) else none) := by
  classical
  have : Nonempty G := ⟨gs 0⟩
  set U := uniqueSorted dilations with hU
  have hids : ∀ d i, i ∈ groupIds dilations d ↔ i < lengths.length ∧ dilations.getD i 0 = d := by
    intro d i
    rw [mem_groupIds]
    constructor
    · intro h
      have hi : i < dilations.length := by
        by_contra hc; rw [List.getElem?_eq_none (by omega)] at h; cases h
      refine ⟨by omega, ?_⟩
      rw [getD_lt _ hi]
      rw [List.getElem?_eq_getElem hi] at h
      exact Option.some.inj h
    · rintro ⟨h1, h2⟩
      rw [getD_lt _ (by omega)] at h2
      rw [List.getElem?_eq_getElem (by omega), h2]
  have hprep : ∀ iD, iD < U.length → ∃ minL,
      ((groupIds dilations (U.getD iD 0)).mapM fun i => aget lengths i) =
        (.ok ((groupIds dilations (U.getD iD 0)).map fun i => lengths.getD i 0) : Res _) ∧
      nmin ((groupIds dilations (U.getD iD 0)).map fun i => lengths.getD i 0) = .ok minL := by
    intro iD hiD
    have hne : groupIds dilations (U.getD iD 0) ≠ [] := by
      have : U.getD iD 0 ∈ dilations := by
        rw [← mem_uniqueSorted, ← hU, getD_lt _ hiD]; exact List.getElem_mem _
      obtain ⟨k, hk⟩ := List.mem_iff_getElem?.1 this
      exact List.ne_nil_of_mem (mem_groupIds.2 hk)
    obtain ⟨minL, e, h1, h2⟩ := nmin_ok
      (a := (groupIds dilations (U.getD iD 0)).map fun i => lengths.getD i 0) (by simpa using hne)
    refine ⟨minL, ?_, e⟩
    refine mapM_ok ?_
    intro i hi
    exact aget_getD 0 ((hids _ i).1 hi).1
  choose! minL hmin1 hmin2 using hprep
  have hlocal : ∀ iD, iD < U.length → ∃ m' out g',
      localRun (step (minL iD)) (groupIds dilations (U.getD iD 0)) (m0, fun _ => none) (gs iD) =
        .ok ((m', out), g') ∧
      ∀ i ∈ groupIds dilations (U.getD iD 0), ∀ v, out i = some v → Q i v := by
    intro iD hiD
    obtain ⟨⟨m', out⟩, g', h1, h2⟩ := localRun_safe (Q := Q) (step := step (minL iD)) (m0 := m0)
      (ids := groupIds dilations (U.getD iD 0))
      (fun m i hi => hstep _ m i ((hids _ i).1 hi).1) (gs iD)
    exact ⟨m', out, g', h1, fun i _ => h2 i⟩
  choose! lm lout lg hl1 hl2 using hlocal
  -- the group of a shapelet
  have hgrp : ∀ i, i < lengths.length → ∃ iD, iD < U.length ∧ i ∈ groupIds dilations (U.getD iD 0) := by
    intro i hi
    have hi' : i < dilations.length := by omega
    have : dilations[i] ∈ U := mem_uniqueSorted.2 (List.getElem_mem hi')
    obtain ⟨iD, h1, h2⟩ := List.mem_iff_getElem.1 this
    refine ⟨iD, h1, mem_groupIds.2 ?_⟩
    rw [getD_lt _ h1, h2, List.getElem?_eq_getElem hi']
  choose! grp hgrp1 hgrp2 using hgrp
  have hgu : ∀ i iD, iD < U.length → i ∈ groupIds dilations (U.getD iD 0) → iD = grp i := by
    intro i iD h1 h2
    have hi : i < lengths.length := ((hids _ i).1 h2).1
    have e1 := ((hids _ i).1 h2).2
    have e2 := ((hids _ i).1 (hgrp2 i hi)).2
    rw [getD_lt _ h1] at e1
    rw [getD_lt _ (hgrp1 i hi)] at e2
    exact (List.Nodup.getElem_inj_iff (uniqueSorted_nodup dilations)).1 (e1.symm.trans e2)
  refine ⟨fun i => lout (grp i) i, fun i hi => hl2 _ (hgrp1 i hi) i (hgrp2 i hi), ?_⟩
  · intro order hord
    have hfg : ∀ (masks : Nat → SubMask) S iD, iD < U.length → masks iD = m0 →
        (∀ i ∈ groupIds dilations (U.getD iD 0), S i = none) →
        fitGroup lengths dilations step write (masks, target S) iD (gs iD) =
          .ok ((Function.update masks iD (lm iD), target fun i =>
            if i ∈ groupIds dilations (U.getD iD 0) then some (lout iD i) else S i), lg iD) := by
      intro masks S iD hiD hmk hS
      unfold fitGroup
      rw [RM.bind_apply, ← hU]
      simp only [aget_getD 0 hiD, ofRes, Res.bind_ok]
      rw [RM.bind_apply]
      simp only [hmin1 iD hiD, ofRes, Res.bind_ok]
      rw [RM.bind_apply]
      simp only [hmin2 iD hiD, ofRes, Res.bind_ok]
      exact groupRun_eq hw (groupIds_sorted _ _ |>.imp (fun h => ne_of_lt h))
        (fun i hi => ((hids _ i).1 hi).1) iD (hl1 iD hiD)
        (fun i hi => hshape i _ ((hids _ i).1 hi).1 (hl2 iD hiD i hi)) hmk hS
    have hmemo : ∀ iD, iD ∈ order ↔ iD < U.length := by
      intro iD; rw [hord.mem_iff, List.mem_range]
    have hndo : order.Nodup := hord.nodup_iff.2 List.nodup_range
    obtain ⟨⟨masks, arr⟩, h1, h2, h3⟩ := foldlM_inv (l := order)
      (s := ((fun _ => m0 : Nat → SubMask), target fun _ => none))
      (f := fun st iD => do
        let r ← fitGroup lengths dilations step write st iD (gs iD)
        pure r.1)
      (P := fun pre st => (∀ iD, iD ∉ pre → st.1 iD = m0) ∧
        st.2 = target fun i => if i < lengths.length ∧ grp i ∈ pre then some (lout (grp i) i) else none)
      (by simp) (by
        rintro pre iD post ⟨masks, arr⟩ hl ⟨hp1, hp2⟩
        simp only at hp1 hp2
        have hiD : iD < U.length := (hmemo iD).1 (by rw [hl]; simp)
        have hnp : iD ∉ pre := by
          rw [hl] at hndo
          intro h
          exact (List.disjoint_of_nodup_append hndo) h (by simp)
        have := hfg masks (fun i => if i < lengths.length ∧ grp i ∈ pre then
            some (lout (grp i) i) else none) iD hiD (hp1 iD hnp) (by
          intro i hi
          rw [if_neg]
          rintro ⟨_, h⟩
          rw [← hgu i iD hiD hi] at h
          exact hnp h)
        rw [← hp2] at this
        rw [this]
        refine ⟨_, rfl, ?_, ?_⟩
        · intro k hk
          rw [List.mem_append, List.mem_singleton, not_or] at hk
          simp only
          rw [Function.update_of_ne hk.2]
          exact hp1 k hk.1
        · simp only
          congr 1
          funext i
          by_cases hi : i ∈ groupIds dilations (U.getD iD 0)
          · have hil : i < lengths.length := ((hids _ i).1 hi).1
            have hg := hgu i iD hiD hi
            rw [if_pos hi, if_pos ⟨hil, by simp [hg]⟩, hg]
          · rw [if_neg hi]
            by_cases hil : i < lengths.length
            · have hne : grp i ≠ iD := by
                rintro rfl
                exact hi (hgrp2 i hil)
              simp [hil, hne]
            · simp [hil])
    refine ⟨masks, ?_⟩
    unfold fitLoop
    rw [h1]
    simp only at h3
    rw [h3]
    congr 3
    funext i
    by_cases hi : i < lengths.length
    · rw [if_pos ⟨hi, (hmemo _).2 (hgrp1 i hi)⟩, if_pos hi]
    · simp [hi]

variable [Gen G K] [LawfulInt G] [Scalar K] [DecidableEq L]

theorem parOK_of_safe {nShp : Nat} {sizes : List Nat} {n : Nat}
    {lengths dilations : List Nat} {normalize : List Bool} (hn : ∀ l ∈ sizes, 2 ≤ l ∧ l ≤ n)
    (h : InitSafe nShp sizes n lengths dilations normalize) :
    ParOK lengths dilations normalize n where
  dil := by rw [h.dlen, h.len]
  norm := by rw [h.nlen, h.len]
  pos i hi := by
    rw [getD_lt _ hi]
    have := hn _ (h.mem _ (List.getElem_mem hi)); omega
  room i hi := by
    have h1 := (h.dil i (h.len ▸ hi)).2
    have h2 := hn _ (h.mem _ (List.getElem_mem hi))
    omega

theorem kept_lt {n : Nat} {kept : List Nat} (h1 : kept.Pairwise (· < ·)) (h2 : ∀ i ∈ kept, i < n) :
    kept.length ≤ n := by
  have hnd : kept.Nodup := h1.imp (fun h => ne_of_lt h)
  have := (List.subperm_of_subset hnd (l₂ := List.range n) (fun i hi => List.mem_range.2 (h2 i hi))).length_le
  simpa using this

theorem uLearned_of {nShp : Nat} {sizes : List Nat} {n ns nf : Nat} {len : Nat → Nat}
    {series : Nat → Nat → List K} {y : List L} {thr : List K → K → Prop} {phase : Bool} {lengths dilations : List Nat} {normalize : List Bool}
    {nch : Nat → Nat} (hI : InitSafe nShp sizes n lengths dilations normalize) {out : Nat → Option (Out K)}
    (hout : ∀ i, i < lengths.length → ∀ v, out i = some v →
      Extracted ns nf len series y thr phase (parOf lengths dilations normalize) false nch i v)
    {kept : List Nat} {S : UShp K} (hf : UFrom (parOf lengths dilations normalize) out kept S) (hwf : UWF S) :
    ULearned nShp sizes n ns len series y thr phase S where
  wf := hwf
  count := by
    rw [hf.count, ← hI.len]
    exact kept_lt hf.sorted fun i hi => ((hf.mem i).1 hi).1
  shapelet k hk := by
    have hk' : k < kept.length := hf.count ▸ hk
    have e : kept[k]? = some kept[k] := List.getElem?_eq_getElem hk'
    have hi : kept[k] < lengths.length := ((hf.mem _).1 (List.getElem_mem hk')).1
    obtain ⟨v, hv, hval, hthr⟩ := hf.shapelet k _ e
    obtain ⟨s, t, hs, ht, hch, hvv, test, hcmp, hth⟩ := hout _ hi v hv
    obtain ⟨h1, h2⟩ := hI.dil _ (hI.len ▸ hi)
    have hvs : uValues S k = seen ((parOf lengths dilations normalize).normalize kept[k]) (window phase (series s 0)
        ((parOf lengths dilations normalize).length kept[k]) ((parOf lengths dilations normalize).dilation kept[k])
        t) := by
      have hc : v.channels = [0] := by simpa [ChannelsOK] using hch
      rw [hval, hvv, hc]
      simp
    refine ⟨_, _, _, hf.lengths k _ e, hf.dilations k _ e, hf.normalize k _ e, ?_, h1, h2, s, t, hs, ht, ?_,
      test, _, hcmp, hthr, ?_⟩
    · show lengths.getD _ 0 ∈ sizes
      rw [getD_lt _ hi]; exact hI.mem _ (List.getElem_mem hi)
    · exact hvs
    · rw [fitDist, if_neg (by simp), ← hvs] at hth
      unfold uDistances
      rw [getD_some (hf.lengths k _ e), getD_some (hf.dilations k _ e), getD_some (hf.normalize k _ e)]
      exact hth

theorem foldl_range_congr' {α : Type} {n : Nat} {f g : α → Nat → α} (h : ∀ a c, c < n → f a c = g a c) (a : α) :
    (List.range n).foldl f a = (List.range n).foldl g a := by
  have key : ∀ (l : List Nat) (a : α), (∀ c ∈ l, c < n) → l.foldl f a = l.foldl g a := by
    intro l
    induction l with
    | nil => intros; rfl
    | cons c l ih =>
      intro a hl
      rw [List.foldl_cons, List.foldl_cons, h a c (hl c (by simp))]
      exact ih _ fun c hc => hl c (by simp [hc])
  exact key _ a fun c hc => List.mem_range.1 hc

theorem mLearned_of {nShp : Nat} {sizes : List Nat} {n ns nf mc : Nat} {len : Nat → Nat}
    {series : Nat → Nat → List K} {y : List L} {thr : List K → K → Prop} {phase : Bool} {lengths dilations : List Nat} {normalize : List Bool}
    {nChannels : List Nat} (hI : InitSafe nShp sizes n lengths dilations normalize)
    (hncl : nChannels.length = lengths.length) (hnc : ∀ c ∈ nChannels, 1 ≤ c ∧ c ≤ mc)
    {out : Nat → Option (Out K)}
    (hout : ∀ i, i < lengths.length → ∀ v, out i = some v →
      Extracted ns nf len series y thr phase (parOf lengths dilations normalize) true (fun i => nChannels.getD i 0) i v)
    {kept : List Nat} {S : MShp K}
    (hf : MFrom (parOf lengths dilations normalize) (fun i => nChannels.getD i 0) out kept S) (hwf : MWF S nf) :
    MLearned nShp sizes n ns nf mc len series y thr phase S where
  wf := hwf
  count := by
    rw [hf.count, ← hI.len]
    exact kept_lt hf.sorted fun i hi => ((hf.mem i).1 hi).1
  shapelet k hk := by
    have hk' : k < kept.length := hf.count ▸ hk
    have e : kept[k]? = some kept[k] := List.getElem?_eq_getElem hk'
    have hi : kept[k] < lengths.length := ((hf.mem _).1 (List.getElem_mem hk')).1
    obtain ⟨v, hv, hchs, hval, hthr⟩ := hf.shapelet k _ e
    obtain ⟨s, t, hs, ht, hch, hvv, test, hcmp, hth⟩ := hout _ hi v hv
    obtain ⟨h1, h2⟩ := hI.dil _ (hI.len ▸ hi)
    have hc' := hnc _ (List.getElem_mem (l := nChannels) (n := kept[k]) (by omega))
    rw [← getD_lt 0 (by omega : kept[k] < nChannels.length)] at hc'
    rw [ChannelsOK, if_pos rfl] at hch
    have hne := hf.nChannels k _ e
    have hnk : S.nChannels.getD k 0 = nChannels.getD kept[k] 0 := getD_some hne
    have hlk := getD_some (hf.lengths k _ e) (d := 0)
    have hcl : (mChannels S k).length = nChannels.getD kept[k] 0 := by rw [hchs]; exact hch.2.1
    have hvs : ∀ c < nChannels.getD kept[k] 0, mValues S k c =
        seen ((parOf lengths dilations normalize).normalize kept[k]) (window phase
          (series s ((mChannels S k).getD c 0)) ((parOf lengths dilations normalize).length kept[k])
          ((parOf lengths dilations normalize).dilation kept[k]) t) := by
      intro c hc
      rw [← hchs] at hvv
      rw [hvv, hnk] at hval
      conv_rhs at hval => rw [eq_range_map (mChannels S k) 0, List.flatMap_map, hcl]
      refine blocks_eq (l := (parOf lengths dilations normalize).length kept[k]) ?_ ?_ hval hc
      · intro c hc
        rw [← hlk]
        exact mValues_length hwf hk (by rw [hnk]; exact hc)
      · intro c _
        rw [seen_length, window_length]
    refine ⟨_, _, _, _, hf.lengths k _ e, hf.dilations k _ e, hf.normalize k _ e, hne, ?_, h1, h2, hc'.1, hc'.2,
      hcl, ?_, s, t, hs, ht, hvs, test, _, hcmp, hthr, ?_⟩
    · show lengths.getD _ 0 ∈ sizes
      rw [getD_lt _ hi]; exact hI.mem _ (List.getElem_mem hi)
    · rw [hchs]; exact hch.1
    · rw [fitDist, if_pos rfl, ← hchs] at hth
      convert hth using 1
      unfold mDistances
      rw [hlk, getD_some (hf.dilations k _ e)]
      refine List.map_congr_left fun w _ => ?_
      unfold mDist
      rw [hlk, getD_some (hf.dilations k _ e), getD_some (hf.normalize k _ e)]
      conv_rhs => rw [eq_range_map (mChannels S k) 0, List.foldl_map]
      refine foldl_range_congr' (fun a c hc => ?_) _
      rw [hvs c (hcl ▸ hc), getD_range_map []]
      rw [hchs]
      rw [hchs] at hc
      rw [getD_lt _ hc]
      exact hch.2.2 _ (List.getElem_mem hc)

theorem uslGenerate_safe (heq : ∀ x : K, Scalar.eqb x 0 = true ↔ x = 0) {a : FitArgs K L} (hv : SafeSL a)
    (hD : DrawSafe G K a.nt) (hp0 : PercSafe a.pMin) (hp1 : PercSafe a.pMax) (g0 : G) (gs : Nat → G) :
    ∃ S, ULearned a.nShp a.sizes a.nt a.X.length (fun _ => a.nt) (seriesSL a) a.y (ThrFrom a.pMin a.pMax (Drawable G)) a.phase S ∧
      ∀ order, IsSchedule order → uslGenerate a g0 gs order = .ok S := by
  obtain ⟨P, g', hP, hI, hthr, mx, hmx, hval⟩ :=
    uInit_safe hD a.pNorm a.prime hv.nShp hv.sizes hv.bounds g0
  have hpok := parOK_of_safe hv.bounds hI
  have hmx' : ∀ l ∈ P.lengths, l ≤ mx := fun l hl => hmx l (hI.mem l hl)
  have h0 : (P.values, P.threshold) = uTarget P.lengths mx fun _ => none := by
    rw [hval, hthr]
    unfold uTarget
    simp [uRowOf, thrOf, List.map_const', hI.len]
  obtain ⟨out, hgood, hrun⟩ := fitLoop_safe
    (Q := Extracted a.X.length a.nf (fun _ => a.nt) (seriesSL a) a.y (ThrFrom a.pMin a.pMax (Drawable G)) a.phase (parOf P.lengths P.dilations P.normalize)
      false fun _ => 1) hpok.dil
    (write := uWrite P.lengths) (target := uTarget P.lengths mx)
    (shape := fun i v => ∀ o, v = some o → o.values.length = P.lengths.getD i 0)
    (fun S i v hi hS hvv => uWrite_ok hmx' S i v hi hS hvv)
    (fun i o _ h v ho => by simpa [parOf] using (h v ho).size.1)
    (fun _ _ _ _ => true)
    (step := uslStep a P.lengths P.dilations P.normalize)
    (fun minL m i hi => uslStep_safe hv.data hv.nf hp0 hp1 hpok hi _ minL m) gs
  obtain ⟨kept, hfrom, hwf⟩ := uFinish_from heq hmx' hpok.dil hpok.norm (out := out)
    (fun i v hi hvv => by simpa [parOf] using (hgood i hi v hvv).size.1) hpok.pos
  refine ⟨_, uLearned_of hI hgood hfrom hwf, ?_⟩
  intro order ho
  obtain ⟨masks, hm⟩ := hrun (order (uniqueSorted P.dilations).length) (ho _)
  unfold uslGenerate
  rw [hP, Res.bind_ok]
  simp only
  rw [h0, hm, Res.bind_ok]
  rfl

theorem uvlGenerate_safe (heq : ∀ x : K, Scalar.eqb x 0 = true ↔ x = 0) {a : FitArgs K L} {minLen : Nat}
    {xLen : List Nat} (hv : SafeVL a minLen xLen)
    (hD : DrawSafe G K minLen) (hp0 : PercSafe a.pMin) (hp1 : PercSafe a.pMax) (g0 : G) (gs : Nat → G) :
    ∃ S, ULearned a.nShp a.sizes minLen a.X.length (fun s => xLen.getD s 0) (seriesVL a xLen) a.y (ThrFrom a.pMin a.pMax (Drawable G)) a.phase S ∧
      ∀ order, IsSchedule order → uvlGenerate a minLen xLen g0 gs order = .ok S := by
  obtain ⟨P, g', hP, hI, hthr, mx, hmx, hval⟩ :=
    uInit_safe hD a.pNorm a.prime hv.nShp hv.sizes hv.bounds g0
  obtain ⟨maxLen, hM1, hM2⟩ := maxLen_ok hv.data hv.ne
  obtain ⟨lens, hlens⟩ := lens_read hv.data
  have hpok := parOK_of_safe hv.bounds hI
  have hmx' : ∀ l ∈ P.lengths, l ≤ mx := fun l hl => hmx l (hI.mem l hl)
  have h0 : (P.values, P.threshold) = uTarget P.lengths mx fun _ => none := by
    rw [hval, hthr]
    unfold uTarget
    simp [uRowOf, thrOf, List.map_const', hI.len]
  obtain ⟨out, hgood, hrun⟩ := fitLoop_safe
    (Q := Extracted a.X.length a.nf (fun s => xLen.getD s 0) (seriesVL a xLen) a.y (ThrFrom a.pMin a.pMax (Drawable G)) a.phase
      (parOf P.lengths P.dilations P.normalize) false fun _ => 1) hpok.dil
    (write := uWrite P.lengths) (target := uTarget P.lengths mx)
    (shape := fun i v => ∀ o, v = some o → o.values.length = P.lengths.getD i 0)
    (fun S i v hi hS hvv => uWrite_ok hmx' S i v hi hS hvv)
    (fun i o _ h v ho => by simpa [parOf] using (h v ho).size.1)
    (fun _ s _ t => decide (t < xLen.getD s 0))
    (step := uvlStep a xLen maxLen P.lengths P.dilations P.normalize)
    (fun minL m i hi => uvlStep_safe hv.data hv.nf hp0 hp1 hpok hi hM2 _ minL m) gs
  obtain ⟨kept, hfrom, hwf⟩ := uFinish_from heq hmx' hpok.dil hpok.norm (out := out)
    (fun i v hi hvv => by simpa [parOf] using (hgood i hi v hvv).size.1) hpok.pos
  refine ⟨_, uLearned_of hI hgood hfrom hwf, ?_⟩
  intro order ho
  obtain ⟨masks, hm⟩ := hrun (order (uniqueSorted P.dilations).length) (ho _)
  unfold uvlGenerate
  rw [hM1, Res.bind_ok, hP, Res.bind_ok]
  simp only
  rw [hlens, Res.bind_ok, h0, hm, Res.bind_ok]
  rfl

theorem mslGenerate_safe {a : FitArgs K L} (hv : SafeSL a) {mc : Nat} (hmc : 1 ≤ mc) (hmcf : mc ≤ a.nf)
    (hD : DrawSafe G K a.nt) (hp0 : PercSafe a.pMin) (hp1 : PercSafe a.pMax) (g0 : G) (gs : Nat → G) :
    ∃ S, MLearned a.nShp a.sizes a.nt a.X.length a.nf mc (fun _ => a.nt) (seriesSL a) a.y (ThrFrom a.pMin a.pMax (Drawable G)) a.phase S ∧
      ∀ order, IsSchedule order → mslGenerate a mc g0 gs order = .ok S := by
  obtain ⟨P, g', hP, hI, hthr, hncl, hnc, hch, hval⟩ :=
    mInit_safe hD a.pNorm a.prime hv.nShp hv.sizes hv.bounds hmc g0
  have hpok := parOK_of_safe hv.bounds hI
  have hncl' : P.nChannels.length = P.lengths.length := by rw [hncl, hI.len]
  have h0 := mArr0_eq hI.len hncl hthr hch hval
  obtain ⟨out, hgood, hrun⟩ := fitLoop_safe
    (Q := Extracted a.X.length a.nf (fun _ => a.nt) (seriesSL a) a.y (ThrFrom a.pMin a.pMax (Drawable G)) a.phase (parOf P.lengths P.dilations P.normalize)
      true fun i => P.nChannels.getD i 0) hpok.dil
    (write := mWrite (offValues P.nChannels P.lengths) (offChannels P.nChannels))
    (target := mTarget P.lengths P.nChannels)
    (shape := fun i v => ∀ o, v = some o →
      o.values.length = P.nChannels.getD i 0 * P.lengths.getD i 0 ∧
      o.channels.length = P.nChannels.getD i 0)
    (fun S i v hi hS hvv => mWrite_ok hncl' S i v hi hS hvv)
    (fun i o _ h v ho => ⟨(h v ho).size.1, ((h v ho).size.2 rfl).1⟩)
    (fun _ _ _ _ => true)
    (step := mslStep a P.lengths P.dilations P.normalize P.nChannels)
    (fun minL m i hi => mslStep_safe hv.data hp0 hp1 hpok hi hncl'
      (fun c hc => (hnc c hc).2.trans hmcf) minL m) gs
  obtain ⟨S, kept, hfin, hfrom, hwf⟩ := mFinish_from hpok.dil hpok.norm hncl' (out := out) (nf := a.nf)
    (fun i v hi hvv => ⟨(hgood i hi v hvv).size.1, (hgood i hi v hvv).size.2 rfl⟩) hpok.pos
  refine ⟨S, mLearned_of hI hncl' hnc hgood hfrom hwf, ?_⟩
  intro order ho
  obtain ⟨masks, hm⟩ := hrun (order (uniqueSorted P.dilations).length) (ho _)
  unfold mslGenerate
  rw [hP, Res.bind_ok]
  simp only
  rw [h0, hm, Res.bind_ok]
  exact hfin

theorem mvlGenerate_safe {a : FitArgs K L} {minLen : Nat} {xLen : List Nat} (hv : SafeVL a minLen xLen)
    {mc : Nat} (hmc : 1 ≤ mc) (hmcf : mc ≤ a.nf)
    (hD : DrawSafe G K minLen) (hp0 : PercSafe a.pMin) (hp1 : PercSafe a.pMax) (g0 : G) (gs : Nat → G) :
    ∃ S, MLearned a.nShp a.sizes minLen a.X.length a.nf mc (fun s => xLen.getD s 0) (seriesVL a xLen) a.y (ThrFrom a.pMin a.pMax (Drawable G)) a.phase S ∧
      ∀ order, IsSchedule order → mvlGenerate a mc minLen xLen g0 gs order = .ok S := by
  obtain ⟨P, g', hP, hI, hthr, hncl, hnc, hch, hval⟩ :=
    mInit_safe hD a.pNorm a.prime hv.nShp hv.sizes hv.bounds hmc g0
  obtain ⟨maxLen, hM1, hM2⟩ := maxLen_ok hv.data hv.ne
  obtain ⟨lens, hlens⟩ := lens_read hv.data
  have hpok := parOK_of_safe hv.bounds hI
  have hncl' : P.nChannels.length = P.lengths.length := by rw [hncl, hI.len]
  have h0 := mArr0_eq hI.len hncl hthr hch hval
  obtain ⟨out, hgood, hrun⟩ := fitLoop_safe
    (Q := Extracted a.X.length a.nf (fun s => xLen.getD s 0) (seriesVL a xLen) a.y (ThrFrom a.pMin a.pMax (Drawable G)) a.phase
      (parOf P.lengths P.dilations P.normalize) true fun i => P.nChannels.getD i 0) hpok.dil
    (write := mWrite (offValues P.nChannels P.lengths) (offChannels P.nChannels))
    (target := mTarget P.lengths P.nChannels)
    (shape := fun i v => ∀ o, v = some o →
      o.values.length = P.nChannels.getD i 0 * P.lengths.getD i 0 ∧
      o.channels.length = P.nChannels.getD i 0)
    (fun S i v hi hS hvv => mWrite_ok hncl' S i v hi hS hvv)
    (fun i o _ h v ho => ⟨(h v ho).size.1, ((h v ho).size.2 rfl).1⟩)
    (fun _ s _ t => decide (t < xLen.getD s 0))
    (step := mvlStep a xLen maxLen P.lengths P.dilations P.normalize P.nChannels)
    (fun minL m i hi => mvlStep_safe hv.data hp0 hp1 hpok hi hncl'
      (fun c hc => (hnc c hc).2.trans hmcf) hM2 minL m) gs
  obtain ⟨S, kept, hfin, hfrom, hwf⟩ := mFinish_from hpok.dil hpok.norm hncl' (out := out) (nf := a.nf)
    (fun i v hi hvv => ⟨(hgood i hi v hvv).size.1, (hgood i hi v hvv).size.2 rfl⟩) hpok.pos
  refine ⟨S, mLearned_of hI hncl' hnc hgood hfrom hwf, ?_⟩
  intro order ho
  obtain ⟨masks, hm⟩ := hrun (order (uniqueSorted P.dilations).length) (ho _)
  unfold mvlGenerate
  rw [hM1, Res.bind_ok, hP, Res.bind_ok]
  simp only
  rw [hlens, Res.bind_ok, h0, hm, Res.bind_ok]
  exact hfin

end Convst
