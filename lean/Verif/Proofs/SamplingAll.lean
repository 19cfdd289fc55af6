import Verif.Proofs.SamplingSteps

/-! # The fit loop and the four `*_generate_shapelet` functions follow the sampling rules in any arithmetic -/

set_option autoImplicit false
set_option linter.unusedSectionVars false

namespace Convst
open Spec

section
variable {G K L : Type} [Scalar K] {E : Setting K L} {P : Par} {multi : Bool} {nch : Nat → Nat}

theorem freeEnough_congr {alpha : K} {channels : List Nat} {b b' : Nat → Prop}
    (h : ∀ c, b c ↔ b' c) : FreeEnough multi alpha channels b ↔ FreeEnough multi alpha channels b' := by
  rw [show b = b' from funext fun c => propext (h c)]

theorem taken_congr {rec rec' : Nat → Option Src} {i s c t : Nat}
    (h : ∀ j, j < i → P.dilation j = P.dilation i → rec' j = rec j) :
    Taken E P rec' i s c t ↔ Taken E P rec i s c t := by
  constructor
  · rintro ⟨j, m, r, h1, h2, h3, h4, h5⟩
    exact ⟨j, m, r, h1, h2, h3, by rw [← h j h1 h2]; exact h4, h5⟩
  · rintro ⟨j, m, r, h1, h2, h3, h4, h5⟩
    exact ⟨j, m, r, h1, h2, h3, by rw [h j h1 h2]; exact h4, h5⟩

theorem usable_congr {rec rec' : Nat → Option Src} {i s t : Nat} {channels : List Nat}
    (h : ∀ j, j < i → P.dilation j = P.dilation i → rec' j = rec j) :
    Usable E P multi rec' i channels s t ↔ Usable E P multi rec i channels s t := by
  unfold Usable
  rw [freeEnough_congr fun c => taken_congr h]

theorem traced_congr {rec rec' : Nat → Option Src} {out out' : Nat → Option (Out K)} {i : Nat}
    (h : ∀ j, j ≤ i → P.dilation j = P.dilation i → rec' j = rec j) (ho : out' i = out i)
    (hg : Traced E P multi nch rec out i) : Traced E P multi nch rec' out' i := by
  have h' := fun j (hj : j < i) hd => h j hj.le hd
  obtain ⟨ch, h1, h2 | h2⟩ := hg
  · refine ⟨ch, h1, Or.inl ⟨by rw [h i (le_refl _) rfl]; exact h2.1, by rw [ho]; exact h2.2.1, ?_⟩⟩
    intro s t
    rw [usable_congr h']
    exact h2.2.2 s t
  · obtain ⟨r, v, h3, h4, h5, h5', h6, h7⟩ := h2
    refine ⟨ch, h1, Or.inr ⟨r, v, by rw [h i (le_refl _) rfl]; exact h3, by rw [ho]; exact h4, h5, h5', ?_,
      h7⟩⟩
    rw [usable_congr h']
    exact h6

theorem traced_size {rec : Nat → Option Src} {out : Nat → Option (Out K)} {i : Nat}
    (h : Traced E P multi nch rec out i) {v : Out K} (hv : out i = some v) :
    v.values.length = (if multi then nch i else 1) * P.length i ∧
    (multi = true → v.channels.length = nch i ∧ ∀ c ∈ v.channels, c < E.nf) := by
  obtain ⟨ch, hch, ⟨-, h2, -⟩ | ⟨r, w, -, h2, -, hwc, -, hval, -, -⟩⟩ := h
  · rw [hv] at h2; cases h2
  · rw [hv] at h2
    obtain rfl := Option.some.inj h2
    have hl : v.values.length = ch.length * P.length i := by
      rw [hval, flatMap_length_eq _ _ (fun _ => P.length i)
        (fun c _ => by rw [readAt, seen_length, window_length])]
      simp
    rw [hl, hwc]
    unfold ChannelsOK at hch
    cases multi with
    | true => simp only [if_true] at hch ⊢; rw [hch.2.1]; exact ⟨rfl, fun _ => ⟨rfl, hch.2.2⟩⟩
    | false => simp only [Bool.false_eq_true, if_false] at hch ⊢; rw [hch]; simp

end

section
variable {G K L : Type} [Scalar K]

/-- A group meets the specification. -/
theorem localRun_any {E : Setting K L} {P : Par} {multi : Bool} {nch : Nat → Nat}
    {step : SubMask → Nat → RM G (SubMask × Option (Out K))} {ids : List Nat} {d minL : Nat}
    {m0 : SubMask} (hids : ∀ i, i ∈ ids ↔ i < P.n ∧ P.dilation i = d) (hsort : ids.Pairwise (· < ·))
    (hmin : ∀ i ∈ ids, IsMinLength P i minL)
    (hm0 : ∀ n s c t, s < E.ns → t < E.len s → m0 n s c t = true)
    (hstep : ∀ m, ∀ i ∈ ids, Wp (step m i) (StepTraced E P multi nch minL m i)) :
    Wp (localRun step ids (m0, fun _ => none)) fun res =>
      ∃ rec, ∀ i ∈ ids, Traced E P multi nch rec res.2 i := by
  unfold localRun
  refine Wp.mono (Wp.foldlM (P := fun (pre : List Nat) (st : SubMask × (Nat → Option (Out K))) =>
    ∃ rec, (∀ i ∈ pre, Traced E P multi nch rec st.2 i) ∧
      ∀ n s c t, st.1 n s c t = true ↔ m0 n s c t = true ∧ ¬ ∃ j ∈ pre, ∃ r, P.normalize j = n ∧
        rec j = some r ∧ r.sample = s ∧ c ∈ r.channels ∧
        NearBy (E.len s) (P.length j) (P.dilation j) (shareLimit E.alpha minL) r.index t) ?_ ?_) ?_
  · exact ⟨fun _ => none, by simp, by simp⟩
  · rintro pre i post ⟨m, out⟩ hl ⟨rec, hg, hm⟩
    have hi : i ∈ ids := by rw [hl]; simp
    have hpre : ∀ j, j ∈ pre ↔ j < i ∧ P.dilation j = P.dilation i := by
      intro j
      have hdi := ((hids i).1 hi).2
      rw [hl, List.pairwise_append] at hsort
      obtain ⟨_, hs2, hs3⟩ := hsort
      rw [List.pairwise_cons] at hs2
      constructor
      · intro hj
        exact ⟨hs3 j hj i (by simp), by rw [hdi]; exact ((hids j).1 (by rw [hl]; simp [hj])).2⟩
      · rintro ⟨hj1, hj2⟩
        have : j ∈ ids := (hids j).2 ⟨lt_trans hj1 ((hids i).1 hi).1, by rw [hj2, hdi]⟩
        rw [hl, List.mem_append, List.mem_cons] at this
        rcases this with h | h | h
        · exact h
        · omega
        · have := hs2.1 j h; omega
    have hblock : ∀ s c t, s < E.ns → t < E.len s →
        (m (P.normalize i) s c t = false ↔ Taken E P rec i s c t) := by
      intro s c t hs ht
      rw [← Bool.not_eq_true, hm]
      simp only at hm ⊢
      rw [not_and, not_not]
      constructor
      · intro h
        obtain ⟨j, hj, r, h1, h2, h3, h4, h5⟩ := h (hm0 _ s c t hs ht)
        obtain ⟨h6, h7⟩ := (hpre j).1 hj
        exact ⟨j, minL, r, h6, h7, h1, h2, h3, h4, hmin i hi, h5⟩
      · rintro ⟨j, mm, r, h1, h2, h3, h4, h5, h6, h7, h8⟩ _
        rw [isMinLength_unique h7 (hmin i hi)] at h8
        exact ⟨j, (hpre j).2 ⟨h1, h2⟩, r, h3, h4, h5, h6, h8⟩
    have hfree : ∀ (ch : List Nat) s t, s < E.ns →
        t < nWin E.phase (E.len s) (P.length i) (P.dilation i) →
        (FreeEnough multi E.alpha ch (fun c => m (P.normalize i) s c t = false) ↔
          FreeEnough multi E.alpha ch fun c => Taken E P rec i s c t) := by
      intro ch s t hs ht
      exact freeEnough_congr fun c => hblock s c t hs (lt_of_lt_of_le ht (nWin_le _ _ _ _))
    have hni : i ∉ pre := fun h => by have := (hpre i).1 h; omega
    have hnei : ∀ j ∈ pre, j ≠ i := fun j hj h => hni (h ▸ hj)
    refine Wp.bind (hstep m i hi) fun res hres => ?_
    obtain ⟨ch, hch, ⟨h1, h2, h3⟩ | ⟨r, v, h1, h2, hvc, h3, h4, h5, h6, h6', h6'', h7⟩⟩ := hres
    · refine Wp.pure ⟨Function.update rec i none, ?_, ?_⟩
      · intro j hj
        rw [List.mem_append, List.mem_singleton] at hj
        rcases hj with hj | rfl
        · refine traced_congr ?_ (Function.update_of_ne (hnei j hj) _ _) (hg j hj)
          intro k hk _
          have := ((hpre j).1 hj).1
          exact Function.update_of_ne (by omega) _ _
        · refine ⟨ch, hch, Or.inl ⟨Function.update_self .., ?_, ?_⟩⟩
          · simp [h1]
          · intro s t
            rw [usable_congr (rec := rec) (fun k hk _ => Function.update_of_ne (by omega) _ _)]
            rintro ⟨ha, hb, hc⟩
            exact h3 s t ha hb ((hfree ch s t ha hb).2 hc)
      · intro n s c t
        simp only [h2]
        rw [hm]
        refine and_congr_right fun _ => not_congr ?_
        constructor
        · rintro ⟨j, hj, r, e1, e2, e3⟩
          exact ⟨j, by simp [hj], r, e1, by rw [Function.update_of_ne (hnei j hj)]; exact e2, e3⟩
        · rintro ⟨j, hj, r, e1, e2, e3⟩
          rw [List.mem_append, List.mem_singleton] at hj
          rcases hj with hj | rfl
          · exact ⟨j, hj, r, e1, by rw [Function.update_of_ne (hnei j hj)] at e2; exact e2, e3⟩
          · simp at e2
    · refine Wp.pure ⟨Function.update rec i (some r), ?_, ?_⟩
      · intro j hj
        rw [List.mem_append, List.mem_singleton] at hj
        rcases hj with hj | rfl
        · refine traced_congr ?_ (Function.update_of_ne (hnei j hj) _ _) (hg j hj)
          intro k hk _
          have := ((hpre j).1 hj).1
          exact Function.update_of_ne (by omega) _ _
        · refine ⟨ch, hch, Or.inr ⟨r, v, Function.update_self .., ?_, h2, hvc, ?_, h6, h6', h6''⟩⟩
          · simp [h1]
          · rw [usable_congr (rec := rec) (fun k hk _ => Function.update_of_ne (by omega) _ _)]
            exact ⟨h3, h4, (hfree ch _ _ h3 h4).1 h5⟩
      · intro n s c t
        simp only
        rw [h7, hm, and_assoc, ← not_or]
        refine and_congr_right fun _ => not_congr ?_
        constructor
        · rintro (⟨j, hj, r, e1, e2, e3⟩ | ⟨e1, e2, e3, e4⟩)
          · exact ⟨j, by simp [hj], r, e1, by rw [Function.update_of_ne (hnei j hj)]; exact e2, e3⟩
          · exact ⟨i, by simp, r, e1.symm, Function.update_self .., e2.symm, e3, e4⟩
        · rintro ⟨j, hj, r', e1, e2, e3⟩
          rw [List.mem_append, List.mem_singleton] at hj
          rcases hj with hj | rfl
          · exact Or.inl
              ⟨j, hj, r', e1, by rw [Function.update_of_ne (hnei j hj)] at e2; exact e2, e3⟩
          · rw [Function.update_self, Option.some.injEq] at e2
            subst e2
            exact Or.inr ⟨e1.symm, e3.1.symm, e3.2.1, e3.2.2⟩
  · rintro res ⟨rec, h, _⟩
    exact ⟨rec, h⟩

/-- **The fit loop**, with the runs of the groups.  Every execution order of the groups gives the same output
arrays, `target out` where `out` meets the specification of `fit` and is what the groups compute on their own. -/
theorem fitLoop_any {A : Type} {E : Setting K L} {multi : Bool} {nch : Nat → Nat}
    {lengths dilations : List Nat} {normalize : List Bool} (hdil : dilations.length = lengths.length)
    {step : Nat → SubMask → Nat → RM G (SubMask × Option (Out K))}
    {write : A → Nat → Option (Out K) → Res A} {target : (Nat → Option (Option (Out K))) → A}
    {shape : Nat → Option (Out K) → Prop}
    (hw : ∀ S i v, i < lengths.length → S i = none → shape i v →
      write (target S) i v = .ok (target (Function.update S i (some v))))
    (hshape : ∀ rec out i, i < lengths.length →
      Traced E (parOf lengths dilations normalize) multi nch rec out i → shape i (out i))
    {m0 : SubMask} (hm0 : ∀ n s c t, s < E.ns → t < E.len s → m0 n s c t = true)
    (hstep : ∀ minL m i, i < lengths.length → Wp (step minL m i)
      (StepTraced E (parOf lengths dilations normalize) multi nch minL m i))
    (gs : Nat → G) :
    ∃ rec out, (∀ i, i < lengths.length →
        Traced E (parOf lengths dilations normalize) multi nch rec out i) ∧
      ∀ order : List Nat, order.Perm (List.range (uniqueSorted dilations).length) →
        ∃ masks, fitLoop lengths dilations step write gs order (fun _ => m0, target fun _ => none) =
          .ok (masks, target fun i => if i < lengths.length then some (out i) else none) := by
  classical
  have : Nonempty G := ⟨gs 0⟩
  set U := uniqueSorted dilations with hU
  -- the local runs
  have hids : ∀ d i, i ∈ groupIds dilations d ↔
      i < (parOf lengths dilations normalize).n ∧
        (parOf lengths dilations normalize).dilation i = d := by
    intro d i
    rw [mem_groupIds]
    simp only [parOf]
    constructor
    · intro h
      have hi : i < dilations.length := by
        by_contra hc; rw [List.getElem?_eq_none (by omega)] at h; cases h
      refine ⟨by omega, ?_⟩
      rw [getD_lt _ hi]
      rw [List.getElem?_eq_getElem hi] at h
      exact Option.some.inj h
    · rintro ⟨h1, h2⟩
      rw [getD_lt _ (by omega)] at h2
      rw [List.getElem?_eq_getElem (by omega), h2]
  have hprep : ∀ iD, iD < U.length → ∃ minL,
      ((groupIds dilations (U.getD iD 0)).mapM fun i => aget lengths i) =
        (.ok ((groupIds dilations (U.getD iD 0)).map fun i => lengths.getD i 0) : Res _) ∧
      nmin ((groupIds dilations (U.getD iD 0)).map fun i => lengths.getD i 0) = .ok minL ∧
      ∀ i ∈ groupIds dilations (U.getD iD 0),
        IsMinLength (parOf lengths dilations normalize) i minL := by
    intro iD hiD
    have hne : groupIds dilations (U.getD iD 0) ≠ [] := by
      have : U.getD iD 0 ∈ dilations := by
        rw [← mem_uniqueSorted, ← hU, getD_lt _ hiD]; exact List.getElem_mem _
      obtain ⟨k, hk⟩ := List.mem_iff_getElem?.1 this
      exact List.ne_nil_of_mem (mem_groupIds.2 hk)
    obtain ⟨minL, e, h1, h2⟩ := nmin_ok
      (a := (groupIds dilations (U.getD iD 0)).map fun i => lengths.getD i 0) (by simpa using hne)
    refine ⟨minL, ?_, e, ?_⟩
    · refine mapM_ok ?_
      intro i hi
      exact aget_getD 0 ((hids _ i).1 hi).1
    · intro i hi
      obtain ⟨hi1, hi2⟩ := (hids _ i).1 hi
      refine ⟨?_, ?_⟩
      · obtain ⟨j, hj, rfl⟩ := List.mem_map.1 h1
        obtain ⟨hj1, hj2⟩ := (hids _ j).1 hj
        exact ⟨j, hj1, by rw [hj2, hi2], rfl⟩
      · intro j hj1 hj2
        exact h2 _ (List.mem_map.2 ⟨j, (hids _ j).2 ⟨hj1, by rw [hj2, hi2]⟩, rfl⟩)
  choose! minL hmin1 hmin2 hmin3 using hprep
  have hlocal : ∀ iD, iD < U.length → ∃ m' out rec g',
      localRun (step (minL iD)) (groupIds dilations (U.getD iD 0)) (m0, fun _ => none) (gs iD) =
        .ok ((m', out), g') ∧
      ∀ i ∈ groupIds dilations (U.getD iD 0),
        Traced E (parOf lengths dilations normalize) multi nch rec out i := by
    intro iD hiD
    obtain ⟨⟨m', out⟩, g', h1, rec, h2⟩ := localRun_any (E := E)
      (P := parOf lengths dilations normalize) (multi := multi) (nch := nch)
      (step := step (minL iD)) (minL := minL iD) (m0 := m0)
      (hids (U.getD iD 0)) (groupIds_sorted _ _) (hmin3 iD hiD) hm0
      (fun m i hi => hstep _ m i ((hids _ i).1 hi).1) (gs iD)
    exact ⟨m', out, rec, g', h1, h2⟩
  choose! lm lout lrec lg hl1 hl2 using hlocal
  -- the group of a shapelet
  have hgrp : ∀ i, i < lengths.length → ∃ iD, iD < U.length ∧ i ∈ groupIds dilations (U.getD iD 0) := by
    intro i hi
    have hi' : i < dilations.length := by omega
    have : dilations[i] ∈ U := mem_uniqueSorted.2 (List.getElem_mem hi')
    obtain ⟨iD, h1, h2⟩ := List.mem_iff_getElem.1 this
    refine ⟨iD, h1, mem_groupIds.2 ?_⟩
    rw [getD_lt _ h1, h2, List.getElem?_eq_getElem hi']
  choose! grp hgrp1 hgrp2 using hgrp
  have hgu : ∀ i iD, iD < U.length → i ∈ groupIds dilations (U.getD iD 0) → iD = grp i := by
    intro i iD h1 h2
    have hi : i < lengths.length := ((hids _ i).1 h2).1
    have e1 := ((hids _ i).1 h2).2
    have e2 := ((hids _ i).1 (hgrp2 i hi)).2
    rw [getD_lt _ h1] at e1
    rw [getD_lt _ (hgrp1 i hi)] at e2
    exact (List.Nodup.getElem_inj_iff (uniqueSorted_nodup dilations)).1 (e1.symm.trans e2)
  refine ⟨fun i => lrec (grp i) i, fun i => lout (grp i) i, ?_, ?_⟩
  · intro i hi
    refine traced_congr (rec := lrec (grp i)) (out := lout (grp i)) ?_ rfl
      (hl2 _ (hgrp1 i hi) i (hgrp2 i hi))
    intro j hj hd
    have hj' : j ∈ groupIds dilations (U.getD (grp i) 0) :=
      (hids _ j).2 ⟨by show j < lengths.length; omega, by
        rw [hd]; exact ((hids _ i).1 (hgrp2 i hi)).2⟩
    rw [← hgu j (grp i) (hgrp1 i hi) hj']
  · intro order hord
    have hfg : ∀ (masks : Nat → SubMask) S iD, iD < U.length → masks iD = m0 →
        (∀ i ∈ groupIds dilations (U.getD iD 0), S i = none) →
        fitGroup lengths dilations step write (masks, target S) iD (gs iD) =
          .ok ((Function.update masks iD (lm iD), target fun i =>
            if i ∈ groupIds dilations (U.getD iD 0) then some (lout iD i) else S i), lg iD) := by
      intro masks S iD hiD hmk hS
      unfold fitGroup
      rw [RM.bind_apply, ← hU]
      simp only [aget_getD 0 hiD, ofRes, Res.bind_ok]
      rw [RM.bind_apply]
      simp only [hmin1 iD hiD, ofRes, Res.bind_ok]
      rw [RM.bind_apply]
      simp only [hmin2 iD hiD, ofRes, Res.bind_ok]
      exact groupRun_eq hw (groupIds_sorted _ _ |>.imp (fun h => ne_of_lt h))
        (fun i hi => ((hids _ i).1 hi).1) iD (hl1 iD hiD)
        (fun i hi => hshape _ _ i ((hids _ i).1 hi).1 (hl2 iD hiD i hi)) hmk hS
    have hmemo : ∀ iD, iD ∈ order ↔ iD < U.length := by
      intro iD; rw [hord.mem_iff, List.mem_range]
    have hndo : order.Nodup := hord.nodup_iff.2 List.nodup_range
    obtain ⟨⟨masks, arr⟩, h1, h2, h3⟩ := foldlM_inv (l := order)
      (s := ((fun _ => m0 : Nat → SubMask), target fun _ => none))
      (f := fun st iD => do
        let r ← fitGroup lengths dilations step write st iD (gs iD)
        pure r.1)
      (P := fun pre st => (∀ iD, iD ∉ pre → st.1 iD = m0) ∧
        st.2 = target fun i => if i < lengths.length ∧ grp i ∈ pre then some (lout (grp i) i) else none)
      (by simp) (by
        rintro pre iD post ⟨masks, arr⟩ hl ⟨hp1, hp2⟩
        simp only at hp1 hp2
        have hiD : iD < U.length := (hmemo iD).1 (by rw [hl]; simp)
        have hnp : iD ∉ pre := by
          rw [hl] at hndo
          intro h
          exact (List.disjoint_of_nodup_append hndo) h (by simp)
        have := hfg masks (fun i => if i < lengths.length ∧ grp i ∈ pre then
            some (lout (grp i) i) else none) iD hiD (hp1 iD hnp) (by
          intro i hi
          rw [if_neg]
          rintro ⟨_, h⟩
          rw [← hgu i iD hiD hi] at h
          exact hnp h)
        rw [← hp2] at this
        rw [this]
        refine ⟨_, rfl, ?_, ?_⟩
        · intro k hk
          rw [List.mem_append, List.mem_singleton, not_or] at hk
          simp only
          rw [Function.update_of_ne hk.2]
          exact hp1 k hk.1
        · simp only
          congr 1
          funext i
          by_cases hi : i ∈ groupIds dilations (U.getD iD 0)
          · have hil : i < lengths.length := ((hids _ i).1 hi).1
            have hg := hgu i iD hiD hi
            rw [if_pos hi, if_pos ⟨hil, by simp [hg]⟩, hg]
          · rw [if_neg hi]
            by_cases hil : i < lengths.length
            · have hne : grp i ≠ iD := by
                rintro rfl
                exact hi (hgrp2 i hil)
              simp [hil, hne]
            · simp [hil])
    refine ⟨masks, ?_⟩
    unfold fitLoop
    rw [h1]
    simp only at h3
    rw [h3]
    congr 3
    funext i
    by_cases hi : i < lengths.length
    · rw [if_pos ⟨hi, (hmemo _).2 (hgrp1 i hi)⟩, if_pos hi]
    · simp [hi]

end

variable {G K L : Type} [Gen G K] [Scalar K] [DecidableEq L]

theorem primeDilation_prime {n : Nat} (h : DrawSafe G K n) {q N : Nat} (hq : 1 ≤ q) (hqn : q < n)
    (hN : 1 ≤ N) :
    Wp (G := G) (drawPrimeDilation (primeUpTo N) (some (Scalar.log2 (Scalar.ofNat q) : K))) fun d =>
      d = 1 ∨ d.Prime := by
  unfold drawPrimeDilation
  obtain ⟨hp1, hp2⟩ := h.pow q hq hqn
  generalize powInt (some (Scalar.log2 (Scalar.ofNat q) : K)) = B at hp1 hp2
  have hmem : ∀ p, p ∈ (primeUpTo N).filter (fun p => decide (p ≤ B)) ↔
      (p ≤ N ∧ isPrime p = true) ∧ p ≤ B := by
    intro p
    rw [List.mem_filter, decide_eq_true_iff]
    unfold primeUpTo
    rw [mem_whereIdx]
    constructor
    · rintro ⟨⟨h1, h2⟩, h3⟩; exact ⟨⟨by omega, h2⟩, h3⟩
    · rintro ⟨⟨h1, h2⟩, h3⟩; exact ⟨⟨by omega, h2⟩, h3⟩
  have h1 := (hmem 1).2 ⟨⟨hN, by rw [Props.C28_is_prime]; exact Or.inr rfl⟩, hp1⟩
  simp only
  generalize (primeUpTo N).filter (fun p => decide (p ≤ B)) = shp at hmem h1
  refine Wp.bind (choiceLog_safe h (List.length_pos_iff.2 (List.ne_nil_of_mem h1))) fun r hr => ?_
  obtain ⟨hr1, hr2⟩ := hr
  refine Wp.bindRes (aget_ok (by omega)) ?_
  have hlt := hr2 _ (List.getElem_mem (by omega : 0 < r.length))
  refine Wp.ofRes (aget_ok hlt) ?_
  obtain ⟨⟨-, h2⟩, h3⟩ := (hmem _).1 (List.getElem_mem hlt)
  rw [Props.C28_is_prime] at h2
  exact h2.symm

theorem drawDilations_prime {n : Nat} (h : DrawSafe G K n) {lengths : List Nat}
    (hne : lengths ≠ []) (hl : ∀ l ∈ lengths, 2 ≤ l ∧ l ≤ n) :
    Wp (G := G) (drawDilations n lengths true) fun ds => ∀ d ∈ ds, d = 1 ∨ d.Prime := by
  unfold drawDilations
  simp only [if_true]
  obtain ⟨l0, ls, rfl⟩ := List.exists_cons_of_ne_nil hne
  obtain ⟨mx, e, hm⟩ := maxBound_mem (b := (upperBound n l0 : Option K)) (l := ls.map (upperBound n))
  refine Wp.bindRes e ?_
  rw [← List.map_cons] at hm
  obtain ⟨l1, hl1, rfl⟩ := List.mem_map.1 hm
  have hN : 1 ≤ powInt (upperBound n l1 : Option K) := by
    obtain ⟨h1, h2⟩ := hl l1 hl1
    rw [upperBound_some h1 h2]
    exact (h.pow _ (dilBound_pos h1 h2) (dilBound_lt h1 h2)).1
  rw [List.mapM_map]
  refine Wp.mono (Wp.mapM (R := fun _ d => d = 1 ∨ d.Prime) fun l hll => ?_) ?_
  · obtain ⟨h1, h2⟩ := hl l hll
    simp only [Function.comp_apply]
    rw [upperBound_some h1 h2]
    exact primeDilation_prime h (dilBound_pos h1 h2) (dilBound_lt h1 h2) hN
  · intro ds hds d hd
    obtain ⟨i, hi, rfl⟩ := List.mem_iff_getElem.1 hd
    have := (List.forall₂_iff_get.1 hds).2 i (by rw [hds.length_eq]; exact hi) hi
    simpa using this

theorem units_flags (nShp : Nat) (p : K) : Wp (G := G) ((List.range nShp).mapM fun _ => unitM) fun us =>
    ∀ i, i < nShp → ∃ u, Drawable G u ∧ (us.map fun u => Scalar.ltb u p).getD i false = Scalar.ltb u p := by
  refine Wp.mono (Wp.mapM (R := fun _ (u : K) => Drawable G u) fun _ _ g => ⟨_, _, rfl, g, rfl⟩) ?_
  intro us hus i hi
  have hl : us.length = nShp := by simpa using hus.length_eq.symm
  have := (List.forall₂_iff_get.1 hus).2 i (by simpa using hi) (by omega)
  refine ⟨_, this, ?_⟩
  rw [getD_lt _ (by simpa using by omega)]
  simp

theorem Wp.and {α : Type} {m : RM G α} {P Q : α → Prop} (h1 : Wp m P) (h2 : Wp m Q) :
    Wp m fun a => P a ∧ Q a := by
  intro g
  obtain ⟨a, g', e, h⟩ := h1 g
  obtain ⟨a', g'', e', h'⟩ := h2 g
  rw [e] at e'
  cases e'
  exact ⟨a, g', e, h, h'⟩

variable [LawfulInt G]

theorem uInit_flags {n : Nat} (h : DrawSafe G K n) {nShp : Nat} {sizes : List Nat} (pNorm : K) (prime : Bool)
    (hn : 1 ≤ nShp) (hne : sizes ≠ []) (hs : ∀ l ∈ sizes, 2 ≤ l ∧ l ≤ n) :
    Wp (G := G) (uInit nShp sizes n pNorm prime) fun P =>
      (prime = true → ∀ d ∈ P.dilations, d = 1 ∨ d.Prime) ∧
      ∀ i, i < nShp → ∃ u, Drawable G u ∧ P.normalize.getD i false = Scalar.ltb u pNorm := by
  unfold uInit
  refine Wp.bind (wp_choiceN hne nShp) fun lengths hlen => ?_
  have hln : lengths ≠ [] := by rw [← List.length_pos_iff]; omega
  have hlb : ∀ l ∈ lengths, 2 ≤ l ∧ l ≤ n := fun l hl => hs l (hlen.2 l hl)
  have hd : Wp (G := G) (drawDilations (K := K) n lengths prime)
      fun ds => prime = true → ∀ d ∈ ds, d = 1 ∨ d.Prime := by
    cases prime with
    | true => exact Wp.mono (drawDilations_prime h hln hlb) fun ds hds _ => hds
    | false => exact Wp.mono (drawDilations_safe h false hln hlb) fun ds _ hc => by cases hc
  refine Wp.bind hd fun dils hdil => ?_
  obtain ⟨mx, e, h1, h2⟩ := nmax_ok hne
  refine Wp.bindRes e ?_
  refine Wp.bind (units_flags nShp pNorm) fun us hus => ?_
  exact Wp.pure ⟨hdil, hus⟩

theorem mInit_flags {n : Nat} (h : DrawSafe G K n) {nShp : Nat} {sizes : List Nat} (pNorm : K) (prime : Bool)
    {mc : Nat} (hn : 1 ≤ nShp) (hne : sizes ≠ []) (hs : ∀ l ∈ sizes, 2 ≤ l ∧ l ≤ n) (hmc : 1 ≤ mc) :
    Wp (G := G) (mInit nShp sizes n pNorm mc prime) fun P =>
      (prime = true → ∀ d ∈ P.dilations, d = 1 ∨ d.Prime) ∧
      ∀ i, i < nShp → ∃ u, Drawable G u ∧ P.normalize.getD i false = Scalar.ltb u pNorm := by
  unfold mInit
  refine Wp.bind (wp_choiceN hne nShp) fun lengths hlen => ?_
  have hln : lengths ≠ [] := by rw [← List.length_pos_iff]; omega
  have hlb : ∀ l ∈ lengths, 2 ≤ l ∧ l ≤ n := fun l hl => hs l (hlen.2 l hl)
  have hd : Wp (G := G) (drawDilations (K := K) n lengths prime)
      fun ds => prime = true → ∀ d ∈ ds, d = 1 ∨ d.Prime := by
    cases prime with
    | true => exact Wp.mono (drawDilations_prime h hln hlb) fun ds hds _ => hds
    | false => exact Wp.mono (drawDilations_safe h false hln hlb) fun ds _ hc => by cases hc
  refine Wp.bind hd fun dils hdil => ?_
  refine Wp.bind (wp_choiceN (a := List.range mc) (by simp; omega) nShp) fun ch hch => ?_
  refine Wp.bind (units_flags nShp pNorm) fun us hus => ?_
  exact Wp.pure ⟨hdil, hus⟩

theorem parTraced_of {E : Setting K L} {nShp : Nat} {sizes : List Nat} {n : Nat} {lengths dilations : List Nat}
    {normalize : List Bool} (hI : InitSafe nShp sizes n lengths dilations normalize) (e1 : E.nShp = nShp)
    (e2 : E.sizes = sizes) (e3 : E.n = n) (e4 : E.draw = Drawable G)
    (hp : E.prime = true → ∀ d ∈ dilations, d = 1 ∨ d.Prime)
    (hf : ∀ i, i < nShp → ∃ u : K, Drawable G u ∧ normalize.getD i false = Scalar.ltb u E.pNorm) :
    ParTraced E (parOf lengths dilations normalize) where
  count := by rw [e1]; exact hI.len
  length i hi := by
    have hi' : i < lengths.length := hi
    rw [e2]
    show lengths.getD i 0 ∈ sizes
    rw [getD_lt _ hi']; exact hI.mem _ (List.getElem_mem hi')
  dilation i hi := by
    rw [e3]
    exact hI.dil i (hI.len ▸ hi)
  prime h i hi := by
    have hi' : i < dilations.length := by rw [hI.dlen, ← hI.len]; exact hi
    have := hp h _ (List.getElem_mem hi')
    show dilations.getD i 0 = 1 ∨ (dilations.getD i 0).Prime
    rwa [getD_lt _ hi']
  flag i hi := by
    rw [e4]
    exact hf i (hI.len ▸ hi)

theorem uslGenerate_any (heq : ∀ x : K, Scalar.eqb x 0 = true ↔ x = 0) {a : FitArgs K L} (hv : SafeSL a)
    (hD : DrawSafe G K a.nt) (hp0 : PercSafe a.pMin) (hp1 : PercSafe a.pMax) (g0 : G) (gs : Nat → G) :
    ∃ S P rec out kept, UTraced (settingSL G a) P rec out kept S ∧
      ∀ order, IsSchedule order → uslGenerate a g0 gs order = .ok S := by
  obtain ⟨P, g', hP, ⟨hI, hthr, mx, hmx, hval⟩, hprime, hflag⟩ :=
    (uInit_safe hD a.pNorm a.prime hv.nShp hv.sizes hv.bounds).and (uInit_flags hD a.pNorm a.prime hv.nShp hv.sizes hv.bounds) g0
  have hpok := parOK_of_safe hv.bounds hI
  have hmx' : ∀ l ∈ P.lengths, l ≤ mx := fun l hl => hmx l (hI.mem l hl)
  have h0 : (P.values, P.threshold) = uTarget P.lengths mx fun _ => none := by
    rw [hval, hthr]
    unfold uTarget
    simp [uRowOf, thrOf, List.map_const', hI.len]
  obtain ⟨rec, out, hgood, hrun⟩ := fitLoop_any (E := settingSL G a) (multi := false) (nch := fun _ => 1) (normalize := P.normalize) hpok.dil
    (write := uWrite P.lengths) (target := uTarget P.lengths mx)
    (shape := fun i v => ∀ o, v = some o → o.values.length = P.lengths.getD i 0)
    (fun S i v hi hS hvv => uWrite_ok hmx' S i v hi hS hvv)
    (fun rec out i _ h o ho => by simpa [parOf] using (traced_size h ho).1)
    (m0 := fun _ _ _ _ => true) (fun _ _ _ _ _ _ => rfl)
    (step := uslStep a P.lengths P.dilations P.normalize)
    (fun minL m i hi => uslStep_any hv.data hv.nf hp0 hp1 hpok hi _ minL m) gs
  obtain ⟨kept, hfrom, hwf⟩ := uFinish_from heq hmx' hpok.dil hpok.norm (out := out)
    (fun i v hi hvv => by simpa [parOf] using (traced_size (hgood i hi) hvv).1) hpok.pos
  refine ⟨_, _, rec, out, kept, ⟨parTraced_of hI rfl rfl rfl rfl hprime hflag, hgood, hfrom⟩, ?_⟩
  intro order ho
  obtain ⟨masks, hm⟩ := hrun (order (uniqueSorted P.dilations).length) (ho _)
  unfold uslGenerate
  rw [hP, Res.bind_ok]
  simp only
  rw [h0, hm, Res.bind_ok]
  rfl

theorem uvlGenerate_any (heq : ∀ x : K, Scalar.eqb x 0 = true ↔ x = 0) {a : FitArgs K L} {minLen : Nat}
    {xLen : List Nat} (hv : SafeVL a minLen xLen)
    (hD : DrawSafe G K minLen) (hp0 : PercSafe a.pMin) (hp1 : PercSafe a.pMax) (g0 : G) (gs : Nat → G) :
    ∃ S P rec out kept, UTraced (settingVL G a minLen xLen) P rec out kept S ∧
      ∀ order, IsSchedule order → uvlGenerate a minLen xLen g0 gs order = .ok S := by
  obtain ⟨P, g', hP, ⟨hI, hthr, mx, hmx, hval⟩, hprime, hflag⟩ :=
    (uInit_safe hD a.pNorm a.prime hv.nShp hv.sizes hv.bounds).and (uInit_flags hD a.pNorm a.prime hv.nShp hv.sizes hv.bounds) g0
  obtain ⟨maxLen, hM1, hM2⟩ := maxLen_ok hv.data hv.ne
  obtain ⟨lens, hlens⟩ := lens_read hv.data
  have hpok := parOK_of_safe hv.bounds hI
  have hmx' : ∀ l ∈ P.lengths, l ≤ mx := fun l hl => hmx l (hI.mem l hl)
  have h0 : (P.values, P.threshold) = uTarget P.lengths mx fun _ => none := by
    rw [hval, hthr]
    unfold uTarget
    simp [uRowOf, thrOf, List.map_const', hI.len]
  obtain ⟨rec, out, hgood, hrun⟩ := fitLoop_any (E := settingVL G a minLen xLen) (multi := false) (nch := fun _ => 1) (normalize := P.normalize) hpok.dil
    (write := uWrite P.lengths) (target := uTarget P.lengths mx)
    (shape := fun i v => ∀ o, v = some o → o.values.length = P.lengths.getD i 0)
    (fun S i v hi hS hvv => uWrite_ok hmx' S i v hi hS hvv)
    (fun rec out i _ h o ho => by simpa [parOf] using (traced_size h ho).1)
    (m0 := fun _ s _ t => decide (t < xLen.getD s 0)) (fun _ _ _ _ _ ht => decide_eq_true ht)
    (step := uvlStep a xLen maxLen P.lengths P.dilations P.normalize)
    (fun minL m i hi => uvlStep_any hv.data hv.nf hp0 hp1 hpok hi hM2 _ minL m) gs
  obtain ⟨kept, hfrom, hwf⟩ := uFinish_from heq hmx' hpok.dil hpok.norm (out := out)
    (fun i v hi hvv => by simpa [parOf] using (traced_size (hgood i hi) hvv).1) hpok.pos
  refine ⟨_, _, rec, out, kept, ⟨parTraced_of hI rfl rfl rfl rfl hprime hflag, hgood, hfrom⟩, ?_⟩
  intro order ho
  obtain ⟨masks, hm⟩ := hrun (order (uniqueSorted P.dilations).length) (ho _)
  unfold uvlGenerate
  rw [hM1, Res.bind_ok, hP, Res.bind_ok]
  simp only
  rw [hlens, Res.bind_ok, h0, hm, Res.bind_ok]
  rfl

theorem mslGenerate_any {a : FitArgs K L} (hv : SafeSL a) {mc : Nat} (hmc : 1 ≤ mc) (hmcf : mc ≤ a.nf)
    (hD : DrawSafe G K a.nt) (hp0 : PercSafe a.pMin) (hp1 : PercSafe a.pMax) (g0 : G) (gs : Nat → G) :
    ∃ S P nch rec out kept, MTraced (settingSL G a) mc P nch rec out kept S ∧
      ∀ order, IsSchedule order → mslGenerate a mc g0 gs order = .ok S := by
  obtain ⟨P, g', hP, ⟨hI, hthr, hncl, hnc, hch, hval⟩, hprime, hflag⟩ :=
    (mInit_safe hD a.pNorm a.prime hv.nShp hv.sizes hv.bounds hmc).and (mInit_flags hD a.pNorm a.prime hv.nShp hv.sizes hv.bounds hmc) g0
  have hpok := parOK_of_safe hv.bounds hI
  have hncl' : P.nChannels.length = P.lengths.length := by rw [hncl, hI.len]
  have h0 := mArr0_eq hI.len hncl hthr hch hval
  obtain ⟨rec, out, hgood, hrun⟩ := fitLoop_any (E := settingSL G a) (multi := true) (nch := fun i => P.nChannels.getD i 0) (normalize := P.normalize) hpok.dil
    (write := mWrite (offValues P.nChannels P.lengths) (offChannels P.nChannels))
    (target := mTarget P.lengths P.nChannels)
    (shape := fun i v => ∀ o, v = some o →
      o.values.length = P.nChannels.getD i 0 * P.lengths.getD i 0 ∧
      o.channels.length = P.nChannels.getD i 0)
    (fun S i v hi hS hvv => mWrite_ok hncl' S i v hi hS hvv)
    (fun rec out i _ h o ho => ⟨(traced_size h ho).1, ((traced_size h ho).2 rfl).1⟩)
    (m0 := fun _ _ _ _ => true) (fun _ _ _ _ _ _ => rfl)
    (step := mslStep a P.lengths P.dilations P.normalize P.nChannels)
    (fun minL m i hi => mslStep_any hv.data hp0 hp1 hpok hi hncl'
      (fun c hc => (hnc c hc).2.trans hmcf) minL m) gs
  obtain ⟨S, kept, hfin, hfrom, hwf⟩ := mFinish_from hpok.dil hpok.norm hncl' (out := out) (nf := a.nf)
    (fun i v hi hvv => ⟨(traced_size (hgood i hi) hvv).1, (traced_size (hgood i hi) hvv).2 rfl⟩) hpok.pos
  refine ⟨S, _, _, rec, out, kept, ⟨parTraced_of hI rfl rfl rfl rfl hprime hflag, fun i hi => ?_, hgood, hfrom⟩, ?_⟩
  · have hi' : i < P.nChannels.length := by rw [hncl']; exact hi
    show 1 ≤ P.nChannels.getD i 0 ∧ P.nChannels.getD i 0 ≤ mc
    rw [getD_lt _ hi']
    exact hnc _ (List.getElem_mem hi')
  intro order ho
  obtain ⟨masks, hm⟩ := hrun (order (uniqueSorted P.dilations).length) (ho _)
  unfold mslGenerate
  rw [hP, Res.bind_ok]
  simp only
  rw [h0, hm, Res.bind_ok]
  exact hfin

theorem mvlGenerate_any {a : FitArgs K L} {minLen : Nat} {xLen : List Nat} (hv : SafeVL a minLen xLen)
    {mc : Nat} (hmc : 1 ≤ mc) (hmcf : mc ≤ a.nf)
    (hD : DrawSafe G K minLen) (hp0 : PercSafe a.pMin) (hp1 : PercSafe a.pMax) (g0 : G) (gs : Nat → G) :
    ∃ S P nch rec out kept, MTraced (settingVL G a minLen xLen) mc P nch rec out kept S ∧
      ∀ order, IsSchedule order → mvlGenerate a mc minLen xLen g0 gs order = .ok S := by
  obtain ⟨P, g', hP, ⟨hI, hthr, hncl, hnc, hch, hval⟩, hprime, hflag⟩ :=
    (mInit_safe hD a.pNorm a.prime hv.nShp hv.sizes hv.bounds hmc).and (mInit_flags hD a.pNorm a.prime hv.nShp hv.sizes hv.bounds hmc) g0
  obtain ⟨maxLen, hM1, hM2⟩ := maxLen_ok hv.data hv.ne
  obtain ⟨lens, hlens⟩ := lens_read hv.data
  have hpok := parOK_of_safe hv.bounds hI
  have hncl' : P.nChannels.length = P.lengths.length := by rw [hncl, hI.len]
  have h0 := mArr0_eq hI.len hncl hthr hch hval
  obtain ⟨rec, out, hgood, hrun⟩ := fitLoop_any (E := settingVL G a minLen xLen) (multi := true) (nch := fun i => P.nChannels.getD i 0) (normalize := P.normalize) hpok.dil
    (write := mWrite (offValues P.nChannels P.lengths) (offChannels P.nChannels))
    (target := mTarget P.lengths P.nChannels)
    (shape := fun i v => ∀ o, v = some o →
      o.values.length = P.nChannels.getD i 0 * P.lengths.getD i 0 ∧
      o.channels.length = P.nChannels.getD i 0)
    (fun S i v hi hS hvv => mWrite_ok hncl' S i v hi hS hvv)
    (fun rec out i _ h o ho => ⟨(traced_size h ho).1, ((traced_size h ho).2 rfl).1⟩)
    (m0 := fun _ s _ t => decide (t < xLen.getD s 0)) (fun _ _ _ _ _ ht => decide_eq_true ht)
    (step := mvlStep a xLen maxLen P.lengths P.dilations P.normalize P.nChannels)
    (fun minL m i hi => mvlStep_any hv.data hp0 hp1 hpok hi hncl'
      (fun c hc => (hnc c hc).2.trans hmcf) hM2 minL m) gs
  obtain ⟨S, kept, hfin, hfrom, hwf⟩ := mFinish_from hpok.dil hpok.norm hncl' (out := out) (nf := a.nf)
    (fun i v hi hvv => ⟨(traced_size (hgood i hi) hvv).1, (traced_size (hgood i hi) hvv).2 rfl⟩) hpok.pos
  refine ⟨S, _, _, rec, out, kept, ⟨parTraced_of hI rfl rfl rfl rfl hprime hflag, fun i hi => ?_, hgood, hfrom⟩, ?_⟩
  · have hi' : i < P.nChannels.length := by rw [hncl']; exact hi
    show 1 ≤ P.nChannels.getD i 0 ∧ P.nChannels.getD i 0 ≤ mc
    rw [getD_lt _ hi']
    exact hnc _ (List.getElem_mem hi')
  intro order ho
  obtain ⟨masks, hm⟩ := hrun (order (uniqueSorted P.dilations).length) (ho _)
  unfold mvlGenerate
  rw [hM1, Res.bind_ok, hP, Res.bind_ok]
  simp only
  rw [hlens, Res.bind_ok, h0, hm, Res.bind_ok]
  exact hfin

end Convst
