import Verif.Spec.MemoryFit
import Verif.Proofs.FitSafeAll

/-! # The fit loop executed by workers that pass their generator from one iteration to the next -/

set_option autoImplicit false
set_option linter.unusedSectionVars false

namespace Convst
open Spec

variable {G K L : Type}

theorem mem_group {lengths dilations : List Nat} (hdil : dilations.length = lengths.length) (d i : Nat) :
    i ∈ groupIds dilations d ↔ i < lengths.length ∧ dilations.getD i 0 = d := by
  rw [mem_groupIds]
  constructor
  · intro h
    have hi : i < dilations.length := by
      by_contra hc; rw [List.getElem?_eq_none (by omega)] at h; cases h
    refine ⟨by omega, ?_⟩
    rw [getD_lt _ hi]
    rw [List.getElem?_eq_getElem hi] at h
    exact Option.some.inj h
  · rintro ⟨h1, h2⟩
    rw [getD_lt _ (by omega)] at h2
    rw [List.getElem?_eq_getElem (by omega), h2]

theorem group_unique {lengths dilations : List Nat} (hdil : dilations.length = lengths.length) {i iD iD' : Nat}
    (h1 : iD < (uniqueSorted dilations).length) (h2 : iD' < (uniqueSorted dilations).length)
    (h3 : i ∈ groupIds dilations ((uniqueSorted dilations).getD iD 0))
    (h4 : i ∈ groupIds dilations ((uniqueSorted dilations).getD iD' 0)) : iD = iD' := by
  have e1 := ((mem_group hdil _ i).1 h3).2
  have e2 := ((mem_group hdil _ i).1 h4).2
  rw [getD_lt _ h1] at e1
  rw [getD_lt _ h2] at e2
  exact (List.Nodup.getElem_inj_iff (uniqueSorted_nodup dilations)).1 (e1.symm.trans e2)

section
variable {A : Type} {Q : Nat → Out K → Prop} {lengths dilations : List Nat}
  {step : Nat → SubMask → Nat → RM G (SubMask × Option (Out K))} {write : A → Nat → Option (Out K) → Res A}
  {target : (Nat → Option (Option (Out K))) → A} {shape : Nat → Option (Out K) → Prop} {m0 : SubMask}

/-- One iteration succeeds from any state of the generator, and changes its own part of the state only. -/
theorem fitGroup_safe (hdil : dilations.length = lengths.length)
    (hw : ∀ S i v, i < lengths.length → S i = none → shape i v →
      write (target S) i v = .ok (target (Function.update S i (some v))))
    (hshape : ∀ i o, i < lengths.length → (∀ v, o = some v → Q i v) → shape i o)
    (hstep : ∀ minL m i, i < lengths.length → Wp (step minL m i) fun r => ∀ v, r.2 = some v → Q i v)
    {iD : Nat} (hiD : iD < (uniqueSorted dilations).length) (g : G) :
    ∃ g', ∀ (masks : Nat → SubMask) (S : Nat → Option (Option (Out K))), masks iD = m0 →
      (∀ i ∈ groupIds dilations ((uniqueSorted dilations).getD iD 0), S i = none) →
      ∃ m' S', fitGroup lengths dilations step write (masks, target S) iD g =
        .ok ((Function.update masks iD m', target S'), g') ∧
      ∀ i, i ∉ groupIds dilations ((uniqueSorted dilations).getD iD 0) → S' i = S i := by
  set U := uniqueSorted dilations with hU
  have hne : groupIds dilations (U.getD iD 0) ≠ [] := by
    have : U.getD iD 0 ∈ dilations := by
      rw [← mem_uniqueSorted, ← hU, getD_lt _ hiD]; exact List.getElem_mem _
    obtain ⟨k, hk⟩ := List.mem_iff_getElem?.1 this
    exact List.ne_nil_of_mem (mem_groupIds.2 hk)
  obtain ⟨minL, e, h1, h2⟩ := nmin_ok
    (a := (groupIds dilations (U.getD iD 0)).map fun i => lengths.getD i 0) (by simpa using hne)
  have e' : ((groupIds dilations (U.getD iD 0)).mapM fun i => aget lengths i) =
      (.ok ((groupIds dilations (U.getD iD 0)).map fun i => lengths.getD i 0) : Res _) :=
    mapM_ok fun i hi => aget_getD 0 ((mem_group hdil _ i).1 hi).1
  obtain ⟨⟨m', out⟩, g', hl1, hl2⟩ := localRun_safe (Q := Q) (step := step minL) (m0 := m0)
    (ids := groupIds dilations (U.getD iD 0))
    (fun m i hi => hstep _ m i ((mem_group hdil _ i).1 hi).1) g
  classical
  refine ⟨g', fun masks S hmk hS => ⟨m', fun i => if i ∈ groupIds dilations (U.getD iD 0) then some (out i) else S i,
    ?_, fun i hi => ?_⟩⟩
  · unfold fitGroup
    rw [RM.bind_apply, ← hU]
    simp only [aget_getD 0 hiD, ofRes, Res.bind_ok]
    rw [RM.bind_apply]
    simp only [e', ofRes, Res.bind_ok]
    rw [RM.bind_apply]
    simp only [e, ofRes, Res.bind_ok]
    have := groupRun_eq hw (groupIds_sorted _ _ |>.imp (fun h => ne_of_lt h))
      (fun i hi => ((mem_group hdil _ i).1 hi).1) iD hl1
      (fun i hi => hshape i _ ((mem_group hdil _ i).1 hi).1 (hl2 i)) hmk hS
    convert this
  · exact if_neg hi

theorem fitLoop_congr {gs gs' : Nat → G} {l : List Nat} (h : ∀ i ∈ l, gs i = gs' i) (st : FitState A) :
    fitLoop lengths dilations step write gs l st = fitLoop lengths dilations step write gs' l st := by
  induction l generalizing st with
  | nil => rfl
  | cons i l ih =>
    unfold fitLoop at ih ⊢
    rw [List.foldlM_cons, List.foldlM_cons, h i (by simp)]
    congr 1
    funext st'
    exact ih (fun i hi => h i (by simp [hi])) st'

theorem fitLoop_append {gs : Nat → G} {l l' : List Nat} (st : FitState A) :
    fitLoop lengths dilations step write gs (l ++ l') st =
      (fitLoop lengths dilations step write gs l st >>= fitLoop lengths dilations step write gs l') := by
  unfold fitLoop
  rw [List.foldlM_append]

/-- Iteration `iD` with the generator in state `g` leaves it in state `g'`, whatever the iterations before it stored. -/
def GroupNext (lengths dilations : List Nat) (step : Nat → SubMask → Nat → RM G (SubMask × Option (Out K)))
    (write : A → Nat → Option (Out K) → Res A) (target : (Nat → Option (Option (Out K))) → A) (m0 : SubMask) (iD : Nat)
    (g g' : G) : Prop :=
  ∀ (masks : Nat → SubMask) (S : Nat → Option (Option (Out K))), masks iD = m0 →
    (∀ i ∈ groupIds dilations ((uniqueSorted dilations).getD iD 0), S i = none) →
    ∃ st', fitGroup lengths dilations step write (masks, target S) iD g = .ok (st', g')

/-- The iterations of one worker. -/
theorem worker_value (hdil : dilations.length = lengths.length)
    (hw : ∀ S i v, i < lengths.length → S i = none → shape i v →
      write (target S) i v = .ok (target (Function.update S i (some v))))
    (hshape : ∀ i o, i < lengths.length → (∀ v, o = some v → Q i v) → shape i o)
    (hstep : ∀ minL m i, i < lengths.length → Wp (step minL m i) fun r => ∀ v, r.2 = some v → Q i v) :
    ∀ (l : List Nat) (masks : Nat → SubMask) (S : Nat → Option (Option (Out K))) (g : G), l.Nodup →
      (∀ iD ∈ l, iD < (uniqueSorted dilations).length) → (∀ iD ∈ l, masks iD = m0) →
      (∀ iD ∈ l, ∀ i ∈ groupIds dilations ((uniqueSorted dilations).getD iD 0), S i = none) →
      ∃ (gs : Nat → G) (masks' : Nat → SubMask) (S' : Nat → Option (Option (Out K))) (g' : G),
        l.foldlM (fitGroup lengths dilations step write) (masks, target S) g = .ok ((masks', target S'), g') ∧
        fitLoop lengths dilations step write gs l (masks, target S) = .ok (masks', target S') ∧
        (∀ i ∈ l.head?, gs i = g) ∧
        (∀ pre i j post, l = pre ++ i :: j :: post →
          GroupNext lengths dilations step write target m0 i (gs i) (gs j)) ∧
        (∀ iD, iD ∉ l → masks' iD = masks iD) ∧
        ∀ iD, iD < (uniqueSorted dilations).length → iD ∉ l →
          ∀ i ∈ groupIds dilations ((uniqueSorted dilations).getD iD 0), S' i = S i := by
  intro l
  induction l with
  | nil =>
    intro masks S g _ _ _ _
    exact ⟨fun _ => g, masks, S, g, rfl, rfl, by simp, fun pre i j post h => by simp at h, fun _ _ => rfl,
      fun _ _ _ _ _ => rfl⟩
  | cons iD l ih =>
    intro masks S g hnd hlt hmk hS
    obtain ⟨g1, hg1⟩ := fitGroup_safe hdil hw hshape hstep (hlt iD (by simp)) (m0 := m0) g
    obtain ⟨m', S1, h1, h2⟩ := hg1 masks S (hmk iD (by simp)) (hS iD (by simp))
    rw [List.nodup_cons] at hnd
    have hne : ∀ k, k ∈ l → k ≠ iD := fun k hk hc => hnd.1 (hc ▸ hk)
    obtain ⟨gs, masks', S', g', h3, h4, h5, h5', h6, h7⟩ := ih (Function.update masks iD m') S1 g1 hnd.2
      (fun k hk => hlt k (by simp [hk]))
      (fun k hk => by rw [Function.update_of_ne (hne k hk)]; exact hmk k (by simp [hk]))
      (fun k hk i hi => by
        rw [h2 i fun hc => hne k hk (group_unique hdil (hlt k (by simp [hk])) (hlt iD (by simp)) hi hc)]
        exact hS k (by simp [hk]) i hi)
    refine ⟨Function.update gs iD g, masks', S', g', ?_, ?_, ?_, ?_, ?_, ?_⟩
    · rw [List.foldlM_cons, RM.bind_apply, h1]
      exact h3
    · show fitLoop lengths dilations step write _ (iD :: l) _ = _
      have : fitLoop lengths dilations step write (Function.update gs iD g) (iD :: l) (masks, target S) =
          (do let r ← fitGroup lengths dilations step write (masks, target S) iD (Function.update gs iD g iD)
              fitLoop lengths dilations step write (Function.update gs iD g) l r.1) := by
        unfold fitLoop
        rw [List.foldlM_cons]
        simp only [bind_assoc, pure_bind]
      rw [this, Function.update_self, h1, Res.bind_ok]
      rw [fitLoop_congr (gs' := gs) fun i hi => Function.update_of_ne (hne i hi) _ _]
      exact h4
    · simp
    · intro pre i j post hl
      have hj : j ∈ l := by
        cases pre with
        | nil => cases hl; simp
        | cons p pre => cases hl; simp
      rw [Function.update_of_ne (hne j hj)]
      cases pre with
      | nil =>
        cases hl
        rw [Function.update_self, h5 j (by simp)]
        intro masks S e1 e2
        obtain ⟨m', S', e3, -⟩ := hg1 masks S e1 e2
        exact ⟨_, e3⟩
      | cons p pre =>
        cases hl
        rw [Function.update_of_ne (hne i (by simp))]
        exact h5' pre i j post rfl
    · intro k hk
      rw [List.mem_cons, not_or] at hk
      rw [h6 k hk.2, Function.update_of_ne hk.1]
    · intro k hk1 hk2 i hi
      rw [List.mem_cons, not_or] at hk2
      rw [h7 k hk1 hk2.2 i hi, h2 i fun hc => hk2.1 (group_unique hdil hk1 (hlt iD (by simp)) hi hc)]

/-- All workers, one after the other. -/
theorem workers_value (hdil : dilations.length = lengths.length)
    (hw : ∀ S i v, i < lengths.length → S i = none → shape i v →
      write (target S) i v = .ok (target (Function.update S i (some v))))
    (hshape : ∀ i o, i < lengths.length → (∀ v, o = some v → Q i v) → shape i o)
    (hstep : ∀ minL m i, i < lengths.length → Wp (step minL m i) fun r => ∀ v, r.2 = some v → Q i v)
    (gd : G) :
    ∀ (ws : List (List Nat × G)) (masks : Nat → SubMask) (S : Nat → Option (Option (Out K))),
      (ws.flatMap Prod.fst).Nodup → (∀ iD ∈ ws.flatMap Prod.fst, iD < (uniqueSorted dilations).length) →
      (∀ iD ∈ ws.flatMap Prod.fst, masks iD = m0) →
      (∀ iD ∈ ws.flatMap Prod.fst, ∀ i ∈ groupIds dilations ((uniqueSorted dilations).getD iD 0), S i = none) →
      ∃ (gs : Nat → G) (st : Nat → FitState A), st 0 = (masks, target S) ∧
        (∀ (w : Nat) (l : List Nat) (g : G), ws[w]? = some (l, g) → ∃ g', l.foldlM (fitGroup lengths dilations step write) (st w) g =
          .ok (st (w + 1), g')) ∧
        fitLoop lengths dilations step write gs (ws.flatMap Prod.fst) (masks, target S) = .ok (st ws.length) ∧
        PassesOn (GroupNext lengths dilations step write target m0) ws gs := by
  intro ws
  induction ws with
  | nil =>
    intro masks S _ _ _ _
    exact ⟨fun _ => gd, fun _ => (masks, target S), rfl, by simp, rfl, ⟨by simp, by simp⟩⟩
  | cons w ws ih =>
    intro masks S hnd hlt hmk hS
    obtain ⟨l, g⟩ := w
    simp only [List.flatMap_cons] at hnd hlt hmk hS ⊢
    rw [List.nodup_append] at hnd
    obtain ⟨hnd1, hnd2, hdj⟩ := hnd
    obtain ⟨gs1, masks1, S1, g1, h1, h2, h3, h3', h4, h5⟩ := worker_value hdil hw hshape hstep l masks S g hnd1
      (fun k hk => hlt k (List.mem_append_left _ hk)) (fun k hk => hmk k (List.mem_append_left _ hk))
      (fun k hk => hS k (List.mem_append_left _ hk))
    have hnl : ∀ k, k ∈ ws.flatMap Prod.fst → k ∉ l := fun k hk hc => hdj k hc k hk rfl
    obtain ⟨gs2, st, h6, h7, h8, h9⟩ := ih masks1 S1 hnd2 (fun k hk => hlt k (List.mem_append_right _ hk))
      (fun k hk => by rw [h4 k (hnl k hk)]; exact hmk k (List.mem_append_right _ hk))
      (fun k hk i hi => by
        rw [h5 k (hlt k (List.mem_append_right _ hk)) (hnl k hk) i hi]
        exact hS k (List.mem_append_right _ hk) i hi)
    classical
    refine ⟨fun i => if i ∈ l then gs1 i else gs2 i, fun k => Nat.casesOn k (masks, target S) st, rfl, ?_, ?_, ?_⟩
    · intro w l' g' hw'
      cases w with
      | zero =>
        simp only [List.getElem?_cons_zero, Option.some.injEq, Prod.mk.injEq] at hw'
        obtain ⟨rfl, rfl⟩ := hw'
        refine ⟨g1, ?_⟩
        show l.foldlM (fitGroup lengths dilations step write) (masks, target S) g = .ok (st 0, g1)
        rw [h6]
        exact h1
      | succ w =>
        simp only [List.getElem?_cons_succ] at hw'
        exact h7 w l' g' hw'
    · rw [fitLoop_append, fitLoop_congr (gs' := gs1) (fun i hi => if_pos hi), h2, Res.bind_ok,
        fitLoop_congr (gs' := gs2) fun i hi => if_neg (hnl i hi)]
      exact h8
    · refine ⟨fun w hw' i hi => ?_, fun w hw' pre i j post hl => ?_⟩
      · rw [List.mem_cons] at hw'
        rcases hw' with rfl | hw'
        · have : i ∈ l := List.mem_of_mem_head? hi
          simp only [if_pos this]
          exact h3 i hi
        · have hil : i ∉ l := hnl i (List.mem_flatMap.2 ⟨w, hw', List.mem_of_mem_head? hi⟩)
          simp only [if_neg hil]
          exact h9.first w hw' i hi
      · rw [List.mem_cons] at hw'
        have hi : i ∈ w.1 := by rw [hl]; simp
        have hj : j ∈ w.1 := by rw [hl]; simp
        rcases hw' with rfl | hw'
        · simp only at hi hj hl
          simp only [if_pos hi, if_pos hj]
          exact h3' pre i j post hl
        · simp only [if_neg (hnl i (List.mem_flatMap.2 ⟨w, hw', hi⟩)), if_neg (hnl j (List.mem_flatMap.2 ⟨w, hw', hj⟩))]
          exact h9.later w hw' pre i j post hl

end

end Convst
