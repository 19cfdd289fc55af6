import Verif.Proofs.FitMulti

/-! # The parallel loop of `fit`: the groups are independent and meet the specification -/

set_option autoImplicit false
set_option linter.unusedSectionVars false

namespace Convst
open Spec

variable {G L : Type}

section Spec
variable {T : Train L} {P : Par} {o : Opt} {multi : Bool} {nch : Nat → Nat}

theorem enoughFree_congr {alpha : ℝ} {channels : List Nat} {b b' : Nat → Prop}
    (h : ∀ c, b c ↔ b' c) : EnoughFree multi alpha channels b ↔ EnoughFree multi alpha channels b' := by
  rw [show b = b' from funext fun c => propext (h c)]

theorem blocked_congr {rec rec' : Nat → Option Src} {i s c t : Nat}
    (h : ∀ j, j < i → P.dilation j = P.dilation i → rec' j = rec j) :
    Blocked T P o rec' i s c t ↔ Blocked T P o rec i s c t := by
  constructor
  · rintro ⟨j, m, r, h1, h2, h3, h4, h5⟩
    exact ⟨j, m, r, h1, h2, h3, by rw [← h j h1 h2]; exact h4, h5⟩
  · rintro ⟨j, m, r, h1, h2, h3, h4, h5⟩
    exact ⟨j, m, r, h1, h2, h3, by rw [h j h1 h2]; exact h4, h5⟩

theorem admissible_congr {rec rec' : Nat → Option Src} {i s t : Nat} {channels : List Nat}
    (h : ∀ j, j < i → P.dilation j = P.dilation i → rec' j = rec j) :
    Admissible T P o multi rec' i channels s t ↔ Admissible T P o multi rec i channels s t := by
  unfold Admissible
  rw [enoughFree_congr fun c => blocked_congr h]

theorem goodAt_congr {rec rec' : Nat → Option Src} {out out' : Nat → Option (Out ℝ)} {i : Nat}
    (h : ∀ j, j ≤ i → P.dilation j = P.dilation i → rec' j = rec j) (ho : out' i = out i)
    (hg : GoodAt T P o multi nch rec out i) : GoodAt T P o multi nch rec' out' i := by
  have h' := fun j (hj : j < i) hd => h j hj.le hd
  obtain ⟨ch, h1, h2 | h2⟩ := hg
  · refine ⟨ch, h1, Or.inl ⟨by rw [h i (le_refl _) rfl]; exact h2.1, by rw [ho]; exact h2.2.1, ?_⟩⟩
    intro s t
    rw [admissible_congr h']
    exact h2.2.2 s t
  · obtain ⟨r, v, h3, h4, h5, h6, h7⟩ := h2
    refine ⟨ch, h1, Or.inr ⟨r, v, by rw [h i (le_refl _) rfl]; exact h3, by rw [ho]; exact h4, h5, ?_,
      h7⟩⟩
    rw [admissible_congr h']
    exact h6

theorem isMinLength_unique {i m m' : Nat} (h : IsMinLength P i m) (h' : IsMinLength P i m') :
    m = m' := by
  obtain ⟨⟨j, h1, h2, h3⟩, h4⟩ := h
  obtain ⟨⟨j', h1', h2', h3'⟩, h4'⟩ := h'
  have := h4 j' h1' h2'
  have := h4' j h1 h2
  omega

theorem nWin_le (phase : Bool) (T l d : Nat) : nWin phase T l d ≤ T := by
  unfold nWin; split <;> omega

end Spec

/-- The iteration of one group without the output arrays: final mask and outputs. -/
def localRun {K : Type} (step : SubMask → Nat → RM G (SubMask × Option (Out K))) (ids : List Nat)
    (st : SubMask × (Nat → Option (Out K))) : RM G (SubMask × (Nat → Option (Out K))) :=
  ids.foldlM (init := st) fun st i => do
    let r ← step st.1 i
    pure (r.1, Function.update st.2 i r.2)

/-- A group meets the specification. -/
theorem localRun_wp [Gen G ℝ] {T : Train L} {P : Par} {o : Opt} {multi : Bool} {nch : Nat → Nat}
    {step : SubMask → Nat → RM G (SubMask × Option (Out ℝ))} {ids : List Nat} {d minL : Nat}
    {m0 : SubMask} (hids : ∀ i, i ∈ ids ↔ i < P.n ∧ P.dilation i = d) (hsort : ids.Pairwise (· < ·))
    (hmin : ∀ i ∈ ids, IsMinLength P i minL)
    (hm0 : ∀ n s c t, s < T.ns → t < T.len s → m0 n s c t = true)
    (hstep : ∀ m, ∀ i ∈ ids, Wp (step m i) (StepPost T P o multi nch minL m i)) :
    Wp (localRun step ids (m0, fun _ => none)) fun res =>
      ∃ rec, ∀ i ∈ ids, GoodAt T P o multi nch rec res.2 i := by
  unfold localRun
  refine Wp.mono (Wp.foldlM (P := fun (pre : List Nat) (st : SubMask × (Nat → Option (Out ℝ))) =>
    ∃ rec, (∀ i ∈ pre, GoodAt T P o multi nch rec st.2 i) ∧
      ∀ n s c t, st.1 n s c t = true ↔ m0 n s c t = true ∧ ¬ ∃ j ∈ pre, ∃ r, P.normalize j = n ∧
        rec j = some r ∧ r.sample = s ∧ c ∈ r.channels ∧
        Near (T.len s) (P.length j) (P.dilation j) (allowance o.alpha minL) r.index t) ?_ ?_) ?_
  · exact ⟨fun _ => none, by simp, by simp⟩
  · rintro pre i post ⟨m, out⟩ hl ⟨rec, hg, hm⟩
    have hi : i ∈ ids := by rw [hl]; simp
    have hpre : ∀ j, j ∈ pre ↔ j < i ∧ P.dilation j = P.dilation i := by
      intro j
      have hdi := ((hids i).1 hi).2
      rw [hl, List.pairwise_append] at hsort
      obtain ⟨_, hs2, hs3⟩ := hsort
      rw [List.pairwise_cons] at hs2
      constructor
      · intro hj
        exact ⟨hs3 j hj i (by simp), by rw [hdi]; exact ((hids j).1 (by rw [hl]; simp [hj])).2⟩
      · rintro ⟨hj1, hj2⟩
        have : j ∈ ids := (hids j).2 ⟨lt_trans hj1 ((hids i).1 hi).1, by rw [hj2, hdi]⟩
        rw [hl, List.mem_append, List.mem_cons] at this
        rcases this with h | h | h
        · exact h
        · omega
        · have := hs2.1 j h; omega
    have hblock : ∀ s c t, s < T.ns → t < T.len s →
        (m (P.normalize i) s c t = false ↔ Blocked T P o rec i s c t) := by
      intro s c t hs ht
      rw [← Bool.not_eq_true, hm]
      simp only at hm ⊢
      rw [not_and, not_not]
      constructor
      · intro h
        obtain ⟨j, hj, r, h1, h2, h3, h4, h5⟩ := h (hm0 _ s c t hs ht)
        obtain ⟨h6, h7⟩ := (hpre j).1 hj
        exact ⟨j, minL, r, h6, h7, h1, h2, h3, h4, hmin i hi, h5⟩
      · rintro ⟨j, mm, r, h1, h2, h3, h4, h5, h6, h7, h8⟩ _
        rw [isMinLength_unique h7 (hmin i hi)] at h8
        exact ⟨j, (hpre j).2 ⟨h1, h2⟩, r, h3, h4, h5, h6, h8⟩
    have hfree : ∀ (ch : List Nat) s t, s < T.ns →
        t < nWin o.phase (T.len s) (P.length i) (P.dilation i) →
        (EnoughFree multi o.alpha ch (fun c => m (P.normalize i) s c t = false) ↔
          EnoughFree multi o.alpha ch fun c => Blocked T P o rec i s c t) := by
      intro ch s t hs ht
      exact enoughFree_congr fun c => hblock s c t hs (lt_of_lt_of_le ht (nWin_le _ _ _ _))
    have hni : i ∉ pre := fun h => by have := (hpre i).1 h; omega
    have hnei : ∀ j ∈ pre, j ≠ i := fun j hj h => hni (h ▸ hj)
    refine Wp.bind (hstep m i hi) fun res hres => ?_
    obtain ⟨ch, hch, ⟨h1, h2, h3⟩ | ⟨r, v, h1, h2, h3, h4, h5, h6, h7⟩⟩ := hres
    · refine Wp.pure ⟨Function.update rec i none, ?_, ?_⟩
      · intro j hj
        rw [List.mem_append, List.mem_singleton] at hj
        rcases hj with hj | rfl
        · refine goodAt_congr ?_ (Function.update_of_ne (hnei j hj) _ _) (hg j hj)
          intro k hk _
          have := ((hpre j).1 hj).1
          exact Function.update_of_ne (by omega) _ _
        · refine ⟨ch, hch, Or.inl ⟨Function.update_self .., ?_, ?_⟩⟩
          · simp [h1]
          · intro s t
            rw [admissible_congr (rec := rec) (fun k hk _ => Function.update_of_ne (by omega) _ _)]
            rintro ⟨ha, hb, hc⟩
            exact h3 s t ha hb ((hfree ch s t ha hb).2 hc)
      · intro n s c t
        simp only [h2]
        rw [hm]
        refine and_congr_right fun _ => not_congr ?_
        constructor
        · rintro ⟨j, hj, r, e1, e2, e3⟩
          exact ⟨j, by simp [hj], r, e1, by rw [Function.update_of_ne (hnei j hj)]; exact e2, e3⟩
        · rintro ⟨j, hj, r, e1, e2, e3⟩
          rw [List.mem_append, List.mem_singleton] at hj
          rcases hj with hj | rfl
          · exact ⟨j, hj, r, e1, by rw [Function.update_of_ne (hnei j hj)] at e2; exact e2, e3⟩
          · simp at e2
    · refine Wp.pure ⟨Function.update rec i (some r), ?_, ?_⟩
      · intro j hj
        rw [List.mem_append, List.mem_singleton] at hj
        rcases hj with hj | rfl
        · refine goodAt_congr ?_ (Function.update_of_ne (hnei j hj) _ _) (hg j hj)
          intro k hk _
          have := ((hpre j).1 hj).1
          exact Function.update_of_ne (by omega) _ _
        · refine ⟨ch, hch, Or.inr ⟨r, v, Function.update_self .., ?_, h2, ?_, h6⟩⟩
          · simp [h1]
          · rw [admissible_congr (rec := rec) (fun k hk _ => Function.update_of_ne (by omega) _ _)]
            exact ⟨h3, h4, (hfree ch _ _ h3 h4).1 h5⟩
      · intro n s c t
        simp only
        rw [h7, hm, and_assoc, ← not_or]
        refine and_congr_right fun _ => not_congr ?_
        constructor
        · rintro (⟨j, hj, r, e1, e2, e3⟩ | ⟨e1, e2, e3, e4⟩)
          · exact ⟨j, by simp [hj], r, e1, by rw [Function.update_of_ne (hnei j hj)]; exact e2, e3⟩
          · exact ⟨i, by simp, r, e1.symm, Function.update_self .., e2.symm, e3, e4⟩
        · rintro ⟨j, hj, r', e1, e2, e3⟩
          rw [List.mem_append, List.mem_singleton] at hj
          rcases hj with hj | rfl
          · exact Or.inl
              ⟨j, hj, r', e1, by rw [Function.update_of_ne (hnei j hj)] at e2; exact e2, e3⟩
          · rw [Function.update_self, Option.some.injEq] at e2
            subst e2
            exact Or.inr ⟨e1.symm, e3.1.symm, e3.2.1, e3.2.2⟩
  · rintro res ⟨rec, h, _⟩
    exact ⟨rec, h⟩

/-! ## Stores -/

theorem localRun_out_not_mem {K : Type} {step : SubMask → Nat → RM G (SubMask × Option (Out K))}
    {ids : List Nat} {st st' : SubMask × (Nat → Option (Out K))} {g g' : G} {i : Nat} (hi : i ∉ ids)
    (h : localRun step ids st g = .ok (st', g')) : st'.2 i = st.2 i := by
  induction ids generalizing st g with
  | nil =>
    unfold localRun at h
    rw [List.foldlM_nil] at h
    cases h
    rfl
  | cons a l ih =>
    unfold localRun at h
    rw [List.foldlM_cons, RM.bind_apply, Res.bind_eq_ok] at h
    obtain ⟨⟨s1, g1⟩, h1, h2⟩ := h
    rw [RM.bind_apply, Res.bind_eq_ok] at h1
    obtain ⟨⟨r, g2⟩, h3, h4⟩ := h1
    cases h4
    have := ih (fun h => hi (List.mem_cons_of_mem _ h)) h2
    rw [this]
    exact Function.update_of_ne (fun h => hi (by simp [h])) _ _

/-- A group run with stores into the output arrays: the arrays are `target` of what has been
stored so far. -/
theorem groupRun_eq {K A : Type} {step : SubMask → Nat → RM G (SubMask × Option (Out K))}
    {write : A → Nat → Option (Out K) → Res A} {target : (Nat → Option (Option (Out K))) → A}
    {shape : Nat → Option (Out K) → Prop} {n : Nat}
    (hw : ∀ S i v, i < n → S i = none → shape i v →
      write (target S) i v = .ok (target (Function.update S i (some v))))
    {ids : List Nat} (hnd : ids.Nodup) (hlt : ∀ i ∈ ids, i < n) (iD : Nat)
    {m m' : SubMask} {out out' : Nat → Option (Out K)} {g g' : G}
    (hloc : localRun step ids (m, out) g = .ok ((m', out'), g'))
    (hsh : ∀ i ∈ ids, shape i (out' i)) {masks : Nat → SubMask} (hm : masks iD = m)
    {S : Nat → Option (Option (Out K))} (hS : ∀ i ∈ ids, S i = none) :
    (ids.foldlM (init := (masks, target S)) fun st i => do
      let r ← step (st.1 iD) i
      let arr ← ofRes (write st.2 i r.2)
      pure (Function.update st.1 iD r.1, arr) : RM G (FitState A)) g =
    .ok ((Function.update masks iD m',
      target fun i => if i ∈ ids then some (out' i) else S i), g') := by
  induction ids generalizing m out g masks S with
  | nil =>
    unfold localRun at hloc
    rw [List.foldlM_nil] at hloc
    cases hloc
    rw [List.foldlM_nil]
    refine Eq.trans (b := Except.ok ((masks, target S), _)) rfl ?_
    simp [← hm]
  | cons a l ih =>
    have hloc0 := hloc
    unfold localRun at hloc
    rw [List.foldlM_cons, RM.bind_apply, Res.bind_eq_ok] at hloc
    obtain ⟨⟨s1, g1⟩, h1, h2⟩ := hloc
    rw [RM.bind_apply, Res.bind_eq_ok] at h1
    obtain ⟨⟨r, g2⟩, h3, h4⟩ := h1
    cases h4
    simp only at h3 h2
    have hloc' : localRun step l (r.1, Function.update out a r.2) g2 = .ok ((m', out'), g') := h2
    rw [List.nodup_cons] at hnd
    have hr : out' a = r.2 := by
      have := localRun_out_not_mem hnd.1 hloc'
      simp only at this
      rw [this]; exact Function.update_self ..
    have hwa := hw S a r.2 (hlt a (by simp)) (hS a (by simp)) (by rw [← hr]; exact hsh a (by simp))
    rw [List.foldlM_cons, RM.bind_apply, RM.bind_apply]
    simp only [hm, h3, Res.bind_ok]
    rw [RM.bind_apply, hwa]
    have hstep := ih hnd.2 (fun i hi => hlt i (by simp [hi])) hloc' (fun i hi => hsh i (by simp [hi]))
      (masks := Function.update masks iD r.1) (Function.update_self ..)
      (S := Function.update S a (some r.2)) (by
        intro i hi
        have hia : i ≠ a := fun h => hnd.1 (h ▸ hi)
        rw [Function.update_of_ne hia]
        exact hS i (by simp [hi]))
    refine Eq.trans hstep ?_
    simp only [Function.update_idem]
    congr 4
    funext i
    by_cases hia : i = a
    · subst hia
      simp [hnd.1, hr]
    · by_cases hil : i ∈ l <;> simp [hia, hil]

theorem mem_groupIds {dilations : List Nat} {d i : Nat} :
    i ∈ groupIds dilations d ↔ dilations[i]? = some d := by
  unfold groupIds
  rw [mem_whereIdx, beq_iff_eq]
  constructor
  · exact fun h => h.2
  · intro h
    refine ⟨?_, h⟩
    by_contra hc
    rw [List.getElem?_eq_none (by omega)] at h
    cases h

theorem groupIds_sorted (dilations : List Nat) (d : Nat) :
    (groupIds dilations d).Pairwise (· < ·) := List.pairwise_lt_range.filter _

theorem nmin_ok {a : List Nat} (h : a ≠ []) : ∃ m, nmin a = .ok m ∧ m ∈ a ∧ ∀ x ∈ a, m ≤ x := by
  cases a with
  | nil => exact absurd rfl h
  | cons b l =>
    refine ⟨_, rfl, ?_⟩
    clear h
    induction l generalizing b with
    | nil => simp
    | cons c l ih =>
      simp only [List.foldl_cons]
      obtain ⟨h1, h2⟩ := ih (min b c)
      refine ⟨?_, ?_⟩
      · rcases List.mem_cons.1 h1 with h | h
        · rw [h]
          rcases min_choice b c with h | h <;> rw [h] <;> simp
        · exact List.mem_cons_of_mem _ (List.mem_cons_of_mem _ h)
      · have hb := h2 (min b c) (by simp)
        intro x hx
        rcases List.mem_cons.1 hx with rfl | hx
        · omega
        · rcases List.mem_cons.1 hx with rfl | hx
          · omega
          · exact h2 x (by simp [hx])

theorem nmax_ok {a : List Nat} (h : a ≠ []) : ∃ m, nmax a = .ok m ∧ m ∈ a ∧ ∀ x ∈ a, x ≤ m := by
  cases a with
  | nil => exact absurd rfl h
  | cons b l =>
    refine ⟨_, rfl, ?_⟩
    clear h
    induction l generalizing b with
    | nil => simp
    | cons c l ih =>
      simp only [List.foldl_cons]
      obtain ⟨h1, h2⟩ := ih (max b c)
      refine ⟨?_, ?_⟩
      · rcases List.mem_cons.1 h1 with h | h
        · rw [h]
          rcases max_choice b c with h | h <;> rw [h] <;> simp
        · exact List.mem_cons_of_mem _ (List.mem_cons_of_mem _ h)
      · have hb := h2 (max b c) (by simp)
        intro x hx
        rcases List.mem_cons.1 hx with rfl | hx
        · omega
        · rcases List.mem_cons.1 hx with rfl | hx
          · omega
          · exact h2 x (by simp [hx])

theorem uniqueSorted_nodup (x : List Nat) : (uniqueSorted x).Nodup := List.nodup_dedup _

/-- **The fit loop**, with the runs of the groups.  Every execution order of the groups gives the same output
arrays, `target out` where `out` meets the specification of `fit` and is what the groups compute on their own. -/
theorem fitLoop_det [Gen G ℝ] {A : Type} {T : Train L} {o : Opt} {multi : Bool} {nch : Nat → Nat}
    {lengths dilations : List Nat} {normalize : List Bool} (hdil : dilations.length = lengths.length)
    {step : Nat → SubMask → Nat → RM G (SubMask × Option (Out ℝ))}
    {write : A → Nat → Option (Out ℝ) → Res A} {target : (Nat → Option (Option (Out ℝ))) → A}
    {shape : Nat → Option (Out ℝ) → Prop}
    (hw : ∀ S i v, i < lengths.length → S i = none → shape i v →
      write (target S) i v = .ok (target (Function.update S i (some v))))
    (hshape : ∀ rec out i, i < lengths.length →
      GoodAt T (parOf lengths dilations normalize) o multi nch rec out i → shape i (out i))
    {m0 : SubMask} (hm0 : ∀ n s c t, s < T.ns → t < T.len s → m0 n s c t = true)
    (hstep : ∀ minL m i, i < lengths.length → Wp (step minL m i)
      (StepPost T (parOf lengths dilations normalize) o multi nch minL m i))
    (gs : Nat → G) :
    ∃ rec out, (∀ i, i < lengths.length →
        GoodAt T (parOf lengths dilations normalize) o multi nch rec out i) ∧
      (∀ i, i < lengths.length → ∃ iD minL m' lo g',
        iD < (uniqueSorted dilations).length ∧ i ∈ groupIds dilations ((uniqueSorted dilations).getD iD 0) ∧
        nmin ((groupIds dilations ((uniqueSorted dilations).getD iD 0)).map fun i => lengths.getD i 0) = .ok minL ∧
        localRun (step minL) (groupIds dilations ((uniqueSorted dilations).getD iD 0)) (m0, fun _ => none) (gs iD) =
          .ok ((m', lo), g') ∧ out i = lo i) ∧
      ∀ order : List Nat, order.Perm (List.range (uniqueSorted dilations).length) →
        ∃ masks, fitLoop lengths dilations step write gs order (fun _ => m0, target fun _ => none) =
          .ok (masks, target fun i => if i < lengths.length then some (out i) else none) := by
  classical
  have : Nonempty G := ⟨gs 0⟩
  set U := uniqueSorted dilations with hU
  -- the local runs
  have hids : ∀ d i, i ∈ groupIds dilations d ↔
      i < (parOf lengths dilations normalize).n ∧
        (parOf lengths dilations normalize).dilation i = d := by
    intro d i
    rw [mem_groupIds]
    simp only [parOf]
    constructor
    · intro h
      have hi : i < dilations.length := by
        by_contra hc; rw [List.getElem?_eq_none (by omega)] at h; cases h
      refine ⟨by omega, ?_⟩
      rw [getD_lt _ hi]
      rw [List.getElem?_eq_getElem hi] at h
      exact Option.some.inj h
    · rintro ⟨h1, h2⟩
      rw [getD_lt _ (by omega)] at h2
      rw [List.getElem?_eq_getElem (by omega), h2]
  have hprep : ∀ iD, iD < U.length → ∃ minL,
      ((groupIds dilations (U.getD iD 0)).mapM fun i => aget lengths i) =
        (.ok ((groupIds dilations (U.getD iD 0)).map fun i => lengths.getD i 0) : Res _) ∧
      nmin ((groupIds dilations (U.getD iD 0)).map fun i => lengths.getD i 0) = .ok minL ∧
      ∀ i ∈ groupIds dilations (U.getD iD 0),
        IsMinLength (parOf lengths dilations normalize) i minL := by
    intro iD hiD
    have hne : groupIds dilations (U.getD iD 0) ≠ [] := by
      have : U.getD iD 0 ∈ dilations := by
        rw [← mem_uniqueSorted, ← hU, getD_lt _ hiD]; exact List.getElem_mem _
      obtain ⟨k, hk⟩ := List.mem_iff_getElem?.1 this
      exact List.ne_nil_of_mem (mem_groupIds.2 hk)
    obtain ⟨minL, e, h1, h2⟩ := nmin_ok
      (a := (groupIds dilations (U.getD iD 0)).map fun i => lengths.getD i 0) (by simpa using hne)
    refine ⟨minL, ?_, e, ?_⟩
    · refine mapM_ok ?_
      intro i hi
      exact aget_getD 0 ((hids _ i).1 hi).1
    · intro i hi
      obtain ⟨hi1, hi2⟩ := (hids _ i).1 hi
      refine ⟨?_, ?_⟩
      · obtain ⟨j, hj, rfl⟩ := List.mem_map.1 h1
        obtain ⟨hj1, hj2⟩ := (hids _ j).1 hj
        exact ⟨j, hj1, by rw [hj2, hi2], rfl⟩
      · intro j hj1 hj2
        exact h2 _ (List.mem_map.2 ⟨j, (hids _ j).2 ⟨hj1, by rw [hj2, hi2]⟩, rfl⟩)
  choose! minL hmin1 hmin2 hmin3 using hprep
  have hlocal : ∀ iD, iD < U.length → ∃ m' out rec g',
      localRun (step (minL iD)) (groupIds dilations (U.getD iD 0)) (m0, fun _ => none) (gs iD) =
        .ok ((m', out), g') ∧
      ∀ i ∈ groupIds dilations (U.getD iD 0),
        GoodAt T (parOf lengths dilations normalize) o multi nch rec out i := by
    intro iD hiD
    obtain ⟨⟨m', out⟩, g', h1, rec, h2⟩ := localRun_wp (T := T)
      (P := parOf lengths dilations normalize) (o := o) (multi := multi) (nch := nch)
      (step := step (minL iD)) (minL := minL iD) (m0 := m0)
      (hids (U.getD iD 0)) (groupIds_sorted _ _) (hmin3 iD hiD) hm0
      (fun m i hi => hstep _ m i ((hids _ i).1 hi).1) (gs iD)
    exact ⟨m', out, rec, g', h1, h2⟩
  choose! lm lout lrec lg hl1 hl2 using hlocal
  -- the group of a shapelet
  have hgrp : ∀ i, i < lengths.length → ∃ iD, iD < U.length ∧ i ∈ groupIds dilations (U.getD iD 0) := by
    intro i hi
    have hi' : i < dilations.length := by omega
    have : dilations[i] ∈ U := mem_uniqueSorted.2 (List.getElem_mem hi')
    obtain ⟨iD, h1, h2⟩ := List.mem_iff_getElem.1 this
    refine ⟨iD, h1, mem_groupIds.2 ?_⟩
    rw [getD_lt _ h1, h2, List.getElem?_eq_getElem hi']
  choose! grp hgrp1 hgrp2 using hgrp
  have hgu : ∀ i iD, iD < U.length → i ∈ groupIds dilations (U.getD iD 0) → iD = grp i := by
    intro i iD h1 h2
    have hi : i < lengths.length := ((hids _ i).1 h2).1
    have e1 := ((hids _ i).1 h2).2
    have e2 := ((hids _ i).1 (hgrp2 i hi)).2
    rw [getD_lt _ h1] at e1
    rw [getD_lt _ (hgrp1 i hi)] at e2
    exact (List.Nodup.getElem_inj_iff (uniqueSorted_nodup dilations)).1 (e1.symm.trans e2)
  refine ⟨fun i => lrec (grp i) i, fun i => lout (grp i) i, ?_, fun i hi => ⟨grp i, minL (grp i), _, _, _,
    hgrp1 i hi, hgrp2 i hi, hmin2 _ (hgrp1 i hi), hl1 _ (hgrp1 i hi), rfl⟩, ?_⟩
  · intro i hi
    refine goodAt_congr (rec := lrec (grp i)) (out := lout (grp i)) ?_ rfl
      (hl2 _ (hgrp1 i hi) i (hgrp2 i hi))
    intro j hj hd
    have hj' : j ∈ groupIds dilations (U.getD (grp i) 0) :=
      (hids _ j).2 ⟨by show j < lengths.length; omega, by
        rw [hd]; exact ((hids _ i).1 (hgrp2 i hi)).2⟩
    rw [← hgu j (grp i) (hgrp1 i hi) hj']
  · intro order hord
    have hfg : ∀ (masks : Nat → SubMask) S iD, iD < U.length → masks iD = m0 →
        (∀ i ∈ groupIds dilations (U.getD iD 0), S i = none) →
        fitGroup lengths dilations step write (masks, target S) iD (gs iD) =
          .ok ((Function.update masks iD (lm iD), target fun i =>
            if i ∈ groupIds dilations (U.getD iD 0) then some (lout iD i) else S i), lg iD) := by
      intro masks S iD hiD hmk hS
      unfold fitGroup
      rw [RM.bind_apply, ← hU]
      simp only [aget_getD 0 hiD, ofRes, Res.bind_ok]
      rw [RM.bind_apply]
      simp only [hmin1 iD hiD, ofRes, Res.bind_ok]
      rw [RM.bind_apply]
      simp only [hmin2 iD hiD, ofRes, Res.bind_ok]
      exact groupRun_eq hw (groupIds_sorted _ _ |>.imp (fun h => ne_of_lt h))
        (fun i hi => ((hids _ i).1 hi).1) iD (hl1 iD hiD)
        (fun i hi => hshape _ _ i ((hids _ i).1 hi).1 (hl2 iD hiD i hi)) hmk hS
    have hmemo : ∀ iD, iD ∈ order ↔ iD < U.length := by
      intro iD; rw [hord.mem_iff, List.mem_range]
    have hndo : order.Nodup := hord.nodup_iff.2 List.nodup_range
    obtain ⟨⟨masks, arr⟩, h1, h2, h3⟩ := foldlM_inv (l := order)
      (s := ((fun _ => m0 : Nat → SubMask), target fun _ => none))
      (f := fun st iD => do
        let r ← fitGroup lengths dilations step write st iD (gs iD)
        pure r.1)
      (P := fun pre st => (∀ iD, iD ∉ pre → st.1 iD = m0) ∧
        st.2 = target fun i => if i < lengths.length ∧ grp i ∈ pre then some (lout (grp i) i) else none)
      (by simp) (by
        rintro pre iD post ⟨masks, arr⟩ hl ⟨hp1, hp2⟩
        simp only at hp1 hp2
        have hiD : iD < U.length := (hmemo iD).1 (by rw [hl]; simp)
        have hnp : iD ∉ pre := by
          rw [hl] at hndo
          intro h
          exact (List.disjoint_of_nodup_append hndo) h (by simp)
        have := hfg masks (fun i => if i < lengths.length ∧ grp i ∈ pre then
            some (lout (grp i) i) else none) iD hiD (hp1 iD hnp) (by
          intro i hi
          rw [if_neg]
          rintro ⟨_, h⟩
          rw [← hgu i iD hiD hi] at h
          exact hnp h)
        rw [← hp2] at this
        rw [this]
        refine ⟨_, rfl, ?_, ?_⟩
        · intro k hk
          rw [List.mem_append, List.mem_singleton, not_or] at hk
          simp only
          rw [Function.update_of_ne hk.2]
          exact hp1 k hk.1
        · simp only
          congr 1
          funext i
          by_cases hi : i ∈ groupIds dilations (U.getD iD 0)
          · have hil : i < lengths.length := ((hids _ i).1 hi).1
            have hg := hgu i iD hiD hi
            rw [if_pos hi, if_pos ⟨hil, by simp [hg]⟩, hg]
          · rw [if_neg hi]
            by_cases hil : i < lengths.length
            · have hne : grp i ≠ iD := by
                rintro rfl
                exact hi (hgrp2 i hil)
              simp [hil, hne]
            · simp [hil])
    refine ⟨masks, ?_⟩
    unfold fitLoop
    rw [h1]
    simp only at h3
    rw [h3]
    congr 3
    funext i
    by_cases hi : i < lengths.length
    · rw [if_pos ⟨hi, (hmemo _).2 (hgrp1 i hi)⟩, if_pos hi]
    · simp [hi]

/-- **The fit loop.**  Every execution order of the groups gives the same output arrays, `target out`
where `out` meets the specification of `fit`. -/
theorem fitLoop_ok [Gen G ℝ] {A : Type} {T : Train L} {o : Opt} {multi : Bool} {nch : Nat → Nat}
    {lengths dilations : List Nat} {normalize : List Bool} (hdil : dilations.length = lengths.length)
    {step : Nat → SubMask → Nat → RM G (SubMask × Option (Out ℝ))}
    {write : A → Nat → Option (Out ℝ) → Res A} {target : (Nat → Option (Option (Out ℝ))) → A}
    {shape : Nat → Option (Out ℝ) → Prop}
    (hw : ∀ S i v, i < lengths.length → S i = none → shape i v →
      write (target S) i v = .ok (target (Function.update S i (some v))))
    (hshape : ∀ rec out i, i < lengths.length →
      GoodAt T (parOf lengths dilations normalize) o multi nch rec out i → shape i (out i))
    {m0 : SubMask} (hm0 : ∀ n s c t, s < T.ns → t < T.len s → m0 n s c t = true)
    (hstep : ∀ minL m i, i < lengths.length → Wp (step minL m i)
      (StepPost T (parOf lengths dilations normalize) o multi nch minL m i))
    (gs : Nat → G) :
    ∃ rec out, (∀ i, i < lengths.length →
        GoodAt T (parOf lengths dilations normalize) o multi nch rec out i) ∧
      ∀ order : List Nat, order.Perm (List.range (uniqueSorted dilations).length) →
        ∃ masks, fitLoop lengths dilations step write gs order (fun _ => m0, target fun _ => none) =
          .ok (masks, target fun i => if i < lengths.length then some (out i) else none) := by
  obtain ⟨rec, out, h1, _, h3⟩ := fitLoop_det hdil hw hshape hm0 hstep gs
  exact ⟨rec, out, h1, h3⟩

end Convst
