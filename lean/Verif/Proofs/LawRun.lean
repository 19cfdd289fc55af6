import Verif.Proofs.LawPick
import Verif.Proofs.FitLoop

/-!
# Law of the choices made for one dilation
-/

set_option autoImplicit false
set_option linter.unusedSectionVars false

namespace Convst
open Spec MeasureTheory
open scoped ENNReal

variable {G L : Type} [MeasurableSpace G] [Gen G ℝ] [LawfulGen G] [DecidableEq L] {μ : Measure G}

/-- The choices made for one shapelet: channels, and source and threshold unless discarded. -/
abbrev Picked := List Nat × Option (Src × ℝ)

/-- The steps of one dilation, with the choices made. -/
def pickRun (step : SubMask → Nat → RM G (SubMask × Picked)) : List Nat → SubMask → RM G (SubMask × List Picked)
  | [], m => pure (m, [])
  | i :: l, m => do
    let z ← step m i
    let r ← pickRun step l z.1
    pure (r.1, z.2 :: r.2)

/-- The choices for shapelet `i`. -/
def pickedAt (ids : List Nat) (zs : List Picked) (i : Nat) : Picked := zs.getD (ids.idxOf i) ([], none)

theorem pickedAt_cons_self {i : Nat} {l : List Nat} {z : Picked} {zs : List Picked} :
    pickedAt (i :: l) (z :: zs) i = z := by
  unfold pickedAt
  rw [List.idxOf_cons_self]
  rfl

theorem pickedAt_cons_ne {i j : Nat} {l : List Nat} {z : Picked} {zs : List Picked} (h : j ≠ i) :
    pickedAt (i :: l) (z :: zs) j = pickedAt l zs j := by
  unfold pickedAt
  rw [List.idxOf_cons_ne _ (Ne.symm h)]
  rfl

/-- Stores of the shapelets of one dilation. -/
noncomputable def storeAll (T : Train L) (P : Par) (o : Opt) (out : Nat → Option (Out ℝ)) :
    List Nat → List Picked → Nat → Option (Out ℝ)
  | i :: l, z :: zs => storeAll T P o (Function.update out i (outOf T P o i z.2)) l zs
  | _, _ => out

theorem storeAll_not_mem {T : Train L} {P : Par} {o : Opt} {out : Nat → Option (Out ℝ)} {ids : List Nat}
    {zs : List Picked} {i : Nat} (h : i ∉ ids) : storeAll T P o out ids zs i = out i := by
  induction ids generalizing out zs with
  | nil => cases zs <;> rfl
  | cons j l ih =>
    rw [List.mem_cons, not_or] at h
    cases zs with
    | nil => rfl
    | cons z zs =>
      unfold storeAll
      rw [ih h.2, Function.update_of_ne h.1]

theorem storeAll_mem {T : Train L} {P : Par} {o : Opt} {out : Nat → Option (Out ℝ)} {ids : List Nat}
    {zs : List Picked} {i : Nat} (hn : ids.Nodup) (hl : zs.length = ids.length) (h : i ∈ ids) :
    storeAll T P o out ids zs i = outOf T P o i (pickedAt ids zs i).2 := by
  induction ids generalizing out zs with
  | nil => simp at h
  | cons j l ih =>
    cases zs with
    | nil => simp at hl
    | cons z zs =>
      rw [List.nodup_cons] at hn
      unfold storeAll
      by_cases hij : i = j
      · subst hij
        rw [storeAll_not_mem hn.1, Function.update_self, pickedAt_cons_self]
      · rw [pickedAt_cons_ne hij]
        exact ih hn.2 (by simpa using hl) ((List.mem_cons.1 h).resolve_left hij)

theorem pickRun_length {step : SubMask → Nat → RM G (SubMask × Picked)} {ids : List Nat} {m : SubMask} {g g' : G}
    {z : SubMask × List Picked} (h : pickRun step ids m g = .ok (z, g')) : z.2.length = ids.length := by
  induction ids generalizing m g z g' with
  | nil => cases h; rfl
  | cons i l ih =>
    unfold pickRun at h
    rw [RM.bind_apply, Res.bind_eq_ok] at h
    obtain ⟨⟨a, g1⟩, -, h⟩ := h
    simp only at h
    rw [RM.bind_apply, Res.bind_eq_ok] at h
    obtain ⟨⟨r, g2⟩, h2, h⟩ := h
    cases h
    simp [ih h2]

/-- The steps of the model, in terms of the choices. -/
theorem localRun_eq {T : Train L} {P : Par} {o : Opt} {step : SubMask → Nat → RM G (SubMask × Option (Out ℝ))}
    {pstep : SubMask → Nat → RM G (SubMask × Picked)} {ids : List Nat}
    (h : ∀ m, ∀ i ∈ ids, step m i = (pstep m i >>= fun x => pure (x.1, outOf T P o i x.2.2)))
    (m : SubMask) (out : Nat → Option (Out ℝ)) :
    localRun step ids (m, out) = (pickRun pstep ids m >>= fun z => pure (z.1, storeAll T P o out ids z.2)) := by
  induction ids generalizing m out with
  | nil => rfl
  | cons i l ih =>
    unfold localRun
    rw [List.foldlM_cons]
    simp only
    rw [h m i (by simp)]
    unfold pickRun
    simp only [bind_assoc, pure_bind]
    refine bind_congr_support fun g z g' _ => ?_
    have := ih (fun m j hj => h m j (by simp [hj])) z.1 (Function.update out i (outOf T P o i z.2.2))
    unfold localRun at this
    rw [this]
    rfl

/-! ## The mask during the run -/

/-- The mask after the shapelets `pre`. -/
def MaskAfter (T : Train L) (P : Par) (o : Opt) (rec : Nat → Option Src) (minL : Nat) (m0 : SubMask) (pre : List Nat)
    (m : SubMask) : Prop :=
  ∀ n s c t, m n s c t = true ↔ m0 n s c t = true ∧ ¬ ∃ j ∈ pre, ∃ r, P.normalize j = n ∧
    rec j = some r ∧ r.sample = s ∧ c ∈ r.channels ∧
    Near (T.len s) (P.length j) (P.dilation j) (allowance o.alpha minL) r.index t

theorem maskAfter_next {T : Train L} {P : Par} {o : Opt} {rec : Nat → Option Src} {minL : Nat} {m0 : SubMask}
    {pre : List Nat} {m : SubMask} (h : MaskAfter T P o rec minL m0 pre m) (i : Nat) :
    MaskAfter T P o rec minL m0 (pre ++ [i]) (nextMask T P o minL m i (rec i)) := by
  intro n s c t
  cases hr : rec i with
  | none =>
    simp only [nextMask]
    rw [h]
    refine and_congr_right fun _ => not_congr ?_
    constructor
    · rintro ⟨j, hj, r, e⟩
      exact ⟨j, by simp [hj], r, e⟩
    · rintro ⟨j, hj, r, e1, e2, e3⟩
      rw [List.mem_append, List.mem_singleton] at hj
      rcases hj with hj | rfl
      · exact ⟨j, hj, r, e1, e2, e3⟩
      · rw [hr] at e2; cases e2
  | some r =>
    simp only [nextMask]
    rw [marked_iff, h, and_assoc, ← not_or]
    refine and_congr_right fun _ => not_congr ?_
    constructor
    · rintro (⟨j, hj, r', e⟩ | ⟨e1, e2, e3, e4⟩)
      · exact ⟨j, by simp [hj], r', e⟩
      · exact ⟨i, by simp, r, e1.symm, hr, e2.symm, e3, e4⟩
    · rintro ⟨j, hj, r', e1, e2, e3⟩
      rw [List.mem_append, List.mem_singleton] at hj
      rcases hj with hj | rfl
      · exact Or.inl ⟨j, hj, r', e1, e2, e3⟩
      · rw [hr, Option.some.injEq] at e2
        subst e2
        exact Or.inr ⟨e1.symm, e3.1.symm, e3.2.1, e3.2.2⟩

theorem maskAfter_ok {T : Train L} {P : Par} {o : Opt} {multi : Bool} {rec : Nat → Option Src} {ids : List Nat}
    {d minL : Nat} {m0 : SubMask} (hids : ∀ i, i ∈ ids ↔ i < P.n ∧ P.dilation i = d) (hsort : ids.Pairwise (· < ·))
    (hmin : ∀ i ∈ ids, IsMinLength P i minL) (hm0 : ∀ n s c t, s < T.ns → t < T.len s → m0 n s c t = true)
    {pre post : List Nat} {i : Nat} (hl : ids = pre ++ i :: post) {m : SubMask}
    (hm : MaskAfter T P o rec minL m0 pre m) : MaskOK T P o multi rec i m := by
  have hi : i ∈ ids := by rw [hl]; simp
  have hpre : ∀ j, j ∈ pre ↔ j < i ∧ P.dilation j = P.dilation i := by
    intro j
    have hdi := ((hids i).1 hi).2
    rw [hl, List.pairwise_append] at hsort
    obtain ⟨_, hs2, hs3⟩ := hsort
    rw [List.pairwise_cons] at hs2
    constructor
    · intro hj
      exact ⟨hs3 j hj i (by simp), by rw [hdi]; exact ((hids j).1 (by rw [hl]; simp [hj])).2⟩
    · rintro ⟨hj1, hj2⟩
      have : j ∈ ids := (hids j).2 ⟨lt_trans hj1 ((hids i).1 hi).1, by rw [hj2, hdi]⟩
      rw [hl, List.mem_append, List.mem_cons] at this
      rcases this with h | h | h
      · exact h
      · omega
      · have := hs2.1 j h; omega
  have hblock : ∀ s c t, s < T.ns → t < T.len s →
      (m (P.normalize i) s c t = false ↔ Blocked T P o rec i s c t) := by
    intro s c t hs ht
    rw [← Bool.not_eq_true, hm]
    rw [not_and, not_not]
    constructor
    · intro h
      obtain ⟨j, hj, r, h1, h2, h3, h4, h5⟩ := h (hm0 _ s c t hs ht)
      obtain ⟨h6, h7⟩ := (hpre j).1 hj
      exact ⟨j, minL, r, h6, h7, h1, h2, h3, h4, hmin i hi, h5⟩
    · rintro ⟨j, mm, r, h1, h2, h3, h4, h5, h6, h7, h8⟩ _
      rw [isMinLength_unique h7 (hmin i hi)] at h8
      exact ⟨j, (hpre j).2 ⟨h1, h2⟩, r, h3, h4, h5, h6, h8⟩
  intro ch s t hs ht
  exact enoughFree_congr fun c => hblock s c t hs (lt_of_lt_of_le ht (nWin_le _ _ _ _))

/-! ## Probabilities -/

theorem prob_pickRun (hf : Fair G μ) {sl swap : Bool} {T : Train L} {y : List L} (hn : T.ns = y.length)
    (hy : ∀ s, T.label s = y[s]?) {P : Par} {o : Opt} {multi : Bool} {nch : Nat → Nat} {ids : List Nat}
    {d minL : Nat} {m0 : SubMask} (hids : ∀ i, i ∈ ids ↔ i < P.n ∧ P.dilation i = d) (hsort : ids.Pairwise (· < ·))
    (hmin : ∀ i ∈ ids, IsMinLength P i minL) (hm0 : ∀ n s c t, s < T.ns → t < T.len s → m0 n s c t = true)
    (hD : ∀ i ∈ ids, ∀ r : Src, r.test < T.ns → distTo T P o i r r.test ≠ [])
    (h0 : 0 ≤ o.pMin) (h1 : o.pMin ≤ o.pMax) (h2 : o.pMax ≤ 100)
    (channels : Nat → List Nat) (rec : Nat → Option Src) (x : Nat → ℝ) :
    HasProb μ (pickRun (pickStep sl swap T y P o multi nch minL) ids m0 : RM G _)
      (fun z => List.Forall₂ (fun i w => StepEv (channels i) (rec i) (x i) w) ids z.2)
      ((ids.map (stepWeight sl T P o multi nch channels rec x)).prod) := by
  have key : ∀ post pre m, ids = pre ++ post → MaskAfter T P o rec minL m0 pre m →
      HasProb μ (pickRun (pickStep sl swap T y P o multi nch minL) post m : RM G _)
        (fun z => List.Forall₂ (fun i w => StepEv (channels i) (rec i) (x i) w) post z.2)
        ((post.map (stepWeight sl T P o multi nch channels rec x)).prod) := by
    intro post
    induction post with
    | nil =>
      intro pre m _ _
      simp only [List.map_nil, List.prod_nil]
      exact HasProb.pure .nil
    | cons i post ih =>
      intro pre m hl hm
      rw [List.map_cons, List.prod_cons]
      unfold pickRun
      have hi : i ∈ ids := by rw [hl]; simp
      refine HasProb.bind (prob_pickStep hf hn hy
        (maskAfter_ok (multi := multi) hids hsort hmin hm0 hl hm) (hD i hi) h0 h1 h2 channels x)
        (ih (pre ++ [i]) _ (by rw [hl]; simp) (maskAfter_next hm i)) ?_ ?_
      · intro g z g' A hz hE
        rw [pickStep_mask hz hE]
        ext g2
        rw [mem_ev_bind]
        constructor
        · rintro ⟨r, g3, e1, b, g4, e2, e3, e4⟩
          cases e2
          rw [List.forall₂_cons] at e3
          exact ⟨r, g3, e1, e3.2, e4⟩
        · rintro ⟨r, g3, e1, e3, e4⟩
          exact ⟨r, g3, e1, _, g3, rfl, List.Forall₂.cons hE e3, e4⟩
      · intro g z g' A hz hE
        ext g2
        rw [mem_ev_bind]
        constructor
        · rintro ⟨r, g3, e1, b, g4, e2, e3, e4⟩
          cases e2
          rw [List.forall₂_cons] at e3
          exact absurd e3.1 hE
        · intro h; exact absurd h (Set.notMem_empty _)
  refine key ids [] m0 rfl ?_
  intro n s c t
  simp

theorem forall₂_pickedAt {R : Nat → Picked → Prop} {ids : List Nat} {zs : List Picked} (hn : ids.Nodup)
    (hl : zs.length = ids.length) : List.Forall₂ R ids zs ↔ ∀ i ∈ ids, R i (pickedAt ids zs i) := by
  induction ids generalizing zs with
  | nil =>
    cases zs with
    | nil => simp
    | cons z zs => simp at hl
  | cons j l ih =>
    cases zs with
    | nil => simp at hl
    | cons z zs =>
      rw [List.nodup_cons] at hn
      rw [List.forall₂_cons, ih hn.2 (by simpa using hl)]
      constructor
      · rintro ⟨h1, h2⟩ i hi
        by_cases hij : i = j
        · subst hij; rw [pickedAt_cons_self]; exact h1
        · rw [pickedAt_cons_ne hij]; exact h2 i ((List.mem_cons.1 hi).resolve_left hij)
      · intro h
        refine ⟨by have := h j (by simp); rwa [pickedAt_cons_self] at this, fun i hi => ?_⟩
        have := h i (by simp [hi])
        rwa [pickedAt_cons_ne (fun e : i = j => hn.1 (e ▸ hi))] at this

end Convst
