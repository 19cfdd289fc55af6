import Verif.Proofs.LawRun
import Verif.Proofs.UnitsFit
import Mathlib.Probability.ProductMeasure

/-!
# Law of all the choices of `fit`
-/

set_option autoImplicit false
set_option linter.unusedSectionVars false

namespace Convst
open Spec MeasureTheory
open scoped ENNReal

variable {G L : Type} [MeasurableSpace G] [Gen G ℝ] [LawfulGen G] [DecidableEq L] {μ : Measure G}

/-- A variant of `fit`, with its data. -/
structure Scheme (L : Type) where
  sl : Bool
  swap : Bool
  multi : Bool
  T : Train L
  y : List L
  o : Opt
  m0 : SubMask

/-- The shapelets of group `iD`. -/
def groupAt (dils : List Nat) (iD : Nat) : List Nat := groupIds dils ((uniqueSorted dils).getD iD 0)

/-- The least length in group `iD`. -/
def groupMin (lens dils : List Nat) (iD : Nat) : Nat :=
  match nmin ((groupAt dils iD).map fun i => lens.getD i 0) with
  | .ok m => m
  | .error _ => 0

/-- The choices for group `iD`. -/
noncomputable def Scheme.run (V : Scheme L) (lens dils : List Nat) (norms : List Bool) (nch : Nat → Nat) (iD : Nat) :
    RM G (SubMask × List Picked) :=
  pickRun (pickStep V.sl V.swap V.T V.y (parOf lens dils norms) V.o V.multi nch (groupMin lens dils iD))
    (groupAt dils iD) V.m0

/-- The choices for group `iD`, as a list. -/
noncomputable def Scheme.picked (V : Scheme L) (lens dils : List Nat) (norms : List Bool) (nch : Nat → Nat)
    (gs : Nat → G) (iD : Nat) : List Picked :=
  match V.run lens dils norms nch iD (gs iD) with
  | .ok z => z.1.2
  | .error _ => []

/-- The group of shapelet `i`. -/
def groupOf (dils : List Nat) (i : Nat) : Nat := (uniqueSorted dils).idxOf (dils.getD i 0)

/-- The choices for shapelet `i`. -/
noncomputable def Scheme.at (V : Scheme L) (lens dils : List Nat) (norms : List Bool) (nch : Nat → Nat)
    (gs : Nat → G) (i : Nat) : Picked :=
  pickedAt (groupAt dils (groupOf dils i)) (V.picked lens dils norms nch gs (groupOf dils i)) i

/-- All the choices. -/
noncomputable def Scheme.choices (V : Scheme L) (lens dils : List Nat) (norms : List Bool) (nch : Nat → Nat)
    (gs : Nat → G) : Choices where
  par := parOf lens dils norms
  nch := nch
  channels i := (V.at lens dils norms nch gs i).1
  src i := (V.at lens dils norms nch gs i).2.map Prod.fst
  thr i := ((V.at lens dils norms nch gs i).2.map Prod.snd).getD 0

/-! ## Groups -/

theorem mem_groupAt {lens dils : List Nat} {norms : List Bool} (hd : dils.length = lens.length) {iD i : Nat} :
    i ∈ groupAt dils iD ↔ i < (parOf lens dils norms).n ∧
      (parOf lens dils norms).dilation i = (uniqueSorted dils).getD iD 0 := by
  unfold groupAt
  rw [mem_groupIds]
  simp only [parOf]
  constructor
  · intro h
    have hi : i < dils.length := by
      by_contra hc; rw [List.getElem?_eq_none (by omega)] at h; cases h
    refine ⟨by omega, ?_⟩
    rw [getD_lt _ hi]
    rw [List.getElem?_eq_getElem hi] at h
    exact Option.some.inj h
  · rintro ⟨h1, h2⟩
    rw [getD_lt _ (by omega)] at h2
    rw [List.getElem?_eq_getElem (by omega), h2]

theorem groupOf_lt {dils : List Nat} {i : Nat} (hi : i < dils.length) :
    groupOf dils i < (uniqueSorted dils).length := by
  unfold groupOf
  rw [List.idxOf_lt_length_iff, mem_uniqueSorted, getD_lt _ hi]
  exact List.getElem_mem hi

theorem mem_groupAt_iff {dils : List Nat} {iD i : Nat} (hD : iD < (uniqueSorted dils).length) (hi : i < dils.length) :
    i ∈ groupAt dils iD ↔ groupOf dils i = iD := by
  rw [mem_groupAt (lens := dils) (norms := []) rfl]
  simp only [parOf]
  unfold groupOf
  rw [getD_lt _ hD]
  constructor
  · rintro ⟨-, h⟩
    rw [h, List.Nodup.idxOf_getElem (uniqueSorted_nodup _)]
  · intro h
    refine ⟨hi, ?_⟩
    subst h
    rw [List.getElem_idxOf]

theorem groupAt_ne_nil {dils : List Nat} {iD : Nat} (hD : iD < (uniqueSorted dils).length) : groupAt dils iD ≠ [] := by
  have : (uniqueSorted dils).getD iD 0 ∈ dils := by
    rw [← mem_uniqueSorted, getD_lt _ hD]; exact List.getElem_mem _
  obtain ⟨k, hk⟩ := List.mem_iff_getElem?.1 this
  exact List.ne_nil_of_mem (mem_groupIds.2 hk)

theorem groupMin_ok {lens dils : List Nat} {norms : List Bool} (hd : dils.length = lens.length) {iD : Nat}
    (hD : iD < (uniqueSorted dils).length) :
    nmin ((groupAt dils iD).map fun i => lens.getD i 0) = .ok (groupMin lens dils iD) ∧
      ∀ i ∈ groupAt dils iD, IsMinLength (parOf lens dils norms) i (groupMin lens dils iD) := by
  obtain ⟨m, e, h1, h2⟩ := nmin_ok (a := (groupAt dils iD).map fun i => lens.getD i 0)
    (by simpa using groupAt_ne_nil hD)
  have hm : groupMin lens dils iD = m := by unfold groupMin; rw [e]
  rw [hm]
  refine ⟨e, fun i hi => ?_⟩
  obtain ⟨hi1, hi2⟩ := (mem_groupAt (norms := norms) hd).1 hi
  refine ⟨?_, ?_⟩
  · obtain ⟨j, hj, rfl⟩ := List.mem_map.1 h1
    obtain ⟨hj1, hj2⟩ := (mem_groupAt (norms := norms) hd).1 hj
    exact ⟨j, hj1, by rw [hj2, hi2], rfl⟩
  · intro j hj1 hj2
    exact h2 _ (List.mem_map.2 ⟨j, (mem_groupAt (norms := norms) hd).2 ⟨hj1, by rw [hj2, hi2]⟩, rfl⟩)

theorem groupAt_nodup (dils : List Nat) (iD : Nat) : (groupAt dils iD).Nodup :=
  (groupIds_sorted _ _).imp fun h => Nat.ne_of_lt h

/-! ## The choices and the shapelets -/

/-- The group runs of the model come from the choices. -/
theorem fromGroups_run {V : Scheme L} {lens dils : List Nat} {norms : List Bool} {nch : Nat → Nat}
    (hd : dils.length = lens.length) {step : Nat → SubMask → Nat → RM G (SubMask × Option (Out ℝ))}
    (hstep : ∀ minL m i, i < lens.length → IsPick V.sl V.swap V.T V.y (parOf lens dils norms) V.o V.multi nch minL m i
      (step minL m i))
    {gs : Nat → G} {out : Nat → Option (Out ℝ)} (h : FromGroups lens dils step V.m0 gs out) {i : Nat}
    (hi : i < lens.length) :
    (∃ z g', V.run lens dils norms nch (groupOf dils i) (gs (groupOf dils i)) = .ok (z, g')) ∧
      out i = outOf V.T (parOf lens dils norms) V.o i (V.at lens dils norms nch gs i).2 := by
  obtain ⟨iD, minL, m', lo, g', h1, h2, h3, h4, h5⟩ := h i hi
  have hg : groupOf dils i = iD := (mem_groupAt_iff h1 (by omega)).1 h2
  have hmin := (groupMin_ok (norms := norms) hd h1).1
  rw [show groupIds dils ((uniqueSorted dils).getD iD 0) = groupAt dils iD from rfl] at h2 h3 h4
  rw [h3] at hmin
  have hm := Except.ok.inj hmin
  rw [hm, localRun_eq (T := V.T) (P := parOf lens dils norms) (o := V.o)
    (pstep := pickStep V.sl V.swap V.T V.y (parOf lens dils norms) V.o V.multi nch (groupMin lens dils iD))
    (fun m j hj => hstep _ m j ((mem_groupAt (norms := norms) hd).1 hj).1), RM.bind_apply, Res.bind_eq_ok] at h4
  obtain ⟨⟨z, g1⟩, h4, h6⟩ := h4
  have hr : V.run lens dils norms nch iD (gs iD) = .ok (z, g1) := h4
  rw [hg]
  refine ⟨⟨z, g1, hr⟩, ?_⟩
  have h6 : (z.1, storeAll V.T (parOf lens dils norms) V.o (fun _ => none) (groupAt dils iD) z.2) = (m', lo) := by
    cases h6; rfl
  obtain ⟨-, rfl⟩ := Prod.mk.inj h6
  rw [h5, storeAll_mem (groupAt_nodup _ _) (pickRun_length h4) h2]
  unfold Scheme.at
  rw [hg]
  unfold Scheme.picked
  rw [hr]

theorem choices_out {V : Scheme L} {lens dils : List Nat} {norms : List Bool} {nch : Nat → Nat}
    {gs : Nat → G} {i : Nat} :
    outOf V.T (parOf lens dils norms) V.o i (V.at lens dils norms nch gs i).2 =
      (V.choices lens dils norms nch gs).out V.T V.o i := by
  unfold Choices.out outOf Scheme.choices
  simp only
  cases (V.at lens dils norms nch gs i).2 with
  | none => rfl
  | some p => rfl

/-! ## The event -/

theorem stepEv_iff {V : Scheme L} {lens dils : List Nat} {norms : List Bool} {nch : Nat → Nat}
    {gs : Nat → G} {i : Nat} {d : Choices} :
    StepEv (d.channels i) (d.src i) (d.thr i) (V.at lens dils norms nch gs i) ↔
      (V.choices lens dils norms nch gs).channels i = d.channels i ∧
      (V.choices lens dils norms nch gs).src i = d.src i ∧
      (d.src i ≠ none → (V.choices lens dils norms nch gs).thr i < d.thr i) := by
  unfold StepEv Scheme.choices
  simp only
  refine and_congr_right fun _ => ?_
  generalize V.at lens dils norms nch gs i = z
  cases hs : d.src i with
  | none =>
    simp only [Option.map_eq_none_iff]
    exact ⟨fun h => ⟨h, fun h => absurd rfl h⟩, fun h => h.1⟩
  | some r =>
    simp only
    cases hz : z.2 with
    | none => simp
    | some p =>
      obtain ⟨r', thr⟩ := p
      simp only [Option.some.injEq, Prod.mk.injEq, Option.map_some, Option.getD_some]
      constructor
      · rintro ⟨thr', ⟨h1, rfl⟩, h2⟩; exact ⟨h1, fun _ => h2⟩
      · rintro ⟨h1, h2⟩; exact ⟨thr, ⟨h1, rfl⟩, h2 (by simp)⟩

/-- A function of the index and the list of its values. -/
theorem list_eq_iff {α : Type} {l : List α} {n : Nat} {f : Nat → α} {x : α} :
    l = (List.range n).map f ↔ l.length = n ∧ ∀ i, i < n → l.getD i x = f i := by
  constructor
  · rintro rfl
    exact ⟨by simp, fun i hi => getD_range_map _ hi⟩
  · rintro ⟨rfl, h⟩
    apply List.ext_getElem
    · simp
    · intro i h1 h2
      rw [List.getElem_map, List.getElem_range, ← h i h1, getD_lt _ h1]

theorem within_iff {V : Scheme L} {lens dils : List Nat} {norms : List Bool} {nch : List Nat}
    (hd : dils.length = lens.length) (hn : norms.length = lens.length) (hc : nch.length = lens.length)
    {gs : Nat → G} {d : Choices} :
    (V.choices lens dils norms (fun i => nch.getD i 0) gs).Within d ↔
      (lens = d.par.lens ∧ dils = d.par.dils ∧ norms = d.par.norms ∧ nch = (List.range d.par.n).map d.nch) ∧
      ∀ i, i < d.par.n → StepEv (d.channels i) (d.src i) (d.thr i)
        (V.at lens dils norms (fun i => nch.getD i 0) gs i) := by
  unfold Choices.Within Spec.Par.lens Spec.Par.dils Spec.Par.norms
  rw [list_eq_iff (x := 0) (l := lens), list_eq_iff (x := 0) (l := dils), list_eq_iff (x := false) (l := norms),
    list_eq_iff (x := 0) (l := nch), hd, hn, hc]
  simp only [stepEv_iff]
  constructor
  · rintro ⟨h1, h2⟩
    have h1 : lens.length = d.par.n := h1
    exact ⟨⟨⟨h1, fun i hi => (h2 i hi).1⟩, ⟨h1, fun i hi => (h2 i hi).2.1⟩, ⟨h1, fun i hi => (h2 i hi).2.2.1⟩,
      ⟨h1, fun i hi => (h2 i hi).2.2.2.1⟩⟩, fun i hi => (h2 i hi).2.2.2.2⟩
  · rintro ⟨⟨⟨h1, h2⟩, ⟨-, h3⟩, ⟨-, h4⟩, ⟨-, h5⟩⟩, h6⟩
    exact ⟨h1, fun i hi => ⟨h2 i hi, h3 i hi, h4 i hi, h5 i hi, h6 i hi⟩⟩

theorem group_event {V : Scheme L} {lens dils : List Nat} {norms : List Bool} {nch : Nat → Nat}
    (hd : dils.length = lens.length) {gs : Nat → G}
    (hrun : ∀ i, i < lens.length → ∃ z g', V.run lens dils norms nch (groupOf dils i) (gs (groupOf dils i)) = .ok (z, g'))
    {R : Nat → Picked → Prop} :
    (∀ i, i < lens.length → R i (V.at lens dils norms nch gs i)) ↔
      ∀ iD, iD < (uniqueSorted dils).length → gs iD ∈ Ev (V.run lens dils norms nch iD)
        (fun z => List.Forall₂ R (groupAt dils iD) z.2) Set.univ := by
  constructor
  · intro h iD hD
    obtain ⟨i0, hi0⟩ := List.exists_mem_of_ne_nil _ (groupAt_ne_nil hD)
    have hi0l := ((mem_groupAt (norms := norms) hd).1 hi0).1
    simp only [parOf] at hi0l
    have hg0 : groupOf dils i0 = iD := (mem_groupAt_iff hD (by omega)).1 hi0
    obtain ⟨z, g', hz⟩ := hrun i0 hi0l
    rw [hg0] at hz
    refine ⟨z, g', hz, ?_, trivial⟩
    show List.Forall₂ R (groupAt dils iD) z.2
    rw [forall₂_pickedAt (groupAt_nodup _ _) (pickRun_length hz)]
    intro i hi
    have hil := ((mem_groupAt (norms := norms) hd).1 hi).1
    simp only [parOf] at hil
    have hg : groupOf dils i = iD := (mem_groupAt_iff hD (by omega)).1 hi
    have := h i hil
    unfold Scheme.at Scheme.picked at this
    rw [hg, hz] at this
    exact this
  · intro h i hi
    have hD := groupOf_lt (dils := dils) (i := i) (by omega)
    obtain ⟨z, g', hz, hR, -⟩ := h _ hD
    have hmem : i ∈ groupAt dils (groupOf dils i) := (mem_groupAt_iff hD (by omega)).2 rfl
    rw [forall₂_pickedAt (groupAt_nodup _ _) (pickRun_length hz)] at hR
    unfold Scheme.at Scheme.picked
    rw [hz]
    exact hR i hmem

/-- Products over the groups. -/
theorem prod_groups {lens dils : List Nat} (hd : dils.length = lens.length) (f : Nat → ℝ≥0∞) :
    ∏ iD ∈ Finset.range (uniqueSorted dils).length, ((groupAt dils iD).map f).prod =
      ∏ i ∈ Finset.range lens.length, f i := by
  rw [← Finset.prod_fiberwise_of_maps_to (s := Finset.range lens.length)
    (t := Finset.range (uniqueSorted dils).length) (g := groupOf dils)
    (fun i hi => Finset.mem_range.2 (groupOf_lt (by rw [Finset.mem_range] at hi; omega)))]
  refine Finset.prod_congr rfl fun iD hD => ?_
  rw [Finset.mem_range] at hD
  rw [← List.prod_toFinset _ (groupAt_nodup _ _)]
  refine Finset.prod_congr ?_ fun _ _ => rfl
  ext i
  rw [List.mem_toFinset, Finset.mem_filter, Finset.mem_range]
  constructor
  · intro hi
    have hil := ((mem_groupAt (norms := []) hd).1 hi).1
    simp only [parOf] at hil
    exact ⟨hil, (mem_groupAt_iff hD (by omega)).1 hi⟩
  · rintro ⟨h1, h2⟩
    exact (mem_groupAt_iff hD (by omega)).2 h2

theorem SamePar.stepWeight {T : Train L} {o : Opt} {multi sl : Bool} {nch nch' : Nat → Nat} {P Q : Par}
    (h : SamePar P Q) {channels : Nat → List Nat} {rec : Nat → Option Src} {x : Nat → ℝ} {i : Nat} (hi : i < P.n)
    (hnch : nch' i = nch i) :
    stepWeight sl T Q o multi nch' channels rec x i = stepWeight sl T P o multi nch channels rec x i := by
  have hadm : ∀ ch s t, Admissible T Q o multi rec i ch s t ↔ Admissible T P o multi rec i ch s t := by
    intro ch s t
    unfold Admissible
    rw [enoughFree_congr fun c => h.blocked_iff hi, h.length i hi, h.dilation i hi]
  have hsub : ∀ s c t, subseq T Q o i s c t = subseq T P o i s c t := by
    intro s c t
    unfold subseq
    rw [h.normalize i hi, h.length i hi, h.dilation i hi]
  have hdist : ∀ r s, distTo T Q o i r s = distTo T P o i r s := by
    intro r s
    unfold distTo
    simp only [hsub, h.length i hi, h.dilation i hi]
  have hpos : ∀ ch, positions T Q o multi rec i ch = positions T P o multi rec i ch := by
    intro ch
    ext p
    exact hadm ch p.1 p.2
  have hpw : ∀ ch s t, posWeight sl T Q o multi rec i ch s t = posWeight sl T P o multi rec i ch s t := by
    intro ch s t
    have : Admissible T Q o multi rec i = Admissible T P o multi rec i := by
      funext ch s t
      exact propext (hadm ch s t)
    unfold posWeight
    rw [hpos, this]
  unfold Spec.stepWeight
  simp only [hnch, hpos, hdist, hpw]

/-- The choices, from the states of the generators. -/
noncomputable def Scheme.pick {α : Type} (V : Scheme L) (init : RM G α) (lens dils : α → List Nat)
    (norms : α → List Bool) (nchs : α → List Nat) (ω : G × (Nat → G)) : Choices :=
  match init ω.1 with
  | .ok z => V.choices (lens z.1) (dils z.1) (norms z.1) (fun i => (nchs z.1).getD i 0) ω.2
  | .error _ => ⟨parOf [] [] [], fun _ => 0, fun _ => [], fun _ => none, fun _ => 0⟩

/-- **The law of the choices.** -/
theorem law_core [IsProbabilityMeasure μ] (hf : Fair G μ) {α : Type} {V : Scheme L} {init : RM G α}
    {lens dils : α → List Nat} {norms : α → List Bool} {nchs : α → List Nat} {n nShp : Nat}
    (hn : V.T.ns = V.y.length) (hy : ∀ s, V.T.label s = V.y[s]?) (hlen : ∀ s, s < V.T.ns → n ≤ V.T.len s)
    (hm0 : ∀ b s c t, s < V.T.ns → t < V.T.len s → V.m0 b s c t = true)
    (h0 : 0 ≤ V.o.pMin) (h1 : V.o.pMin ≤ V.o.pMax) (h2 : V.o.pMax ≤ 100)
    (htot : ∀ g, ∃ Q g', init g = .ok (Q, g'))
    (hsupp : ∀ g Q g', init g = .ok (Q, g') → ParOK (lens Q) (dils Q) (norms Q) n ∧ (lens Q).length = nShp ∧
      (nchs Q).length = nShp ∧ ∃ step : Nat → SubMask → Nat → RM G (SubMask × Option (Out ℝ)), (∀ minL m i, i < (lens Q).length →
        IsPick V.sl V.swap V.T V.y (parOf (lens Q) (dils Q) (norms Q)) V.o V.multi (fun i => (nchs Q).getD i 0) minL m i
          (step minL m i)) ∧
        ∀ gs, ∃ out, FromGroups (lens Q) (dils Q) step V.m0 gs out)
    {d : Choices} (hdn : d.par.n = nShp) {w : ℝ≥0∞}
    (hinit : HasProb μ init (fun Q => lens Q = d.par.lens ∧ dils Q = d.par.dils ∧ norms Q = d.par.norms ∧
      nchs Q = (List.range d.par.n).map d.nch) w) :
    MeasurableSet {ω | (V.pick init lens dils norms nchs ω).Within d} ∧
      tapes μ {ω | (V.pick init lens dils norms nchs ω).Within d} =
        w * ∏ i ∈ Finset.range d.par.n,
          stepWeight V.sl V.T d.par V.o V.multi d.nch d.channels d.src d.thr i := by
  classical
  set E : α → Prop := fun Q => lens Q = d.par.lens ∧ dils Q = d.par.dils ∧ norms Q = d.par.norms ∧
      nchs Q = (List.range d.par.n).map d.nch with hE
  obtain ⟨hEm, hEp⟩ := hinit Set.univ MeasurableSet.univ
  rw [measure_univ, mul_one] at hEp
  have hW : ∀ ω : G × (Nat → G), ω ∈ {ω | (V.pick init lens dils norms nchs ω).Within d} ↔
      ∃ Q g', init ω.1 = .ok (Q, g') ∧ E Q ∧ ∀ i, i < d.par.n → StepEv (d.channels i) (d.src i) (d.thr i)
        (V.at (lens Q) (dils Q) (norms Q) (fun i => (nchs Q).getD i 0) ω.2 i) := by
    intro ω
    obtain ⟨Q, g', hQ⟩ := htot ω.1
    obtain ⟨hok, hl, hc, -⟩ := hsupp _ _ _ hQ
    have : V.pick init lens dils norms nchs ω =
        V.choices (lens Q) (dils Q) (norms Q) (fun i => (nchs Q).getD i 0) ω.2 := by
      unfold Scheme.pick; rw [hQ]
    rw [Set.mem_setOf_eq, this, within_iff hok.dil hok.norm (by rw [hc, hl])]
    constructor
    · rintro ⟨e1, e2⟩; exact ⟨Q, g', hQ, e1, e2⟩
    · rintro ⟨Q', g'', e0, e1, e2⟩
      rw [hQ] at e0
      obtain ⟨rfl, -⟩ := Prod.mk.inj (Except.ok.inj e0)
      exact ⟨e1, e2⟩
  by_cases hex : ∃ g Q g', init g = .ok (Q, g') ∧ E Q
  · obtain ⟨g0, Q0, g0', hQ0, hE0⟩ := hex
    obtain ⟨hok, hl, hc, step, hpick, hgrp⟩ := hsupp _ _ _ hQ0
    obtain ⟨e1, e2, e3, e4⟩ := hE0
    rw [e1, e2, e3] at hok hpick
    rw [e1, e2] at hgrp
    rw [e4] at hpick
    set P := parOf d.par.lens d.par.dils d.par.norms with hP
    set nch : Nat → Nat := fun i => ((List.range d.par.n).map d.nch).getD i 0 with hnch
    have hlP : d.par.lens.length = d.par.n := by simp [Spec.Par.lens]
    have hrun : ∀ (gs : Nat → G) i, i < d.par.lens.length → ∃ z g',
        V.run d.par.lens d.par.dils d.par.norms nch (groupOf d.par.dils i) (gs (groupOf d.par.dils i)) = .ok (z, g') := by
      intro gs i hi
      obtain ⟨out, hout⟩ := hgrp gs
      exact (fromGroups_run hok.dil hpick hout hi).1
    -- the set is a box
    set B : Nat → Set G := fun iD => Ev (V.run d.par.lens d.par.dils d.par.norms nch iD)
      (fun z => List.Forall₂ (fun i w => StepEv (d.channels i) (d.src i) (d.thr i) w) (groupAt d.par.dils iD) z.2)
      Set.univ with hB
    have hset : {ω | (V.pick init lens dils norms nchs ω).Within d} =
        Ev init E Set.univ ×ˢ Set.pi (Finset.range (uniqueSorted d.par.dils).length : Set Nat) B := by
      ext ω
      rw [hW, Set.mem_prod]
      have key : ∀ gs : Nat → G, (∀ i, i < d.par.n → StepEv (d.channels i) (d.src i) (d.thr i)
          (V.at d.par.lens d.par.dils d.par.norms nch gs i)) ↔
          gs ∈ Set.pi (Finset.range (uniqueSorted d.par.dils).length : Set Nat) B := by
        intro gs
        have := group_event (V := V) (nch := nch) (norms := d.par.norms) hok.dil (hrun gs)
          (R := fun i w => StepEv (d.channels i) (d.src i) (d.thr i) w)
        rw [hlP] at this
        rw [this, Set.mem_pi]
        simp only [Finset.coe_range, Set.mem_Iio]
        rfl
      constructor
      · rintro ⟨Q, g', hQ, ⟨f1, f2, f3, f4⟩, h⟩
        refine ⟨⟨Q, g', hQ, ⟨f1, f2, f3, f4⟩, trivial⟩, ?_⟩
        rw [f1, f2, f3, f4] at h
        exact (key _).1 h
      · rintro ⟨⟨Q, g', hQ, ⟨f1, f2, f3, f4⟩, -⟩, h⟩
        refine ⟨Q, g', hQ, ⟨f1, f2, f3, f4⟩, ?_⟩
        rw [f1, f2, f3, f4]
        exact (key _).2 h
    have hBp : ∀ iD, iD < (uniqueSorted d.par.dils).length → MeasurableSet (B iD) ∧
        μ (B iD) = ((groupAt d.par.dils iD).map
          (stepWeight V.sl V.T P V.o V.multi nch d.channels d.src d.thr)).prod := by
      intro iD hD
      have := prob_pickRun (swap := V.swap) hf hn hy (P := P) (o := V.o) (multi := V.multi) (nch := nch)
        (ids := groupAt d.par.dils iD)
        (minL := groupMin d.par.lens d.par.dils iD) (m0 := V.m0) (sl := V.sl)
        (fun i => mem_groupAt (norms := d.par.norms) hok.dil) (groupIds_sorted _ _)
        (groupMin_ok (norms := d.par.norms) hok.dil hD).2 hm0 (by
          intro i hi r hr
          have hil := ((mem_groupAt (norms := d.par.norms) hok.dil).1 hi).1
          have hroom := hok.room i hil
          unfold distTo
          exact range_map_ne_nil _ (nWin_pos (lt_of_lt_of_le hroom (hlen _ hr)))) h0 h1 h2
        d.channels d.src d.thr Set.univ MeasurableSet.univ
      rw [measure_univ, mul_one] at this
      exact this
    rw [hset]
    refine ⟨hEm.prod (MeasurableSet.pi (Finset.countable_toSet _) fun iD hD =>
      (hBp iD (by simpa using hD)).1), ?_⟩
    unfold tapes
    rw [Measure.prod_prod, hEp, Measure.infinitePi_pi (μ := fun _ => μ) (fun iD hD => (hBp iD (by simpa using hD)).1)]
    congr 1
    rw [Finset.prod_congr rfl fun iD hD => (hBp iD (by simpa using hD)).2, prod_groups hok.dil, hlP]
    refine Finset.prod_congr rfl fun i hi => ?_
    rw [Finset.mem_range] at hi
    exact (samePar_parOf d.par).stepWeight hi (getD_range_map _ hi)
  · have hw : w = 0 := by
      rw [← hEp]
      have : Ev init E Set.univ = ∅ := by
        ext g
        constructor
        · rintro ⟨Q, g', e, h, -⟩; exact absurd ⟨g, Q, g', e, h⟩ hex
        · intro h; exact absurd h (Set.notMem_empty _)
      rw [this, measure_empty]
    have hempty : {ω | (V.pick init lens dils norms nchs ω).Within d} = ∅ := by
      ext ω
      rw [hW]
      constructor
      · rintro ⟨Q, g', e, h, -⟩; exact absurd ⟨ω.1, Q, g', e, h⟩ hex
      · intro h; exact absurd h (Set.notMem_empty _)
    rw [hempty, hw, measure_empty, zero_mul]
    exact ⟨MeasurableSet.empty, rfl⟩

theorem pick_n {α : Type} {V : Scheme L} {init : RM G α}
    {lens dils : α → List Nat} {norms : α → List Bool} {nchs : α → List Nat} {nShp : Nat}
    (htot : ∀ g, ∃ Q g', init g = .ok (Q, g') ∧ (lens Q).length = nShp) (ω : G × (Nat → G)) :
    (V.pick init lens dils norms nchs ω).par.n = nShp := by
  obtain ⟨Q, g', hQ, hl⟩ := htot ω.1
  unfold Scheme.pick
  rw [hQ]
  exact hl

/-- The law of the parameters. -/
theorem params_core [IsProbabilityMeasure μ] {α : Type} {V : Scheme L} {init : RM G α}
    {lens dils : α → List Nat} {norms : α → List Bool} {nchs : α → List Nat} {n nShp : Nat}
    (hsupp : ∀ g Q g', init g = .ok (Q, g') → ParOK (lens Q) (dils Q) (norms Q) n ∧ (lens Q).length = nShp ∧
      (nchs Q).length = nShp) (htot : ∀ g, ∃ Q g', init g = .ok (Q, g'))
    {d : Choices} {w : ℝ≥0∞}
    (hinit : HasProb μ init (fun Q => lens Q = d.par.lens ∧ dils Q = d.par.dils ∧ norms Q = d.par.norms ∧
      nchs Q = (List.range d.par.n).map d.nch) w) :
    MeasurableSet {ω | (V.pick init lens dils norms nchs ω).SameParams d} ∧
      tapes μ {ω | (V.pick init lens dils norms nchs ω).SameParams d} = w := by
  obtain ⟨hEm, hEp⟩ := hinit Set.univ MeasurableSet.univ
  rw [measure_univ, mul_one] at hEp
  have hset : {ω | (V.pick init lens dils norms nchs ω).SameParams d} =
      Ev init (fun Q => lens Q = d.par.lens ∧ dils Q = d.par.dils ∧ norms Q = d.par.norms ∧
        nchs Q = (List.range d.par.n).map d.nch) Set.univ ×ˢ Set.univ := by
    ext ω
    obtain ⟨Q, g', hQ⟩ := htot ω.1
    obtain ⟨hok, hl, hc⟩ := hsupp _ _ _ hQ
    have hp : V.pick init lens dils norms nchs ω =
        V.choices (lens Q) (dils Q) (norms Q) (fun i => (nchs Q).getD i 0) ω.2 := by
      unfold Scheme.pick; rw [hQ]
    rw [Set.mem_setOf_eq, hp, Set.mem_prod]
    have hiff : (lens Q = d.par.lens ∧ dils Q = d.par.dils ∧ norms Q = d.par.norms ∧
        nchs Q = (List.range d.par.n).map d.nch) ↔
        (V.choices (lens Q) (dils Q) (norms Q) (fun i => (nchs Q).getD i 0) ω.2).SameParams d := by
      unfold Choices.SameParams Spec.Par.lens Spec.Par.dils Spec.Par.norms
      rw [list_eq_iff (x := 0) (l := lens Q), list_eq_iff (x := 0) (l := dils Q),
        list_eq_iff (x := false) (l := norms Q), list_eq_iff (x := 0) (l := nchs Q), hok.dil, hok.norm, hc, ← hl]
      constructor
      · rintro ⟨⟨h1, h2⟩, ⟨-, h3⟩, ⟨-, h4⟩, ⟨-, h5⟩⟩
        exact ⟨h1, fun i hi => ⟨h2 i hi, h3 i hi, h4 i hi, h5 i hi⟩⟩
      · rintro ⟨h1, h2⟩
        have h1 : (lens Q).length = d.par.n := h1
        exact ⟨⟨h1, fun i hi => (h2 i hi).1⟩, ⟨h1, fun i hi => (h2 i hi).2.1⟩, ⟨h1, fun i hi => (h2 i hi).2.2.1⟩,
          ⟨h1, fun i hi => (h2 i hi).2.2.2⟩⟩
    rw [← hiff]
    constructor
    · intro h; exact ⟨⟨Q, g', hQ, h, trivial⟩, trivial⟩
    · rintro ⟨⟨Q', g'', e, h, -⟩, -⟩
      rw [hQ] at e
      obtain ⟨rfl, -⟩ := Prod.mk.inj (Except.ok.inj e)
      exact h
  rw [hset]
  refine ⟨hEm.prod MeasurableSet.univ, ?_⟩
  unfold tapes
  rw [Measure.prod_prod, hEp, measure_univ, mul_one]

/-- The law of the univariate parameters, with one channel each. -/
theorem uInit_law (hf : Fair G μ) {a : FitArgs ℝ L} {n : Nat} (hN : 1 ≤ a.nShp) (hs : a.sizes ≠ [])
    (hb : ∀ l ∈ a.sizes, 2 ≤ l ∧ l ≤ n) {d : Choices} (hd : d.par.n = a.nShp) :
    HasProb μ (uInit a.nShp a.sizes n a.pNorm a.prime : RM G (UShp ℝ))
      (fun Q => Q.lengths = d.par.lens ∧ Q.dilations = d.par.dils ∧ Q.normalize = d.par.norms ∧
        List.replicate a.nShp 1 = (List.range d.par.n).map d.nch)
      (parWeight a n d.par * ∏ i ∈ Finset.range d.par.n, nchWeight 1 (d.nch i)) := by
  have hw : parWeight a n d.par = ∏ i ∈ Finset.range d.par.n, lengthWeight a.sizes (d.par.length i) *
      dilWeight n a.prime (d.par.length i) (d.par.dilation i) * flagWeight a.pNorm (d.par.normalize i) := by
    unfold parWeight; rw [if_pos hd]
  have hc : List.replicate a.nShp 1 = (List.range d.par.n).map d.nch ↔ ∀ i, i < d.par.n → d.nch i = 1 := by
    rw [list_eq_iff (x := 1), List.length_replicate, hd]
    simp only [true_and]
    constructor
    · intro h i hi; rw [← h i hi]; simp [List.getD_eq_getElem?_getD, List.getElem?_replicate, hi]
    · intro h i hi; rw [h i hi]; simp [List.getD_eq_getElem?_getD, List.getElem?_replicate, hi]
  simp only [hc]
  by_cases h : ∀ i, i < d.par.n → d.nch i = 1
  · have h1 : (∏ i ∈ Finset.range d.par.n, nchWeight 1 (d.nch i)) = 1 :=
      Finset.prod_eq_one fun i hi => by rw [h i (Finset.mem_range.1 hi)]; simp [nchWeight]
    rw [h1, mul_one, hw]
    refine (prob_uInit hf a.pNorm a.prime hN hs hb hd).congr fun g Q g' _ => ?_
    constructor
    · rintro ⟨e1, e2, e3⟩; exact ⟨e1, e2, e3, h⟩
    · rintro ⟨e1, e2, e3, -⟩; exact ⟨e1, e2, e3⟩
  · have h1 : (∏ i ∈ Finset.range d.par.n, nchWeight 1 (d.nch i)) = 0 := by
      push Not at h
      obtain ⟨i, hi, hne⟩ := h
      refine Finset.prod_eq_zero (Finset.mem_range.2 hi) ?_
      unfold nchWeight
      rw [if_neg (by omega)]
    rw [h1, mul_zero]
    exact HasProb.never fun g Q g' _ hh => h hh.2.2.2

end Convst
