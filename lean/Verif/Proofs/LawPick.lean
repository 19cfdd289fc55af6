import Verif.Proofs.LawSteps

/-!
# Probabilities of the choices of one sampling step
-/

set_option autoImplicit false
set_option linter.unusedSectionVars false

namespace Convst
open Spec MeasureTheory
open scoped ENNReal

variable {G L : Type} [MeasurableSpace G] [Gen G ℝ] [LawfulGen G] [DecidableEq L] {μ : Measure G}

theorem ncard_mem {α : Type} [DecidableEq α] {l : List α} (h : l.Nodup) : {x | x ∈ l}.ncard = l.length := by
  have : {x | x ∈ l} = (l.toFinset : Set α) := by ext x; simp
  rw [this, Set.ncard_coe_finset, List.toFinset_card_of_nodup h]

theorem ncard_list {α : Type} [DecidableEq α] {l : List α} {S : Set α} (h : l.Nodup) (hS : ∀ x, x ∈ S ↔ x ∈ l) :
    S.ncard = l.length := by
  rw [← ncard_mem h]
  congr 1
  ext x
  exact hS x

/-! ## The sample of comparison -/

theorem prob_pickOther (hf : Fair G μ) {T : Train L} {y : List L} (hn : T.ns = y.length)
    (hy : ∀ s, T.label s = y[s]?) {s : Nat} (hs : s < y.length) (u : Nat) :
    HasProb μ (pickOther y s : RM G Nat) (· = u) (testWeight T s u) := by
  classical
  unfold pickOther
  obtain ⟨ys, hys⟩ : ∃ v, y[s]? = some v := ⟨y[s], List.getElem?_eq_getElem hs⟩
  have ea : aget y s = .ok ys := by unfold aget; rw [hys]
  rw [ofRes_bind_of_ok ea]
  simp only
  set loc := whereIdx y.length fun i => y[i]? == some ys with hloc
  have hnd : loc.Nodup := whereIdx_nodup _ _
  have hsm : s ∈ loc := mem_whereIdx.2 ⟨hs, by rw [hys]; simp⟩
  have hmem : ∀ v, v ∈ loc.filter (fun i => !(i == s)) ↔ v ∈ others T s := by
    intro v
    rw [List.mem_filter, hloc, mem_whereIdx]
    unfold others
    simp only [Set.mem_setOf_eq, hn, hy, hys]
    constructor
    · rintro ⟨⟨h1, h2⟩, h3⟩
      exact ⟨h1, by simpa using h3, by simpa using h2⟩
    · rintro ⟨h1, h2, h3⟩
      exact ⟨⟨h1, by simpa using h3⟩, by simpa using h2⟩
  have hlen : loc.length = (loc.filter fun i => !(i == s)).length + 1 := by
    have h1 := List.length_eq_length_filter_add (l := loc) (fun i => !(i == s))
    have h2 : (loc.filter fun i => !(!(i == s))).length = 1 := by
      have := List.count_eq_one_of_mem hnd hsm
      rw [List.count_eq_countP, List.countP_eq_length_filter] at this
      simpa using this
    omega
  unfold testWeight
  have hcard : (others T s).ncard = (loc.filter fun i => !(i == s)).length :=
    ncard_list (hnd.filter _) fun v => (hmem v).symm
  by_cases he : others T s = ∅
  · have hnil : loc.filter (fun i => !(i == s)) = [] := by
      rw [List.eq_nil_iff_forall_not_mem]
      intro v hv
      rw [hmem, he] at hv
      exact hv
    rw [if_neg (by rw [hlen, hnil]; simp), if_pos he]
    split
    · rename_i h; exact HasProb.pure h.symm
    · rename_i h
      exact HasProb.never fun g a g' e h' => by cases e; exact h h'.symm
  · have hne : (loc.filter fun i => !(i == s)) ≠ [] := by
      intro h
      apply he
      ext v
      rw [← hmem, h]
      simp
    rw [if_pos (by rw [hlen]; have := List.length_pos_iff.2 hne; omega), if_neg he]
    split
    · rename_i h
      rw [hcard]
      exact prob_choice1_nodup hf (hnd.filter _) ((hmem u).2 h)
    · rename_i h
      refine HasProb.never ?_
      rintro g a g' e rfl
      exact h ((hmem a).1 (choice1_support e))

/-! ## Positions -/

theorem count_const_flatMap (n : Nat) (f : Nat → List Nat) (s : Nat) :
    ((List.range n).flatMap fun s => (f s).map fun _ => s).count s = if s < n then (f s).length else 0 := by
  induction n with
  | zero => simp
  | succ n ih =>
    rw [List.range_succ, List.flatMap_append, List.count_append, ih, List.flatMap_singleton, List.map_const',
      List.count_replicate]
    by_cases h : n = s
    · subst h
      simp
    · by_cases h2 : s < n
      · simp [h, h2]; omega
      · simp [h, h2]; omega

/-- The mask describes the positions blocked by `rec`. -/
def MaskOK (T : Train L) (P : Par) (o : Opt) (multi : Bool) (rec : Nat → Option Src) (i : Nat) (m : SubMask) : Prop :=
  ∀ (ch : List Nat) s t, s < T.ns → t < nWin o.phase (T.len s) (P.length i) (P.dilation i) →
    (EnoughFree multi o.alpha ch (fun c => m (P.normalize i) s c t = false) ↔
      EnoughFree multi o.alpha ch fun c => Blocked T P o rec i s c t)

theorem admissible_iff {T : Train L} {P : Par} {o : Opt} {multi : Bool} {rec : Nat → Option Src} {i : Nat} {m : SubMask}
    (hm : MaskOK T P o multi rec i m) {channels : List Nat} {s t : Nat} :
    Admissible T P o multi rec i channels s t ↔ s < T.ns ∧ t ∈ freePos T P o multi m i channels s := by
  rw [mem_freePos]
  unfold Admissible
  constructor
  · rintro ⟨h1, h2, h3⟩; exact ⟨h1, h2, (hm _ _ _ h1 h2).2 h3⟩
  · rintro ⟨h1, h2, h3⟩; exact ⟨h1, h2, (hm _ _ _ h1 h2).1 h3⟩

theorem freePos_nodup {T : Train L} {P : Par} {o : Opt} {multi : Bool} {m : SubMask} {i s : Nat}
    {channels : List Nat} : (freePos T P o multi m i channels s).Nodup := by
  unfold freePos
  exact whereIdx_nodup _ _

/-- The candidates, as pairs. -/
theorem cand_nodup {n : Nat} {f : Nat → List Nat} (hf : ∀ s, (f s).Nodup) :
    ((List.range n).flatMap fun s => (f s).map fun t => (s, t)).Nodup := by
  rw [List.nodup_flatMap]
  constructor
  · intro s _
    exact (hf s).map fun a b h => (Prod.mk.inj h).2
  · refine List.Pairwise.imp_of_mem ?_ List.nodup_range
    intro a b _ _ hab
    rw [Function.onFun, List.disjoint_left]
    intro p hp hq
    obtain ⟨t, -, rfl⟩ := List.mem_map.1 hp
    obtain ⟨t', -, h⟩ := List.mem_map.1 hq
    exact hab (Prod.mk.inj h).1.symm

theorem mem_cand {n : Nat} {f : Nat → List Nat} {p : Nat × Nat} :
    p ∈ (List.range n).flatMap (fun s => (f s).map fun t => (s, t)) ↔ p.1 < n ∧ p.2 ∈ f p.1 := by
  simp only [List.mem_flatMap, List.mem_range, List.mem_map]
  constructor
  · rintro ⟨s, h1, t, h2, rfl⟩; exact ⟨h1, h2⟩
  · rintro ⟨h1, h2⟩; exact ⟨p.1, h1, p.2, h2, rfl⟩

/-- Both ways of drawing a position give the weight of the specification. -/
theorem posWeight_eq {sl : Bool} {T : Train L} {P : Par} {o : Opt} {multi : Bool} {rec : Nat → Option Src} {i : Nat}
    {m : SubMask} (hm : MaskOK T P o multi rec i m) {channels : List Nat} {s t : Nat}
    (hA : Admissible T P o multi rec i channels s t) :
    (((freeSamples sl T P o multi m i channels).count s : ℝ≥0∞) / (freeSamples sl T P o multi m i channels).length) *
      ((freePos T P o multi m i channels s).length : ℝ≥0∞)⁻¹ =
      posWeight sl T P o multi rec i channels s t := by
  classical
  obtain ⟨hs, ht⟩ := (admissible_iff hm).1 hA
  have hfp : freePos T P o multi m i channels s ≠ [] := List.ne_nil_of_mem ht
  unfold posWeight
  rw [if_pos hA]
  cases sl with
  | true =>
    have hpos : (positions T P o multi rec i channels).ncard =
        (freeSamples true T P o multi m i channels).length := by
      rw [ncard_list (cand_nodup (n := T.ns) (f := freePos T P o multi m i channels) fun _ => freePos_nodup)]
      · unfold freeSamples
        rw [if_pos rfl, ← cand_fst, List.length_map]
      · intro p
        rw [mem_cand]
        exact admissible_iff hm
    rw [if_pos rfl, hpos]
    have hc : (freeSamples true T P o multi m i channels).count s = (freePos T P o multi m i channels s).length := by
      unfold freeSamples
      rw [if_pos rfl, count_const_flatMap, if_pos hs]
    rw [hc, ENNReal.div_eq_inv_mul, mul_assoc, ENNReal.mul_inv_cancel, mul_one]
    · have := List.length_pos_iff.2 hfp
      simpa using hfp
    · exact ENNReal.natCast_ne_top _
  | false =>
    rw [if_neg (by simp)]
    have hnd : (freeSamples false T P o multi m i channels).Nodup := by
      unfold freeSamples
      rw [if_neg (by simp)]
      exact whereIdx_nodup _ _
    have h1 : {s | ∃ t, Admissible T P o multi rec i channels s t}.ncard =
        (freeSamples false T P o multi m i channels).length := by
      refine ncard_list hnd fun s' => ?_
      rw [mem_freeSamples, Set.mem_setOf_eq]
      constructor
      · rintro ⟨t', h⟩
        obtain ⟨h1, h2⟩ := (admissible_iff hm).1 h
        exact ⟨h1, List.ne_nil_of_mem h2⟩
      · rintro ⟨h1, h2⟩
        obtain ⟨t', ht'⟩ := List.exists_mem_of_ne_nil _ h2
        exact ⟨t', (admissible_iff hm).2 ⟨h1, ht'⟩⟩
    have h2 : {t | Admissible T P o multi rec i channels s t}.ncard =
        (freePos T P o multi m i channels s).length := by
      refine ncard_list freePos_nodup fun t' => ?_
      rw [Set.mem_setOf_eq, admissible_iff hm]
      exact ⟨fun h => h.2, fun h => ⟨hs, h⟩⟩
    rw [h1, h2, List.count_eq_one_of_mem hnd (mem_freeSamples.2 ⟨hs, hfp⟩)]
    simp

theorem positions_empty {sl : Bool} {T : Train L} {P : Par} {o : Opt} {multi : Bool} {rec : Nat → Option Src} {i : Nat}
    {m : SubMask} (hm : MaskOK T P o multi rec i m) {channels : List Nat} :
    positions T P o multi rec i channels = ∅ ↔ freeSamples sl T P o multi m i channels = [] := by
  rw [List.eq_nil_iff_forall_not_mem, Set.eq_empty_iff_forall_notMem]
  constructor
  · intro h s hs
    obtain ⟨h1, h2⟩ := mem_freeSamples.1 hs
    obtain ⟨t, ht⟩ := List.exists_mem_of_ne_nil _ h2
    exact h (s, t) ((admissible_iff hm).2 ⟨h1, ht⟩)
  · rintro h ⟨s, t⟩ hst
    obtain ⟨h1, h2⟩ := (admissible_iff hm).1 hst
    exact h s (mem_freeSamples.2 ⟨h1, List.ne_nil_of_mem h2⟩)

/-- Position and sample of comparison. -/
theorem prob_pickPos (hf : Fair G μ) (swap : Bool) {T : Train L} {y : List L} (hn : T.ns = y.length)
    (hy : ∀ s, T.label s = y[s]?) {free : List Nat} (hfree : free.Nodup) {s t : Nat} (hs : s < y.length)
    (ht : t ∈ free) (u : Nat) :
    HasProb μ (pickPos swap y free s : RM G (Nat × Nat)) (· = (t, u))
      ((free.length : ℝ≥0∞)⁻¹ * testWeight T s u) := by
  have h1 := prob_choice1_nodup (G := G) (μ := μ) hf hfree ht
  have h2 := prob_pickOther hf hn hy hs u
  unfold pickPos
  cases swap with
  | true =>
    rw [if_pos rfl, mul_comm]
    refine HasProb.bindEq (a0 := u) h2 ?_ ?_
    · refine HasProb.map (f := fun t => (t, u)) ?_
      exact h1.congr fun g a g' _ => by simp
    · rintro g0 a g b g' - hne e rfl
      rw [RM.bind_apply, Res.bind_eq_ok] at e
      obtain ⟨⟨t', g2⟩, -, e⟩ := e
      cases e
      exact hne rfl
  | false =>
    rw [if_neg (by simp)]
    refine HasProb.bindEq (a0 := t) h1 ?_ ?_
    · refine HasProb.map (f := fun u => (t, u)) ?_
      exact h2.congr fun g a g' _ => by simp
    · rintro g0 a g b g' - hne e rfl
      rw [RM.bind_apply, Res.bind_eq_ok] at e
      obtain ⟨⟨t', g2⟩, -, e⟩ := e
      cases e
      exact hne rfl

theorem pickPos_support {swap : Bool} {y : List L} {free : List Nat} {s : Nat} {g g' : G} {p : Nat × Nat}
    (h : pickPos swap y free s g = .ok (p, g')) :
    p.1 ∈ free ∧ ∃ g1 g2 : G, pickOther y s g1 = .ok (p.2, g2) := by
  unfold pickPos at h
  cases swap with
  | true =>
    rw [if_pos rfl, RM.bind_apply, Res.bind_eq_ok] at h
    obtain ⟨⟨u, g1⟩, h1, h⟩ := h
    simp only at h
    rw [RM.bind_apply, Res.bind_eq_ok] at h
    obtain ⟨⟨t, g2⟩, h2, h⟩ := h
    cases h
    exact ⟨choice1_support h2, _, _, h1⟩
  | false =>
    rw [if_neg (by simp), RM.bind_apply, Res.bind_eq_ok] at h
    obtain ⟨⟨u, g1⟩, h1, h⟩ := h
    simp only at h
    rw [RM.bind_apply, Res.bind_eq_ok] at h
    obtain ⟨⟨t, g2⟩, h2, h⟩ := h
    cases h
    exact ⟨choice1_support h1, _, _, h2⟩

/-! ## The step -/

/-- The event "these channels, this source, a threshold below `x`" (or "discarded"). -/
def StepEv (channels : List Nat) (src : Option Src) (x : ℝ) (z : List Nat × Option (Src × ℝ)) : Prop :=
  z.1 = channels ∧ match src with
    | none => z.2 = none
    | some r => ∃ thr, z.2 = some (r, thr) ∧ thr < x

/-- The mask after a step. -/
noncomputable def nextMask (T : Train L) (P : Par) (o : Opt) (minL : Nat) (m : SubMask) (i : Nat) (src : Option Src) :
    SubMask :=
  match src with
  | none => m
  | some r => marked T P o minL m i r

theorem pickRest_support {sl swap : Bool} {T : Train L} {y : List L} {P : Par} {o : Opt} {multi : Bool} {minL : Nat}
    {m : SubMask} {i : Nat} {channels : List Nat} {g g' : G} {z : SubMask × List Nat × Option (Src × ℝ)}
    (h : pickRest sl swap T y P o multi minL m i channels g = .ok (z, g')) :
    (freeSamples sl T P o multi m i channels = [] ∧ z = (m, channels, none)) ∨
      ∃ (s t u : Nat) (thr : ℝ) (g1 g2 : G), s ∈ freeSamples sl T P o multi m i channels ∧ t ∈ freePos T P o multi m i channels s ∧
        pickOther y s g1 = .ok (u, g2) ∧
        z = (marked T P o minL m i ⟨s, t, u, channels⟩, channels, some (⟨s, t, u, channels⟩, thr)) := by
  unfold pickRest at h
  split at h
  · right
    rw [RM.bind_apply, Res.bind_eq_ok] at h
    obtain ⟨⟨s, g1⟩, h1, h⟩ := h
    simp only at h
    rw [RM.bind_apply, Res.bind_eq_ok] at h
    obtain ⟨⟨p, g2⟩, h2, h⟩ := h
    simp only at h
    rw [RM.bind_apply, Res.bind_eq_ok] at h
    obtain ⟨⟨thr, g3⟩, h3, h⟩ := h
    cases h
    obtain ⟨h4, g5, g6, h5⟩ := pickPos_support h2
    exact ⟨s, p.1, p.2, thr, g5, g6, choice1_support h1, h4, h5, rfl⟩
  · rename_i hne
    left
    cases h
    exact ⟨by simpa using hne, rfl⟩

theorem prob_pickRest (hf : Fair G μ) {sl swap : Bool} {T : Train L} {y : List L} (hn : T.ns = y.length)
    (hy : ∀ s, T.label s = y[s]?) {P : Par} {o : Opt} {multi : Bool} {minL : Nat}
    {rec : Nat → Option Src} {i : Nat} {m : SubMask} (hm : MaskOK T P o multi rec i m)
    (hD : ∀ r : Src, r.test < T.ns → distTo T P o i r r.test ≠ [])
    (h0 : 0 ≤ o.pMin) (h1 : o.pMin ≤ o.pMax) (h2 : o.pMax ≤ 100) {channels : List Nat} {src : Option Src} (x : ℝ) :
    HasProb μ (pickRest sl swap T y P o multi minL m i channels : RM G _) (fun z => StepEv channels src x z.2)
      (match src with
        | none => open Classical in if positions T P o multi rec i channels = ∅ then 1 else 0
        | some r => if r.channels = channels then
            posWeight sl T P o multi rec i channels r.sample r.index * testWeight T r.sample r.test *
              thrWeight o (distTo T P o i r r.test) x
          else 0) := by
  classical
  cases src with
  | none =>
    simp only
    split
    · rename_i he
      rw [positions_empty (sl := sl) hm] at he
      unfold pickRest
      rw [he]
      simp only [List.length_nil, gt_iff_lt, lt_irrefl, if_false]
      exact HasProb.pure ⟨rfl, rfl⟩
    · rename_i he
      rw [positions_empty (sl := sl) hm] at he
      refine HasProb.never ?_
      rintro g z g' hz ⟨-, hz2⟩
      rcases pickRest_support hz with ⟨h, -⟩ | ⟨s, t, u, thr, g1, g2, -, -, -, rfl⟩
      · exact he h
      · cases hz2
  | some r =>
    simp only
    split
    · rename_i hch
      by_cases hA : Admissible T P o multi rec i channels r.sample r.index ∧ r.test < T.ns
      · obtain ⟨hA, hu⟩ := hA
        obtain ⟨hs, ht⟩ := (admissible_iff hm).1 hA
        have hmem : r.sample ∈ freeSamples sl T P o multi m i channels :=
          mem_freeSamples.2 ⟨hs, List.ne_nil_of_mem ht⟩
        rw [← posWeight_eq (sl := sl) hm hA]
        have hr : (⟨r.sample, r.index, r.test, channels⟩ : Src) = r := by rw [← hch]
        unfold pickRest
        rw [if_pos (List.length_pos_iff.2 (List.ne_nil_of_mem hmem)), mul_assoc, mul_assoc]
        refine HasProb.bindEq (a0 := r.sample) (prob_choice1 hf _ _) ?_ ?_
        · rw [← mul_assoc]
          refine HasProb.bindEq (a0 := (r.index, r.test))
            (prob_pickPos hf swap hn hy freePos_nodup (by omega) ht r.test) ?_ ?_
          · simp only [hr]
            refine HasProb.map (f := fun thr => (marked T P o minL m i r, channels, some (r, thr))) ?_
            refine (prob_drawThreshold hf (hD r hu) h0 h1 h2 x).congr fun g thr g' _ => ?_
            constructor
            · intro h; exact ⟨rfl, thr, rfl, h⟩
            · rintro ⟨-, thr', h3, h4⟩
              cases h3
              exact h4
          · rintro g0 p g b g' - hne e ⟨-, thr, h3, -⟩
            rw [RM.bind_apply, Res.bind_eq_ok] at e
            obtain ⟨⟨thr', g2⟩, -, e⟩ := e
            cases e
            apply hne
            simp only [Option.some.injEq, Prod.mk.injEq] at h3
            rw [← h3.1]
        · rintro g0 s g b g' - hne e ⟨-, thr, h3, -⟩
          rw [RM.bind_apply, Res.bind_eq_ok] at e
          obtain ⟨⟨p, g2⟩, -, e⟩ := e
          simp only at e
          rw [RM.bind_apply, Res.bind_eq_ok] at e
          obtain ⟨⟨thr', g3⟩, -, e⟩ := e
          cases e
          apply hne
          simp only [Option.some.injEq, Prod.mk.injEq] at h3
          rw [← h3.1]
      · have hw : posWeight sl T P o multi rec i channels r.sample r.index * testWeight T r.sample r.test = 0 := by
          rw [not_and_or] at hA
          by_cases hA1 : Admissible T P o multi rec i channels r.sample r.index
          · have hu : ¬ r.test < T.ns := hA.resolve_left (not_not.2 hA1)
            have : testWeight T r.sample r.test = 0 := by
              unfold testWeight
              split
              · rw [if_neg]
                intro h; exact hu (h ▸ hA1.1)
              · rw [if_neg]
                rintro ⟨h, -⟩; exact hu h
            rw [this, mul_zero]
          · unfold posWeight
            rw [if_neg hA1, zero_mul]
        rw [hw, zero_mul]
        refine HasProb.never ?_
        rintro g z g' hz ⟨-, thr, hz2, -⟩
        rcases pickRest_support hz with ⟨-, rfl⟩ | ⟨s, t, u, thr', g1, g2, e1, e2, e3, rfl⟩
        · cases hz2
        · simp only [Option.some.injEq, Prod.mk.injEq] at hz2
          obtain ⟨rfl, -⟩ := hz2
          have hs := (mem_freeSamples.1 e1).1
          refine hA ⟨(admissible_iff hm).2 ⟨hs, e2⟩, ?_⟩
          have := pickOther_support (by rw [← hn]; exact hs) e3
          simp only
          omega
    · rename_i hch
      refine HasProb.never ?_
      rintro g z g' hz ⟨-, thr, hz2, -⟩
      rcases pickRest_support hz with ⟨-, rfl⟩ | ⟨s, t, u, thr', g1, g2, e1, e2, e3, rfl⟩
      · cases hz2
      · simp only [Option.some.injEq, Prod.mk.injEq] at hz2
        apply hch
        rw [← hz2.1]

theorem prob_pickChannels (hf : Fair G μ) (multi : Bool) (nf nch : Nat) (channels : List Nat) :
    HasProb μ (pickChannels multi nf nch : RM G (List Nat)) (· = channels) (channelWeight multi nf nch channels) := by
  classical
  unfold pickChannels channelWeight
  cases multi with
  | true =>
    simp only [if_true]
    split
    · rename_i h
      unfold ChannelsOK at h
      rw [if_pos rfl] at h
      obtain ⟨h1, rfl, h3⟩ := h
      have := prob_choiceNoRep (G := G) hf (a := List.range nf) List.nodup_range h1
        (fun c hc => List.mem_range.2 (h3 c hc))
      rwa [List.length_range] at this
    · rename_i h
      refine HasProb.never ?_
      rintro g z g' hz rfl
      by_cases hk : nch ≤ nf
      · obtain ⟨a, g1, e, ha⟩ := wp_choiceNoRep (G := G) (a := List.range nf) (k := nch) List.nodup_range
          (by simpa using hk) g
        rw [hz] at e
        cases e
        apply h
        unfold ChannelsOK
        rw [if_pos rfl]
        exact ⟨ha.2.1, ha.1, fun c hc => List.mem_range.1 (ha.2.2 c hc)⟩
      · unfold choiceNoRep at hz
        rw [if_pos (by rw [List.length_range]; omega)] at hz
        cases hz
  | false =>
    simp only [Bool.false_eq_true, if_false]
    split
    · rename_i h
      unfold ChannelsOK at h
      rw [if_neg (by simp)] at h
      exact HasProb.pure h.symm
    · rename_i h
      refine HasProb.never ?_
      rintro g z g' hz rfl
      cases hz
      exact h (by unfold ChannelsOK; rw [if_neg (by simp)])

/-- The law of one step. -/
theorem prob_pickStep (hf : Fair G μ) {sl swap : Bool} {T : Train L} {y : List L} (hn : T.ns = y.length)
    (hy : ∀ s, T.label s = y[s]?) {P : Par} {o : Opt} {multi : Bool} {nch : Nat → Nat} {minL : Nat}
    {rec : Nat → Option Src} {i : Nat} {m : SubMask} (hm : MaskOK T P o multi rec i m)
    (hD : ∀ r : Src, r.test < T.ns → distTo T P o i r r.test ≠ [])
    (h0 : 0 ≤ o.pMin) (h1 : o.pMin ≤ o.pMax) (h2 : o.pMax ≤ 100) (channels : Nat → List Nat) (x : Nat → ℝ) :
    HasProb μ (pickStep sl swap T y P o multi nch minL m i : RM G _)
      (fun z => StepEv (channels i) (rec i) (x i) z.2) (stepWeight sl T P o multi nch channels rec x i) := by
  unfold pickStep stepWeight
  refine HasProb.bindEq (a0 := channels i) (prob_pickChannels hf multi T.nf (nch i) (channels i))
    (prob_pickRest hf hn hy hm hD h0 h1 h2 (x i)) ?_
  rintro g0 ch g z g' - hne hz ⟨hz1, -⟩
  apply hne
  rw [← hz1]
  rcases pickRest_support hz with ⟨-, rfl⟩ | ⟨s, t, u, thr', g1, g2, e1, e2, e3, rfl⟩ <;> rfl

theorem pickStep_mask {sl swap : Bool} {T : Train L} {y : List L} {P : Par} {o : Opt} {multi : Bool} {nch : Nat → Nat}
    {minL : Nat} {m : SubMask} {i : Nat} {g g' : G} {z : SubMask × List Nat × Option (Src × ℝ)}
    (h : pickStep sl swap T y P o multi nch minL m i g = .ok (z, g')) {channels : List Nat} {src : Option Src} {x : ℝ}
    (hz : StepEv channels src x z.2) : z.1 = nextMask T P o minL m i src := by
  unfold pickStep at h
  rw [RM.bind_apply, Res.bind_eq_ok] at h
  obtain ⟨⟨ch, g1⟩, -, h⟩ := h
  simp only at h
  rcases pickRest_support h with ⟨-, rfl⟩ | ⟨s, t, u, thr', g1, g2, e1, e2, e3, rfl⟩
  · cases src with
    | none => rfl
    | some r => obtain ⟨-, thr, hz, -⟩ := hz; cases hz
  · cases src with
    | none => cases hz.2
    | some r =>
      obtain ⟨-, thr, hz, -⟩ := hz
      simp only [Option.some.injEq, Prod.mk.injEq] at hz
      obtain ⟨rfl, -⟩ := hz
      rfl

end Convst
