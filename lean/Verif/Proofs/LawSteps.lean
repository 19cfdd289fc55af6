import Verif.Proofs.LawInit

/-!
# Law of one sampling step

`pickStep` is a description of a sampling step in terms of the specification, which also returns the choices made; the
four steps of the model are equal to it.
-/

set_option autoImplicit false
set_option linter.unusedSectionVars false

namespace Convst
open Spec MeasureTheory
open scoped ENNReal

variable {G L : Type} [MeasurableSpace G] [Gen G ℝ] [LawfulGen G] [DecidableEq L]

theorem bind_congr_support {α β : Type} {c : RM G α} {f f' : α → RM G β}
    (h : ∀ g a g', c g = .ok (a, g') → f a = f' a) : (c >>= f) = (c >>= f') := by
  funext g
  rw [RM.bind_apply, RM.bind_apply]
  cases hc : c g with
  | error e => rfl
  | ok p =>
    obtain ⟨a, g'⟩ := p
    simp only [Res.bind_ok]
    rw [h g a g' hc]

open Classical in
/-- The free positions of sample `s`. -/
noncomputable def freePos (T : Train L) (P : Par) (o : Opt) (multi : Bool) (m : SubMask) (i : Nat)
    (channels : List Nat) (s : Nat) : List Nat :=
  whereIdx (nWin o.phase (T.len s) (P.length i) (P.dilation i)) fun t =>
    decide (EnoughFree multi o.alpha channels fun c => m (P.normalize i) s c t = false)

/-- The list a sample is chosen from. -/
noncomputable def freeSamples (sl : Bool) (T : Train L) (P : Par) (o : Opt) (multi : Bool) (m : SubMask) (i : Nat)
    (channels : List Nat) : List Nat :=
  if sl then (List.range T.ns).flatMap fun s => (freePos T P o multi m i channels s).map fun _ => s
  else whereIdx T.ns fun s => !(freePos T P o multi m i channels s).isEmpty

open Classical in
/-- The mask after the choice of `r`. -/
noncomputable def marked (T : Train L) (P : Par) (o : Opt) (minL : Nat) (m : SubMask) (i : Nat) (r : Src) : SubMask :=
  fun n s c t => decide (m n s c t = true ∧ ¬ (n = P.normalize i ∧ s = r.sample ∧
    c ∈ r.channels ∧ Near (T.len s) (P.length i) (P.dilation i) (allowance o.alpha minL) r.index t))

open Classical in
theorem marked_iff {T : Train L} {P : Par} {o : Opt} {minL : Nat} {m : SubMask} {i : Nat} {r : Src} {n : Bool}
    {s c t : Nat} : marked T P o minL m i r n s c t = true ↔ m n s c t = true ∧ ¬ (n = P.normalize i ∧
      s = r.sample ∧ c ∈ r.channels ∧ Near (T.len s) (P.length i) (P.dilation i) (allowance o.alpha minL) r.index t) := by
  unfold marked
  exact decide_eq_true_iff

/-- Position and comparison sample, in the order in which the variant draws them. -/
noncomputable def pickPos (swap : Bool) (y : List L) (free : List Nat) (s : Nat) : RM G (Nat × Nat) :=
  if swap then do
    let u ← pickOther y s
    let t ← choice1 free
    pure (t, u)
  else do
    let t ← choice1 free
    let u ← pickOther y s
    pure (t, u)

/-- Sampling with given channels; `sl` is the scheme for series of equal length. -/
noncomputable def pickRest (sl swap : Bool) (T : Train L) (y : List L) (P : Par) (o : Opt) (multi : Bool) (minL : Nat)
    (m : SubMask) (i : Nat) (channels : List Nat) : RM G (SubMask × List Nat × Option (Src × ℝ)) :=
  if (freeSamples sl T P o multi m i channels).length > 0 then do
    let s ← choice1 (freeSamples sl T P o multi m i channels)
    let p ← pickPos swap y (freePos T P o multi m i channels s) s
    let thr ← drawThreshold (distTo T P o i ⟨s, p.1, p.2, channels⟩ p.2) o.pMin o.pMax
    pure (marked T P o minL m i ⟨s, p.1, p.2, channels⟩, channels, some (⟨s, p.1, p.2, channels⟩, thr))
  else pure (m, channels, none)

/-- Choice of the channels. -/
def pickChannels (multi : Bool) (nf nch : Nat) : RM G (List Nat) :=
  if multi then choiceNoRep (List.range nf) nch else pure [0]

/-- A sampling step, with the choices made. -/
noncomputable def pickStep (sl swap : Bool) (T : Train L) (y : List L) (P : Par) (o : Opt) (multi : Bool)
    (nch : Nat → Nat) (minL : Nat) (m : SubMask) (i : Nat) : RM G (SubMask × List Nat × Option (Src × ℝ)) := do
  let channels ← pickChannels multi T.nf (nch i)
  pickRest sl swap T y P o multi minL m i channels

/-- The shapelet obtained from the choices. -/
noncomputable def outOf (T : Train L) (P : Par) (o : Opt) (i : Nat) (x : Option (Src × ℝ)) : Option (Out ℝ) :=
  x.map fun p => ⟨p.1.channels.flatMap fun c => subseq T P o i p.1.sample c p.1.index, p.1.channels, p.2⟩

/-- The step of the model does what `pickStep` does. -/
def IsPick (sl swap : Bool) (T : Train L) (y : List L) (P : Par) (o : Opt) (multi : Bool)
    (nch : Nat → Nat) (minL : Nat) (m : SubMask) (i : Nat) (step : RM G (SubMask × Option (Out ℝ))) : Prop :=
  step = (pickStep sl swap T y P o multi nch minL m i >>= fun x => pure (x.1, outOf T P o i x.2.2))

/-! ## The lists of candidates -/

theorem cand_fst (n : Nat) (f : Nat → List Nat) :
    (((List.range n).flatMap fun s => (f s).map fun t => (s, t)).map Prod.fst) =
      (List.range n).flatMap fun s => (f s).map fun _ => s := by
  rw [List.map_flatMap]
  simp [List.map_map, Function.comp_def]

theorem cand_snd {n : Nat} (f : Nat → List Nat) {s : Nat} (hs : s < n) :
    (((List.range n).flatMap fun s => (f s).map fun t => (s, t)).filter fun p => p.1 == s).map Prod.snd = f s := by
  have key : ∀ l : List Nat, l.Nodup →
      ((l.flatMap fun s => (f s).map fun t => (s, t)).filter fun p => p.1 == s).map Prod.snd =
        if s ∈ l then f s else [] := by
    intro l hl
    induction l with
    | nil => simp
    | cons a l ih =>
      rw [List.nodup_cons] at hl
      rw [List.flatMap_cons, List.filter_append, List.map_append, ih hl.2]
      by_cases ha : a = s
      · subst ha
        rw [if_neg hl.1, if_pos (by simp), List.append_nil]
        have e : ((f a).map fun t => (a, t)).filter (fun p => p.1 == a) = (f a).map fun t => (a, t) := by
          rw [List.filter_eq_self]
          intro p hp
          obtain ⟨t, -, rfl⟩ := List.mem_map.1 hp
          simp
        rw [e, List.map_map]
        simp [Function.comp_def]
      · have e : ((f a).map fun t => (a, t)).filter (fun p => p.1 == s) = [] := by
          rw [List.filter_eq_nil_iff]
          intro p hp
          obtain ⟨t, -, rfl⟩ := List.mem_map.1 hp
          simpa using ha
        rw [e]
        have : s ∈ a :: l ↔ s ∈ l := by
          rw [List.mem_cons]
          constructor
          · rintro (h | h)
            · exact absurd h.symm ha
            · exact h
          · exact Or.inr
        simp [this]
  rw [key _ List.nodup_range, if_pos (List.mem_range.2 hs)]

open Classical in
theorem freePos_uni {T : Train L} {P : Par} {o : Opt} {m : SubMask} {i s : Nat} {channels : List Nat} :
    freePos T P o false m i channels s =
      whereIdx (nWin o.phase (T.len s) (P.length i) (P.dilation i)) fun t => m (P.normalize i) s 0 t := by
  unfold freePos whereIdx
  refine List.filter_congr fun t _ => ?_
  rw [Bool.eq_iff_iff, decide_eq_true_iff]
  simp [EnoughFree]

open Classical in
theorem freePos_multi {T : Train L} {P : Par} {o : Opt} {m : SubMask} {i s : Nat} {channels : List Nat} :
    freePos T P o true m i channels s =
      whereIdx (nWin o.phase (T.len s) (P.length i) (P.dilation i)) fun t =>
        enough o.alpha m (P.normalize i) s t channels := by
  unfold freePos whereIdx
  refine List.filter_congr fun t _ => ?_
  rw [Bool.eq_iff_iff, decide_eq_true_iff, enough_iff]

theorem iMask_eq {ns : Nat} (w : Nat → List Nat) :
    whereIdx ns (fun s => !(((List.range ns).map w).getD s []).isEmpty) = whereIdx ns fun s => !(w s).isEmpty := by
  unfold whereIdx
  refine List.filter_congr fun s hs => ?_
  rw [getD_range_map _ (List.mem_range.1 hs)]

theorem mem_freeSamples {sl : Bool} {T : Train L} {P : Par} {o : Opt} {multi : Bool} {m : SubMask} {i s : Nat}
    {channels : List Nat} : s ∈ freeSamples sl T P o multi m i channels ↔
      s < T.ns ∧ freePos T P o multi m i channels s ≠ [] := by
  unfold freeSamples
  cases sl with
  | true =>
    simp only [if_true, List.mem_flatMap, List.mem_range, List.mem_map]
    constructor
    · rintro ⟨s', h1, t, h2, rfl⟩
      exact ⟨h1, List.ne_nil_of_mem h2⟩
    · rintro ⟨h1, h2⟩
      obtain ⟨t, ht⟩ := List.exists_mem_of_ne_nil _ h2
      exact ⟨s, h1, t, ht, rfl⟩
  | false =>
    simp only [Bool.false_eq_true, if_false, mem_whereIdx]
    simp

open Classical in
theorem mem_freePos {T : Train L} {P : Par} {o : Opt} {multi : Bool} {m : SubMask} {i s t : Nat}
    {channels : List Nat} : t ∈ freePos T P o multi m i channels s ↔
      t < nWin o.phase (T.len s) (P.length i) (P.dilation i) ∧
        EnoughFree multi o.alpha channels fun c => m (P.normalize i) s c t = false := by
  unfold freePos
  rw [mem_whereIdx, decide_eq_true_iff]

theorem pickOther_support {y : List L} {s : Nat} (hs : s < y.length) {g g' : G} {t : Nat}
    (h : pickOther y s g = .ok (t, g')) : t < y.length := by
  obtain ⟨a, g1, e, h1, -⟩ := wp_pickOther (G := G) (y := y) hs g
  rw [h] at e
  cases e
  exact h1

theorem channels_support {nf k : Nat} (hk : k ≤ nf) {g g' : G} {channels : List Nat}
    (h : choiceNoRep (List.range nf) k g = .ok (channels, g')) : ∀ c ∈ channels, c < nf := by
  obtain ⟨a, g1, e, h1⟩ := wp_choiceNoRep (G := G) (a := List.range nf) (k := k) List.nodup_range (by simpa using hk) g
  rw [h] at e
  cases e
  intro c hc
  exact List.mem_range.1 (h1.2.2 c hc)

/-! ## The four steps -/

theorem uslStep_pick {a : FitArgs ℝ L} (hd : DataSL a) (hnf : 1 ≤ a.nf)
    {lengths dilations : List Nat} {normalize : List Bool}
    (hP : ParOK lengths dilations normalize a.nt) {i : Nat} (hi : i < lengths.length)
    (nch : Nat → Nat) (minL : Nat) (m : SubMask) :
    IsPick (G := G) true false (trainSL a) a.y (parOf lengths dilations normalize) (optOf a) false nch minL m i
      (uslStep a lengths dilations normalize minL m i) := by
  have hpos := hP.pos i hi
  have hroom := hP.room i hi
  unfold IsPick pickStep pickChannels uslStep
  simp only [Bool.false_eq_true, if_false, pure_bind]
  rw [ofRes_bind_of_ok (aget_getD 0 (by rw [hP.dil]; exact hi)), ofRes_bind_of_ok (aget_getD 0 hi),
    ofRes_bind_of_ok (aget_getD false (by rw [hP.norm]; exact hi))]
  have hstop := vlStop_eq (phase := a.phase) hpos hroom.le (le_refl a.nt)
  unfold vlStop at hstop
  simp only [hstop]
  have hfree : ∀ s, freePos (trainSL a) (parOf lengths dilations normalize) (optOf a) false m i [0] s =
      whereIdx (nWin a.phase a.nt (lengths.getD i 0) (dilations.getD i 0)) fun t => m (normalize.getD i false) s 0 t :=
    fun s => freePos_uni
  have hsamp : freeSamples true (trainSL a) (parOf lengths dilations normalize) (optOf a) false m i [0] =
      ((List.range a.X.length).flatMap fun s =>
        (whereIdx (nWin a.phase a.nt (lengths.getD i 0) (dilations.getD i 0)) fun t =>
          m (normalize.getD i false) s 0 t).map fun t => (s, t)).map Prod.fst := by
    rw [cand_fst]
    unfold freeSamples
    simp only [if_true, hfree]
    rfl
  unfold pickRest
  have hlen : (freeSamples true (trainSL a) (parOf lengths dilations normalize) (optOf a) false m i [0]).length =
      ((List.range a.X.length).flatMap fun s =>
        (whereIdx (nWin a.phase a.nt (lengths.getD i 0) (dilations.getD i 0)) fun t =>
          m (normalize.getD i false) s 0 t).map fun t => (s, t)).length := by rw [hsamp, List.length_map]
  rw [hlen]
  split
  · rw [hsamp, bind_assoc]
    refine bind_congr_support fun g s g' hs => ?_
    have hs := choice1_support hs
    rw [← hsamp, mem_freeSamples] at hs
    have hsl : s < a.X.length := hs.1
    rw [hfree s, cand_snd (fun s => whereIdx (nWin a.phase a.nt (lengths.getD i 0) (dilations.getD i 0)) fun t =>
          m (normalize.getD i false) s 0 t) hsl]
    unfold pickPos
    simp only [Bool.false_eq_true, if_false, bind_assoc, pure_bind]
    refine bind_congr_support fun g1 t g1' ht => ?_
    obtain ⟨htl, hmt⟩ := mem_whereIdx.1 (choice1_support ht)
    have hnt : 0 < a.nt := by omega
    obtain ⟨m', e1, hm'⟩ := markLoop_ok (sh := ⟨a.X.length, 1, a.nt⟩) m (normalize.getD i false)
      (s := s) (c := 0) (n := a.nt) t (dilations.getD i 0)
      (alphaSize (lengths.getD i 0) a.alpha minL) hsl (by simp) hnt (le_refl _)
    rw [ofRes_bind_of_ok e1]
    obtain ⟨e2, len2⟩ := hd.get hsl (by omega : 0 < a.nf)
    rw [ofRes_bind_of_ok e2, ofRes_bind_of_ok (getSubsequence_ok (by rw [len2]; exact htl))]
    refine bind_congr_support fun g2 u g2' hu => ?_
    have hul : u < a.X.length := by
      have := pickOther_support (by rw [hd.y]; exact hsl) hu
      rwa [hd.y] at this
    obtain ⟨e3, len3⟩ := hd.get hul (by omega : 0 < a.nf)
    rw [ofRes_bind_of_ok e3, ofRes_bind_of_ok (Props.C17_dist_vector _ _ _ _ _ _ hpos
      (by rw [seen_length, window_length]) (by rw [len3]; exact fits_of_lt hroom))]
    rw [distTo_single (T := trainSL a) (P := parOf lengths dilations normalize) (o := optOf a) (i := i)
      (r := ⟨s, t, u, [0]⟩) rfl len3]
    refine bind_congr_support fun g3 thr g3' _ => ?_
    have hm : marked (trainSL a) (parOf lengths dilations normalize) (optOf a) minL m i ⟨s, t, u, [0]⟩ = m' := by
      refine mask_ext (fun n s c t => marked_iff) ?_
      intro n' s' c t'
      rw [hm']
      simp only [parOf, Near, alphaSize_iff, optOf, trainSL, List.mem_singleton]
    rw [hm]
    simp only [outOf, Option.map_some, List.flatMap_singleton]
    rfl
  · simp [outOf]

theorem uvlStep_pick {a : FitArgs ℝ L} {xLen : List Nat} {n : Nat} (hd : DataVL a xLen n)
    (hnf : 1 ≤ a.nf) {lengths dilations : List Nat} {normalize : List Bool}
    (hP : ParOK lengths dilations normalize n) {i : Nat} (hi : i < lengths.length) {maxLen : Nat}
    (hmax : ∀ s, s < a.X.length → xLen.getD s 0 ≤ maxLen)
    (nch : Nat → Nat) (minL : Nat) (m : SubMask) :
    IsPick (G := G) false false (trainVL a xLen) a.y (parOf lengths dilations normalize) (optOf a) false nch minL m i
      (uvlStep a xLen maxLen lengths dilations normalize minL m i) := by
  have hpos := hP.pos i hi
  have hroom := hP.room i hi
  unfold IsPick pickStep pickChannels uvlStep
  simp only [Bool.false_eq_true, if_false, pure_bind]
  rw [ofRes_bind_of_ok (aget_getD 0 (by rw [hP.dil]; exact hi)), ofRes_bind_of_ok (aget_getD 0 hi),
    ofRes_bind_of_ok (aget_getD false (by rw [hP.norm]; exact hi)),
    ofRes_bind_of_ok (rows_ok hd hpos hroom (fun s t => m (normalize.getD i false) s 0 t) hmax)]
  have hfree : ∀ s, freePos (trainVL a xLen) (parOf lengths dilations normalize) (optOf a) false m i [0] s =
      whereIdx (nWin a.phase (xLen.getD s 0) (lengths.getD i 0) (dilations.getD i 0)) fun t =>
        m (normalize.getD i false) s 0 t := fun s => freePos_uni
  have hsamp : freeSamples false (trainVL a xLen) (parOf lengths dilations normalize) (optOf a) false m i [0] =
      whereIdx a.X.length (fun s => !(List.getD ((List.range a.X.length).map fun s =>
      whereIdx (nWin a.phase (xLen.getD s 0) (lengths.getD i 0) (dilations.getD i 0))
        fun t => m (normalize.getD i false) s 0 t) s []).isEmpty) := by
    rw [iMask_eq]
    unfold freeSamples
    simp only [Bool.false_eq_true, if_false, hfree]
    rfl
  unfold pickRest
  rw [hsamp]
  split
  · rw [bind_assoc]
    refine bind_congr_support fun g s g' hs => ?_
    have hs := choice1_support hs
    rw [← hsamp, mem_freeSamples] at hs
    have hsl : s < a.X.length := hs.1
    obtain ⟨ex, hxn⟩ := hd.xlen hsl
    rw [ofRes_bind_of_ok ex, vlStop_eq hpos (by omega) (hmax _ hsl), hfree s]
    unfold pickPos
    simp only [Bool.false_eq_true, if_false, bind_assoc, pure_bind]
    refine bind_congr_support fun g1 t g1' ht => ?_
    obtain ⟨htl, hmt⟩ := mem_whereIdx.1 (choice1_support ht)
    obtain ⟨m', e1, hm'⟩ := markLoop_ok (sh := ⟨a.X.length, 1, maxLen⟩) m (normalize.getD i false)
      (s := s) (c := 0) (n := xLen.getD s 0) t (dilations.getD i 0)
      (alphaSize (lengths.getD i 0) a.alpha minL) hsl (by simp) (by omega) (hmax _ hsl)
    rw [ofRes_bind_of_ok e1]
    obtain ⟨⟨x, e2, hx⟩, len2⟩ := hd.get hsl (by omega : 0 < a.nf)
    rw [ofRes_bind_of_ok e2, hx, ofRes_bind_of_ok (getSubsequence_ok (by rw [len2]; exact htl))]
    refine bind_congr_support fun g2 u g2' hu => ?_
    have hul : u < a.X.length := by
      have := pickOther_support (by rw [hd.y]; exact hsl) hu
      rwa [hd.y] at this
    obtain ⟨⟨x', e3, hx'⟩, len3⟩ := hd.get hul (by omega : 0 < a.nf)
    obtain ⟨ex', hxn'⟩ := hd.xlen hul
    rw [ofRes_bind_of_ok e3, ofRes_bind_of_ok ex', hx', ofRes_bind_of_ok (Props.C17_dist_vector _ _ _ _ _ _ hpos
      (by rw [seen_length, window_length]) (by rw [len3]; exact fits_of_lt (by omega)))]
    rw [distTo_single (T := trainVL a xLen) (P := parOf lengths dilations normalize) (o := optOf a) (i := i)
      (r := ⟨s, t, u, [0]⟩) rfl len3]
    refine bind_congr_support fun g3 thr g3' _ => ?_
    have hm : marked (trainVL a xLen) (parOf lengths dilations normalize) (optOf a) minL m i ⟨s, t, u, [0]⟩ = m' := by
      refine mask_ext (fun n s c t => marked_iff) ?_
      intro n' s' c t'
      rw [hm']
      simp only [parOf, Near, alphaSize_iff, optOf, trainVL, List.mem_singleton]
      refine and_congr_right fun _ => not_congr ⟨?_, ?_⟩
      · rintro ⟨g1, rfl, g3⟩; exact ⟨g1, rfl, g3⟩
      · rintro ⟨g1, rfl, g3⟩; exact ⟨g1, rfl, g3⟩
    rw [hm]
    simp only [outOf, Option.map_some, List.flatMap_singleton]
    rfl
  · simp [outOf]

theorem mslStep_pick {a : FitArgs ℝ L} (hd : DataSL a)
    {lengths dilations : List Nat} {normalize : List Bool} {nChannels : List Nat}
    (hP : ParOK lengths dilations normalize a.nt) {i : Nat} (hi : i < lengths.length)
    (hnch : nChannels.length = lengths.length) (hnf : ∀ c ∈ nChannels, c ≤ a.nf) (minL : Nat) (m : SubMask) :
    IsPick (G := G) true false (trainSL a) a.y (parOf lengths dilations normalize) (optOf a) true
      (fun i => nChannels.getD i 0) minL m i (mslStep a lengths dilations normalize nChannels minL m i) := by
  have hpos := hP.pos i hi
  have hroom := hP.room i hi
  unfold IsPick pickStep pickChannels mslStep
  simp only [if_true, bind_assoc]
  rw [ofRes_bind_of_ok (aget_getD 0 (by rw [hP.dil]; exact hi)), ofRes_bind_of_ok (aget_getD 0 hi),
    ofRes_bind_of_ok (aget_getD false (by rw [hP.norm]; exact hi)),
    ofRes_bind_of_ok (aget_getD 0 (by rw [hnch]; exact hi))]
  have hstop := vlStop_eq (phase := a.phase) hpos hroom.le (le_refl a.nt)
  have hdim := nWin_dim (phase := a.phase) hpos hroom
  unfold vlStop at hstop
  simp only [hstop]
  refine bind_congr_support fun g0 channels g0' hch => ?_
  have hc3 : ∀ c ∈ channels, c < a.nf := channels_support (by
    have hi' : i < nChannels.length := by rw [hnch]; exact hi
    rw [getD_lt _ hi']; exact hnf _ (List.getElem_mem hi')) hch
  have hfree : ∀ s, freePos (trainSL a) (parOf lengths dilations normalize) (optOf a) true m i channels s =
      whereIdx (nWin a.phase a.nt (lengths.getD i 0) (dilations.getD i 0)) fun t =>
        enough a.alpha m (normalize.getD i false) s t channels :=
    fun s => freePos_multi
  have hsamp : freeSamples true (trainSL a) (parOf lengths dilations normalize) (optOf a) true m i channels =
      ((List.range a.X.length).flatMap fun s =>
        (whereIdx (nWin a.phase a.nt (lengths.getD i 0) (dilations.getD i 0)) fun t =>
          enough a.alpha m (normalize.getD i false) s t channels).map fun t => (s, t)).map Prod.fst := by
    rw [cand_fst]
    unfold freeSamples
    simp only [if_true, hfree]
    rfl
  unfold pickRest
  have hlen : (freeSamples true (trainSL a) (parOf lengths dilations normalize) (optOf a) true m i channels).length =
      ((List.range a.X.length).flatMap fun s =>
        (whereIdx (nWin a.phase a.nt (lengths.getD i 0) (dilations.getD i 0)) fun t =>
          enough a.alpha m (normalize.getD i false) s t channels).map fun t => (s, t)).length := by
    rw [hsamp, List.length_map]
  rw [hlen]
  split
  · rw [ofRes_bind_of_ok hdim, hsamp, bind_assoc]
    refine bind_congr_support fun g s g' hs => ?_
    have hs := choice1_support hs
    rw [← hsamp, mem_freeSamples] at hs
    have hsl : s < a.X.length := hs.1
    rw [hfree s, cand_snd (fun s => whereIdx (nWin a.phase a.nt (lengths.getD i 0) (dilations.getD i 0)) fun t =>
          enough a.alpha m (normalize.getD i false) s t channels) hsl]
    unfold pickPos
    simp only [Bool.false_eq_true, if_false, bind_assoc, pure_bind]
    refine bind_congr_support fun g1 t g1' ht => ?_
    obtain ⟨htl, hmt⟩ := mem_whereIdx.1 (choice1_support ht)
    refine bind_congr_support fun g2 u g2' hu => ?_
    have hnt : 0 < a.nt := by omega
    have hul : u < a.X.length := by
      have := pickOther_support (by rw [hd.y]; exact hsl) hu
      rwa [hd.y] at this
    obtain ⟨m', e1, hm'⟩ := channelLoop_ok (sh := ⟨a.X.length, a.nf, a.nt⟩)
      (xs := fun c => aget2 a.X s c) (xt := fun c => aget2 a.X u c)
      (S := fun c => (trainSL a).series s c) (S' := fun c => (trainSL a).series u c)
      (channels := channels) hc3 (Ts := a.nt) (Tt := a.nt) (fun c hc => hd.get hsl (hc3 c hc))
      (fun c hc => hd.get hul (hc3 c hc)) m (normalize.getD i false) a.phase
      (alphaSize (lengths.getD i 0) a.alpha minL) hsl hpos htl
      (fits_of_lt hroom) hnt (le_refl _)
    rw [ofRes_bind_of_ok e1]
    refine bind_congr_support fun g3 thr g3' _ => ?_
    have hm : marked (trainSL a) (parOf lengths dilations normalize) (optOf a) minL m i ⟨s, t, u, channels⟩ = m' := by
      refine mask_ext (fun n s c t => marked_iff) ?_
      intro n' s' c t'
      rw [hm']
      simp only [parOf, Near, alphaSize_iff, optOf, trainSL]
    rw [hm]
    rfl
  · simp [outOf]

theorem mvlStep_pick {a : FitArgs ℝ L} {xLen : List Nat} {n : Nat} (hd : DataVL a xLen n)
    {lengths dilations : List Nat} {normalize : List Bool} {nChannels : List Nat}
    (hP : ParOK lengths dilations normalize n) {i : Nat} (hi : i < lengths.length)
    (hnch : nChannels.length = lengths.length) (hnf : ∀ c ∈ nChannels, c ≤ a.nf) {maxLen : Nat}
    (hmax : ∀ s, s < a.X.length → xLen.getD s 0 ≤ maxLen) (minL : Nat) (m : SubMask) :
    IsPick (G := G) false true (trainVL a xLen) a.y (parOf lengths dilations normalize) (optOf a) true
      (fun i => nChannels.getD i 0) minL m i (mvlStep a xLen maxLen lengths dilations normalize nChannels minL m i) := by
  have hpos := hP.pos i hi
  have hroom := hP.room i hi
  unfold IsPick pickStep pickChannels mvlStep
  simp only [if_true, bind_assoc]
  rw [ofRes_bind_of_ok (aget_getD 0 (by rw [hP.dil]; exact hi)), ofRes_bind_of_ok (aget_getD 0 hi),
    ofRes_bind_of_ok (aget_getD false (by rw [hP.norm]; exact hi)),
    ofRes_bind_of_ok (aget_getD 0 (by rw [hnch]; exact hi))]
  refine bind_congr_support fun g0 channels g0' hch => ?_
  have hc3 : ∀ c ∈ channels, c < a.nf := channels_support (by
    have hi' : i < nChannels.length := by rw [hnch]; exact hi
    rw [getD_lt _ hi']; exact hnf _ (List.getElem_mem hi')) hch
  rw [ofRes_bind_of_ok (rows_ok hd hpos hroom
    (fun s t => enough a.alpha m (normalize.getD i false) s t channels) hmax)]
  have hfree : ∀ s, freePos (trainVL a xLen) (parOf lengths dilations normalize) (optOf a) true m i channels s =
      whereIdx (nWin a.phase (xLen.getD s 0) (lengths.getD i 0) (dilations.getD i 0)) fun t =>
        enough a.alpha m (normalize.getD i false) s t channels := fun s => freePos_multi
  have hsamp : freeSamples false (trainVL a xLen) (parOf lengths dilations normalize) (optOf a) true m i channels =
      whereIdx a.X.length (fun s => !(List.getD ((List.range a.X.length).map fun s =>
      whereIdx (nWin a.phase (xLen.getD s 0) (lengths.getD i 0) (dilations.getD i 0))
        fun t => enough a.alpha m (normalize.getD i false) s t channels) s []).isEmpty) := by
    rw [iMask_eq]
    unfold freeSamples
    simp only [Bool.false_eq_true, if_false, hfree]
    rfl
  unfold pickRest
  rw [hsamp]
  split
  · rw [bind_assoc]
    refine bind_congr_support fun g s g' hs => ?_
    have hs := choice1_support hs
    rw [← hsamp, mem_freeSamples] at hs
    have hsl : s < a.X.length := hs.1
    obtain ⟨ex, hxn⟩ := hd.xlen hsl
    rw [hfree s]
    unfold pickPos
    simp only [if_true, bind_assoc, pure_bind]
    refine bind_congr_support fun g2 u g2' hu => ?_
    have hul : u < a.X.length := by
      have := pickOther_support (by rw [hd.y]; exact hsl) hu
      rwa [hd.y] at this
    obtain ⟨ex', hxn'⟩ := hd.xlen hul
    rw [ofRes_bind_of_ok ex', ofRes_bind_of_ok (nWin_dim (phase := a.phase) hpos (by omega)), ofRes_bind_of_ok ex,
      vlStop_eq hpos (by omega) (hmax _ hsl)]
    refine bind_congr_support fun g1 t g1' ht => ?_
    obtain ⟨htl, hmt⟩ := mem_whereIdx.1 (choice1_support ht)
    have hget : ∀ s', s' < a.X.length → ∀ c ∈ channels,
        (do let x ← aget2 a.X s' c; pure (x.take (xLen.getD s' 0)) : Res _) =
          .ok ((trainVL a xLen).series s' c) ∧
        ((trainVL a xLen).series s' c).length = xLen.getD s' 0 := by
      intro s' hs' c hc
      obtain ⟨⟨x, e, hx⟩, hlen⟩ := hd.get hs' (hc3 c hc)
      exact ⟨by rw [e, Res.bind_ok, hx]; rfl, hlen⟩
    obtain ⟨m', e1, hm'⟩ := channelLoop_ok (sh := ⟨a.X.length, a.nf, maxLen⟩)
      (xs := fun c => do let x ← aget2 a.X s c; pure (x.take (xLen.getD s 0)))
      (xt := fun c => do let x ← aget2 a.X u c; pure (x.take (xLen.getD u 0)))
      (S := fun c => (trainVL a xLen).series s c) (S' := fun c => (trainVL a xLen).series u c)
      (channels := channels) hc3 (Ts := xLen.getD s 0) (Tt := xLen.getD u 0)
      (hget _ hsl) (hget _ hul) m (normalize.getD i false) a.phase (alphaSize (lengths.getD i 0) a.alpha minL)
      hsl hpos htl (fits_of_lt (by omega)) (n := xLen.getD s 0) (by omega) (hmax _ hsl)
    rw [ofRes_bind_of_ok e1]
    refine bind_congr_support fun g3 thr g3' _ => ?_
    have hm : marked (trainVL a xLen) (parOf lengths dilations normalize) (optOf a) minL m i ⟨s, t, u, channels⟩ = m' := by
      refine mask_ext (fun n s c t => marked_iff) ?_
      intro n' s' c t'
      rw [hm']
      simp only [parOf, Near, alphaSize_iff, optOf, trainVL]
      refine and_congr_right fun _ => not_congr ⟨?_, ?_⟩
      · rintro ⟨g1, rfl, g3⟩; exact ⟨g1, rfl, g3⟩
      · rintro ⟨g1, rfl, g3⟩; exact ⟨g1, rfl, g3⟩
    rw [hm]
    rfl
  · simp [outOf]

end Convst
