import Verif.Proofs.LawFit
import Verif.Props.Complete

/-!
# The law of the choices, for each of the four variants
-/

set_option autoImplicit false
set_option linter.unusedSectionVars false

namespace Convst
open Spec Props MeasureTheory
open scoped ENNReal

variable {G L : Type} [MeasurableSpace G] [Gen G ℝ] [LawfulGen G] [DecidableEq L] {μ : Measure G}

theorem uListed_congr {P : Par} {out out' : Nat → Option (Out ℝ)} (h : ∀ i, i < P.n → out i = out' i) :
    uListed P out = uListed P out' := by
  unfold uListed
  refine List.filterMap_congr fun i hi => ?_
  rw [h i (List.mem_range.1 hi)]

theorem mListed_congr {P : Par} {out out' : Nat → Option (Out ℝ)} (h : ∀ i, i < P.n → out i = out' i) :
    mListed P out = mListed P out' := by
  unfold mListed
  refine List.filterMap_congr fun i hi => ?_
  rw [h i (List.mem_range.1 hi)]

/-- Univariate series of equal length. -/
theorem law_usl [IsProbabilityMeasure μ] (hf : Fair G μ) {a : FitArgs ℝ L} (hv : ValidSL a) :
    ∃ pick : G × (Nat → G) → Choices,
      (∀ ω order, IsSchedule order → ∃ S, uslGenerate a ω.1 ω.2 order = .ok S ∧
        uShown S = uListed (pick ω).par ((pick ω).out (trainSL a) (optOf a))) ∧
      (∀ d, MeasurableSet {ω | (pick ω).Within d} ∧
        tapes μ {ω | (pick ω).Within d} = lawOf true (trainSL a) a a.nt false 1 d) ∧
      (∀ d, MeasurableSet {ω | (pick ω).SameParams d} ∧
        tapes μ {ω | (pick ω).SameParams d} = paramsLaw a a.nt 1 d) ∧
      ∀ ω, (pick ω).par.n = a.nShp := by
  set V : Scheme L := ⟨true, false, false, trainSL a, a.y, optOf a, fun _ _ _ _ => true⟩ with hV
  set init : RM G (UShp ℝ) := uInit a.nShp a.sizes a.nt a.pNorm a.prime with hinit
  have hsupp : ∀ g Q g', init g = .ok (Q, g') → ParOK Q.lengths Q.dilations Q.normalize a.nt ∧
      Q.lengths.length = a.nShp := by
    intro g Q g' hQ
    obtain ⟨Q1, g1, hQ1, hI, -⟩ := uInit_wp a.pNorm a.prime hv.nShp hv.sizes hv.bounds g
    have hQ' : uInit a.nShp a.sizes a.nt a.pNorm a.prime g = .ok (Q, g') := hQ
    rw [hQ'] at hQ1
    obtain ⟨rfl, rfl⟩ := Prod.mk.inj (Except.ok.inj hQ1)
    exact ⟨parOK_of_init hv.bounds hI, hI.len⟩
  have htot : ∀ g, ∃ Q g', init g = .ok (Q, g') := by
    intro g
    obtain ⟨Q1, g1, hQ1, -⟩ := uInit_wp a.pNorm a.prime hv.nShp hv.sizes hv.bounds g
    exact ⟨Q1, g1, hQ1⟩
  refine ⟨V.pick init (·.lengths) (·.dilations) (·.normalize) (fun _ => List.replicate a.nShp 1), ?_, ?_, ?_, ?_⟩
  · intro ω order ho
    obtain ⟨Q, g', hQ⟩ := htot ω.1
    obtain ⟨hok, hl⟩ := hsupp _ _ _ hQ
    obtain ⟨rec, out, kept, S, hF, hG, hS⟩ := uslGenerate_det hv ω.1 ω.2 hQ
    refine ⟨S, hS order ho, ?_⟩
    have hp : V.pick init (·.lengths) (·.dilations) (·.normalize) (fun _ => List.replicate a.nShp 1) ω =
        V.choices Q.lengths Q.dilations Q.normalize (fun i => (List.replicate a.nShp 1).getD i 0) ω.2 := by
      unfold Scheme.pick; rw [hQ]
    rw [hp, uShown_eq hF]
    refine uListed_congr fun i hi => ?_
    rw [(fromGroups_run (V := V) hok.dil
      (fun minL m i hi => uslStep_pick hv.data hv.nf hok hi _ minL m) hG hi).2]
    exact choices_out (V := V)
  · intro d
    by_cases hd : d.par.n = a.nShp
    · exact law_core (V := V) (n := a.nt) (nShp := a.nShp) hf hv.data.y.symm (fun _ => rfl) (fun _ _ => le_refl _)
        (fun _ _ _ _ _ _ => rfl) hv.perc.lo hv.perc.le hv.perc.hi htot (fun g Q g' hQ => by
          obtain ⟨hok, hl⟩ := hsupp _ _ _ hQ
          refine ⟨hok, hl, by simp, uslStep a Q.lengths Q.dilations Q.normalize, fun minL m i hi =>
            uslStep_pick hv.data hv.nf hok hi _ minL m, fun gs => ?_⟩
          obtain ⟨rec, out, kept, S, -, hG, -⟩ := uslGenerate_det hv g gs hQ
          exact ⟨out, hG⟩) hd (uInit_law hf hv.nShp hv.sizes hv.bounds hd)
    · have hempty : {ω | (V.pick init (·.lengths) (·.dilations) (·.normalize)
          (fun _ => List.replicate a.nShp 1) ω).Within d} = ∅ := by
        ext ω
        constructor
        · intro h
          have h1 := h.1
          rw [pick_n (nShp := a.nShp) (fun g => by
            obtain ⟨Q, g', hQ⟩ := htot g
            exact ⟨Q, g', hQ, (hsupp _ _ _ hQ).2⟩)] at h1
          exact absurd h1.symm hd
        · intro h; exact absurd h (Set.notMem_empty _)
      rw [hempty, measure_empty]
      unfold lawOf paramsLaw parWeight
      rw [if_neg hd, zero_mul, zero_mul]
      exact ⟨MeasurableSet.empty, rfl⟩
  · intro d
    by_cases hd : d.par.n = a.nShp
    · exact params_core (V := V) (n := a.nt) (nShp := a.nShp) (fun g Q g' hQ => ⟨(hsupp _ _ _ hQ).1, (hsupp _ _ _ hQ).2, by simp⟩) htot (uInit_law hf hv.nShp hv.sizes hv.bounds hd)
    · have hempty : {ω | (V.pick init (·.lengths) (·.dilations) (·.normalize)
          (fun _ => List.replicate a.nShp 1) ω).SameParams d} = ∅ := by
        ext ω
        constructor
        · intro h
          have h1 := h.1
          rw [pick_n (nShp := a.nShp) (fun g => by
            obtain ⟨Q, g', hQ⟩ := htot g
            exact ⟨Q, g', hQ, (hsupp _ _ _ hQ).2⟩)] at h1
          exact absurd h1.symm hd
        · intro h; exact absurd h (Set.notMem_empty _)
      rw [hempty, measure_empty]
      unfold paramsLaw parWeight
      rw [if_neg hd, zero_mul]
      exact ⟨MeasurableSet.empty, rfl⟩
  · exact pick_n fun g => by
      obtain ⟨Q, g', hQ⟩ := htot g
      exact ⟨Q, g', hQ, (hsupp _ _ _ hQ).2⟩

/-- Univariate series of different lengths. -/
theorem law_uvl [IsProbabilityMeasure μ] (hf : Fair G μ) {a : FitArgs ℝ L} {minLen : Nat}
    {xLen : List Nat} (hv : ValidVL a minLen xLen) :
    ∃ pick : G × (Nat → G) → Choices,
      (∀ ω order, IsSchedule order → ∃ S, uvlGenerate a minLen xLen ω.1 ω.2 order = .ok S ∧
        uShown S = uListed (pick ω).par ((pick ω).out (trainVL a xLen) (optOf a))) ∧
      (∀ d, MeasurableSet {ω | (pick ω).Within d} ∧
        tapes μ {ω | (pick ω).Within d} = lawOf false (trainVL a xLen) a minLen false 1 d) ∧
      (∀ d, MeasurableSet {ω | (pick ω).SameParams d} ∧
        tapes μ {ω | (pick ω).SameParams d} = paramsLaw a minLen 1 d) ∧
      ∀ ω, (pick ω).par.n = a.nShp := by
  set V : Scheme L := ⟨false, false, false, trainVL a xLen, a.y, optOf a, fun _ s _ t => decide (t < xLen.getD s 0)⟩
    with hV
  set init : RM G (UShp ℝ) := uInit a.nShp a.sizes minLen a.pNorm a.prime with hinit
  obtain ⟨maxLen, hM1, hM2⟩ := maxLen_ok hv.data hv.ne
  have hsupp : ∀ g Q g', init g = .ok (Q, g') → ParOK Q.lengths Q.dilations Q.normalize minLen ∧
      Q.lengths.length = a.nShp := by
    intro g Q g' hQ
    obtain ⟨Q1, g1, hQ1, hI, -⟩ := uInit_wp a.pNorm a.prime hv.nShp hv.sizes hv.bounds g
    have hQ' : uInit a.nShp a.sizes minLen a.pNorm a.prime g = .ok (Q, g') := hQ
    rw [hQ'] at hQ1
    obtain ⟨rfl, rfl⟩ := Prod.mk.inj (Except.ok.inj hQ1)
    exact ⟨parOK_of_init hv.bounds hI, hI.len⟩
  have htot : ∀ g, ∃ Q g', init g = .ok (Q, g') := by
    intro g
    obtain ⟨Q1, g1, hQ1, -⟩ := uInit_wp a.pNorm a.prime hv.nShp hv.sizes hv.bounds g
    exact ⟨Q1, g1, hQ1⟩
  refine ⟨V.pick init (·.lengths) (·.dilations) (·.normalize) (fun _ => List.replicate a.nShp 1), ?_, ?_, ?_, ?_⟩
  · intro ω order ho
    obtain ⟨Q, g', hQ⟩ := htot ω.1
    obtain ⟨hok, hl⟩ := hsupp _ _ _ hQ
    obtain ⟨rec, out, kept, S, hF, hG, hS⟩ := uvlGenerate_det hv ω.1 ω.2 hM1 hQ
    refine ⟨S, hS order ho, ?_⟩
    have hp : V.pick init (·.lengths) (·.dilations) (·.normalize) (fun _ => List.replicate a.nShp 1) ω =
        V.choices Q.lengths Q.dilations Q.normalize (fun i => (List.replicate a.nShp 1).getD i 0) ω.2 := by
      unfold Scheme.pick; rw [hQ]
    rw [hp, uShown_eq hF]
    refine uListed_congr fun i hi => ?_
    rw [(fromGroups_run (V := V) hok.dil
      (fun minL m i hi => uvlStep_pick hv.data hv.nf hok hi hM2 _ minL m) hG hi).2]
    exact choices_out (V := V)
  · intro d
    by_cases hd : d.par.n = a.nShp
    · exact law_core (V := V) (n := minLen) (nShp := a.nShp) hf hv.data.y.symm (fun _ => rfl)
        (fun s hs => (hv.data.xlen hs).2) (fun _ _ _ _ _ ht => decide_eq_true ht)
        hv.perc.lo hv.perc.le hv.perc.hi htot (fun g Q g' hQ => by
          obtain ⟨hok, hl⟩ := hsupp _ _ _ hQ
          refine ⟨hok, hl, by simp, uvlStep a xLen maxLen Q.lengths Q.dilations Q.normalize, fun minL m i hi =>
            uvlStep_pick hv.data hv.nf hok hi hM2 _ minL m, fun gs => ?_⟩
          obtain ⟨rec, out, kept, S, -, hG, -⟩ := uvlGenerate_det hv g gs hM1 hQ
          exact ⟨out, hG⟩) hd (uInit_law hf hv.nShp hv.sizes hv.bounds hd)
    · have hempty : {ω | (V.pick init (·.lengths) (·.dilations) (·.normalize)
          (fun _ => List.replicate a.nShp 1) ω).Within d} = ∅ := by
        ext ω
        constructor
        · intro h
          have h1 := h.1
          rw [pick_n (nShp := a.nShp) (fun g => by
            obtain ⟨Q, g', hQ⟩ := htot g
            exact ⟨Q, g', hQ, (hsupp _ _ _ hQ).2⟩)] at h1
          exact absurd h1.symm hd
        · intro h; exact absurd h (Set.notMem_empty _)
      rw [hempty, measure_empty]
      unfold lawOf paramsLaw parWeight
      rw [if_neg hd, zero_mul, zero_mul]
      exact ⟨MeasurableSet.empty, rfl⟩
  · intro d
    by_cases hd : d.par.n = a.nShp
    · exact params_core (V := V) (n := minLen) (nShp := a.nShp) (fun g Q g' hQ => ⟨(hsupp _ _ _ hQ).1, (hsupp _ _ _ hQ).2, by simp⟩) htot (uInit_law hf hv.nShp hv.sizes hv.bounds hd)
    · have hempty : {ω | (V.pick init (·.lengths) (·.dilations) (·.normalize)
          (fun _ => List.replicate a.nShp 1) ω).SameParams d} = ∅ := by
        ext ω
        constructor
        · intro h
          have h1 := h.1
          rw [pick_n (nShp := a.nShp) (fun g => by
            obtain ⟨Q, g', hQ⟩ := htot g
            exact ⟨Q, g', hQ, (hsupp _ _ _ hQ).2⟩)] at h1
          exact absurd h1.symm hd
        · intro h; exact absurd h (Set.notMem_empty _)
      rw [hempty, measure_empty]
      unfold paramsLaw parWeight
      rw [if_neg hd, zero_mul]
      exact ⟨MeasurableSet.empty, rfl⟩
  · exact pick_n fun g => by
      obtain ⟨Q, g', hQ⟩ := htot g
      exact ⟨Q, g', hQ, (hsupp _ _ _ hQ).2⟩

/-- Multivariate series of equal length. -/
theorem law_msl [IsProbabilityMeasure μ] (hf : Fair G μ) {a : FitArgs ℝ L} (hv : ValidSL a)
    {mc : Nat} (hmc : 1 ≤ mc) (hmcf : mc ≤ a.nf) :
    ∃ pick : G × (Nat → G) → Choices,
      (∀ ω order, IsSchedule order → ∃ S, mslGenerate a mc ω.1 ω.2 order = .ok S ∧
        mShown S = mListed (pick ω).par ((pick ω).out (trainSL a) (optOf a))) ∧
      (∀ d, MeasurableSet {ω | (pick ω).Within d} ∧
        tapes μ {ω | (pick ω).Within d} = lawOf true (trainSL a) a a.nt true mc d) ∧
      (∀ d, MeasurableSet {ω | (pick ω).SameParams d} ∧
        tapes μ {ω | (pick ω).SameParams d} = paramsLaw a a.nt mc d) ∧
      ∀ ω, (pick ω).par.n = a.nShp := by
  set V : Scheme L := ⟨true, false, true, trainSL a, a.y, optOf a, fun _ _ _ _ => true⟩ with hV
  set init : RM G (MShp ℝ) := mInit a.nShp a.sizes a.nt a.pNorm mc a.prime with hinit
  have hsupp : ∀ g Q g', init g = .ok (Q, g') → ParOK Q.lengths Q.dilations Q.normalize a.nt ∧
      Q.lengths.length = a.nShp ∧ Q.nChannels.length = a.nShp ∧ ∀ c ∈ Q.nChannels, c ≤ a.nf := by
    intro g Q g' hQ
    obtain ⟨Q1, g1, hQ1, hI, -, hncl, hnc, -⟩ := mInit_wp a.pNorm a.prime hv.nShp hv.sizes hv.bounds hmc g
    have hQ' : mInit a.nShp a.sizes a.nt a.pNorm mc a.prime g = .ok (Q, g') := hQ
    rw [hQ'] at hQ1
    obtain ⟨rfl, rfl⟩ := Prod.mk.inj (Except.ok.inj hQ1)
    exact ⟨parOK_of_init hv.bounds hI, hI.len, hncl, fun c hc => (hnc c hc).2.trans hmcf⟩
  have htot : ∀ g, ∃ Q g', init g = .ok (Q, g') := by
    intro g
    obtain ⟨Q1, g1, hQ1, -⟩ := mInit_wp a.pNorm a.prime hv.nShp hv.sizes hv.bounds hmc g
    exact ⟨Q1, g1, hQ1⟩
  refine ⟨V.pick init (·.lengths) (·.dilations) (·.normalize) (·.nChannels), ?_, ?_, ?_, ?_⟩
  · intro ω order ho
    obtain ⟨Q, g', hQ⟩ := htot ω.1
    obtain ⟨hok, hl, hcl, hcf⟩ := hsupp _ _ _ hQ
    obtain ⟨rec, out, kept, S, hF, hG, hS⟩ := mslGenerate_det hv hmc hmcf ω.1 ω.2 hQ
    refine ⟨S, hS order ho, ?_⟩
    have hp : V.pick init (·.lengths) (·.dilations) (·.normalize) (·.nChannels) ω =
        V.choices Q.lengths Q.dilations Q.normalize (fun i => Q.nChannels.getD i 0) ω.2 := by
      unfold Scheme.pick; rw [hQ]
    rw [hp, mShown_eq hF]
    refine mListed_congr fun i hi => ?_
    rw [(fromGroups_run (V := V) hok.dil
      (fun minL m i hi => mslStep_pick hv.data hok hi (by rw [hcl, hl]) hcf minL m) hG hi).2]
    exact choices_out (V := V)
  · intro d
    by_cases hd : d.par.n = a.nShp
    · exact law_core (V := V) (n := a.nt) (nShp := a.nShp) hf hv.data.y.symm (fun _ => rfl) (fun _ _ => le_refl _)
        (fun _ _ _ _ _ _ => rfl) hv.perc.lo hv.perc.le hv.perc.hi htot (fun g Q g' hQ => by
          obtain ⟨hok, hl, hcl, hcf⟩ := hsupp _ _ _ hQ
          refine ⟨hok, hl, hcl, mslStep a Q.lengths Q.dilations Q.normalize Q.nChannels, fun minL m i hi =>
            mslStep_pick hv.data hok hi (by rw [hcl, hl]) hcf minL m, fun gs => ?_⟩
          obtain ⟨rec, out, kept, S, -, hG, -⟩ := mslGenerate_det hv hmc hmcf g gs hQ
          exact ⟨out, hG⟩) hd (by
            unfold paramsLaw parWeight
            rw [if_pos hd]
            exact prob_mInit hf a.pNorm a.prime hv.nShp hv.bounds hd d.nch)
    · have hempty : {ω | (V.pick init (·.lengths) (·.dilations) (·.normalize) (·.nChannels) ω).Within d} = ∅ := by
        ext ω
        constructor
        · intro h
          have h1 := h.1
          rw [pick_n (nShp := a.nShp) (fun g => by
            obtain ⟨Q, g', hQ⟩ := htot g
            exact ⟨Q, g', hQ, (hsupp _ _ _ hQ).2.1⟩)] at h1
          exact absurd h1.symm hd
        · intro h; exact absurd h (Set.notMem_empty _)
      rw [hempty, measure_empty]
      unfold lawOf paramsLaw parWeight
      rw [if_neg hd, zero_mul, zero_mul]
      exact ⟨MeasurableSet.empty, rfl⟩
  · intro d
    by_cases hd : d.par.n = a.nShp
    · exact params_core (V := V) (n := a.nt) (nShp := a.nShp) (fun g Q g' hQ => ⟨(hsupp _ _ _ hQ).1, (hsupp _ _ _ hQ).2.1, (hsupp _ _ _ hQ).2.2.1⟩) htot (by
            unfold paramsLaw parWeight
            rw [if_pos hd]
            exact prob_mInit hf a.pNorm a.prime hv.nShp hv.bounds hd d.nch)
    · have hempty : {ω | (V.pick init (·.lengths) (·.dilations) (·.normalize) (·.nChannels) ω).SameParams d} = ∅ := by
        ext ω
        constructor
        · intro h
          have h1 := h.1
          rw [pick_n (nShp := a.nShp) (fun g => by
            obtain ⟨Q, g', hQ⟩ := htot g
            exact ⟨Q, g', hQ, (hsupp _ _ _ hQ).2.1⟩)] at h1
          exact absurd h1.symm hd
        · intro h; exact absurd h (Set.notMem_empty _)
      rw [hempty, measure_empty]
      unfold paramsLaw parWeight
      rw [if_neg hd, zero_mul]
      exact ⟨MeasurableSet.empty, rfl⟩
  · exact pick_n fun g => by
      obtain ⟨Q, g', hQ⟩ := htot g
      exact ⟨Q, g', hQ, (hsupp _ _ _ hQ).2.1⟩

/-- Multivariate series of different lengths. -/
theorem law_mvl [IsProbabilityMeasure μ] (hf : Fair G μ) {a : FitArgs ℝ L} {minLen : Nat}
    {xLen : List Nat} (hv : ValidVL a minLen xLen) {mc : Nat} (hmc : 1 ≤ mc) (hmcf : mc ≤ a.nf) :
    ∃ pick : G × (Nat → G) → Choices,
      (∀ ω order, IsSchedule order → ∃ S, mvlGenerate a mc minLen xLen ω.1 ω.2 order = .ok S ∧
        mShown S = mListed (pick ω).par ((pick ω).out (trainVL a xLen) (optOf a))) ∧
      (∀ d, MeasurableSet {ω | (pick ω).Within d} ∧
        tapes μ {ω | (pick ω).Within d} = lawOf false (trainVL a xLen) a minLen true mc d) ∧
      (∀ d, MeasurableSet {ω | (pick ω).SameParams d} ∧
        tapes μ {ω | (pick ω).SameParams d} = paramsLaw a minLen mc d) ∧
      ∀ ω, (pick ω).par.n = a.nShp := by
  set V : Scheme L := ⟨false, true, true, trainVL a xLen, a.y, optOf a, fun _ s _ t => decide (t < xLen.getD s 0)⟩
    with hV
  set init : RM G (MShp ℝ) := mInit a.nShp a.sizes minLen a.pNorm mc a.prime with hinit
  obtain ⟨maxLen, hM1, hM2⟩ := maxLen_ok hv.data hv.ne
  have hsupp : ∀ g Q g', init g = .ok (Q, g') → ParOK Q.lengths Q.dilations Q.normalize minLen ∧
      Q.lengths.length = a.nShp ∧ Q.nChannels.length = a.nShp ∧ ∀ c ∈ Q.nChannels, c ≤ a.nf := by
    intro g Q g' hQ
    obtain ⟨Q1, g1, hQ1, hI, -, hncl, hnc, -⟩ := mInit_wp a.pNorm a.prime hv.nShp hv.sizes hv.bounds hmc g
    have hQ' : mInit a.nShp a.sizes minLen a.pNorm mc a.prime g = .ok (Q, g') := hQ
    rw [hQ'] at hQ1
    obtain ⟨rfl, rfl⟩ := Prod.mk.inj (Except.ok.inj hQ1)
    exact ⟨parOK_of_init hv.bounds hI, hI.len, hncl, fun c hc => (hnc c hc).2.trans hmcf⟩
  have htot : ∀ g, ∃ Q g', init g = .ok (Q, g') := by
    intro g
    obtain ⟨Q1, g1, hQ1, -⟩ := mInit_wp a.pNorm a.prime hv.nShp hv.sizes hv.bounds hmc g
    exact ⟨Q1, g1, hQ1⟩
  refine ⟨V.pick init (·.lengths) (·.dilations) (·.normalize) (·.nChannels), ?_, ?_, ?_, ?_⟩
  · intro ω order ho
    obtain ⟨Q, g', hQ⟩ := htot ω.1
    obtain ⟨hok, hl, hcl, hcf⟩ := hsupp _ _ _ hQ
    obtain ⟨rec, out, kept, S, hF, hG, hS⟩ := mvlGenerate_det hv hmc hmcf ω.1 ω.2 hM1 hQ
    refine ⟨S, hS order ho, ?_⟩
    have hp : V.pick init (·.lengths) (·.dilations) (·.normalize) (·.nChannels) ω =
        V.choices Q.lengths Q.dilations Q.normalize (fun i => Q.nChannels.getD i 0) ω.2 := by
      unfold Scheme.pick; rw [hQ]
    rw [hp, mShown_eq hF]
    refine mListed_congr fun i hi => ?_
    rw [(fromGroups_run (V := V) hok.dil
      (fun minL m i hi => mvlStep_pick hv.data hok hi (by rw [hcl, hl]) hcf hM2 minL m) hG hi).2]
    exact choices_out (V := V)
  · intro d
    by_cases hd : d.par.n = a.nShp
    · exact law_core (V := V) (n := minLen) (nShp := a.nShp) hf hv.data.y.symm (fun _ => rfl)
        (fun s hs => (hv.data.xlen hs).2) (fun _ _ _ _ _ ht => decide_eq_true ht)
        hv.perc.lo hv.perc.le hv.perc.hi htot (fun g Q g' hQ => by
          obtain ⟨hok, hl, hcl, hcf⟩ := hsupp _ _ _ hQ
          refine ⟨hok, hl, hcl, mvlStep a xLen maxLen Q.lengths Q.dilations Q.normalize Q.nChannels,
            fun minL m i hi => mvlStep_pick hv.data hok hi (by rw [hcl, hl]) hcf hM2 minL m, fun gs => ?_⟩
          obtain ⟨rec, out, kept, S, -, hG, -⟩ := mvlGenerate_det hv hmc hmcf g gs hM1 hQ
          exact ⟨out, hG⟩) hd (by
            unfold paramsLaw parWeight
            rw [if_pos hd]
            exact prob_mInit hf a.pNorm a.prime hv.nShp hv.bounds hd d.nch)
    · have hempty : {ω | (V.pick init (·.lengths) (·.dilations) (·.normalize) (·.nChannels) ω).Within d} = ∅ := by
        ext ω
        constructor
        · intro h
          have h1 := h.1
          rw [pick_n (nShp := a.nShp) (fun g => by
            obtain ⟨Q, g', hQ⟩ := htot g
            exact ⟨Q, g', hQ, (hsupp _ _ _ hQ).2.1⟩)] at h1
          exact absurd h1.symm hd
        · intro h; exact absurd h (Set.notMem_empty _)
      rw [hempty, measure_empty]
      unfold lawOf paramsLaw parWeight
      rw [if_neg hd, zero_mul, zero_mul]
      exact ⟨MeasurableSet.empty, rfl⟩
  · intro d
    by_cases hd : d.par.n = a.nShp
    · exact params_core (V := V) (n := minLen) (nShp := a.nShp) (fun g Q g' hQ => ⟨(hsupp _ _ _ hQ).1, (hsupp _ _ _ hQ).2.1, (hsupp _ _ _ hQ).2.2.1⟩) htot (by
            unfold paramsLaw parWeight
            rw [if_pos hd]
            exact prob_mInit hf a.pNorm a.prime hv.nShp hv.bounds hd d.nch)
    · have hempty : {ω | (V.pick init (·.lengths) (·.dilations) (·.normalize) (·.nChannels) ω).SameParams d} = ∅ := by
        ext ω
        constructor
        · intro h
          have h1 := h.1
          rw [pick_n (nShp := a.nShp) (fun g => by
            obtain ⟨Q, g', hQ⟩ := htot g
            exact ⟨Q, g', hQ, (hsupp _ _ _ hQ).2.1⟩)] at h1
          exact absurd h1.symm hd
        · intro h; exact absurd h (Set.notMem_empty _)
      rw [hempty, measure_empty]
      unfold paramsLaw parWeight
      rw [if_neg hd, zero_mul]
      exact ⟨MeasurableSet.empty, rfl⟩
  · exact pick_n fun g => by
      obtain ⟨Q, g', hQ⟩ := htot g
      exact ⟨Q, g', hQ, (hsupp _ _ _ hQ).2.1⟩

end Convst
