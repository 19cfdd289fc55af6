import Verif.Proofs.ExchangeLaw
import Verif.Props.Exchange
import Verif.Props.Law

/-!
# C127: the order of the samples and of the channels does not matter, in law

C101 says that the same results are possible.  Here: they have the same probability.
-/

set_option autoImplicit false
set_option linter.unusedSectionVars false

namespace Convst.Props
open Convst Spec MeasureTheory
open scoped ENNReal

variable {G L : Type} [MeasurableSpace G] [Gen G ℝ] [LawfulGen G] [DecidableEq L] {μ : Measure G}

theorem renamed_numbers {T T' : Train L} {σ τ : Equiv.Perm Nat} (h : Renamed T T' σ τ) :
    SameUpToNumbers T T' σ.symm τ.symm where
  samples := h.ns
  channels := h.nf
  len s := by rw [h.len]; simp
  series s c := by rw [h.series]; simp
  label s := by rw [h.label]; simp

theorem out_one {T T' : Train L} {σ : Equiv.Perm Nat} (h : Renamed T T' σ 1) (o : Opt) (d : Choices) (i : Nat) :
    (d.renumbered σ.symm id).out T' o i = d.out T o i := by
  have e := h.choices_out o d i
  have e1 : d.renumbered σ.symm id = Renamed.choices σ 1 d := rfl
  rw [e1, e]
  have e2 : (Renamed.out 1 : Out ℝ → Out ℝ) = id := by
    funext v
    simp only [Renamed.out]
    have : ((1 : Equiv.Perm Nat).symm : Nat → Nat) = id := rfl
    rw [this, List.map_id]
    rfl
  rw [e2, Option.map_id]
  rfl

/-! ## Order of the samples -/

/-- **C127.** Univariate series of equal length, the samples in any other order: every choice is exactly as probable. -/
theorem C127_samples_univariate_same_length [IsProbabilityMeasure μ] (hf : Fair G μ) {a b : FitArgs ℝ L} 
    (ha : ValidSL a) (hb : ValidSL b) (h : Reordered a b) :
    ∃ f : Equiv.Perm Nat, SameUpToNumbers (trainSL a) (trainSL b) f 1 ∧
    (∀ (d : Choices) i, (d.renumbered f id).out (trainSL b) (optOf a) i = d.out (trainSL a) (optOf a) i) ∧
    ∃ pick pick' : G × (Nat → G) → Choices,
      (∀ ω order, IsSchedule order → ∃ S S', uslGenerate a ω.1 ω.2 order = .ok S ∧ uslGenerate b ω.1 ω.2 order = .ok S' ∧
        uShown S = uListed (pick ω).par ((pick ω).out (trainSL a) (optOf a)) ∧
        uShown S' = uListed (pick' ω).par ((pick' ω).out (trainSL b) (optOf a))) ∧
      ∀ d, tapes μ {ω | (pick' ω).Within (d.renumbered f id)} = tapes μ {ω | (pick ω).Within d} := by
  obtain ⟨σ, hσ⟩ := renamed_SL ha.data.y hb.data.y h
  obtain ⟨pick, h1, h2⟩ := C102_univariate_same_length hf ha
  obtain ⟨pick', h1', h2'⟩ := C102_univariate_same_length hf hb
  have ho : optOf b = optOf a := by rw [h.options]; rfl
  refine ⟨σ.symm, renamed_numbers hσ, out_one hσ _, pick, pick', ?_, ?_⟩
  · intro ω order hs
    obtain ⟨S, s1, s2⟩ := h1 ω order hs
    obtain ⟨S', s1', s2'⟩ := h1' ω order hs
    rw [ho] at s2'
    exact ⟨S, S', s1, s1', s2, s2'⟩
  · intro d
    rw [(h2 d).2, (h2' _).2]
    have hnt : b.nt = a.nt := by rw [h.options]
    rw [hnt]
    exact hσ.lawOf (fun _ => rfl) (fun d => by rw [h.options]; rfl) ho _ d

/-- **C127.** Univariate series of different lengths. -/
theorem C127_samples_univariate_variable_length [IsProbabilityMeasure μ] (hf : Fair G μ) {a b : FitArgs ℝ L} {minLen : Nat} {xa xb : List Nat} 
    (ha : ValidVL a minLen xa) (hb : ValidVL b minLen xb) (h : ReorderedVL a b xa xb) :
    ∃ f : Equiv.Perm Nat, SameUpToNumbers (trainVL a xa) (trainVL b xb) f 1 ∧
    (∀ (d : Choices) i, (d.renumbered f id).out (trainVL b xb) (optOf a) i = d.out (trainVL a xa) (optOf a) i) ∧
    ∃ pick pick' : G × (Nat → G) → Choices,
      (∀ ω order, IsSchedule order → ∃ S S', uvlGenerate a minLen xa ω.1 ω.2 order = .ok S ∧ uvlGenerate b minLen xb ω.1 ω.2 order = .ok S' ∧
        uShown S = uListed (pick ω).par ((pick ω).out (trainVL a xa) (optOf a)) ∧
        uShown S' = uListed (pick' ω).par ((pick' ω).out (trainVL b xb) (optOf a))) ∧
      ∀ d, tapes μ {ω | (pick' ω).Within (d.renumbered f id)} = tapes μ {ω | (pick ω).Within d} := by
  obtain ⟨σ, hσ⟩ := renamed_VL ha.data.y ha.data.len hb.data.y hb.data.len h
  obtain ⟨pick, h1, h2⟩ := C102_univariate_variable_length hf ha
  obtain ⟨pick', h1', h2'⟩ := C102_univariate_variable_length hf hb
  have ho : optOf b = optOf a := by rw [h.options]; rfl
  refine ⟨σ.symm, renamed_numbers hσ, out_one hσ _, pick, pick', ?_, ?_⟩
  · intro ω order hs
    obtain ⟨S, s1, s2⟩ := h1 ω order hs
    obtain ⟨S', s1', s2'⟩ := h1' ω order hs
    rw [ho] at s2'
    exact ⟨S, S', s1, s1', s2, s2'⟩
  · intro d
    rw [(h2 d).2, (h2' _).2]
    exact hσ.lawOf (fun _ => rfl) (fun d => by rw [h.options]; rfl) ho _ d

/-- **C127.** Multivariate series of equal length. -/
theorem C127_samples_multivariate_same_length [IsProbabilityMeasure μ] (hf : Fair G μ) {a b : FitArgs ℝ L} 
    (ha : ValidSL a) (hb : ValidSL b) (h : Reordered a b)
    {mc : Nat} (hmc : 1 ≤ mc) (hmcf : mc ≤ a.nf) :
    ∃ f : Equiv.Perm Nat, SameUpToNumbers (trainSL a) (trainSL b) f 1 ∧
    (∀ (d : Choices) i, (d.renumbered f id).out (trainSL b) (optOf a) i = d.out (trainSL a) (optOf a) i) ∧
    ∃ pick pick' : G × (Nat → G) → Choices,
      (∀ ω order, IsSchedule order → ∃ S S', mslGenerate a mc ω.1 ω.2 order = .ok S ∧ mslGenerate b mc ω.1 ω.2 order = .ok S' ∧
        mShown S = mListed (pick ω).par ((pick ω).out (trainSL a) (optOf a)) ∧
        mShown S' = mListed (pick' ω).par ((pick' ω).out (trainSL b) (optOf a))) ∧
      ∀ d, tapes μ {ω | (pick' ω).Within (d.renumbered f id)} = tapes μ {ω | (pick ω).Within d} := by
  obtain ⟨σ, hσ⟩ := renamed_SL ha.data.y hb.data.y h
  obtain ⟨pick, h1, h2⟩ := C102_multivariate_same_length hf ha hmc hmcf
  obtain ⟨pick', h1', h2'⟩ := C102_multivariate_same_length hf hb hmc (by rw [h.options]; exact hmcf)
  have ho : optOf b = optOf a := by rw [h.options]; rfl
  refine ⟨σ.symm, renamed_numbers hσ, out_one hσ _, pick, pick', ?_, ?_⟩
  · intro ω order hs
    obtain ⟨S, s1, s2⟩ := h1 ω order hs
    obtain ⟨S', s1', s2'⟩ := h1' ω order hs
    rw [ho] at s2'
    exact ⟨S, S', s1, s1', s2, s2'⟩
  · intro d
    rw [(h2 d).2, (h2' _).2]
    have hnt : b.nt = a.nt := by rw [h.options]
    rw [hnt]
    exact hσ.lawOf (fun _ => rfl) (fun d => by rw [h.options]; rfl) ho _ d

/-- **C127.** Multivariate series of different lengths. -/
theorem C127_samples_multivariate_variable_length [IsProbabilityMeasure μ] (hf : Fair G μ) {a b : FitArgs ℝ L} {minLen : Nat} {xa xb : List Nat} 
    (ha : ValidVL a minLen xa) (hb : ValidVL b minLen xb) (h : ReorderedVL a b xa xb)
    {mc : Nat} (hmc : 1 ≤ mc) (hmcf : mc ≤ a.nf) :
    ∃ f : Equiv.Perm Nat, SameUpToNumbers (trainVL a xa) (trainVL b xb) f 1 ∧
    (∀ (d : Choices) i, (d.renumbered f id).out (trainVL b xb) (optOf a) i = d.out (trainVL a xa) (optOf a) i) ∧
    ∃ pick pick' : G × (Nat → G) → Choices,
      (∀ ω order, IsSchedule order → ∃ S S', mvlGenerate a mc minLen xa ω.1 ω.2 order = .ok S ∧ mvlGenerate b mc minLen xb ω.1 ω.2 order = .ok S' ∧
        mShown S = mListed (pick ω).par ((pick ω).out (trainVL a xa) (optOf a)) ∧
        mShown S' = mListed (pick' ω).par ((pick' ω).out (trainVL b xb) (optOf a))) ∧
      ∀ d, tapes μ {ω | (pick' ω).Within (d.renumbered f id)} = tapes μ {ω | (pick ω).Within d} := by
  obtain ⟨σ, hσ⟩ := renamed_VL ha.data.y ha.data.len hb.data.y hb.data.len h
  obtain ⟨pick, h1, h2⟩ := C102_multivariate_variable_length hf ha hmc hmcf
  obtain ⟨pick', h1', h2'⟩ := C102_multivariate_variable_length hf hb hmc (by rw [h.options]; exact hmcf)
  have ho : optOf b = optOf a := by rw [h.options]; rfl
  refine ⟨σ.symm, renamed_numbers hσ, out_one hσ _, pick, pick', ?_, ?_⟩
  · intro ω order hs
    obtain ⟨S, s1, s2⟩ := h1 ω order hs
    obtain ⟨S', s1', s2'⟩ := h1' ω order hs
    rw [ho] at s2'
    exact ⟨S, S', s1, s1', s2, s2'⟩
  · intro d
    rw [(h2 d).2, (h2' _).2]
    exact hσ.lawOf (fun _ => rfl) (fun d => by rw [h.options]; rfl) ho _ d

/-! ## Order of the channels -/

/-- **C127.** The channels in any other order, multivariate series of equal length: `channels` lists the old numbers, `g` is the new number of a channel. -/
theorem C127_channels_same_length [IsProbabilityMeasure μ] (hf : Fair G μ) {a : FitArgs ℝ L} (ha : ValidSL a)
    {channels : List Nat} (hp : channels.Perm (List.range a.nf)) {mc : Nat} (hmc : 1 ≤ mc) (hmcf : mc ≤ a.nf) :
    ∃ g : Equiv.Perm Nat, (∀ c, c < a.nf → g (channels.getD c 0) = c) ∧
    SameUpToNumbers (trainSL a) (trainSL (withChannels a channels)) 1 g ∧
    (∀ (d : Choices) i, (d.renumbered id g).out (trainSL (withChannels a channels)) (optOf a) i =
      (d.out (trainSL a) (optOf a) i).map fun v => { v with channels := v.channels.map g }) ∧
    ∃ pick pick' : G × (Nat → G) → Choices,
      (∀ ω order, IsSchedule order → ∃ S S', mslGenerate a mc ω.1 ω.2 order = .ok S ∧
        mslGenerate (withChannels a channels) mc ω.1 ω.2 order = .ok S' ∧
        mShown S = mListed (pick ω).par ((pick ω).out (trainSL a) (optOf a)) ∧
        mShown S' = mListed (pick' ω).par ((pick' ω).out (trainSL (withChannels a channels)) (optOf a))) ∧
      ∀ d, tapes μ {ω | (pick' ω).Within (d.renumbered id g)} = tapes μ {ω | (pick ω).Within d} := by
  obtain ⟨τ, t1, -, hτ⟩ := renamed_channels_SL ha.data hp
  obtain ⟨pick, h1, h2⟩ := C102_multivariate_same_length hf ha hmc hmcf
  obtain ⟨pick', h1', h2'⟩ := C102_multivariate_same_length hf (withChannels_SL ha hp) hmc hmcf
  refine ⟨τ.symm, fun c hc => by rw [← t1 c hc]; simp, renamed_numbers hτ, fun d i => hτ.choices_out _ d i, pick, pick', ?_, ?_⟩
  · intro ω order hs
    obtain ⟨S, s1, s2⟩ := h1 ω order hs
    obtain ⟨S', s1', s2'⟩ := h1' ω order hs
    exact ⟨S, S', s1, s1', s2, s2'⟩
  · intro d
    rw [(h2 d).2, (h2' _).2]
    exact hτ.lawOf (fun e => absurd e (by simp)) (fun _ => rfl) rfl _ d

/-- **C127.** The same for series of different lengths. -/
theorem C127_channels_variable_length [IsProbabilityMeasure μ] (hf : Fair G μ) {a : FitArgs ℝ L} {minLen : Nat} {xLen : List Nat} (ha : ValidVL a minLen xLen)
    {channels : List Nat} (hp : channels.Perm (List.range a.nf)) {mc : Nat} (hmc : 1 ≤ mc) (hmcf : mc ≤ a.nf) :
    ∃ g : Equiv.Perm Nat, (∀ c, c < a.nf → g (channels.getD c 0) = c) ∧
    SameUpToNumbers (trainVL a xLen) (trainVL (withChannels a channels) xLen) 1 g ∧
    (∀ (d : Choices) i, (d.renumbered id g).out (trainVL (withChannels a channels) xLen) (optOf a) i =
      (d.out (trainVL a xLen) (optOf a) i).map fun v => { v with channels := v.channels.map g }) ∧
    ∃ pick pick' : G × (Nat → G) → Choices,
      (∀ ω order, IsSchedule order → ∃ S S', mvlGenerate a mc minLen xLen ω.1 ω.2 order = .ok S ∧
        mvlGenerate (withChannels a channels) mc minLen xLen ω.1 ω.2 order = .ok S' ∧
        mShown S = mListed (pick ω).par ((pick ω).out (trainVL a xLen) (optOf a)) ∧
        mShown S' = mListed (pick' ω).par ((pick' ω).out (trainVL (withChannels a channels) xLen) (optOf a))) ∧
      ∀ d, tapes μ {ω | (pick' ω).Within (d.renumbered id g)} = tapes μ {ω | (pick ω).Within d} := by
  obtain ⟨τ, t1, -, hτ⟩ := renamed_channels_VL ha.data hp
  obtain ⟨pick, h1, h2⟩ := C102_multivariate_variable_length hf ha hmc hmcf
  obtain ⟨pick', h1', h2'⟩ := C102_multivariate_variable_length hf (withChannels_VL ha hp) hmc hmcf
  refine ⟨τ.symm, fun c hc => by rw [← t1 c hc]; simp, renamed_numbers hτ, fun d i => hτ.choices_out _ d i, pick, pick', ?_, ?_⟩
  · intro ω order hs
    obtain ⟨S, s1, s2⟩ := h1 ω order hs
    obtain ⟨S', s1', s2'⟩ := h1' ω order hs
    exact ⟨S, S', s1, s1', s2, s2'⟩
  · intro d
    rw [(h2 d).2, (h2' _).2]
    exact hτ.lawOf (fun e => absurd e (by simp)) (fun _ => rfl) rfl _ d

/-! ## The hypotheses can be met -/

/-- Three samples in another order. -/
example : ∃ f : Equiv.Perm Nat, SameUpToNumbers (trainSL exE) (trainSL exE') f 1 ∧
    ∃ pick pick' : Tape × (Nat → Tape) → Choices,
      ∀ d, tapes tapeLaw {ω | (pick' ω).Within (d.renumbered f id)} = tapes tapeLaw {ω | (pick ω).Within d} := by
  obtain ⟨f, h1, -, pick, pick', -, h⟩ := C127_samples_multivariate_same_length tape_fair exE_valid exE'_valid exE_reordered
    (mc := 2) (by norm_num) (le_refl _)
  exact ⟨f, h1, pick, pick', h⟩

/-- Two channels exchanged. -/
example : ∃ g : Equiv.Perm Nat, g 0 = 1 ∧ g 1 = 0 ∧
    ∃ pick pick' : Tape × (Nat → Tape) → Choices,
      ∀ d, tapes tapeLaw {ω | (pick' ω).Within (d.renumbered id g)} = tapes tapeLaw {ω | (pick ω).Within d} := by
  obtain ⟨g, h1, -, -, pick, pick', -, h⟩ := C127_channels_same_length tape_fair exE_valid (channels := [1, 0])
    (List.Perm.swap _ _ _) (mc := 2) (by norm_num) (le_refl _)
  exact ⟨g, h1 1 (by simp [exE]), h1 0 (by simp [exE]), pick, pick', h⟩

end Convst.Props
