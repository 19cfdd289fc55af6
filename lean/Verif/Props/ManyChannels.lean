import Verif.Proofs.ManyChannels
import Verif.Props.Sources
import Verif.Props.Histories

/-!
# C131: `max_channels` above the number of channels

Nothing compares `max_channels` with the number of channels of the data.  When it is larger -- because the user said so, or because
an object fitted on series with more channels is fitted again (C39) -- `fit` raises or not according to what the generator
draws.  C20 to C24 assume `max_channels ≤ n_features`; here there is no such assumption.
-/

set_option autoImplicit false
set_option linter.unusedSectionVars false

namespace Convst.Props
open Convst Spec MeasureTheory ManyChannels
open scoped ENNReal

variable {G L : Type}

section runs
variable [Gen G ℝ] [LawfulGen G] [DecidableEq L]

/-- **C131.** Series of equal length, any `max_channels ≥ 1`: for given random choices, either `fit` returns under every schedule the
same shapelets, as good as with `max_channels = min max_channels n_features`, or it raises under every schedule. -/
theorem C131_same_length {a : FitArgs ℝ L} (hv : ValidSL a) {mc : Nat} (hmc : 1 ≤ mc) (g0 : G) (gs : Nat → G) :
    (∃ P nch rec out kept S, MFitted (trainSL a) a a.nt (min mc a.nf) P nch rec out kept S ∧
      ∀ order, IsSchedule order → mslGenerate a mc g0 gs order = .ok S) ∨
    ∀ order, IsSchedule order → ∃ e, mslGenerate a mc g0 gs order = .error e := by
  obtain ⟨P, g', hP, hI, -, hncl, -⟩ := mInit_wp a.pNorm a.prime hv.nShp hv.sizes hv.bounds hmc g0
  by_cases h : ∀ c ∈ P.nChannels, c ≤ a.nf
  · exact .inl (mslGenerate_fits hv hmc gs hP h)
  · refine .inr fun order ho => ?_
    rcases hr : mslGenerate a mc g0 gs order with e | S
    · exact ⟨e, rfl⟩
    · exact absurd (mslGenerate_inv hP (by rw [hncl, (parOK_of_init hv.bounds hI).dil, hI.len]) ho hr) h

/-- **C131.** Series of different lengths. -/
theorem C131_variable_length {a : FitArgs ℝ L} {minLen : Nat} {xLen : List Nat} (hv : ValidVL a minLen xLen) {mc : Nat}
    (hmc : 1 ≤ mc) (g0 : G) (gs : Nat → G) :
    (∃ P nch rec out kept S, MFitted (trainVL a xLen) a minLen (min mc a.nf) P nch rec out kept S ∧
      ∀ order, IsSchedule order → mvlGenerate a mc minLen xLen g0 gs order = .ok S) ∨
    ∀ order, IsSchedule order → ∃ e, mvlGenerate a mc minLen xLen g0 gs order = .error e := by
  obtain ⟨P, g', hP, hI, -, hncl, -⟩ := mInit_wp a.pNorm a.prime hv.nShp hv.sizes hv.bounds hmc g0
  by_cases h : ∀ c ∈ P.nChannels, c ≤ a.nf
  · exact .inl (mvlGenerate_fits hv hmc gs hP h)
  · refine .inr fun order ho => ?_
    rcases hr : mvlGenerate a mc minLen xLen g0 gs order with e | S
    · exact ⟨e, rfl⟩
    · exact absurd (mvlGenerate_inv hP (by rw [hncl, (parOK_of_init hv.bounds hI).dil, hI.len]) ho hr) h

/-- **C131.** `max_channels = 0` always raises, whatever the data. -/
theorem C131_zero {a : FitArgs ℝ L} (hn : 1 ≤ a.nShp) (g0 : G) (gs : Nat → G) (order : Nat → List Nat) (minLen : Nat)
    (xLen : List Nat) :
    (∃ e, mslGenerate a 0 g0 gs order = .error e) ∧ ∃ e, mvlGenerate a 0 minLen xLen g0 gs order = .error e := by
  constructor
  · rcases hr : mslGenerate a 0 g0 gs order with e | S
    · exact ⟨e, rfl⟩
    · unfold mslGenerate at hr
      rw [Res.bind_eq_ok] at hr
      obtain ⟨r, h, -⟩ := hr
      exact absurd h (mInit_zero hn)
  · rcases hr : mvlGenerate a 0 minLen xLen g0 gs order with e | S
    · exact ⟨e, rfl⟩
    · unfold mvlGenerate at hr
      rw [Res.bind_eq_ok] at hr
      obtain ⟨m, -, hr⟩ := hr
      rw [Res.bind_eq_ok] at hr
      obtain ⟨r, h, -⟩ := hr
      exact absurd h (mInit_zero hn)

end runs

section law
variable [MeasurableSpace G] [Gen G ℝ] [LawfulGen G] [DecidableEq L] {μ : Measure G}

/-- **C131.** Series of equal length: for an ideal generator, `fit` returns with probability
`(min n_features max_channels / max_channels) ^ n_shapelets`, whatever the data. -/
theorem C131_probability_same_length [IsProbabilityMeasure μ] (hf : Fair G μ) {a : FitArgs ℝ L} (hv : ValidSL a) {mc : Nat}
    (hmc : 1 ≤ mc) :
    MeasurableSet {ω : G × (Nat → G) | ∀ order, IsSchedule order → ∃ S, mslGenerate a mc ω.1 ω.2 order = .ok S} ∧
    tapes μ {ω | ∀ order, IsSchedule order → ∃ S, mslGenerate a mc ω.1 ω.2 order = .ok S} =
      ((min a.nf mc : Nat) / (mc : ℝ≥0∞)) ^ a.nShp := by
  have hset : {ω : G × (Nat → G) | ∀ order, IsSchedule order → ∃ S, mslGenerate a mc ω.1 ω.2 order = .ok S} =
      {ω | ∃ P g', mInit a.nShp a.sizes a.nt a.pNorm mc a.prime ω.1 = .ok (P, g') ∧ ∀ c ∈ P.nChannels, c ≤ a.nf} := by
    ext ω
    obtain ⟨P, g', hP, hI, -, hncl, -⟩ := mInit_wp a.pNorm a.prime hv.nShp hv.sizes hv.bounds hmc ω.1
    constructor
    · intro h
      obtain ⟨S, hS⟩ := h List.range fun n => List.Perm.refl _
      exact ⟨P, g', hP, mslGenerate_inv hP (by rw [hncl, (parOK_of_init hv.bounds hI).dil, hI.len])
        (fun n => List.Perm.refl _) hS⟩
    · rintro ⟨P', g1, h1, h2⟩ order ho
      obtain ⟨-, -, -, -, -, S, -, h⟩ := mslGenerate_fits hv hmc ω.2 h1 h2
      exact ⟨S, h order ho⟩
  rw [hset]
  exact prob_fit hf hv.nShp hv.sizes hv.bounds hmc a.nf

/-- **C131.** Series of different lengths. -/
theorem C131_probability_variable_length [IsProbabilityMeasure μ] (hf : Fair G μ) {a : FitArgs ℝ L} {minLen : Nat}
    {xLen : List Nat} (hv : ValidVL a minLen xLen) {mc : Nat} (hmc : 1 ≤ mc) :
    MeasurableSet {ω : G × (Nat → G) | ∀ order, IsSchedule order → ∃ S, mvlGenerate a mc minLen xLen ω.1 ω.2 order = .ok S} ∧
    tapes μ {ω | ∀ order, IsSchedule order → ∃ S, mvlGenerate a mc minLen xLen ω.1 ω.2 order = .ok S} =
      ((min a.nf mc : Nat) / (mc : ℝ≥0∞)) ^ a.nShp := by
  have hset : {ω : G × (Nat → G) | ∀ order, IsSchedule order → ∃ S, mvlGenerate a mc minLen xLen ω.1 ω.2 order = .ok S} =
      {ω | ∃ P g', mInit a.nShp a.sizes minLen a.pNorm mc a.prime ω.1 = .ok (P, g') ∧ ∀ c ∈ P.nChannels, c ≤ a.nf} := by
    ext ω
    obtain ⟨P, g', hP, hI, -, hncl, -⟩ := mInit_wp a.pNorm a.prime hv.nShp hv.sizes hv.bounds hmc ω.1
    constructor
    · intro h
      obtain ⟨S, hS⟩ := h List.range fun n => List.Perm.refl _
      exact ⟨P, g', hP, mvlGenerate_inv hP (by rw [hncl, (parOK_of_init hv.bounds hI).dil, hI.len])
        (fun n => List.Perm.refl _) hS⟩
    · rintro ⟨P', g1, h1, h2⟩ order ho
      obtain ⟨-, -, -, -, -, S, -, h⟩ := mvlGenerate_fits hv hmc ω.2 h1 h2
      exact ⟨S, h order ho⟩
  rw [hset]
  exact prob_fit hf hv.nShp hv.sizes hv.bounds hmc a.nf

/-- **C131.** An object that was fitted without `max_channels` on series with `n1` channels, and is fitted again (after any number of
further calls) on series of equal length with `n2 ≤ n1` channels: the second call of the fitter returns with probability
`(n2 / n1) ^ n_shapelets` only. -/
theorem C131_fitted_again [IsProbabilityMeasure μ] (hf : Fair G μ) {R : Type} (env : Env G R L) (o : Rdst ℝ R)
    (ho : o.maxChannels = none) (w : World R)
    (first : FitCall G ℝ L) {o1 : Rdst ℝ R} {w1 : World R} {c1 : Call ℝ L} {s1 : Nat}
    (h1 : o.prepare env w first.X first.y = (o1, w1, .ok (c1, s1))) (rest : List (FitCall G ℝ L)) {w2 : World R} {X : XIn ℝ}
    {y : List L} {o2 : Rdst ℝ R} {w2' : World R} {a : FitArgs ℝ L} {mc s2 : Nat}
    (h2 : (afterFits env o w (first :: rest)).1.prepare env w2 X y = (o2, w2', .ok (.msl a mc, s2)))
    (hv : ValidSL a) (hc : a.nf ≤ c1.args.nf) :
    tapes μ {ω | ∀ order, IsSchedule order → ∃ S, (Call.msl a mc).run ω.1 ω.2 order = .ok S} =
      ((a.nf : ℝ≥0∞) / (c1.args.nf : ℝ≥0∞)) ^ a.nShp := by
  have h := C39_max_channels_fixed env o w first h1 rest h2 rfl
  rw [ho] at h
  obtain rfl : mc = c1.args.nf := Option.some.inj h
  have h3 := (C131_probability_same_length hf hv (mc := c1.args.nf) (hv.nf.trans hc)).2
  rw [min_eq_left hc] at h3
  rw [← h3]
  congr 1
  ext ω
  simp only [Set.mem_setOf_eq, Call.run]
  refine forall_congr' fun order => forall_congr' fun _ => ?_
  cases mslGenerate a c1.args.nf ω.1 ω.2 order with
  | ok S => exact ⟨fun _ => ⟨S, rfl⟩, fun _ => ⟨_, rfl⟩⟩
  | error e => exact ⟨fun ⟨_, h⟩ => (by cases h), fun ⟨_, h⟩ => (by cases h)⟩

/-- Four shapelets, two channels, `max_channels = 4`: one run in sixteen returns. -/
example : tapes tapeLaw {ω | ∀ order, IsSchedule order → ∃ S, mslGenerate exB 4 ω.1 ω.2 order = .ok S} = (2 / 4) ^ 4 ∧
    tapes tapeLaw {ω | ∀ order, IsSchedule order → ∃ S, mvlGenerate exB 4 4 [5, 4] ω.1 ω.2 order = .ok S} = (2 / 4) ^ 4 := by
  have h1 := (C131_probability_same_length tape_fair exB_valid (mc := 4) (by norm_num)).2
  have h2 := (C131_probability_variable_length tape_fair exB_validVL (mc := 4) (by norm_num)).2
  exact ⟨by simpa [exB] using h1, by simpa [exB] using h2⟩

/-- Two series of five points with two channels. -/
noncomputable def exTwo : Arr3 ℝ := ⟨[[[0, 1, 2, 3, 4], [2, 2, 1, 0, 0]], [[1, 1, 0, 2, 0], [3, 1, 4, 1, 0]]], 2, 5⟩

/-- An object with four shapelets fitted on two channels, then on one: the second call returns one time in sixteen. -/
example (env : Env Tape Nat Nat) (w w2 : World Nat) (gs : Nat → Tape) :
    ∃ a mc o2 w2' s2, (afterFits env (exObj .multi) w [⟨.array .float64 exTwo, [0, 1], gs, List.range⟩]).1.prepare env w2
        (.array .float64 exArr) [0, 1] = (o2, w2', .ok (.msl a mc, s2)) ∧
      tapes tapeLaw {ω | ∀ order, IsSchedule order → ∃ S, (Call.msl a mc).run ω.1 ω.2 order = .ok S} = (1 / 2) ^ 4 := by
  have hcp : checkParams (setLengths (exObj .multi).lens (exObj .multi).bounds (exObj .multi).reduction 5) 5 = .ok [3] := by
    rw [checkParams_eq]
    simp [exObj, setLengths, intLengths]
  have hA2 : toArr3 (.array .float64 exTwo) = .ok exTwo := toArr3_array (by simp [exTwo]) (by simp [exTwo]) (by simp [exTwo])
  have hA1 : toArr3 (.array .float64 exArr) = .ok exArr := toArr3_array (by simp [exArr]) (by simp [exArr]) (by simp [exArr])
  obtain ⟨o1, w1, c1, s1, h1, -, -, -, hargs, -⟩ := prepare_forward env (exObj .multi) w [0, 1] (t := .multi) (m := 5)
    (Or.inr (Or.inl rfl)) (C34_fixed_type (exObj .multi) (Or.inr (Or.inl rfl)) (.array .float64 exTwo))
    (loadTrain_same (o := exObj .multi) (by simp [TType.Var, exObj]) hA2) rfl hcp
  rcases hfit : (exObj .multi).fit env gs List.range w (.array .float64 exTwo) [0, 1] with ⟨oF, wF, r⟩
  obtain ⟨o1', r1, hp, S, rfl, -⟩ := fit_cases hfit
  rw [h1] at hp
  simp only [Prod.mk.injEq] at hp
  obtain ⟨rfl, rfl, rfl⟩ := hp
  obtain ⟨t, ml, mc, ls, rs', rfl, -, e3, -, -, -, e7, -⟩ := prepare_cases h1
  obtain rfl : t = .multi := e3 (by simp [exObj])
  obtain rfl : ls = (exObj .multi).lens := by
    rcases e7 with e | ⟨m, e⟩
    · exact e
    · rw [e]; rfl
  obtain ⟨o2, w2', c2, s2, h2, -, -, -, hargs2, -, hc2, -⟩ := prepare_forward env
    ({ exObj .multi with minLen := ml, maxChannels := mc, rs := rs', shapelets := S } : Rdst ℝ Nat) w2 [0, 1] (t := .multi)
    (m := 5) (Or.inr (Or.inl rfl)) (C34_fixed_type _ (Or.inr (Or.inl rfl)) (.array .float64 exArr))
    (loadTrain_same (by simp [TType.Var]) hA1) rfl hcp
  have hc2 := hc2 rfl
  have hstep : (afterFits env (exObj .multi) w [⟨.array .float64 exTwo, [0, 1], gs, List.range⟩]).1 =
      ({ exObj .multi with minLen := ml, maxChannels := mc, rs := rs', shapelets := S } : Rdst ℝ Nat) := by
    simp only [afterFits, hfit]
    rfl
  rw [hc2] at h2
  rw [← hstep] at h2
  refine ⟨_, _, o2, w2', s2, h2, ?_⟩
  have hv : ValidSL c2.args := by
    rw [hargs2]
    exact ⟨⟨rfl, by simp [exArr], by simp [exArr]⟩, by simp [exArr],
      ⟨by norm_num [exObj], by norm_num [exObj], by norm_num [exObj]⟩, by norm_num [exObj], by simp,
      by simp [exArr]⟩
  have h := C131_fitted_again tape_fair env (exObj .multi) rfl w ⟨.array .float64 exTwo, [0, 1], gs, List.range⟩ h1 [] h2 hv
    (by rw [hargs, hargs2]; simp [exArr, exTwo])
  rw [h, hargs, hargs2]
  norm_num [exArr, exTwo, exObj]

end law
end Convst.Props
