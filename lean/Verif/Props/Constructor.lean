import Verif.Props.EnsembleLists
import Verif.Model.EnsembleInit

/-!
# C98, C99: what the constructors accept and what they pass on
-/

set_option autoImplicit false
set_option linter.unusedSectionVars false

namespace Convst.Props
open Convst Spec

/-! ## C98: the constructor of `R_DST` -/

/-- The number of threads asked for by an `n_jobs` that is not a boolean: `None` asks for one, `-1` for all
processors, `-2` for all but one, and no more than there are. -/
def Asked {K : Type} (cpu : Nat) (v : PyVal K) (n : Int) : Prop :=
  (v = .none ∧ n = 1) ∨ ∃ z, v = .int z ∧ ((z < 0 ∧ n = cpu + 1 + z) ∨ (0 ≤ z ∧ n = min z cpu))

/-- The arguments `R_DST` accepts, `n_jobs` apart. -/
structure Accepted {R : Type} (p : Params ℝ R) : Prop where
  type : p.transformType.toLower ∈ ["auto", "univariate", "multivariate", "multivariate_variable"]
  lens : (∃ z l, p.lens = .ints (z :: l)) ∨ ∃ v l, p.lens = .floats (v :: l)
  bounds : p.bounds = none ∨ ∃ b0 b1, p.bounds = some [b0, b1]
  reduction : p.reduction < 1
  percentiles : ∃ a b rest, p.percentiles = a :: b :: rest ∧ a ≤ b

/-- The attributes an object gets from the constructor. -/
structure Carries {R : Type} (p : Params ℝ R) (o : Rdst ℝ R) : Prop where
  type : (p.transformType.toLower, o.transformType) ∈ documentedTypes
  phase : o.phase = p.phase
  alpha : o.alpha = p.alpha
  normalizeOutput : o.normalizeOutput = p.normalizeOutput
  nSamples : o.nSamples = p.nSamples
  nShp : o.nShp = p.nShp
  lens : o.lens = p.lens
  bounds : o.bounds.map (fun b => [b.1, b.2]) = p.bounds
  reduction : o.reduction = p.reduction
  prime : o.prime = p.prime
  pNorm : o.pNorm = p.pNorm
  percentiles : ∃ rest, p.percentiles = o.pMin :: o.pMax :: rest
  rs : o.rs = p.rs
  maxChannels : o.maxChannels = p.maxChannels
  minLen : o.minLen = p.minLen
  unfitted : o.shapelets = none

section
variable {G R L : Type}

theorem lens_iff (l : LenArr ℝ) :
    l.length ≠ 0 ↔ ((∃ z k, l = .ints (z :: k)) ∨ ∃ v k, l = .floats (v :: k)) := by
  cases l with
  | ints l => cases l <;> simp [LenArr.length]
  | floats l => cases l <;> simp [LenArr.length]

theorem type_ok {s : String} {t : TType} (h : validateTransformType s = .ok t) :
    s.toLower ∈ ["auto", "univariate", "multivariate", "multivariate_variable"] ∧ (s.toLower, t) ∈ documentedTypes := by
  have h1 := (C35_transform_type_partial s).1 t
  obtain ⟨h2, h3⟩ := h1.1 h
  refine ⟨?_, h2⟩
  simp only [documentedTypes, List.mem_cons, Prod.mk.injEq, List.not_mem_nil, or_false] at h2 ⊢
  tauto

theorem type_error {s : String} {e : Err} (h : validateTransformType s = .error e) :
    s.toLower ∉ ["auto", "univariate", "multivariate", "multivariate_variable"] ∧ e = .valueError := by
  have h1 := (C35_transform_type_partial s).1
  constructor
  · intro hm
    have : ∃ t, validateTransformType s = .ok t := by
      simp only [List.mem_cons, List.not_mem_nil, or_false] at hm
      rcases hm with hm | hm | hm | hm
      · exact ⟨.auto, (h1 _).2 (by simp [hm, documentedTypes])⟩
      · exact ⟨.uni, (h1 _).2 (by simp [hm, documentedTypes])⟩
      · exact ⟨.multi, (h1 _).2 (by simp [hm, documentedTypes])⟩
      · exact ⟨.multiVar, (h1 _).2 (by simp [hm, documentedTypes])⟩
    obtain ⟨t, ht⟩ := this
    rw [h] at ht
    cases ht
  · unfold validateTransformType at h
    simp only at h
    split at h
    · cases h
    · cases h; rfl

theorem percentiles_ok {p : List ℝ} {a b : ℝ} (h : validatePercentiles p = .ok (a, b)) :
    a ≤ b ∧ ∃ rest, p = a :: b :: rest := by
  unfold validatePercentiles at h
  split at h
  · cases h
  · cases h
  · split at h
    · rename_i hle
      rw [real_leb] at hle
      cases h
      exact ⟨hle, _, rfl⟩
    · cases h

theorem percentiles_error {p : List ℝ} {e : Err} (h : validatePercentiles p = .error e) :
    (¬ ∃ a b rest, p = a :: b :: rest ∧ a ≤ b) ∧ (e = .valueError ∨ e = .indexError ∧ p.length = 1) := by
  unfold validatePercentiles at h
  split at h
  · cases h; exact ⟨by simp, .inl rfl⟩
  · cases h; exact ⟨by simp, .inr ⟨rfl, rfl⟩⟩
  · split at h
    · cases h
    · rename_i hle
      rw [real_leb] at hle
      cases h
      refine ⟨?_, .inl rfl⟩
      rintro ⟨a, b, rest, hp, hab⟩
      simp only [List.cons.injEq] at hp
      obtain ⟨rfl, rfl, -⟩ := hp
      exact hle hab

theorem njobs_ok {cpu : Nat} {v : PyVal ℝ} {n : Int} : checkNJobs cpu v = .ok n ↔ Asked cpu v n := by
  unfold checkNJobs Asked
  cases v with
  | none => simp [eq_comm]
  | int z =>
    simp only [reduceCtorEq, false_and, PyVal.int.injEq, false_or]
    split
    · rw [Except.ok.injEq]
      constructor
      · rintro rfl; exact ⟨z, rfl, .inl ⟨by omega, by omega⟩⟩
      · rintro ⟨z', rfl, h⟩; omega
    · rw [Except.ok.injEq]
      constructor
      · rintro rfl; exact ⟨z, rfl, .inr ⟨by omega, by omega⟩⟩
      · rintro ⟨z', rfl, h⟩; omega
  | _ => simp

theorem njobs_error {cpu : Nat} {v : PyVal ℝ} {e : Err} (h : checkNJobs cpu v = .error e) :
    (∀ n, ¬ Asked cpu v n) ∧ e = .valueError := by
  constructor
  · intro n hn
    rw [njobs_ok.2 hn] at h
    cases h
  · unfold checkNJobs at h
    split at h
    · cases h
    · split at h <;> cases h
    · cases h; rfl

/-- **C98.** What the constructor of `R_DST` does.  Either all arguments are accepted; then the object carries
every one of them, and the thread count of the process becomes the one asked for, or stays when `n_jobs` is a
boolean.  Or one of them is not; then the constructor raises and nothing has changed.  The exception is `ValueError`,
except that a single percentile may raise `IndexError`. -/
theorem C98_constructor (env : Env G R L) (w : World R) (p : Params ℝ R) :
    (Accepted p ∧ ∃ o, Carries p o ∧
      ((∃ b, p.nJobs = .bool b ∧ o.nJobs = (if b then 1 else 0) ∧ Rdst.init env w p = (w, .ok o)) ∨
        ∃ n, Asked env.cpu p.nJobs n ∧ 1 ≤ n ∧ n ≤ env.maxThreads ∧ o.nJobs = n ∧
          Rdst.init env w p = ({ w with numThreads := n }, .ok o))) ∨
    (¬ (Accepted p ∧ ((∃ b, p.nJobs = .bool b) ∨ ∃ n, Asked env.cpu p.nJobs n ∧ 1 ≤ n ∧ n ≤ env.maxThreads)) ∧
      ∃ e, Rdst.init env w p = (w, .error e) ∧ (e = .valueError ∨ e = .indexError ∧ p.percentiles.length = 1)) := by
  unfold Rdst.init
  cases h1 : validateTransformType p.transformType with
  | error e =>
    obtain ⟨a, rfl⟩ := type_error h1
    exact .inr ⟨fun h => a h.1.type, _, rfl, .inl rfl⟩
  | ok tt =>
  obtain ⟨t1, t2⟩ := type_ok h1
  simp only
  split
  · rename_i hl
    exact .inr ⟨fun h => (lens_iff _).2 h.1.lens hl, _, rfl, .inl rfl⟩
  rename_i hl
  have hl' := (lens_iff _).1 hl
  split
  · rename_i e h2
    refine .inr ⟨fun h => ?_, _, rfl, .inl ?_⟩
    · rcases h.1.bounds with hb | ⟨b0, b1, hb⟩ <;> rw [hb] at h2 <;> cases h2
    · split at h2
      · cases h2
      · cases h2
      · cases h2; rfl
  rename_i bs h2
  have hb : bs.map (fun b => [b.1, b.2]) = p.bounds := by
    split at h2
    · rename_i hb; cases h2; exact hb.symm
    · rename_i hb; cases h2; exact hb.symm
    · cases h2
  split
  · rename_i hr
    rw [real_leb] at hr
    exact .inr ⟨fun h => absurd h.1.reduction (not_lt.2 hr), _, rfl, .inl rfl⟩
  rename_i hr
  rw [real_leb, not_le] at hr
  cases h3 : validatePercentiles p.percentiles with
  | error e =>
    obtain ⟨a, b⟩ := percentiles_error h3
    exact .inr ⟨fun h => a h.1.percentiles, _, rfl, b⟩
  | ok ab =>
  obtain ⟨pMin, pMax⟩ := ab
  obtain ⟨hle, rest, hp⟩ := percentiles_ok h3
  have hacc : Accepted p := ⟨t1, hl', by
      rw [← hb]
      cases bs with
      | none => exact .inl rfl
      | some b => exact .inr ⟨b.1, b.2, rfl⟩, hr, pMin, pMax, rest, hp, hle⟩
  have hcar : ∀ n : Int, Carries p
      { transformType := tt, phase := p.phase, alpha := p.alpha, normalizeOutput := p.normalizeOutput,
        nSamples := p.nSamples, nShp := p.nShp, lens := p.lens, bounds := bs, reduction := p.reduction,
        prime := p.prime, pNorm := p.pNorm, pMin := pMin, pMax := pMax, rs := p.rs, nJobs := n,
        maxChannels := p.maxChannels, minLen := p.minLen, shapelets := none } := fun n =>
    ⟨t2, rfl, rfl, rfl, rfl, rfl, rfl, hb, rfl, rfl, rfl, ⟨rest, hp⟩, rfl, rfl, rfl, rfl⟩
  by_cases hbool : ∃ b, p.nJobs = .bool b
  · obtain ⟨b, hb'⟩ := hbool
    simp only [hb']
    exact .inl ⟨hacc, _, hcar _, .inl ⟨b, rfl, rfl, rfl⟩⟩
  · cases h4 : checkNJobs env.cpu p.nJobs with
    | error e =>
      obtain ⟨a, rfl⟩ := njobs_error h4
      refine .inr ⟨?_, .valueError, ?_, .inl rfl⟩
      · rintro ⟨-, h | ⟨n, h, -⟩⟩
        · exact hbool h
        · exact a n h
      · cases hv : p.nJobs with
        | bool b => exact absurd ⟨b, hv⟩ hbool
        | _ => rw [hv] at h4; simp only [h4]
    | ok n =>
      by_cases hn : 1 ≤ n ∧ n ≤ (env.maxThreads : Int)
      · refine .inl ⟨hacc, _, hcar n, .inr ⟨n, njobs_ok.1 h4, hn.1, hn.2, rfl, ?_⟩⟩
        cases hv : p.nJobs with
        | bool b => exact absurd ⟨b, hv⟩ hbool
        | _ => rw [hv] at h4; simp only [h4, setNumThreads, hn, and_self, if_true]
      · refine .inr ⟨?_, .valueError, ?_, .inl rfl⟩
        · rintro ⟨-, h | ⟨n', h, h'⟩⟩
          · exact hbool h
          · have := njobs_ok.2 h
            rw [h4, Except.ok.injEq] at this
            subst this
            exact hn h'
        · cases hv : p.nJobs with
          | bool b => exact absurd ⟨b, hv⟩ hbool
          | _ => rw [hv] at h4; simp only [h4, setNumThreads, if_neg hn]

/-- **C98.** Percentiles after the second are not looked at. -/
theorem C98_extra_percentiles (env : Env G R L) (w : World R) (p : Params ℝ R) {a b : ℝ} {rest : List ℝ}
    (h : p.percentiles = a :: b :: rest) : Rdst.init env w p = Rdst.init env w { p with percentiles := [a, b] } := by
  have : validatePercentiles p.percentiles = validatePercentiles [a, b] := by rw [h]; rfl
  unfold Rdst.init
  simp only [this, LenArr.length]

/-- **C98 (violated).** A single percentile is reported with `IndexError` instead of the `ValueError` of the other
wrong values. -/
theorem C98_violated_single_percentile (env : Env G R L) (w : World R) (p : Params ℝ R) (q : ℝ)
    (h : Accepted { p with percentiles := [q, q] }) :
    Rdst.init env w { p with percentiles := [q] } = (w, .error .indexError) := by
  have h1 := C98_constructor env w { p with percentiles := [q], nJobs := .bool false }
  rcases h1 with ⟨h1, -⟩ | ⟨-, e, h1, h2⟩
  · obtain ⟨a, b, rest, h2, -⟩ := h1.percentiles
    simp at h2
  · have ht : ∃ tt, validateTransformType p.transformType = .ok tt := by
      cases ht : validateTransformType p.transformType with
      | error e => exact absurd h.type (type_error ht).1
      | ok tt => exact ⟨tt, rfl⟩
    obtain ⟨tt, ht⟩ := ht
    have hl : p.lens.length ≠ 0 := (lens_iff _).2 h.lens
    have hr : ¬ Scalar.leb 1 p.reduction = true := by rw [real_leb, not_le]; exact h.reduction
    unfold Rdst.init
    simp only [ht, if_neg hl]
    rcases h.bounds with hb | ⟨b0, b1, hb⟩
    · have hb : p.bounds = none := hb
      simp only [hb, if_neg hr, validatePercentiles]
    · have hb : p.bounds = some [b0, b1] := hb
      simp only [hb, if_neg hr, validatePercentiles]

/-- **C98 (violated).** Percentiles that are no percentages are accepted; every computation of a threshold then
raises. -/
theorem C98_violated_percentile_range (env : Env G R L) (w : World R) (p : Params ℝ R) {a b : ℝ}
    (h : Accepted { p with percentiles := [0, 100] }) (hab : a ≤ b) (hb : a < 0 ∨ 100 < b) :
    (∃ o, Rdst.init env w { p with percentiles := [a, b], nJobs := .bool true } = (w, .ok o) ∧ o.pMin = a ∧
        o.pMax = b) ∧
      ∀ D : List ℝ, percentile D a = .error .valueError ∨ percentile D b = .error .valueError := by
  constructor
  · have hacc : Accepted { p with percentiles := [a, b], nJobs := .bool true } :=
      ⟨h.type, h.lens, h.bounds, h.reduction, a, b, [], rfl, hab⟩
    rcases C98_constructor env w { p with percentiles := [a, b], nJobs := .bool true } with
      ⟨-, o, hc, ⟨b', -, -, ho⟩ | ⟨n, hn, -⟩⟩ | ⟨hno, -⟩
    · obtain ⟨rest, hr⟩ := hc.percentiles
      simp only [List.cons.injEq] at hr
      exact ⟨o, ho, hr.1.symm, hr.2.1.symm⟩
    · rcases hn with ⟨hn, -⟩ | ⟨z, hn, -⟩ <;> cases hn
    · exact absurd ⟨hacc, .inl ⟨true, rfl⟩⟩ hno
  · intro D
    have key : ∀ q : ℝ, q < 0 ∨ 100 < q → percentile D q = .error .valueError := by
      intro q hq
      unfold percentile
      rw [if_neg]
      simp only [Bool.and_eq_true, real_leb, real_ofNat]
      rintro ⟨h1, h2⟩
      norm_num at h2
      rcases hq with hq | hq <;> linarith
    exact hb.imp (fun h => key a (.inl h)) (fun h => key b (.inr h))

end

/-- The hypotheses of C98 are met by the parameters of the examples. -/
theorem exParams_accepted (v : PyVal ℝ) : Accepted (exParams v) :=
  ⟨show "auto".toLower ∈ _ by decide +kernel, .inl ⟨11, [], rfl⟩, .inl rfl, by norm_num [exParams], 5, 10, [], rfl, by norm_num⟩

example {G : Type} [Gen G ℝ] (g : G) (w : World Nat) :
    Rdst.init (exEnv g) w { exParams (.int 1) with percentiles := [7] } = (w, .error .indexError) :=
  C98_violated_single_percentile (exEnv g) w (exParams (.int 1)) 7
    ⟨(exParams_accepted (.int 1)).type, (exParams_accepted (.int 1)).lens, (exParams_accepted (.int 1)).bounds,
      (exParams_accepted (.int 1)).reduction, 7, 7, [], rfl, le_refl _⟩

example {G : Type} [Gen G ℝ] (g : G) (w : World Nat) :
    ∃ o, Rdst.init (exEnv g) w { exParams (.int 1) with percentiles := [200, 300], nJobs := .bool true } = (w, .ok o) :=
  (C98_violated_percentile_range (exEnv g) w (exParams (.int 1)) (a := 200) (b := 300)
    ⟨(exParams_accepted (.int 1)).type, (exParams_accepted (.int 1)).lens, (exParams_accepted (.int 1)).bounds,
      (exParams_accepted (.int 1)).reduction, 0, 100, [], rfl, by norm_num⟩ (by norm_num) (by norm_num)).1.imp
    fun _ h => h.1

/-! ## C99: the constructor of `R_DST_Ensemble` and the parameters of its members -/

section
variable {G R : Type}

/-- **C99.** The constructor of the ensemble accepts its arguments exactly when there is a candidate length, at
least one probability, and one probability per input transformer (three when none are given); it stores them. -/
theorem C99_constructor (ienv : InEnv ℝ R) (a : EnsArgs ℝ R) :
    (∃ e, Ensemble.init (defaultTransformers ienv) a = .ok e ∧ e.p = a.p ∧ e.pNorms = a.pNorms ∧ e.rs = a.rs ∧
        e.aW = a.aW ∧ e.nJobs = a.nJobs ∧ e.models = [] ∧ e.weights = none ∧
        e.reps = a.inputs.getD (defaultTransformers ienv)) ∧
      ((∃ z l, a.p.lens = .ints (z :: l)) ∨ ∃ v l, a.p.lens = .floats (v :: l)) ∧ a.pNorms ≠ [] ∧
      (∀ l, a.inputs = some l → l.length = a.pNorms.length) ∧ (a.inputs = none → a.pNorms.length = 3) ∨
    Ensemble.init (defaultTransformers ienv) a = .error .valueError ∧
      ¬ (((∃ z l, a.p.lens = .ints (z :: l)) ∨ ∃ v l, a.p.lens = .floats (v :: l)) ∧ a.pNorms ≠ [] ∧
        (∀ l, a.inputs = some l → l.length = a.pNorms.length) ∧ (a.inputs = none → a.pNorms.length = 3)) := by
  unfold Ensemble.init
  by_cases h1 : a.p.lens.length = 0
  · rw [if_pos h1]
    exact .inr ⟨rfl, fun h => (lens_iff _).2 h.1 h1⟩
  rw [if_neg h1]
  by_cases h2 : a.pNorms.length = 0
  · rw [if_pos h2]
    exact .inr ⟨rfl, fun h => h.2.1 (List.length_eq_zero_iff.1 h2)⟩
  rw [if_neg h2]
  have h2' : a.pNorms ≠ [] := fun h => h2 (by rw [h]; rfl)
  cases hi : a.inputs with
  | none =>
    simp only
    by_cases h3 : a.pNorms.length = 3
    · rw [if_neg (by rw [h3]; simp [defaultTransformers])]
      exact .inl ⟨⟨_, rfl, rfl, rfl, rfl, rfl, rfl, rfl, rfl, rfl⟩, (lens_iff _).1 h1, h2', by simp, fun _ => h3⟩
    · rw [if_pos (by simp [defaultTransformers]; omega)]
      exact .inr ⟨rfl, fun h => h3 (h.2.2.2 trivial)⟩
  | some l =>
    simp only
    by_cases h3 : l.length = a.pNorms.length
    · rw [if_neg (by simpa using h3)]
      exact .inl ⟨⟨_, rfl, rfl, rfl, rfl, rfl, rfl, rfl, rfl, rfl⟩, (lens_iff _).1 h1, h2', by
        rintro l' hl; cases hl; exact h3, by simp⟩
    · rw [if_pos h3]
      exact .inr ⟨rfl, fun h => h3 (h.2.2.1 l rfl)⟩

variable [Gen G ℝ]

/-- The parameters an ensemble gives to its members. -/
structure MemberCarries (e : Ensemble ℝ R) (i : Nat) (m : Member ℝ R) : Prop where
  rep : e.reps[i]? = some m.rep
  pNorm : e.pNorms[i]? = some m.rdst.pNorm
  phase : m.rdst.phase = e.p.phase
  alpha : m.rdst.alpha = e.p.alpha
  nSamples : m.rdst.nSamples = e.p.nSamples
  nShp : m.rdst.nShp = e.p.nShp
  bounds : m.rdst.bounds.map (fun b => [b.1, b.2]) = e.p.bounds
  reduction : m.rdst.reduction = e.p.reduction
  prime : m.rdst.prime = e.p.prime
  percentiles : ∃ rest, e.p.percentiles = m.rdst.pMin :: m.rdst.pMax :: rest

/-- **C99.** After a successful `fit`, whatever the schedule, member `i` uses the `i`-th input transformer, the
`i`-th probability of normalisation and the other parameters of the ensemble. -/
theorem C99_member_parameters {env : EnsEnv G ℝ R} {gs : Nat → Nat → G} {sched : Nat → Nat → List Nat}
    {order : List Nat} {e e' : Ensemble ℝ R} (hord : order.Perm (List.range e.reps.length))
    (hp : e.pNorms.length = e.reps.length) {w w' : World R} {X : XIn ℝ} {y : List Int}
    (h : e.fit env gs sched order w X y = (e', w', .ok ())) :
    e'.models.length = e.reps.length ∧ ∀ i m, e'.models[i]? = some m → MemberCarries e i m := by
  obtain ⟨w1, st, accs, -, -, -, hml, hmem, -, -⟩ := ens_fit_ok hord h
  refine ⟨hml, fun i m hm => ?_⟩
  have hi : i < e.reps.length := by rw [← hml]; exact (List.getElem?_eq_some_iff.1 hm).1
  have hi' : i ∈ order := hord.mem_iff.2 (by simpa using hi)
  obtain ⟨k, hk, rfl⟩ := List.getElem_of_mem hi'
  obtain ⟨m', h1, h2⟩ := hmem k hk
  rw [hm, Option.some.injEq] at h1
  subst h1
  obtain ⟨rep, Xi, w2, o0, F, Fs, h3, h4, h5, h6, -, rfl, -⟩ := fitMember_ok h2
  obtain ⟨o1, r1, h7, S, h8, -⟩ := fit_cases h6
  obtain ⟨t, ml, mc, ls, rs', h9, -⟩ := prepare_cases h7
  rw [h9] at h8
  have hc : Carries (e.args order[k] (st k).1) o0 := by
    rcases C98_constructor env.toEnv (st k).2 (e.args order[k] (st k).1) with ⟨-, o, hc, ⟨b, -, -, ho⟩ | ⟨n, -, -, -, -, ho⟩⟩ | ⟨-, er, ho, -⟩
    · rw [h5, Prod.mk.injEq, Except.ok.injEq] at ho
      rw [ho.2]; exact hc
    · rw [h5, Prod.mk.injEq, Except.ok.injEq] at ho
      rw [ho.2]; exact hc
    · rw [h5, Prod.mk.injEq] at ho
      cases ho.2
  refine ⟨h3, ?_, ?_, ?_, ?_, ?_, ?_, ?_, ?_, ?_⟩
  · rw [h8, List.getElem?_eq_getElem (by omega), Option.some.injEq]
    exact (hc.pNorm.trans (getD_lt _ (by omega))).symm
  · rw [h8]; exact hc.phase
  · rw [h8]; exact hc.alpha
  · rw [h8]; exact hc.nSamples
  · rw [h8]; exact hc.nShp
  · rw [h8]; exact hc.bounds
  · rw [h8]; exact hc.reduction
  · rw [h8]; exact hc.prime
  · rw [h8]; exact hc.percentiles

/-- The same ensemble constructed with another value of `normalize_output`. -/
def withNormalizeOutput (e : Ensemble ℝ R) (b : Bool) : Ensemble ℝ R := { e with p := { e.p with normalizeOutput := b } }

/-- **C99 (violated).** `normalize_output` has no effect on an ensemble: with either value, `fit` has the same
outcome and the ensemble makes the same predictions. -/
theorem C99_violated_normalize_output (env : EnsEnv G ℝ R) (gs : Nat → Nat → G) (sched : Nat → Nat → List Nat)
    (order : List Nat) (e : Ensemble ℝ R) (b : Bool) (w : World R) (X : XIn ℝ) (y : List Int) :
    ∃ e1 w1 r, e.fit env gs sched order w X y = (e1, w1, r) ∧
      (withNormalizeOutput e b).fit env gs sched order w X y = (withNormalizeOutput e1 b, w1, r) ∧
      ∀ Z, (withNormalizeOutput e1 b).predict Z = e1.predict Z := by
  refine ⟨_, _, _, rfl, ?_, fun Z => rfl⟩
  have hman : (withNormalizeOutput e b).manageNJobs env.cpu =
      (withNormalizeOutput (e.manageNJobs env.cpu).1 b, (e.manageNJobs env.cpu).2) := by
    unfold Ensemble.manageNJobs
    simp only [withNormalizeOutput]
    split
    · rfl
    · split <;> rfl
  have hfm : ∀ (e : Ensemble ℝ R) i, fitMember env (withNormalizeOutput e b) (gs i) (sched i) X y i =
      fitMember env e (gs i) (sched i) X y i := fun _ _ => rfl
  unfold Ensemble.fit
  rw [hman]
  rcases hm : e.manageNJobs env.cpu with ⟨e1, r1⟩
  cases r1 with
  | error er => rfl
  | ok u =>
    simp only [hfm]
    have h1 : (withNormalizeOutput e1 b).nJobsRdst = e1.nJobsRdst := rfl
    have h2 : (withNormalizeOutput e1 b).rs = e1.rs := rfl
    have h3 : (withNormalizeOutput e1 b).reps = e1.reps := rfl
    have h4 : (withNormalizeOutput e1 b).aW = e1.aW := rfl
    rw [h1, h2, h3]
    rcases hs : setNumThreads env.maxThreads w (e1.nJobsRdst.getD 1) with ⟨w1, r1⟩
    cases r1 with
    | error er => rfl
    | ok u =>
      simp only
      rcases hf : fitMembers (fun i => fitMember env e1 (gs i) (sched i) X y i) order e1.rs w1 (fun _ => none) with
        ⟨rs, w2, r2⟩
      cases r2 with
      | error er => rfl
      | ok slots =>
        simp only
        split
        · rfl
        · rfl

/-- **C99 (violated).** Wrong values of the parameters of `R_DST` are not found by the constructor of the ensemble:
it is `fit` that raises, whatever the training data, and after it has set the thread count of the process. -/
theorem C99_violated_late_errors (ienv : InEnv ℝ R) (env : EnsEnv G ℝ R) (gs : Nat → Nat → G)
    (sched : Nat → Nat → List Nat) {a : EnsArgs ℝ R} {e : Ensemble ℝ R}
    (hi : Ensemble.init (defaultTransformers ienv) a = .ok e) (hbad : ¬ Accepted a.p)
    {order : List Nat} (hord : order.Perm (List.range e.reps.length)) {t : Int}
    (ht : Asked env.cpu a.nJobs t) (h1 : 1 ≤ t) (h2 : t ≤ env.maxThreads) (w : World R) (X : XIn ℝ) (y : List Int) :
    ∃ e' er, e.fit env gs sched order w X y =
      (e', { w with numThreads := max 1 (t / min (e.reps.length : Int) t) }, .error er) ∧ e'.models = [] := by
  obtain ⟨⟨e0, h0, k1, k2, k3, k4, k5, k6, k7, k8⟩, k9, k10, k11, k12⟩ | ⟨h0, -⟩ := C99_constructor ienv a
  swap
  · rw [hi] at h0; cases h0
  rw [hi, Except.ok.injEq] at h0
  subst h0
  have hlen : e.reps.length = a.pNorms.length := by
    rw [k8]
    cases hin : a.inputs with
    | none => rw [k12 hin]; rfl
    | some l => exact k11 l hin
  have hpos : 0 < e.reps.length := by rw [hlen]; exact List.length_pos_iff.2 k10
  have hrej : ∀ i rs w, ∃ er, Rdst.init env.toEnv w (e.args i rs) = (w, .error er) := by
    intro i rs w
    rcases C98_constructor env.toEnv w (e.args i rs) with ⟨hacc, -⟩ | ⟨-, er, ho, -⟩
    · exfalso
      apply hbad
      rw [← k1]
      exact ⟨hacc.type, hacc.lens, hacc.bounds, hacc.reduction, hacc.percentiles⟩
    · exact ⟨er, ho⟩
  have hmem : ∀ (a' : PyVal ℝ) b' i rs w, ∃ er, fitMember env { e with nJobs := a', nJobsRdst := b' } (gs i) (sched i) X y i rs w =
      (rs, w, .error er) := by
    intro a' b' i rs w
    unfold fitMember
    simp only
    cases hr : e.reps[i]? with
    | none => exact ⟨_, rfl⟩
    | some rep =>
      simp only
      cases hx : rep X with
      | error er => exact ⟨_, rfl⟩
      | ok Xi =>
        simp only
        obtain ⟨er, he⟩ := hrej i rs w
        have he' : Rdst.init env.toEnv w (Ensemble.args { e with nJobs := a', nJobsRdst := b' } i rs) = (w, .error er) := he
        rw [he']
        exact ⟨_, rfl⟩
  have hck : checkNJobs env.cpu e.nJobs = .ok t := by rw [k5]; exact njobs_ok.2 ht
  have hmin : 1 ≤ min (e.reps.length : Int) t := by omega
  have hman : e.manageNJobs env.cpu = ({ e with nJobs := .int (min (e.reps.length : Int) t), nJobsRdst := some (max 1 (t / min (e.reps.length : Int) t)) }, .ok ()) := by
    unfold Ensemble.manageNJobs
    simp only [hck, pyFloorDiv]
    rw [if_neg (by omega), Int.fdiv_eq_ediv_of_nonneg _ (by omega)]
  have hdiv : t / min (e.reps.length : Int) t ≤ t := Int.ediv_le_self _ (by omega)
  cases hord' : order with
  | nil =>
    exfalso
    have := hord.length_eq
    rw [hord'] at this
    simp at this
    omega
  | cons i rest =>
    unfold Ensemble.fit
    rw [hman]
    simp only [Option.getD_some, setNumThreads]
    rw [if_pos (by constructor <;> omega)]
    simp only
    unfold fitMembers
    obtain ⟨er, he⟩ := hmem (.int (min (e.reps.length : Int) t)) (some (max 1 (t / min (e.reps.length : Int) t))) i e.rs
      { w with numThreads := max 1 (t / min (e.reps.length : Int) t) }
    rw [he]
    exact ⟨_, er, rfl, k6⟩

end

section
variable {G : Type} [Gen G ℝ] [LawfulGen G]

/-- The arguments of the example ensemble. -/
noncomputable def exEnsArgs : EnsArgs ℝ Nat := ⟨exEns.p, some exEns.reps, exEns.pNorms, exEns.rs, exEns.aW, exEns.nJobs⟩

example (ienv : InEnv ℝ Nat) : Ensemble.init (defaultTransformers ienv) exEnsArgs = .ok exEns := rfl

/-- The example is fitted, so that the hypotheses on fitted ensembles are met. -/
example (seed : Nat → G) (gs : Nat → Nat → G) (w : World Nat) :
    ∃ e' w', exEns.fit (exEnsEnv seed) gs (fun _ => List.range) [1, 0] w (.array .float64 exArr) [0, 1] = (e', w', .ok ()) ∧
      ∀ i m, e'.models[i]? = some m → MemberCarries exEns i m := by
  obtain ⟨e', w', h⟩ := exEns_fit seed gs (List.Perm.swap 0 1 []) w [0, 1] rfl
  exact ⟨e', w', h, (C99_member_parameters (List.Perm.swap 0 1 []) rfl h).2⟩

/-- Percentiles in the wrong order are only found by `fit`. -/
example (ienv : InEnv ℝ Nat) (seed : Nat → G) (gs : Nat → Nat → G) (w : World Nat) (X : XIn ℝ) (y : List Int) :
    ∃ e e' er, Ensemble.init (defaultTransformers ienv) { exEnsArgs with p := { exEns.p with percentiles := [10, 5] } } = .ok e ∧
      e.fit (exEnsEnv seed) gs (fun _ => List.range) [0, 1] w X y = (e', { w with numThreads := 1 }, .error er) := by
  have hbad : ¬ Accepted { exEns.p with percentiles := [10, 5] } := by
    rintro ⟨-, -, -, -, a, b, rest, h, hab⟩
    simp only [List.cons.injEq] at h
    obtain ⟨rfl, rfl, -⟩ := h
    norm_num at hab
  let e0 : Ensemble ℝ Nat := { exEns with p := { exEns.p with percentiles := [10, 5] } }
  obtain ⟨e', er, h, -⟩ := C99_violated_late_errors ienv (exEnsEnv seed) gs (fun _ => List.range)
    (a := { exEnsArgs with p := { exEns.p with percentiles := [10, 5] } }) (e := e0) rfl hbad (order := [0, 1])
    (List.Perm.refl _) (t := 2) (.inr ⟨2, rfl, by simp [exEnsEnv]⟩) (by norm_num) (by simp [exEnsEnv]) w X y
  have hn : max 1 ((2 : Int) / min (e0.reps.length : Int) 2) = 1 := by simp [e0, exEns]
  rw [hn] at h
  exact ⟨e0, e', er, rfl, h⟩

end

end Convst.Props
