import Verif.Props.SetParams
import Verif.Props.RidgeFit
import Verif.Props.EnsembleRace

/-!
# `set_params` of the classifiers (C108)
-/

set_option autoImplicit false
set_option linter.unusedSectionVars false

namespace Convst.Props
open Convst Spec

/-! ## `R_DST_Ridge` -/

section
variable {G K R L : Type} [Scalar K] [Gen G K] [DecidableEq L]

theorem ridge_setParams (rsOf : Nat → R) {us : List (Upd K R)} (hus : ∀ u ∈ us, OfRidge u) (c : RidgeClf K R L) :
    setParams (RidgeClf.setOne rsOf) us c =
      ({ c with p := (withRidgeArgs rsOf (c.p, c.rs) us).1, rs := (withRidgeArgs rsOf (c.p, c.rs) us).2 }, .ok ()) ∧
    (withRidgeArgs rsOf (c.p, c.rs) us).1.nJobs = c.p.nJobs := by
  induction us generalizing c with
  | nil => exact ⟨rfl, rfl⟩
  | cons u us ih =>
    have hu := hus u (by simp)
    have ih' := fun c => ih (fun v hv => hus v (by simp [hv])) c
    cases u with
    | maxChannels n => exact hu.elim
    | unknown n => exact hu.elim
    | nJobs v => exact hu.elim
    | rs s =>
      obtain ⟨h1, h2⟩ := ih' { c with rs := s }
      exact ⟨h1, h2⟩
    | _ =>
      rename_i v
      first
      | (obtain ⟨h1, h2⟩ := ih' { c with p := c.p.upd rsOf (.transformType v) }; exact ⟨h1, h2⟩)
      | (obtain ⟨h1, h2⟩ := ih' { c with p := c.p.upd rsOf (.phase v) }; exact ⟨h1, h2⟩)
      | (obtain ⟨h1, h2⟩ := ih' { c with p := c.p.upd rsOf (.alpha v) }; exact ⟨h1, h2⟩)
      | (obtain ⟨h1, h2⟩ := ih' { c with p := c.p.upd rsOf (.normalizeOutput v) }; exact ⟨h1, h2⟩)
      | (obtain ⟨h1, h2⟩ := ih' { c with p := c.p.upd rsOf (.nSamples v) }; exact ⟨h1, h2⟩)
      | (obtain ⟨h1, h2⟩ := ih' { c with p := c.p.upd rsOf (.nShp _ v) }; exact ⟨h1, h2⟩)
      | (obtain ⟨h1, h2⟩ := ih' { c with p := c.p.upd rsOf (.lens _ v) }; exact ⟨h1, h2⟩)
      | (obtain ⟨h1, h2⟩ := ih' { c with p := c.p.upd rsOf (.bounds v) }; exact ⟨h1, h2⟩)
      | (obtain ⟨h1, h2⟩ := ih' { c with p := c.p.upd rsOf (.reduction v) }; exact ⟨h1, h2⟩)
      | (obtain ⟨h1, h2⟩ := ih' { c with p := c.p.upd rsOf (.prime v) }; exact ⟨h1, h2⟩)
      | (obtain ⟨h1, h2⟩ := ih' { c with p := c.p.upd rsOf (.pNorm v) }; exact ⟨h1, h2⟩)
      | (obtain ⟨h1, h2⟩ := ih' { c with p := c.p.upd rsOf (.percentiles v) }; exact ⟨h1, h2⟩)
      | (obtain ⟨h1, h2⟩ := ih' { c with p := c.p.upd rsOf (.minLen v) }; exact ⟨h1, h2⟩)

/-- What the constructor of `R_DST_Ridge` stores. -/
theorem ridge_init {env : Env G R L} {w w1 : World R} {p : Params K R} {rs : RSrc R} {c : RidgeClf K R L}
    (h : RidgeClf.init env w p rs = (w1, .ok c)) :
    c = ⟨p, rs, c.nJobs, none, none⟩ ∧ ∀ (q : Params K R) (s : RSrc R), q.nJobs = p.nJobs → ∀ w2, ∃ w3,
      RidgeClf.init env w2 q s = (w3, .ok ⟨q, s, c.nJobs, none, none⟩) := by
  unfold RidgeClf.init at h ⊢
  cases hj : p.nJobs with
  | bool b =>
    rw [hj] at h
    simp only [Prod.mk.injEq, Except.ok.injEq] at h
    obtain ⟨-, rfl⟩ := h
    exact ⟨rfl, fun q s hq w2 => ⟨w2, by rw [hq]⟩⟩
  | _ =>
    rw [hj] at h
    simp only at h
    split at h
    · simp at h
    · rename_i n hn
      unfold setNumThreads at h ⊢
      by_cases hb : 1 ≤ n ∧ n ≤ (env.maxThreads : Int)
      · rw [if_pos hb] at h
        simp only [Prod.mk.injEq, Except.ok.injEq] at h
        obtain ⟨-, rfl⟩ := h
        exact ⟨rfl, fun q s hq w2 => ⟨{ w2 with numThreads := n }, by rw [hq]; simp only [hn, if_pos hb]⟩⟩
      · rw [if_neg hb] at h
        simp at h

/-- **C108.** `set_params` on a new `R_DST_Ridge`: the object is the one constructed with the new arguments (and the
constructor accepts them). -/
theorem C108_ridge (rsOf : Nat → R) {env : Env G R L} {w w1 : World R} {p : Params K R} {rs : RSrc R}
    {c : RidgeClf K R L} (h : RidgeClf.init env w p rs = (w1, .ok c)) {us : List (Upd K R)} (hus : ∀ u ∈ us, OfRidge u) :
    ∃ c', setParams (RidgeClf.setOne rsOf) us c = (c', .ok ()) ∧
      ∀ w2, ∃ w3, RidgeClf.init env w2 (withRidgeArgs rsOf (p, rs) us).1 (withRidgeArgs rsOf (p, rs) us).2 = (w3, .ok c') := by
  obtain ⟨hc, hall⟩ := ridge_init h
  obtain ⟨h1, h2⟩ := ridge_setParams rsOf hus c
  refine ⟨_, h1, fun w2 => ?_⟩
  have hp : c.p = p := by rw [hc]
  have hr : c.rs = rs := by rw [hc]
  rw [hp, hr] at h2 ⊢
  obtain ⟨w3, h3⟩ := hall (withRidgeArgs rsOf (p, rs) us).1 (withRidgeArgs rsOf (p, rs) us).2 h2 w2
  refine ⟨w3, h3.trans ?_⟩
  rw [hc]

/-- **C108.** `set_params` never changes what a fitted `R_DST_Ridge` predicts (also when it raises). -/
theorem C108_ridge_predict_unchanged (rsOf : Nat → R) (us : List (Upd K R)) (c : RidgeClf K R L) (Z : XIn K) :
    (setParams (RidgeClf.setOne rsOf) us c).1.predict Z = c.predict Z := by
  induction us generalizing c with
  | nil => rfl
  | cons u us ih =>
    have h1 : ∀ c', c.setOne rsOf u = .ok c' → c'.predict Z = c.predict Z := by
      intro c' hc
      cases u <;> simp only [RidgeClf.setOne, Except.ok.injEq, reduceCtorEq] at hc <;> (subst hc; rfl)
    rw [setParams]
    cases hc : c.setOne rsOf u with
    | error e => rfl
    | ok c' => rw [ih c', h1 c' hc]

/-- `fit` of an `R_DST_Ridge` reads the stored arguments only. -/
theorem ridge_fit_args (env : ClfEnv G K R L) (gs : Nat → G) (order : Nat → List Nat) {c d : RidgeClf K R L}
    (hp : c.p = d.p) (hr : c.rs = d.rs) (w : World R) (X : XIn K) (y : List L) :
    (c.fit env gs order w X y).2 = (d.fit env gs order w X y).2 ∧
      ((c.fit env gs order w X y).2.2 = .ok () →
        (c.fit env gs order w X y).1 = { (d.fit env gs order w X y).1 with nJobs := c.nJobs }) := by
  have ha : c.args env = d.args env := by unfold RidgeClf.args; rw [hp, hr]
  unfold RidgeClf.fit
  rw [ha]
  rcases Rdst.init env.toEnv w (d.args env) with ⟨w1, _ | o⟩
  · exact ⟨rfl, fun h => by simp at h⟩
  · simp only
    rcases o.fit env.toEnv gs order w1 X y with ⟨o1, w2, _ | u⟩
    · exact ⟨rfl, fun h => by simp at h⟩
    · simp only
      cases (do let F ← o1.transform X; fitPipeline env F y) with
      | error e => exact ⟨rfl, fun h => by simp at h⟩
      | ok sm => exact ⟨rfl, fun _ => by simp only [hp, hr]⟩

/-- **C108.** `set_params` then `fit`, on an `R_DST_Ridge` in any state (fitted or not): as a newly constructed object
with the arguments stored in it, changed accordingly; and the fitted objects predict the same. -/
theorem C108_ridge_refit (rsOf : Nat → R) (env : ClfEnv G K R L) (c : RidgeClf K R L) {us : List (Upd K R)}
    (hus : ∀ u ∈ us, OfRidge u) {w0 w1 : World R} {d : RidgeClf K R L}
    (hd : RidgeClf.init env.toEnv w0 (withRidgeArgs rsOf (c.p, c.rs) us).1 (withRidgeArgs rsOf (c.p, c.rs) us).2 = (w1, .ok d)) :
    ∃ c', setParams (RidgeClf.setOne rsOf) us c = (c', .ok ()) ∧
      ∀ (f : FitCall G K L) (w : World R),
        (c'.fit env f.gs f.order w f.X f.y).2 = (d.fit env f.gs f.order w f.X f.y).2 ∧
        ((d.fit env f.gs f.order w f.X f.y).2.2 = .ok () → ∀ Z,
          (c'.fit env f.gs f.order w f.X f.y).1.predict Z = (d.fit env f.gs f.order w f.X f.y).1.predict Z) := by
  obtain ⟨h1, -⟩ := ridge_setParams rsOf hus c
  obtain ⟨hde, -⟩ := ridge_init hd
  refine ⟨_, h1, fun f w => ?_⟩
  have hp : d.p = (withRidgeArgs rsOf (c.p, c.rs) us).1 := by rw [hde]
  have hr : d.rs = (withRidgeArgs rsOf (c.p, c.rs) us).2 := by rw [hde]
  obtain ⟨k1, k2⟩ := ridge_fit_args env f.gs f.order
    (c := { c with p := (withRidgeArgs rsOf (c.p, c.rs) us).1, rs := (withRidgeArgs rsOf (c.p, c.rs) us).2 }) (d := d) hp.symm
    hr.symm w f.X f.y
  refine ⟨k1, fun hok Z => ?_⟩
  rw [k2 (by rw [k1]; exact hok)]
  rfl

/-- **C108 (finding).** `set_params(n_jobs=v)` on an `R_DST_Ridge` is accepted for every value and changes nothing but the
stored value: `fit` gives the same outcome and leaves the number of threads as it is. -/
theorem C108_ridge_n_jobs (rsOf : Nat → R) (env : ClfEnv G K R L) (c : RidgeClf K R L) (v : PyVal K) :
    ∃ c', setParams (RidgeClf.setOne rsOf) [.nJobs v] c = (c', .ok ()) ∧ c'.nJobs = v ∧
      ∀ (f : FitCall G K L) (w : World R),
        (c'.fit env f.gs f.order w f.X f.y).2 = (c.fit env f.gs f.order w f.X f.y).2 ∧
        (c'.fit env f.gs f.order w f.X f.y).2.1.numThreads = w.numThreads := by
  refine ⟨_, rfl, rfl, fun f w => ?_⟩
  obtain ⟨k1, -⟩ := ridge_fit_args env f.gs f.order (c := { c with nJobs := v }) (d := c) rfl rfl w f.X f.y
  refine ⟨k1, ?_⟩
  rw [k1]
  unfold RidgeClf.fit
  rcases hi : Rdst.init env.toEnv w (c.args env) with ⟨w1, _ | o⟩
  · have : w1 = w := by
      obtain ⟨r, hr⟩ := init_world env.toEnv (p := c.args env) (b := false) rfl
      rw [hr w] at hi
      simp only [Prod.mk.injEq] at hi
      exact hi.1.symm
    rw [this]
  · obtain ⟨hw, -, -⟩ := init_bool (b := false) rfl hi
    have := hw w
    rw [hi] at this
    simp only [Prod.mk.injEq, and_true] at this
    subst this
    simp only
    rcases hf : o.fit env.toEnv f.gs f.order w1 f.X f.y with ⟨o1, w2, res⟩
    obtain ⟨oa, ra, hp, -⟩ := fit_cases hf
    obtain ⟨-, -, -, -, -, -, ht, -⟩ := prepare_cases hp
    cases res with
    | error e => exact ht
    | ok u =>
      simp only
      cases (do let F ← o1.transform f.X; fitPipeline env F f.y) with
      | error e => exact ht
      | ok sm => exact ht

/-- **C108.** `max_channels` and unknown names are refused with `ValueError`; what was set before them stays set. -/
theorem C108_ridge_refuses (rsOf : Nat → R) {us vs : List (Upd K R)} (hus : ∀ u ∈ us, OfRidge u) {u : Upd K R}
    (hu : (∃ n, u = .maxChannels n) ∨ ∃ n, u = .unknown n) (c : RidgeClf K R L) :
    setParams (RidgeClf.setOne rsOf) (us ++ u :: vs) c =
      ({ c with p := (withRidgeArgs rsOf (c.p, c.rs) us).1, rs := (withRidgeArgs rsOf (c.p, c.rs) us).2 }, .error .valueError) := by
  refine C108_partial_update _ us vs u (ridge_setParams rsOf hus c).1 ?_
  rcases hu with ⟨n, rfl⟩ | ⟨n, rfl⟩ <;> rfl

end

/-! ## `R_DST_Ensemble` -/

section
variable {G K R : Type} [Scalar K] [Gen G K]

/-- The transformers of an ensemble. -/
def repsOf (dflt : List (XIn K → Res (XIn K))) (a : EnsArgs K R) : List (XIn K → Res (XIn K)) := a.inputs.getD dflt

theorem ens_setParams (rsOf : Nat → R) (dflt : List (XIn K → Res (XIn K))) {us : List (EUpd K R)}
    (hus : ∀ u ∈ us, OfEns u) (a : EnsArgs K R) :
    setParams (RawEns.setOne rsOf) us ⟨⟨a.p, repsOf dflt a, a.pNorms, a.rs, a.aW, a.nJobs, none, [], none⟩, none⟩ =
      (⟨⟨(withEnsArgs rsOf a us).p, repsOf dflt (withEnsArgs rsOf a us), (withEnsArgs rsOf a us).pNorms,
        (withEnsArgs rsOf a us).rs, (withEnsArgs rsOf a us).aW, (withEnsArgs rsOf a us).nJobs, none, [], none⟩, none⟩, .ok ()) := by
  induction us generalizing a with
  | nil => rfl
  | cons u us ih =>
    have hu := hus u (by simp)
    have ih' := ih (fun v hv => hus v (by simp [hv])) (a.upd rsOf u)
    have hw : withEnsArgs rsOf a (u :: us) = withEnsArgs rsOf (a.upd rsOf u) us := rfl
    rw [hw, ← ih', setParams]
    cases u with
    | shared v =>
      cases v with
      | unknown n => exact hu.elim
      | pNorm n => exact hu.elim
      | rs src => cases src <;> first | exact hu.elim | rfl
      | _ => rfl
    | _ => rfl

/-- What the constructor of `R_DST_Ensemble` stores. -/
theorem ens_init {dflt : List (XIn K → Res (XIn K))} {a : EnsArgs K R} {e : Ensemble K R}
    (h : Ensemble.init dflt a = .ok e) :
    e = ⟨a.p, repsOf dflt a, a.pNorms, a.rs, a.aW, a.nJobs, none, [], none⟩ ∧ (repsOf dflt a).length = a.pNorms.length := by
  rcases a with ⟨p, inp, pn, rs, aw, nj⟩
  unfold Ensemble.init at h
  cases inp <;>
  · simp only at h
    split at h
    · simp at h
    · split at h
      · simp at h
      · split at h
        · simp at h
        · rename_i hl
          simp only [Except.ok.injEq] at h
          exact ⟨h.symm, not_not.1 hl⟩

/-- Stored values without an integer `random_state`, one probability per transformer. -/
theorem rawEns_fit (rsOf : Nat → R) (env : EnsEnv G K R) (gs : Nat → Nat → G) (sched : Nat → Nat → List Nat)
    (order : List Nat) {e : Ensemble K R} (he : e.reps.length ≤ e.pNorms.length) (w : World R) (X : XIn K) (y : List Int) :
    RawEns.fit rsOf env gs sched order ⟨e, none⟩ w X y =
      (⟨(e.fit env gs sched order w X y).1, none⟩, (e.fit env gs sched order w X y).2) := by
  unfold RawEns.fit Ensemble.fit
  have hm : ∀ e1 r, e.manageNJobs env.cpu = (e1, r) → e1.pNorms = e.pNorms ∧ e1.reps = e.reps := by
    intro e1 r h
    unfold Ensemble.manageNJobs at h
    split at h
    · simp only [Prod.mk.injEq] at h; obtain ⟨rfl, -⟩ := h; exact ⟨rfl, rfl⟩
    · simp only at h
      split at h <;> (simp only [Prod.mk.injEq] at h; obtain ⟨rfl, -⟩ := h; exact ⟨rfl, rfl⟩)
  rcases h1 : e.manageNJobs env.cpu with ⟨e1, _ | u⟩
  · rfl
  · obtain ⟨hp, hr⟩ := hm _ _ h1
    simp only
    rcases h2 : setNumThreads env.maxThreads w (e1.nJobsRdst.getD 1) with ⟨w1, _ | u⟩
    · rfl
    · simp only
      rw [if_neg (by rw [hp, hr]; omega)]
      rcases h3 : fitMembers (fun i => fitMember env e1 (gs i) (sched i) X y i) order e1.rs w1 (fun _ => none) with
        ⟨rs, w2, _ | slots⟩
      · rfl
      · simp only
        cases h4 : (List.filterMap slots (List.range e1.reps.length)).mapM fun m => (looAcc m.cv y : Res K) with
        | error er => rfl
        | ok accs => rfl

/-- **C108.** `set_params` on a new `R_DST_Ensemble`, when the constructor accepts the new arguments: `fit` is that of the
object constructed with them. -/
theorem C108_ensemble (rsOf : Nat → R) {dflt : List (XIn K → Res (XIn K))} {a : EnsArgs K R} {e e' : Ensemble K R}
    (h : Ensemble.init dflt a = .ok e) {us : List (EUpd K R)} (hus : ∀ u ∈ us, OfEns u)
    (h' : Ensemble.init dflt (withEnsArgs rsOf a us) = .ok e') :
    ∃ r, setParams (RawEns.setOne rsOf) us ⟨e, none⟩ = (r, .ok ()) ∧ r.ens = e' ∧
      ∀ (env : EnsEnv G K R) (gs : Nat → Nat → G) (sched : Nat → Nat → List Nat) (order : List Nat) (w : World R)
        (X : XIn K) (y : List Int),
        (r.fit rsOf env gs sched order w X y).1.ens = (e'.fit env gs sched order w X y).1 ∧
        (r.fit rsOf env gs sched order w X y).2 = (e'.fit env gs sched order w X y).2 := by
  obtain ⟨rfl, -⟩ := ens_init h
  obtain ⟨rfl, hl⟩ := ens_init h'
  refine ⟨_, ens_setParams rsOf dflt hus a, rfl, fun env gs sched order w X y => ?_⟩
  rw [rawEns_fit rsOf env gs sched order (by simp [hl]) w X y]
  exact ⟨rfl, rfl⟩

/-- **C108.** An ensemble refuses unknown names with `ValueError`, and `R_DST`'s single `proba_norm` is not a name it has; what was
set before them stays set. -/
theorem C108_ensemble_refuses (rsOf : Nat → R) {dflt : List (XIn K → Res (XIn K))} {a : EnsArgs K R} {e : Ensemble K R}
    (h : Ensemble.init dflt a = .ok e) {us vs : List (EUpd K R)} (hus : ∀ u ∈ us, OfEns u) {u : EUpd K R}
    (hu : (∃ n, u = .shared (.unknown n)) ∨ ∃ x, u = .shared (.pNorm x)) :
    ∃ r, setParams (RawEns.setOne rsOf) us ⟨e, none⟩ = (r, .ok ()) ∧
      setParams (RawEns.setOne rsOf) (us ++ u :: vs) ⟨e, none⟩ = (r, .error .valueError) := by
  obtain ⟨rfl, -⟩ := ens_init h
  refine ⟨_, ens_setParams rsOf dflt hus a, C108_partial_update _ us vs u (ens_setParams rsOf dflt hus a) ?_⟩
  rcases hu with ⟨n, rfl⟩ | ⟨n, rfl⟩ <;> rfl

/-- **C108 (finding).** Fewer probabilities than transformers, which the constructor refuses: `set_params` accepts them
and no `fit` succeeds any more; where it would succeed with a longer list, `IndexError` is raised. -/
theorem C108_ensemble_short_probabilities (rsOf : Nat → R) (env : EnsEnv G K R) (gs : Nat → Nat → G)
    (sched : Nat → Nat → List Nat) (order : List Nat) (r : RawEns K R) {l : List K} (hl : l.length < r.ens.reps.length)
    (w : World R) (X : XIn K) (y : List Int) :
    ∃ r', setParams (RawEns.setOne rsOf) [.pNorms l] r = (r', .ok ()) ∧
      (r'.fit rsOf env gs sched order w X y).2.2 ≠ .ok () ∧
      ((r.fit rsOf env gs sched order w X y).2.2 = .ok () → (r'.fit rsOf env gs sched order w X y).2.2 = .error .indexError) := by
  refine ⟨_, rfl, ?_⟩
  have hm : ∀ e : Ensemble K R, ({ e with pNorms := l } : Ensemble K R).manageNJobs env.cpu =
      ({ (e.manageNJobs env.cpu).1 with pNorms := l }, (e.manageNJobs env.cpu).2) := by
    intro e
    unfold Ensemble.manageNJobs
    simp only
    cases checkNJobs env.cpu e.nJobs with
    | error er => rfl
    | ok t =>
      simp only
      cases pyFloorDiv t (min (e.reps.length : Int) t) <;> rfl
  have hm2 : ∀ e : Ensemble K R, (e.manageNJobs env.cpu).1.reps = e.reps := by
    intro e
    unfold Ensemble.manageNJobs
    cases checkNJobs env.cpu e.nJobs with
    | error er => rfl
    | ok t =>
      simp only
      cases pyFloorDiv t (min (e.reps.length : Int) t) <;> rfl
  have hr := hm2 r.ens
  unfold RawEns.fit
  simp only
  rw [hm r.ens]
  rcases h1 : r.ens.manageNJobs env.cpu with ⟨e1, _ | u⟩
  · simp
  · rw [h1] at hr
    simp only at hr ⊢
    rcases h2 : setNumThreads env.maxThreads w (e1.nJobsRdst.getD 1) with ⟨w1, _ | u⟩
    · simp
    · simp only
      rw [if_pos (by rw [hr]; exact hl)]
      simp

/-- Members fitted one after the other, each independently of the shared generator and of the process. -/
theorem fitMembers_indep {one : Nat → RState R → World R → RState R × World R × Res (Member K R)} {m : Nat → Member K R}
    {order : List Nat} (h : ∀ i ∈ order, ∀ rs w, ∃ w', one i rs w = (rs, w', .ok (m i))) (rs : RState R) (w : World R)
    (slots : Nat → Option (Member K R)) :
    ∃ w', fitMembers one order rs w slots = (rs, w', .ok fun i => if i ∈ order then some (m i) else slots i) := by
  induction order generalizing w slots with
  | nil => exact ⟨w, by simp [fitMembers]⟩
  | cons i order ih =>
    obtain ⟨w1, h1⟩ := h i (by simp) rs w
    obtain ⟨w2, h2⟩ := ih (fun j hj => h j (by simp [hj])) w1 (Function.update slots i (some (m i)))
    refine ⟨w2, ?_⟩
    rw [fitMembers, h1]
    simp only
    rw [h2]
    congr 3
    funext j
    by_cases hj : j ∈ order
    · simp [hj]
    · by_cases hji : j = i
      · subst hji; simp [hj]
      · simp [hj, hji]

/-- A successful fit of members: each of them was fitted. -/
theorem fitMembers_each {one : Nat → RState R → World R → RState R × World R × Res (Member K R)} {order : List Nat}
    {rs rs' : RState R} {w w' : World R} {slots slots' : Nat → Option (Member K R)}
    (h : fitMembers one order rs w slots = (rs', w', .ok slots')) :
    ∀ i ∈ order, ∃ rs1 w1 rs2 w2 m, one i rs1 w1 = (rs2, w2, .ok m) := by
  induction order generalizing rs w slots with
  | nil => simp
  | cons j order ih =>
    rw [fitMembers] at h
    rcases h1 : one j rs w with ⟨rs1, w1, _ | m⟩
    · rw [h1] at h; simp at h
    · rw [h1] at h
      intro i hi
      rcases List.mem_cons.1 hi with rfl | hi
      · exact ⟨rs, w, rs1, w1, m, h1⟩
      · exact ih h i hi

/-- **C108 (finding).** With an integer `random_state` stored by `set_params` every member of the ensemble is fitted from
this seed: a `fit` that succeeds with one order of the members succeeds with every order and in every state of the
process, and yields the same members and weights.  (With the constructor the members share one generator, and the result depends
on their order, `C52_order_changes_members`.) -/
theorem C108_ensemble_seed_any_order (rsOf : Nat → R) (env : EnsEnv G K R) (gs : Nat → Nat → G)
    (sched : Nat → Nat → List Nat) {r : RawEns K R} {s : Nat} (hns : r.ens.p.nSamples = none) {order order2 : List Nat}
    (hord : order.Perm (List.range r.ens.reps.length)) (hord2 : order2.Perm (List.range r.ens.reps.length))
    {X : XIn K} {y : List Int} {w w1 : World R} {r' r1 : RawEns K R}
    (hset : setParams (RawEns.setOne rsOf) [.shared (.rs (.seed s))] r = (r', .ok ()))
    (h : r'.fit rsOf env gs sched order w X y = (r1, w1, .ok ())) (w2 : World R) :
    ∃ r2 w3, r'.fit rsOf env gs sched order2 w2 X y = (r2, w3, .ok ()) ∧ r2.ens.models = r1.ens.models ∧
      r2.ens.weights = r1.ens.weights ∧
      ∀ i < r.ens.reps.length, ∃ m, r1.ens.models[i]? = some m ∧
        ∀ w4, (fitMember env r.ens (gs i) (sched i) X y i (.own (rsOf s)) w4).2.2 = .ok m := by
  simp only [setParams, RawEns.setOne, Prod.mk.injEq, and_true] at hset
  subst hset
  have he1 : ∃ a b, (r.ens.manageNJobs env.cpu).1 = { r.ens with nJobs := a, nJobsRdst := b } := by
    unfold Ensemble.manageNJobs
    cases checkNJobs env.cpu r.ens.nJobs with
    | error er => exact ⟨_, _, rfl⟩
    | ok t =>
      simp only
      cases pyFloorDiv t (min (r.ens.reps.length : Int) t) with
      | error er => exact ⟨_, _, rfl⟩
      | ok q => exact ⟨_, _, rfl⟩
  obtain ⟨a, b, he1⟩ := he1
  unfold RawEns.fit at h ⊢
  simp only at h ⊢
  rcases h1 : r.ens.manageNJobs env.cpu with ⟨e1, _ | u⟩
  · rw [h1] at h; simp at h
  rw [h1] at h he1
  simp only at h he1 ⊢
  have hthr : 1 ≤ e1.nJobsRdst.getD 1 ∧ e1.nJobsRdst.getD 1 ≤ env.maxThreads := by
    by_contra hn
    simp [setNumThreads, if_neg hn] at h
  simp only [setNumThreads, if_pos hthr] at h ⊢
  by_cases hpn : e1.pNorms.length < e1.reps.length
  · rw [if_pos hpn] at h; simp at h
  rw [if_neg hpn] at h ⊢
  have hfm : ∀ i rs w, fitMember env e1 (gs i) (sched i) X y i rs w = fitMember env r.ens (gs i) (sched i) X y i rs w := by
    intro i rs w
    rw [he1]
    rfl
  have hrep : e1.reps = r.ens.reps := by rw [he1]
  have hrs : e1.rs = r.ens.rs := by rw [he1]
  have haw : e1.aW = r.ens.aW := by rw [he1]
  obtain ⟨one, hone⟩ : ∃ one : Nat → RState R → World R → RState R × World R × Res (Member K R), one = fun i rs w =>
    (rs, (fitMember env e1 (gs i) (sched i) X y i (.own (rsOf s)) w).2) := ⟨_, rfl⟩
  rw [← hone] at h ⊢
  rcases hmem : fitMembers one order e1.rs { w with numThreads := e1.nJobsRdst.getD 1 } (fun _ => none) with ⟨rs1, wa, _ | sl⟩
  · rw [hmem] at h; simp at h
  rw [hmem] at h
  simp only at h
  have hmi : ∀ i ∈ order, ∃ m, ∀ w4, (fitMember env r.ens (gs i) (sched i) X y i (.own (rsOf s)) w4).2.2 = .ok m := by
    intro i hi
    obtain ⟨q1, q2, q3, q4, m, hq⟩ := fitMembers_each hmem i hi
    rw [hone] at hq
    simp only [Prod.mk.injEq, hfm] at hq
    rcases hfe : fitMember env r.ens (gs i) (sched i) X y i (.own (rsOf s)) q2 with ⟨z1, z2, z3⟩
    rw [hfe] at hq
    obtain ⟨-, hq⟩ := hq
    simp only at hq
    cases hq
    exact ⟨m, (fitMember_own hns hfe).2⟩
  have : Nonempty (Member K R) :=
    ⟨⟨fun X => .ok X, ⟨.null, false, 0, false, none, 0, .ints [], none, 0, false, 0, 0, 0, .glob, 0, none, none, none⟩, ([], []),
      ⟨[], [], []⟩, []⟩⟩
  choose! m hm using hmi
  have hind : ∀ o : List Nat, (∀ i ∈ o, i ∈ order) → ∀ i ∈ o, ∀ rs w, ∃ w', one i rs w = (rs, w', .ok (m i)) := by
    intro o ho i hi rs w
    refine ⟨(fitMember env e1 (gs i) (sched i) X y i (.own (rsOf s)) w).2.1, ?_⟩
    rw [hone]
    simp only [Prod.mk.injEq, true_and]
    rw [← hm i (ho i hi) w, hfm]
  obtain ⟨wb, hb⟩ := fitMembers_indep (hind order (fun _ h => h)) e1.rs { w with numThreads := e1.nJobsRdst.getD 1 } (fun _ => none)
  obtain ⟨wc, hc⟩ := fitMembers_indep (hind order2 (fun i hi => hord.mem_iff.2 (hord2.mem_iff.1 hi))) e1.rs
    { w2 with numThreads := e1.nJobsRdst.getD 1 } (fun _ => none)
  rw [hb] at hmem
  simp only [Prod.mk.injEq, Except.ok.injEq] at hmem
  obtain ⟨rfl, -, rfl⟩ := hmem
  have hsl : (fun i => if i ∈ order2 then some (m i) else none) = fun i => if i ∈ order then some (m i) else none := by
    funext i
    simp only [hord.mem_iff, hord2.mem_iff]
  rw [hc]
  simp only [hsl]
  have hmodels : List.filterMap (fun i => if i ∈ order then some (m i) else none) (List.range e1.reps.length) =
      (List.range r.ens.reps.length).map m := by
    rw [hrep, ← List.filterMap_eq_map]
    apply List.filterMap_congr
    intro i hi
    simp [hord.mem_iff.2 hi]
  rw [hmodels] at h ⊢
  cases hacc : ((List.range r.ens.reps.length).map m).mapM fun m => (looAcc m.cv y : Res K) with
  | error er => rw [hacc] at h; simp at h
  | ok accs =>
    rw [hacc] at h
    simp only [Prod.mk.injEq] at h
    obtain ⟨rfl, -, -⟩ := h
    refine ⟨_, wc, rfl, rfl, rfl, fun i hi => ⟨m i, ?_, hm i (hord.mem_iff.2 (by simpa using hi))⟩⟩
    simp [hi]

end
/-! ## Examples -/

section
variable {G : Type} [Gen G ℝ]

/-- Constructor arguments. -/
noncomputable def exSetArgs : Params ℝ Nat :=
  { exParams (.int 1) with reduction := 1 / 2, pNorm := 1 / 2, percentiles := [5, 50], rs := .glob }

/-- New values: another type, one shapelet, two lengths. -/
def exSetUpd (src : RSrc Nat) : List (Upd ℝ Nat) :=
  [.transformType "multivariate", .nShp 1 false, .lens (.ints [2, 3]) false, .rs src]

theorem exSet_init {t : TType} {p : Params ℝ Nat} (w : World Nat)
    (ht : validateTransformType p.transformType = .ok t) (hl : p.lens.length ≠ 0) (hb : p.bounds = none)
    (hr : p.reduction = 1 / 2) (hp : p.percentiles = [5, 50]) (hj : p.nJobs = .int 1) :
    Rdst.init exSeedEnv w p = (⟨w.glob, 1⟩, .ok ⟨t, p.phase, p.alpha, p.normalizeOutput, p.nSamples, p.nShp, p.lens, none,
      1 / 2, p.prime, p.pNorm, 5, 50, p.rs, 1, p.maxChannels, p.minLen, none⟩) := by
  have hred : ¬ (Scalar.leb (1 : ℝ) (1 / 2)) = true := by rw [real_leb]; norm_num
  have hpc : validatePercentiles [(5 : ℝ), 50] = .ok (5, 50) := by
    have : Scalar.leb (5 : ℝ) 50 = true := by rw [real_leb]; norm_num
    simp [validatePercentiles, this]
  have hn : checkNJobs (K := ℝ) 4 (.int 1) = .ok 1 := by simp [checkNJobs]
  unfold Rdst.init
  simp only [ht, hb, hr, hp, hj, hpc, exSeedEnv, hn, setNumThreads]
  simp [hl]
  norm_num

theorem exSet_new (w : World Nat) :
    Rdst.init exSeedEnv w exSetArgs = (⟨w.glob, 1⟩, .ok { exObj .auto with nShp := 100, lens := .ints [11], rs := .glob }) :=
  exSet_init (t := .auto) w (by show validateTransformType "auto" = _; decide +kernel) (by simp [exSetArgs, exParams, LenArr.length])
    rfl rfl rfl rfl

theorem exSet_upd (w : World Nat) (src : RSrc Nat) {q : RState Nat}
    (hq : (withArgs id exSetArgs (exSetUpd src)).rs = q) :
    Rdst.init exSeedEnv w (withArgs id exSetArgs (exSetUpd src)) = (⟨w.glob, 1⟩, .ok { exRefit with rs := q }) := by
  subst hq
  cases src <;>
  exact exSet_init (t := .multi) w (by show validateTransformType "multivariate" = _; decide +kernel)
    (by simp [withArgs, exSetUpd, Params.upd, LenArr.length]) rfl rfl rfl rfl

/-- C108: the hypotheses are met, and the object is fitted. -/
example (w : World Nat) (gs : Nat → Script) :
    ∃ r r' w', setParams RawRdst.setOne (exSetUpd (.inst 0))
        (RawRdst.ofRdst ({ exObj .auto with nShp := 100, lens := .ints [11], rs := .glob } : Rdst ℝ Nat)) = (r, .ok ()) ∧
      r.fit id exSeedEnv gs List.range w (.array .float64 exArr) [0, 1] = (r', w', .ok ()) := by
  obtain ⟨r, h1, h2⟩ := C108_rdst (rsOf := id) (exSet_new w) (us := exSetUpd (.inst 0))
    (by
      have : "multivariate".toLower = "multivariate" := by decide +kernel
      simp [exSetUpd, AsStored, this])
    (exSet_upd w (.inst 0) (q := .own 0) rfl)
  obtain ⟨o1, o2, w1, w2, S1, S2, f1, -⟩ := C78_refit_differs gs w
  have := h2 [.fit ⟨.array .float64 exArr, [0, 1], gs, List.range⟩] w
  have hfit : ({ exRefit with rs := .own 0 } : Rdst ℝ Nat).fit exSeedEnv gs List.range w (.array .float64 exArr) [0, 1] = (o1, w1, .ok ()) := f1
  simp only [watchRaw, watchRdst, watch, List.cons.injEq, Seen.fit.injEq, and_true] at this
  rcases hr : r.fit id exSeedEnv gs List.range w (.array .float64 exArr) [0, 1] with ⟨r1, w4, res⟩
  rw [hr, hfit] at this
  simp only at this
  obtain ⟨rfl, rfl⟩ := this
  exact ⟨r, r1, w4, h1, hr⟩

/-- C108, a seed: fitted twice on the same data, the two lengths of shapelets are the same (compare `C78_refit_differs`). -/
example (w w5 : World Nat) (gs : Nat → Script) :
    ∃ r r1 r2 w4, setParams RawRdst.setOne (exSetUpd (.inst 0) ++ [.rs (.seed 3)])
        (RawRdst.ofRdst ({ exObj .auto with nShp := 100, lens := .ints [11], rs := .glob } : Rdst ℝ Nat)) = (r, .ok ()) ∧
      r.fit id exSeedEnv gs List.range w (.array .float64 exArr) [0, 1] = (r1, w4, .ok ()) ∧
      r1.fit id exSeedEnv gs List.range w5 (.array .float64 exArr) [0, 1] = (r2, w5, .ok ()) ∧
      ∀ Z, r2.transform Z = r1.transform Z := by
  have hu : withArgs id exSetArgs (exSetUpd (.inst 0) ++ [.rs (.seed 3)]) = withArgs id exSetArgs (exSetUpd (.inst 3)) := by
    simp [withArgs, exSetUpd, Params.upd]
  have hi := exSet_upd w (.inst 3) (q := .own 3) rfl
  rw [← hu] at hi
  have hus : ∀ u ∈ exSetUpd (.inst 0), AsStored u := by
    have : "multivariate".toLower = "multivariate" := by decide +kernel
    simp [exSetUpd, AsStored, this]
  have hus2 : ∀ u ∈ exSetUpd (.inst 0) ++ [.rs (.seed 3)], AsStoredOrSeed u := by
    intro u hu
    rcases List.mem_append.1 hu with hu | hu
    · have := hus u hu
      cases u <;> first | exact this | trivial
    · rw [List.mem_singleton] at hu
      subst hu; trivial
  obtain ⟨r, h1, h2⟩ := C108_seed_refit_repeats id (exSet_new w) hus hi rfl (.inl ⟨[2, 3], rfl⟩)
  have hk := C108_rdst_seed_first_fit id (exSet_new w) hus2 hi
  obtain ⟨r0, k1, k2⟩ := hk
  obtain rfl : r = r0 := (Prod.mk.inj (h1.symm.trans k1)).1
  obtain ⟨o', w', S, f1, -⟩ := exRefit_fit (o := { exRefit with rs := .own 3 }) (k := 3) (ml := 5) (mc := none) (m := none)
    (S0 := none) rfl (by simp) gs w rfl
  have hw := k2 ⟨.array .float64 exArr, [0, 1], gs, List.range⟩ [] w
  simp only [watchRaw, watchRdst, watch, List.map_nil, List.cons.injEq, Seen.fit.injEq, and_true] at hw
  rw [f1] at hw
  rcases hr : r.fit id exSeedEnv gs List.range w (.array .float64 exArr) [0, 1] with ⟨r1, w4, res⟩
  rw [hr] at hw
  simp only at hw
  obtain ⟨rfl, rfl⟩ := hw
  obtain ⟨r2, g1, g2⟩ := h2 ⟨.array .float64 exArr, [0, 1], gs, List.range⟩ w w4 r1 hr w5
  exact ⟨r, r1, r2, w4, h1, hr, g1, g2⟩

/-- C108: a list of lengths or a float number of shapelets makes `fit` raise where the constructed object is fitted. -/
example (w : World Nat) (gs : Nat → Script) :
    ∃ o r r', Rdst.init exSeedEnv w { withArgs id exSetArgs (exSetUpd (.inst 0)) with lens := .ints [11] } = (⟨w.glob, 1⟩, .ok o) ∧
      setParams RawRdst.setOne [.lens (.ints [2, 3]) true] (RawRdst.ofRdst o) = (r, .ok ()) ∧
      (r.fit id exSeedEnv gs List.range w (.array .float64 exArr) [0, 1]).2.2 = .error .attributeError ∧
      setParams RawRdst.setOne [.nShp 1 true, .lens (.ints [2, 3]) false] (RawRdst.ofRdst o) = (r', .ok ()) ∧
      (r'.fit id exSeedEnv gs List.range w (.array .float64 exArr) [0, 1]).2.2 ≠ .ok () := by
  have hi := exSet_init (t := .multi) (p := { withArgs id exSetArgs (exSetUpd (.inst 0)) with lens := .ints [11] }) w
    (by show validateTransformType "multivariate" = _; decide +kernel) (by simp [LenArr.length]) rfl rfl rfl rfl
  have hi2 := exSet_upd w (.inst 0) (q := .own 0) rfl
  obtain ⟨o1, o2, w1, w2, S1, S2, f1, -⟩ := C78_refit_differs gs w
  obtain ⟨r, h1, -, h3⟩ := C108_violated_list_lengths (G := Script) id hi rfl (.ints [2, 3])
  refine ⟨_, r, _, hi, h1, ?_, rfl, (raw_float id exSeedEnv gs List.range rfl w _ _).1⟩
  exact h3 w ⟨w.glob, 1⟩ _ hi2 ⟨.array .float64 exArr, [0, 1], gs, List.range⟩ w (by
    show (({ exRefit with rs := .own 0 } : Rdst ℝ Nat).fit exSeedEnv gs List.range w (.array .float64 exArr) [0, 1]).2.2 = _
    have : ({ exRefit with rs := .own 0 } : Rdst ℝ Nat) = exRefit := rfl
    rw [this, f1])

/-- C108: decreasing percentiles. -/
example (w : World Nat) :
    ∃ r, setParams RawRdst.setOne [.percentiles [50, 5]]
        (RawRdst.ofRdst ({ exObj .auto with nShp := 100, lens := .ints [11], rs := .glob } : Rdst ℝ Nat)) = (r, .ok ()) ∧
      ∀ (uses : List (Use Script ℝ Nat)) (w : World Nat), watchRaw id exSeedEnv uses r w =
        watchRdst exSeedEnv uses ({ exObj .auto with nShp := 100, lens := .ints [11], rs := .glob, pMin := 50, pMax := 5 } : Rdst ℝ Nat) w := by
  have : Scalar.leb (50 : ℝ) 5 = false := by
    rw [Bool.eq_false_iff, ne_eq, real_leb]; norm_num
  exact (C108_violated_no_validation (G := Script) (K := ℝ) id (exSet_new w) (.inl ⟨50, 5, [], rfl, this, rfl⟩)).2

/-- C108: `transform_type="Univariate"`, accepted by the constructor. -/
example : "Univariate".toLower ≠ "Univariate" ∧ validateTransformType "Univariate" = .ok .uni := by decide +kernel

/-- C108: families of types. -/
example : (storedType "multivariate_variable").Var ∧ ¬ (storedType "univariate").Var := by
  simp [storedType, TType.Var]

/-- C108, `R_DST_Ridge`: the fitted example, fitted again after a change of `alpha` and `random_state`. -/
example [LawfulGen G] (g : G) (w : World Nat) (gs : Nat → G) :
    ∃ c w1 c' d w2, exRidge.fit (exClfEnv g) gs List.range w (.array .float64 exSepArr) [0, 1] = (c, w1, .ok ()) ∧
      setParams (RidgeClf.setOne id) [.alpha (1 / 4), .rs (.seed 8)] c = (c', .ok ()) ∧ c'.p.alpha = 1 / 4 ∧ c'.rs = .seed 8 ∧
      RidgeClf.init (exClfEnv g).toEnv w c'.p c'.rs = (w2, .ok d) ∧
      ∀ (f : FitCall G ℝ Nat) (w : World Nat),
        (c'.fit (exClfEnv g) f.gs f.order w f.X f.y).2 = (d.fit (exClfEnv g) f.gs f.order w f.X f.y).2 := by
  obtain ⟨c, w1, h⟩ := exRidge_fit g w gs
  have hcp : c.p = exRidge.p ∧ c.rs = .seed 7 := by
    unfold RidgeClf.fit at h
    rw [exRidge_init] at h
    simp only at h
    split at h
    · simp at h
    · split at h
      · simp at h
      · simp only [Prod.mk.injEq] at h
        rw [← h.1]
        exact ⟨rfl, rfl⟩
  have hj : checkNJobs (K := ℝ) 4 (.int 1) = .ok 1 := by simp [checkNJobs]
  obtain ⟨d, w2, hd⟩ : ∃ d w2, RidgeClf.init (exClfEnv g).toEnv w
      (withRidgeArgs id (c.p, c.rs) [.alpha (1 / 4), .rs (.seed 8)]).1
      (withRidgeArgs id (c.p, c.rs) [.alpha (1 / 4), .rs (.seed 8)]).2 = (w2, .ok d) := by
    rw [hcp.1, hcp.2]
    refine ⟨⟨(withRidgeArgs id (exRidge.p, .seed 7) [.alpha (1 / 4), .rs (.seed 8)]).1, .seed 8, .int 1, none, none⟩, ⟨w.glob, 1⟩, ?_⟩
    have hn : (withRidgeArgs id (exRidge.p, .seed 7) [.alpha (1 / 4), .rs (.seed 8)]).1.nJobs = .int 1 := rfl
    unfold RidgeClf.init
    rw [hn]
    simp only [exClfEnv, exEnv, hj, setNumThreads]
    rfl
  obtain ⟨c', k1, k2⟩ := C108_ridge_refit id (exClfEnv g) c (us := [.alpha (1 / 4), .rs (.seed 8)]) (by simp [OfRidge]) hd
  have hk := (ridge_setParams (L := Nat) id (us := [.alpha (1 / 4), .rs (.seed 8)]) (by simp [OfRidge]) c).1
  rw [k1] at hk
  simp only [Prod.mk.injEq, and_true] at hk
  refine ⟨c, w1, c', d, w2, h, k1, by rw [hk]; rfl, by rw [hk]; rfl, ?_, fun f w => (k2 f w).1⟩
  rw [hk]
  exact hd

/-- C108, the ensemble: other probabilities. -/
example (dflt : List (XIn ℝ → Res (XIn ℝ))) :
    ∃ r e', setParams (RawEns.setOne id) [.pNorms [1, 0], .aW 2] ⟨exEns, none⟩ = (r, .ok ()) ∧
      Ensemble.init dflt (withEnsArgs id exEnsArgs [.pNorms [1, 0], .aW 2]) = .ok e' ∧ r.ens = e' ∧ e'.aW = 2 := by
  obtain ⟨r, h1, h2, -⟩ := C108_ensemble (G := G) (dflt := dflt) (a := exEnsArgs) (e := exEns)
    (e' := { exEns with pNorms := [1, 0], aW := 2 }) id rfl
    (us := [.pNorms [1, 0], .aW 2]) (by simp [OfEns]) rfl
  exact ⟨r, _, h1, rfl, h2, rfl⟩

/-- C108, the ensemble: an unknown name after a new `a_w`. -/
example (dflt : List (XIn ℝ → Res (XIn ℝ))) (n : String) :
    ∃ r, setParams (RawEns.setOne id) [.aW 2, .shared (.unknown n), .aW 3] ⟨exEns, none⟩ = (r, .error .valueError) ∧
      r.ens.aW = 2 := by
  obtain ⟨r, h1, h2⟩ := C108_ensemble_refuses (dflt := dflt) (a := exEnsArgs) (e := exEns) id rfl (us := [.aW 2])
    (vs := [.aW 3]) (by simp [OfEns]) (u := .shared (.unknown n)) (.inl ⟨n, rfl⟩)
  refine ⟨r, h2, ?_⟩
  simp only [setParams, RawEns.setOne, Prod.mk.injEq, and_true] at h1
  rw [← h1]

/-- C108, the ensemble with an integer `random_state`: the example is fitted. -/
example (gs : Nat → Nat → Script) (w w2 : World Nat) :
    ∃ r1 w1 r2 w3, RawEns.fit id (exEnsEnv constScript) gs (fun _ => List.range) [0, 1] ⟨exEns, some 0⟩ w
        (.array .float64 exArr) [0, 1] = (r1, w1, .ok ()) ∧
      RawEns.fit id (exEnsEnv constScript) gs (fun _ => List.range) [1, 0] ⟨exEns, some 0⟩ w2
        (.array .float64 exArr) [0, 1] = (r2, w3, .ok ()) ∧ r2.ens.models = r1.ens.models := by
  have hsw : ([1, 0] : List Nat).Perm [0, 1] := List.Perm.swap _ _ _
  obtain ⟨e1, w1, f1⟩ := exEns_fit constScript gs (order := [0, 1]) (List.Perm.refl _) w [0, 1] rfl
  obtain ⟨e2, w3, f2⟩ := exEns_fit constScript gs (order := [1, 0]) hsw w [0, 1] rfl
  have hid : ([0, 1] : List Nat).Perm (List.range exEns.reps.length) := List.Perm.refl _
  have hsw' : ([1, 0] : List Nat).Perm (List.range exEns.reps.length) := hsw
  obtain ⟨m0, a1, a2⟩ := (C52_kth_draw hid rfl (r := 0) rfl f1).2 0 (by simp)
  obtain ⟨m1, b1, b2⟩ := (C52_kth_draw hsw' rfl (r := 0) rfl f2).2 0 (by simp)
  obtain ⟨_, _, _, -, -, -, -, -, acc1, -⟩ := ens_fit_ok hid f1
  obtain ⟨_, _, _, -, -, -, -, -, acc2, -⟩ := ens_fit_ok hsw' f2
  have hacc : ∀ {e : Ensemble ℝ Nat} {accs : List ℝ} {i : Nat} {m : Member ℝ Nat}, e.models[i]? = some m →
      (e.models.mapM fun m => (looAcc m.cv [0, 1] : Res ℝ)) = .ok accs → ∃ x, (looAcc m.cv [0, 1] : Res ℝ) = .ok x := by
    intro e accs i m hm h
    obtain ⟨hi, rfl⟩ := List.getElem?_eq_some_iff.1 hm
    have h2 := mapM_eq_ok.1 h
    exact ⟨_, (List.forall₂_iff_get.1 h2).2 i hi (by rw [← h2.length_eq]; exact hi)⟩
  obtain ⟨x0, hx0⟩ := hacc a1 acc1
  obtain ⟨x1, hx1⟩ := hacc b1 acc2
  have hfit : ∃ r1 w1, RawEns.fit id (exEnsEnv constScript) gs (fun _ => List.range) [0, 1] ⟨exEns, some 0⟩ w
        (.array .float64 exArr) [0, 1] = (r1, w1, .ok ()) := by
    have hm : exEns.manageNJobs (exEnsEnv constScript).cpu = ({ exEns with nJobs := .int 2, nJobsRdst := some 1 }, .ok ()) := by
      rfl
    unfold RawEns.fit
    rw [hm]
    have hset : setNumThreads (exEnsEnv constScript).maxThreads w ((some 1 : Option Int).getD 1) = (⟨w.glob, 1⟩, .ok ()) := by
      rfl
    simp only
    rw [hset]
    simp only
    rw [if_neg (by simp [exEns])]
    obtain ⟨w5, h5⟩ := fitMembers_indep (one := fun i rs w => (rs, (fitMember (exEnsEnv constScript)
        { exEns with nJobs := .int 2, nJobsRdst := some 1 } (gs i) List.range (.array .float64 exArr) [0, 1] i (.own (id 0)) w).2))
      (m := fun i => if i = 0 then m0 else m1) (order := [0, 1]) (by
        intro i hi rs w
        simp only [List.mem_cons, List.not_mem_nil, or_false] at hi
        rcases hi with rfl | rfl
        · exact ⟨_, Prod.ext rfl (Prod.ext rfl (a2 w))⟩
        · exact ⟨_, Prod.ext rfl (Prod.ext rfl (b2 w))⟩) exEns.rs ⟨w.glob, 1⟩ (fun _ => none)
    rw [h5]
    simp only
    have hl : (List.range exEns.reps.length).filterMap (fun i => if i ∈ [0, 1] then some (if i = 0 then m0 else m1) else none) =
        [m0, m1] := by simp [exEns, List.range_succ]
    rw [hl]
    simp only [List.mapM_cons, List.mapM_nil, hx0, hx1, bind, Except.bind, pure, Except.pure]
    exact ⟨_, _, rfl⟩
  obtain ⟨r1, w1, h1⟩ := hfit
  obtain ⟨r2, w3, h2, h3, -⟩ := C108_ensemble_seed_any_order id (exEnsEnv constScript) gs (fun _ => List.range)
    (r := ⟨exEns, none⟩) (s := 0) rfl hid hsw' rfl h1 w2
  exact ⟨r1, w1, r2, w3, h1, h2, h3⟩

end
end Convst.Props
