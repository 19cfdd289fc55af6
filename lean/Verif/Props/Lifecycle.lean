import Verif.Props.RidgeFit
import Verif.Props.Seeds

/-!
# Use before `fit`, failed fits (C86) and `RandomState` instances (C87)
-/

set_option autoImplicit false
set_option linter.unusedSectionVars false

namespace Convst.Props
open Convst Spec

section
variable {G K R L : Type} [Scalar K] [Gen G K] [DecidableEq L]

/-! ## C86: `R_DST` -/

/-- Every call of the history raises. -/
def AllRaise (env : Env G R L) (o : Rdst K R) (w : World R) : List (FitCall G K L) → Prop
  | [] => True
  | c :: cs => (∃ e, (o.fit env c.gs c.order w c.X c.y).2.2 = .error e) ∧
      AllRaise env (o.fit env c.gs c.order w c.X c.y).1 (o.fit env c.gs c.order w c.X c.y).2.1 cs

/-- A `fit` that raises leaves the shapelets and, once the type is known, the type. -/
theorem fit_error_keeps {env : Env G R L} {gs : Nat → G} {order : Nat → List Nat} {o o' : Rdst K R}
    {w w' : World R} {X : XIn K} {y : List L} {e : Err} (h : o.fit env gs order w X y = (o', w', .error e)) :
    o'.shapelets = o.shapelets ∧ o'.phase = o.phase ∧ (o.transformType ≠ .auto → o'.transformType = o.transformType) := by
  obtain ⟨o1, r1, hp, S, rfl, hS, -⟩ := fit_cases h
  obtain ⟨t, ml, mc, ls, rs', rfl, -, h3, -⟩ := prepare_cases hp
  refine ⟨?_, rfl, h3⟩
  rcases hS with h | ⟨c, seed, S', -, h, -⟩
  · exact h
  · cases h

/-- **C86.** Until a call of `fit` has succeeded, `transform` raises `NotFittedError`, for every input and
every history of calls of `fit` that raised. -/
theorem C86_rdst_not_fitted {env : Env G R L} {w0 w : World R} {p : Params K R} {o : Rdst K R}
    (hinit : Rdst.init env w0 p = (w, .ok o)) (hist : List (FitCall G K L)) (h : AllRaise env o w hist)
    (Z : XIn K) : (afterFits env o w hist).1.transform Z = .error .notFitted := by
  have hS : o.shapelets = none := (init_keeps env hinit).2.2.2.2.2
  clear hinit
  induction hist generalizing o w with
  | nil => unfold afterFits Rdst.transform; rw [hS]
  | cons c cs ih =>
    obtain ⟨⟨e, he⟩, h⟩ := h
    rcases hf : o.fit env c.gs c.order w c.X c.y with ⟨o2, w2, r2⟩
    rw [hf] at he h
    simp only at he h
    subst he
    have := ih h (by rw [(fit_error_keeps hf).1, hS])
    rw [afterFits, hf]
    exact this

/-- What every object reached by calls of `fit` satisfies: no shapelets, or a definite type. -/
theorem afterFits_type {env : Env G R L} {o : Rdst K R} (h : o.shapelets = none ∨ o.transformType ≠ .auto)
    (w : World R) (hist : List (FitCall G K L)) :
    (afterFits env o w hist).1.shapelets = none ∨ (afterFits env o w hist).1.transformType ≠ .auto := by
  induction hist generalizing o w with
  | nil => exact h
  | cons c cs ih =>
    rcases hf : o.fit env c.gs c.order w c.X c.y with ⟨o2, w2, r2⟩
    rw [afterFits, hf]
    refine ih ?_ w2
    cases r2 with
    | error e =>
      obtain ⟨k1, -, k3⟩ := fit_error_keeps hf
      rcases h with h | h
      · left; rw [k1, h]
      · right; rw [k3 h]; exact h
    | ok u =>
      right
      obtain ⟨o1, r1, hp, S, rfl, -, hok⟩ := fit_cases hf
      obtain ⟨cl, seed, S', rfl, -, -⟩ := hok rfl
      obtain ⟨t, ml, mc, ls, rs', rfl, -, -, -, -, -, -, hc⟩ := prepare_cases hp
      obtain ⟨ht, -⟩ := hc cl seed rfl
      intro h0
      have h0 : t = .auto := h0
      rw [h0] at ht
      simp [TType.Concrete] at ht

/-- **C86.** A `fit` that raises does not damage an `R_DST`: whatever happened before, `transform` gives for
every input exactly what it gave before that call. -/
theorem C86_rdst_failed_refit {env : Env G R L} {w0 w : World R} {p : Params K R} {o : Rdst K R}
    (hinit : Rdst.init env w0 p = (w, .ok o)) (hist : List (FitCall G K L)) {gs : Nat → G}
    {order : Nat → List Nat} {X : XIn K} {y : List L} {w1 w2 : World R} {o2 : Rdst K R} {e : Err}
    (h : (afterFits env o w hist).1.fit env gs order w1 X y = (o2, w2, .error e)) (Z : XIn K) :
    o2.transform Z = (afterFits env o w hist).1.transform Z := by
  obtain ⟨k1, k2, k3⟩ := fit_error_keeps h
  rcases afterFits_type (env := env) (Or.inl (init_keeps env hinit).2.2.2.2.2) w hist with h0 | h0
  · unfold Rdst.transform
    rw [k1, h0]
  · unfold Rdst.transform
    rw [k1, k2, k3 h0]

/-! ## C86: the classifiers -/

/-- **C86.** `predict` and `score` of an `R_DST_Ridge` that was never fitted raise `NotFittedError`. -/
theorem C86_ridge_not_fitted {env : Env G R L} {w w' : World R} {p : Params K R} {rs : RSrc R}
    {c : RidgeClf K R L} (h : RidgeClf.init env w p rs = (w', .ok c)) (Z : XIn K) (y : List L) :
    c.predict Z = .error .notFitted ∧ c.score Z y = .error .notFitted := by
  have hc : c.classifier = none := by
    unfold RidgeClf.init at h
    repeat' split at h
    all_goals (try (simp at h; done))
    all_goals (
      simp only [Prod.mk.injEq, Except.ok.injEq] at h
      obtain ⟨-, rfl⟩ := h
      rfl)
  have hp : c.predict Z = .error .notFitted := by unfold RidgeClf.predict; rw [hc]
  refine ⟨hp, ?_⟩
  unfold RidgeClf.score
  rw [hp]
  rfl

/-- **C86.** When the `fit` of the transformer inside `R_DST_Ridge.fit` raised, the exception is passed on
and then `predict` and `score` raise `NotFittedError`, whether or not the classifier was fitted before. -/
theorem C86_ridge_failed_fit {env : ClfEnv G K R L} {gs : Nat → G} {order : Nat → List Nat} {c : RidgeClf K R L}
    {w w1 w2 : World R} {o o' : Rdst K R} {X : XIn K} {y : List L} {e : Err}
    (hinit : Rdst.init env.toEnv w (c.args env) = (w1, .ok o))
    (hfit : o.fit env.toEnv gs order w1 X y = (o', w2, .error e)) :
    ∃ c', c.fit env gs order w X y = (c', w2, .error e) ∧
      ∀ (Z : XIn K) (yZ : List L), c'.predict Z = .error .notFitted ∧ c'.score Z yZ = .error .notFitted := by
  have hS : o'.shapelets = none := by
    rw [(fit_error_keeps hfit).1]
    exact (init_keeps env.toEnv hinit).2.2.2.2.2
  refine ⟨_, by unfold RidgeClf.fit; simp only [hinit, hfit]; rfl, fun Z yZ => ?_⟩
  have hp : ({ c with classifier := some none, transformer := some o', rs := c.rs.after o' } :
      RidgeClf K R L).predict Z = .error .notFitted := by
    unfold RidgeClf.predict Rdst.transform
    simp only [hS]
    rfl
  refine ⟨hp, ?_⟩
  unfold RidgeClf.score
  exact (congrArg (· >>= accuracyScore yZ) hp).trans rfl

end

section
variable {G K R : Type} [Scalar K] [Gen G K]

/-- A call of `R_DST_Ensemble.fit`. -/
structure EnsCall (G K : Type) where
  X : XIn K
  y : List Int
  gs : Nat → Nat → G
  sched : Nat → Nat → List Nat
  order : List Nat

/-- The ensemble after a history of calls of `fit`. -/
def ensAfter (env : EnsEnv G K R) (e : Ensemble K R) (w : World R) : List (EnsCall G K) → Ensemble K R × World R
  | [] => (e, w)
  | c :: cs => ensAfter env (e.fit env c.gs c.sched c.order w c.X c.y).1
      (e.fit env c.gs c.sched c.order w c.X c.y).2.1 cs

/-- Every call of the history raises. -/
def EnsAllRaise (env : EnsEnv G K R) (e : Ensemble K R) (w : World R) : List (EnsCall G K) → Prop
  | [] => True
  | c :: cs => (∃ er, (e.fit env c.gs c.sched c.order w c.X c.y).2.2 = .error er) ∧
      EnsAllRaise env (e.fit env c.gs c.sched c.order w c.X c.y).1 (e.fit env c.gs c.sched c.order w c.X c.y).2.1 cs

theorem manageNJobs_keeps {cpu : Nat} {e e' : Ensemble K R} {r : Res Unit} (h : e.manageNJobs cpu = (e', r)) :
    e'.weights = e.weights ∧ e'.models = e.models ∧ e'.reps = e.reps := by
  unfold Ensemble.manageNJobs at h
  cases h1 : checkNJobs cpu e.nJobs with
  | error er =>
    rw [h1] at h
    cases h
    exact ⟨rfl, rfl, rfl⟩
  | ok total =>
    rw [h1] at h
    simp only at h
    cases h2 : pyFloorDiv total (min (e.reps.length : Int) total) with
    | error er =>
      rw [h2] at h
      cases h
      exact ⟨rfl, rfl, rfl⟩
    | ok q =>
      rw [h2] at h
      cases h
      exact ⟨rfl, rfl, rfl⟩

/-- A `fit` that raises leaves the weights, and the members unless it failed at the weights. -/
theorem ens_fit_error {env : EnsEnv G K R} {gs : Nat → Nat → G} {sched : Nat → Nat → List Nat} {order : List Nat}
    {e e' : Ensemble K R} {w w' : World R} {X : XIn K} {y : List Int} {er : Err}
    (h : e.fit env gs sched order w X y = (e', w', .error er)) :
    e'.weights = e.weights ∧ (e'.models = e.models ∨
      ∃ e1 w1 rs slots, e1.reps = e.reps ∧
        fitMembers (fun i => fitMember env e1 (gs i) (sched i) X y i) order e1.rs w1 (fun _ => none) =
          (rs, w', .ok slots) ∧
        (((List.range e.reps.length).filterMap slots).mapM fun m => (looAcc m.cv y : Res K)) = .error er) := by
  unfold Ensemble.fit at h
  rcases h1 : e.manageNJobs env.cpu with ⟨e1, r1⟩
  obtain ⟨k1, k2, k3⟩ := manageNJobs_keeps h1
  rw [h1] at h
  cases r1 with
  | error er1 =>
    simp only [Prod.mk.injEq] at h
    obtain ⟨rfl, -⟩ := h
    exact ⟨k1, Or.inl k2⟩
  | ok u =>
    simp only at h
    rcases h2 : setNumThreads env.maxThreads w (e1.nJobsRdst.getD 1) with ⟨w2, r2⟩
    rw [h2] at h
    cases r2 with
    | error er2 =>
      simp only [Prod.mk.injEq] at h
      obtain ⟨rfl, -⟩ := h
      exact ⟨k1, Or.inl k2⟩
    | ok u =>
      simp only at h
      rcases h3 : fitMembers (fun i => fitMember env e1 (gs i) (sched i) X y i) order e1.rs w2 (fun _ => none)
        with ⟨rs3, w3, r3⟩
      rw [h3] at h
      cases r3 with
      | error er3 =>
        simp only [Prod.mk.injEq] at h
        obtain ⟨rfl, -⟩ := h
        exact ⟨k1, Or.inl k2⟩
      | ok slots =>
        simp only at h
        cases h4 : ((List.range e1.reps.length).filterMap slots).mapM fun m => (looAcc m.cv y : Res K) with
        | ok accs => rw [h4] at h; simp at h
        | error er4 =>
          rw [h4] at h
          simp only [Prod.mk.injEq, Except.error.injEq] at h
          obtain ⟨rfl, rfl, rfl⟩ := h
          exact ⟨k1, Or.inr ⟨e1, w2, rs3, slots, k3, h3, by rw [← k3]; exact h4⟩⟩

/-- **C86.** Until a call of `fit` has succeeded, `predict` of an ensemble raises `NotFittedError`, for every
input and every history of calls of `fit` that raised. -/
theorem C86_ensemble_not_fitted (env : EnsEnv G K R) {e : Ensemble K R} (he : e.weights = none) (w : World R)
    (hist : List (EnsCall G K)) (h : EnsAllRaise env e w hist) (Z : XIn K) :
    (ensAfter env e w hist).1.predict Z = .error .notFitted := by
  induction hist generalizing e w with
  | nil => unfold ensAfter Ensemble.predict; rw [he]
  | cons c cs ih =>
    obtain ⟨⟨er, her⟩, h⟩ := h
    rcases hf : e.fit env c.gs c.sched c.order w c.X c.y with ⟨e2, w2, r2⟩
    rw [hf] at her h
    simp only at her h
    subst her
    rw [ensAfter, hf]
    exact ih (by rw [(ens_fit_error hf).1, he]) w2 h

end

section
variable {G R : Type} [Gen G ℝ] [LawfulGen G]

/-- **C86.** A `fit` that raises does not damage an ensemble: its predictions stay what they were.  (The
members are given new objects; the input transformers are taken to be without state.) -/
theorem C86_ensemble_failed_refit {env : EnsEnv G ℝ R} (hl : CVLaw env.ridgeCV) {gs : Nat → Nat → G}
    {sched : Nat → Nat → List Nat} {order : List Nat} {e e' : Ensemble ℝ R}
    (hord : order.Perm (List.range e.reps.length)) {w w' : World R} {X : XIn ℝ} {y : List Int} {er : Err}
    (h : e.fit env gs sched order w X y = (e', w', .error er)) (Z : XIn ℝ) : e'.predict Z = e.predict Z := by
  obtain ⟨k1, k2 | ⟨e1, w1, rs, slots, hr, hm, hbad⟩⟩ := ens_fit_error h
  · unfold Ensemble.predict
    rw [k1, k2]
  · exfalso
    have hnd : order.Nodup := (hord.nodup_iff).2 List.nodup_range
    obtain ⟨st, -, -, -, hall⟩ := fitMembers_ok hnd hm
    have hok : ∀ m ∈ (List.range e.reps.length).filterMap slots, ∃ v, (looAcc m.cv y : Res ℝ) = .ok v := by
      intro m hmem
      obtain ⟨i, hi, hs⟩ := List.mem_filterMap.1 hmem
      have : i ∈ order := hord.mem_iff.2 hi
      obtain ⟨k, hk, rfl⟩ := List.getElem_of_mem this
      obtain ⟨m', h1, h2⟩ := hall k hk
      rw [hs, Option.some.injEq] at h2
      subst h2
      obtain ⟨c1, -⟩ := fitMember_cv hl h1
      unfold looAcc
      rw [accuracy_eq (by simp [c1])]
      exact ⟨_, rfl⟩
    generalize (List.range e.reps.length).filterMap slots = ms at hok hbad
    have : ∃ vs, (ms.mapM fun m => (looAcc m.cv y : Res ℝ)) = .ok vs := by
      clear hbad
      induction ms with
      | nil => exact ⟨[], rfl⟩
      | cons m ms ih =>
        obtain ⟨v, hv⟩ := hok m (by simp)
        obtain ⟨vs, hvs⟩ := ih fun m hm => hok m (by simp [hm])
        exact ⟨v :: vs, by rw [List.mapM_cons, hv, Res.bind_ok, hvs]; rfl⟩
    obtain ⟨vs, hvs⟩ := this
    rw [hvs] at hbad
    cases hbad

end

/-! ## C87: a `RandomState` instance given to `R_DST_Ridge` -/

section
variable {G K R L : Type} [Scalar K] [Gen G K] [DecidableEq L]

/-- `RidgeRefits env c w k c' w'`: the classifier and process after `k` successful fits on arbitrary data. -/
inductive RidgeRefits (env : ClfEnv G K R L) (c : RidgeClf K R L) (w : World R) :
    Nat → RidgeClf K R L → World R → Prop
  | zero : RidgeRefits env c w 0 c w
  | succ {k : Nat} {c1 c2 : RidgeClf K R L} {w1 w2 : World R} {gs : Nat → G} {order : Nat → List Nat} {X : XIn K}
      {y : List L} : RidgeRefits env c w k c1 w1 → c1.fit env gs order w1 X y = (c2, w2, .ok ()) →
      RidgeRefits env c w (k + 1) c2 w2

theorem ridge_fit_inst {env : ClfEnv G K R L} {gs : Nat → G} {order : Nat → List Nat} {c c' : RidgeClf K R L}
    {r : R} (hr : c.rs = .inst r) {w w' : World R} {X : XIn K} {y : List L}
    (h : c.fit env gs order w X y = (c', w', .ok ())) :
    c'.p = c.p ∧ c'.rs = .inst (env.nextSeed r).2 ∧
    ∃ o o' w1, Rdst.init env.toEnv w (c.args env) = (w1, .ok o) ∧ o.rs = .own r ∧
      o.fit env.toEnv gs order w1 X y = (o', w', .ok ()) ∧ c'.transformer = some o' := by
  unfold RidgeClf.fit at h
  simp only at h
  rcases hi : Rdst.init env.toEnv w (c.args env) with ⟨w1, ri⟩
  rw [hi] at h
  cases ri with
  | error e => simp at h
  | ok o =>
    simp only at h
    rcases hf : o.fit env.toEnv gs order w1 X y with ⟨o', w2, rf⟩
    rw [hf] at h
    cases rf with
    | error e => simp at h
    | ok u =>
      simp only at h
      split at h
      · simp at h
      · simp only [Prod.mk.injEq, and_true] at h
        obtain ⟨rfl, rfl⟩ := h
        have hrs : o.rs = .own r := by
          rw [(init_keeps env.toEnv hi).1]
          simp only [RidgeClf.args, hr]
          rfl
        have := (C42_one_draw_own hrs hf).1
        refine ⟨rfl, ?_, o, o', w1, rfl, hrs, hf, rfl⟩
        simp only [hr, RSrc.after, this]

/-- **C87.** With a `RandomState` instance as `random_state`, an `R_DST_Ridge` advances the caller's
generator by one draw at each successful fit: after `k` of them, on whatever data, the generator is `k` draws
further, and the next fit samples its shapelets from the `k+1`-st seed, exactly as a new classifier given the
advanced generator would. -/
theorem C87_ridge_instance {env : ClfEnv G K R L} {c : RidgeClf K R L} {r : R} (hr : c.rs = .inst r)
    {w : World R} {k : Nat} {c1 : RidgeClf K R L} {w1 : World R} (h : RidgeRefits env c w k c1 w1) :
    c1.rs = .inst (seedsDrawn env.toEnv r k) ∧
    ∀ (gs : Nat → G) (order : Nat → List Nat) (X : XIn K) (y : List L) (c2 : RidgeClf K R L) (w2 : World R),
      c1.fit env gs order w1 X y = (c2, w2, .ok ()) →
      (∃ o o' wo cl S, Rdst.init env.toEnv w1 (c1.args env) = (wo, .ok o) ∧
        (o.prepare env.toEnv wo X y).2.2 = .ok (cl, (env.nextSeed (seedsDrawn env.toEnv r k)).1) ∧
        cl.run (env.seedG (env.nextSeed (seedsDrawn env.toEnv r k)).1) gs order = .ok S ∧
        c2.transformer = some o' ∧ o'.shapelets = some S) ∧
      ∃ c3, ({ c with rs := .inst (seedsDrawn env.toEnv r k) } : RidgeClf K R L).fit env gs order w1 X y =
          (c3, w2, .ok ()) ∧
        c3.transformer = c2.transformer ∧ c3.classifier = c2.classifier ∧ ∀ Z, c3.predict Z = c2.predict Z := by
  have key : c1.p = c.p ∧ c1.rs = .inst (seedsDrawn env.toEnv r k) := by
    induction h with
    | zero => exact ⟨rfl, hr⟩
    | succ _ hf ih =>
      obtain ⟨a1, a2, -⟩ := ridge_fit_inst ih.2 hf
      exact ⟨a1.trans ih.1, a2⟩
  refine ⟨key.2, fun gs order X y c2 w2 hf => ⟨?_, ?_⟩⟩
  · obtain ⟨-, -, o, o', wo, b1, b2, b3, b4⟩ := ridge_fit_inst key.2 hf
    obtain ⟨-, cl, S, d1, d2, d3⟩ := C42_one_draw_own b2 b3
    exact ⟨o, o', wo, cl, S, b1, d1, d2, b4, d3⟩
  · have hargs : ({ c with rs := .inst (seedsDrawn env.toEnv r k) } : RidgeClf K R L).args env = c1.args env := by
      unfold RidgeClf.args
      rw [key.1, key.2]
    unfold RidgeClf.fit at hf ⊢
    simp only at hf ⊢
    rw [hargs]
    rcases hi : Rdst.init env.toEnv w1 (c1.args env) with ⟨wo, ri⟩
    rw [hi] at hf
    cases ri with
    | error e => simp at hf
    | ok o =>
      simp only at hf ⊢
      rcases hfo : o.fit env.toEnv gs order wo X y with ⟨o', w3, rf⟩
      rw [hfo] at hf
      cases rf with
      | error e => simp at hf
      | ok u =>
        simp only at hf ⊢
        split at hf
        · simp at hf
        · simp only [Prod.mk.injEq, and_true] at hf
          obtain ⟨rfl, rfl⟩ := hf
          exact ⟨_, rfl, rfl, rfl, fun Z => rfl⟩

end

/-! ## Concrete cases -/

section
variable {G : Type} [Gen G ℝ] [LawfulGen G]

theorem toArr3_nil : toArr3 (.list [] : XIn ℝ) = .error .valueError := by
  unfold toArr3
  rcases C62_check_array_3D (asArray (.list [] : XIn ℝ)) false 2 with ⟨-, hg, -⟩ | ⟨-, he⟩
  · obtain ⟨n, f, t, hsh, -⟩ := hg
    simp [asArray] at hsh
  · rw [he]; rfl

/-- `fit` on an empty list raises for the concrete univariate object. -/
theorem exSepObj_fit_nil (g : G) (w : World Nat) (gs : Nat → G) {o : Rdst ℝ Nat} (ho : o.transformType = .uni) :
    ∃ o' w', o.fit (exEnv g) gs List.range w (.list []) [] = (o', w', .error .valueError) := by
  have hprep : o.prepare (exEnv g) w (.list []) [] = (o, w, .error .valueError) := by
    unfold Rdst.prepare
    rw [C34_fixed_type o (Or.inl ho) (.list [])]
    simp only
    have : loadTrain o (.list [] : XIn ℝ) = (o, .error .valueError) := by
      unfold loadTrain
      rw [if_neg (by simp [ho]), toArr3_nil]
    rw [this]
  exact ⟨o, w, by unfold Rdst.fit; rw [hprep]⟩

/-- C86: a new object, one call of `fit` that raises, then `transform`. -/
example (g : G) (w : World Nat) (gs : Nat → G) : ∃ o, Rdst.init (exEnv g) w (exRidge.args (exClfEnv g)) = (w, .ok o) ∧
    AllRaise (exEnv g) o w [(⟨.list [], [], gs, List.range⟩ : FitCall G ℝ Nat)] ∧
    (afterFits (exEnv g) o w [(⟨.list [], [], gs, List.range⟩ : FitCall G ℝ Nat)]).1.transform
      (.array .float64 exSepArr) = .error .notFitted := by
  obtain ⟨o', w', h⟩ := exSepObj_fit_nil g w gs (o := exSepObj) rfl
  have hi : Rdst.init (exEnv g) w (exRidge.args (exClfEnv g)) = (w, .ok exSepObj) := exRidge_init g w
  have hr : AllRaise (exEnv g) exSepObj w [(⟨.list [], [], gs, List.range⟩ : FitCall G ℝ Nat)] :=
    ⟨⟨.valueError, by rw [h]⟩, trivial⟩
  exact ⟨exSepObj, hi, hr, C86_rdst_not_fitted hi _ hr _⟩

/-- C86: a new object fitted on the two series, then a `fit` that raises: `transform` still works. -/
example (g : G) (w : World Nat) (gs : Nat → G) : ∃ o o1 w1 o2 w2 M,
    Rdst.init (exEnv g) w (exRidge.args (exClfEnv g)) = (w, .ok o) ∧
    o.fit (exEnv g) gs List.range w (.array .float64 exSepArr) [0, 1] = (o1, w1, .ok ()) ∧
    o1.fit (exEnv g) gs List.range w1 (.list []) [] = (o2, w2, .error .valueError) ∧
    o2.transform (.array .float64 exSepArr) = .ok M := by
  have hi : Rdst.init (exEnv g) w (exRidge.args (exClfEnv g)) = (w, .ok exSepObj) := exRidge_init g w
  have hwf : (XIn.array .float64 exSepArr).WF := by simp [XIn.WF, exSepArr]
  obtain ⟨o1, w1, S, h1, -, -, -, -, ht⟩ := C43_object_same_length (exEnv g) exSepObj w .float64 exSepArr [0, 1]
    (Or.inl rfl) hwf (by simp [exSepArr]) (by simp [exSepArr]) (by simp [exSepArr]) (by simp [exSepArr])
    ⟨by simp [exSepObj, exObj], by norm_num [exSepObj, exObj], rfl,
        by norm_num [exSepObj, exObj], fun _ => Or.inl ⟨[2, 3], rfl, by simp, by simp⟩⟩
    (by simp [exSepObj, exObj]) gs (order := List.range) (fun _ => List.Perm.refl _)
  obtain ⟨M, hM, -⟩ := ht .float64 exSepArr hwf (by simp [exSepArr]) rfl le_rfl
  have hty : o1.transformType = .uni := by
    obtain ⟨oa, r1, hp, S, rfl, -⟩ := fit_cases h1
    obtain ⟨t, ml, mc, ls, rs', rfl, -, h3, -⟩ := prepare_cases hp
    exact h3 (by simp [exSepObj, exObj])
  obtain ⟨o2, w2, h2⟩ := exSepObj_fit_nil g w1 gs hty
  have e1 : (afterFits (exEnv g) exSepObj w [(⟨.array .float64 exSepArr, [0, 1], gs, List.range⟩ : FitCall G ℝ Nat)]).1 =
      o1 := by simp only [afterFits, h1]
  have := C86_rdst_failed_refit hi [(⟨.array .float64 exSepArr, [0, 1], gs, List.range⟩ : FitCall G ℝ Nat)]
    (by rw [e1]; exact h2) (.array .float64 exSepArr)
  exact ⟨exSepObj, o1, w1, o2, w2, M, hi, h1, h2, by rw [this, e1, hM]⟩

/-- C86: the concrete classifier, `fit` on an empty list. -/
example (g : G) (w : World Nat) (gs : Nat → G) : ∃ c' w',
    exRidge.fit (exClfEnv g) gs List.range w (.list []) [] = (c', w', .error .valueError) ∧
    c'.predict (.array .float64 exSepArr) = .error .notFitted := by
  obtain ⟨o', w', h⟩ := exSepObj_fit_nil g w gs (o := exSepObj) rfl
  obtain ⟨c', h1, h2⟩ := C86_ridge_failed_fit (env := exClfEnv g) (exRidge_init g w) h
  exact ⟨c', w', h1, (h2 _ []).1⟩

/-- C86: a new classifier object. -/
example (g : G) (w : World Nat) : ∃ c w', RidgeClf.init (exEnv g) w (exParams (.bool false)) (.seed 7) = (w', .ok c) ∧
    c.predict (.array .float64 exSepArr) = .error .notFitted := by
  have h : RidgeClf.init (exEnv g) w (exParams (.bool false)) (.seed 7) =
      (w, .ok ⟨exParams (.bool false), .seed 7, .bool false, none, none⟩) := rfl
  exact ⟨_, _, h, (C86_ridge_not_fitted h _ []).1⟩

/-- C86: an ensemble whose `n_jobs` is 0 cannot be fitted. -/
example (seed : Nat → G) (w : World Nat) (gs : Nat → Nat → G) (Z : XIn ℝ) :
    (ensAfter (exEnsEnv seed) { exEns with nJobs := .int 0 } w
      [⟨.array .float64 exArr, [0, 1], gs, fun _ => List.range, [0, 1]⟩]).1.predict Z = .error .notFitted := by
  have h : EnsAllRaise (exEnsEnv seed) { exEns with nJobs := .int 0 } w
      [⟨.array .float64 exArr, [0, 1], gs, fun _ => List.range, [0, 1]⟩] := ⟨⟨.zeroDivision, rfl⟩, trivial⟩
  exact C86_ensemble_not_fitted _ rfl w _ h Z

/-- C86: an ensemble with members and weights whose `n_jobs` is set to 0 before a new `fit`. -/
example (seed : Nat → G) (w : World Nat) (gs : Nat → Nat → G) (ms : List (Member ℝ Nat)) (ws : List ℝ) (Z : XIn ℝ) :
    ∃ e' w', ({ exEns with nJobs := .int 0, models := ms, weights := some ws } : Ensemble ℝ Nat).fit (exEnsEnv seed)
        gs (fun _ => List.range) [0, 1] w (.array .float64 exArr) [0, 1] = (e', w', .error .zeroDivision) ∧
      e'.predict Z = ({ exEns with nJobs := .int 0, models := ms, weights := some ws } : Ensemble ℝ Nat).predict Z := by
  have h : ∃ e' w', ({ exEns with nJobs := .int 0, models := ms, weights := some ws } : Ensemble ℝ Nat).fit (exEnsEnv seed)
        gs (fun _ => List.range) [0, 1] w (.array .float64 exArr) [0, 1] = (e', w', .error .zeroDivision) :=
    ⟨_, _, rfl⟩
  obtain ⟨e', w', h⟩ := h
  exact ⟨e', w', h, C86_ensemble_failed_refit (exEns_cv seed) (by simp [exEns, List.range_succ]) h Z⟩

/-- C87: the concrete classifier with a `RandomState` instance in state 7, fitted once. -/
example (g : G) (w : World Nat) (gs : Nat → G) : ∃ c1 w1,
    RidgeRefits (exClfEnv g) { exRidge with rs := .inst 7 } w 1 c1 w1 ∧
    c1.rs = .inst (seedsDrawn (exEnv g) 7 1) := by
  obtain ⟨c', w', h⟩ := exRidge_fit g w gs
  have h2 : ∃ c1, ({ exRidge with rs := .inst 7 } : RidgeClf ℝ Nat Nat).fit (exClfEnv g) gs List.range w
      (.array .float64 exSepArr) [0, 1] = (c1, w', .ok ()) := by
    have hargs : ({ exRidge with rs := .inst 7 } : RidgeClf ℝ Nat Nat).args (exClfEnv g) = exRidge.args (exClfEnv g) := rfl
    unfold RidgeClf.fit at h ⊢
    simp only at h ⊢
    rw [hargs]
    rw [exRidge_init] at h ⊢
    simp only at h ⊢
    rcases hfo : exSepObj.fit (exClfEnv g).toEnv gs List.range w (.array .float64 exSepArr) [0, 1] with ⟨o', w3, rf⟩
    rw [hfo] at h
    cases rf with
    | error e => simp at h
    | ok u =>
      simp only at h ⊢
      split at h
      · simp at h
      · simp only [Prod.mk.injEq, and_true] at h
        obtain ⟨-, rfl⟩ := h
        exact ⟨_, rfl⟩
  obtain ⟨c1, h2⟩ := h2
  have hr := (RidgeRefits.zero (env := exClfEnv g) (c := { exRidge with rs := .inst 7 }) (w := w)).succ h2
  exact ⟨c1, w', hr, (C87_ridge_instance rfl hr).1⟩

end

end Convst.Props
