import Verif.Model.Alphas
import Verif.Props.Lifecycle
import Verif.Props.EnsembleRace

/-!
# Values given as `alphas_ridge` to the ensemble (C106)
-/

set_option autoImplicit false
set_option linter.unusedSectionVars false

namespace Convst.Props
open Convst Spec

section
variable {G K R : Type} [Scalar K] [Gen G K]

/-- The model of the ensemble of `Model/Classifiers.lean` is the one here, with accuracies from `cv`. -/
theorem fitWith_looAcc (env : EnsEnv G K R) (gs : Nat → Nat → G) (sched : Nat → Nat → List Nat) (order : List Nat)
    (e : Ensemble K R) (w : World R) (X : XIn K) (y : List Int) :
    e.fitWith (fun m y => looAcc m.cv y) env gs sched order w X y = e.fit env gs sched order w X y := rfl

/-- Fitting with two ways of reading the accuracies that agree on the fitted members. -/
theorem fitWith_congr {acc acc' : Member K R → List Int → Res K} {env : EnsEnv G K R} {gs : Nat → Nat → G}
    {sched : Nat → Nat → List Nat} {order : List Nat} {e : Ensemble K R} {w : World R} {X : XIn K} {y : List Int}
    (h : ∀ m, acc m y = acc' m y) :
    e.fitWith acc env gs sched order w X y = e.fitWith acc' env gs sched order w X y := by
  unfold Ensemble.fitWith
  simp only [h]

end

/-- `cv` are the leave-one-out predictions for the entry number `j` of `alphas`. -/
def CvAt {K : Type} (a : CvAttrs K) (j : Nat) (cv : List (List K)) : Prop :=
  cv.length = a.cvValues.length ∧ ∀ (i : Nat) (t : List (List K)) (c : List K), a.cvValues[i]? = some t →
    cv[i]? = some c → c.length = t.length ∧ ∀ (q : Nat) (v : List K), t[q]? = some v → v[j]? = c[q]?  ∧ j < v.length

theorem mapM_aget_at {K : Type} {j : Nat} {t : List (List K)} {c : List K} (hl : c.length = t.length)
    (h : ∀ (q : Nat) (v : List K), t[q]? = some v → v[j]? = c[q]? ∧ j < v.length) :
    (t.mapM fun v => aget v j) = .ok c := by
  induction t generalizing c with
  | nil => simp at hl; subst hl; rfl
  | cons v t ih =>
    cases c with
    | nil => simp at hl
    | cons b c =>
      have h0 := (h 0 v rfl).1
      have h1 : aget v j = .ok b := by
        unfold aget
        rw [h0]; rfl
      rw [List.mapM_cons, h1, Res.bind_ok, ih (by simpa using hl) fun q v' hv => by
        have := h (q + 1) v' (by simpa using hv)
        simpa using this]
      rfl

theorem mapM_cvAt {K : Type} {a : CvAttrs K} {j : Nat} {cv : List (List K)} (h : CvAt a j cv) :
    (a.cvValues.mapM fun targets => targets.mapM fun v => aget v j) = .ok cv := by
  obtain ⟨h1, h2⟩ := h
  generalize a.cvValues = ts at h1 h2
  induction ts generalizing cv with
  | nil => simp at h1; subst h1; rfl
  | cons t ts ih =>
    cases cv with
    | nil => simp at h1
    | cons c cv =>
      obtain ⟨k1, k2⟩ := h2 0 t c rfl rfl
      rw [List.mapM_cons, mapM_aget_at k1 k2, Res.bind_ok, ih (by simpa using h1) fun i t' c' ht hc =>
        h2 (i + 1) t' c' (by simpa using ht) (by simpa using hc)]
      rfl

theorem hits_eq {alphas : List ℝ} {alpha : ℝ} :
    (whereIdx alphas.length fun i => Scalar.eqb (alphas.getD i 0) alpha) =
      whereIdx alphas.length fun i => decide (alphas[i]? = some alpha) := by
  unfold whereIdx
  apply List.filter_congr
  intro i hi
  have hi : i < alphas.length := List.mem_range.1 hi
  rw [getD_lt _ hi, List.getElem?_eq_getElem hi]
  by_cases h : alphas[i] = alpha
  · simp [h]
  · simp [h]

theorem hits_length {alphas : List ℝ} {alpha : ℝ} :
    (whereIdx alphas.length fun i => Scalar.eqb (alphas.getD i 0) alpha).length = alphas.count alpha := by
  rw [hits_eq]
  unfold whereIdx
  rw [← List.countP_eq_length_filter, List.count]
  have : alphas = (List.range alphas.length).map fun i => alphas.getD i 0 := by
    apply List.ext_getElem
    · simp
    · intro i h1 h2
      rw [List.getElem_map, List.getElem_range, getD_lt _ h1]
  conv_rhs => rw [this, List.countP_map]
  apply List.countP_congr
  intro i hi
  have hi : i < alphas.length := List.mem_range.1 hi
  rw [Function.comp_apply, getD_lt _ hi, List.getElem?_eq_getElem hi]
  simp

/-- **C106.** The accuracy read for a chosen value that is listed once is that of its predictions. -/
theorem acc_of_once {alphas : List ℝ} {a : CvAttrs ℝ} {j : Nat} (hj : alphas[j]? = some a.alpha)
    (hone : alphas.count a.alpha = 1) {cv : List (List ℝ)} (hcv : CvAt a j cv) (y : List Int) :
    loocvTrainAcc alphas a y = looAcc cv y := by
  unfold loocvTrainAcc
  simp only
  have hlen := hits_length (alphas := alphas) (alpha := a.alpha)
  rw [hone] at hlen
  obtain ⟨j', hj'⟩ := List.length_eq_one_iff.1 hlen
  have hmem : j ∈ whereIdx alphas.length fun i => Scalar.eqb (alphas.getD i 0) a.alpha := by
    have hlt := (List.getElem?_eq_some_iff.1 hj).1
    refine List.mem_filter.2 ⟨List.mem_range.2 hlt, ?_⟩
    rw [List.getD_eq_getElem?_getD, hj]
    simp
  rw [hj'] at hmem
  simp only [List.mem_singleton] at hmem
  subst hmem
  rw [hj']
  simp only
  rw [mapM_cvAt hcv]
  rfl

/-- A chosen value that is listed twice (or not at all) makes the accuracy fail. -/
theorem acc_of_repeated {alphas : List ℝ} {a : CvAttrs ℝ} (hone : alphas.count a.alpha ≠ 1) (y : List Int) :
    loocvTrainAcc alphas a y = .error .valueError := by
  unfold loocvTrainAcc
  simp only
  split
  · rename_i j h
    exfalso
    have hlen := hits_length (alphas := alphas) (alpha := a.alpha)
    rw [h] at hlen
    exact hone hlen.symm
  · rfl

section
variable {G R : Type} [Gen G ℝ]

/-- What is assumed of the learner here: the value it chooses is one of `alphas`, at position `pos m`, and the
predictions used in the rest of the model are those of that position. -/
def AlphaLaw (alphas : List ℝ) (attrs : Member ℝ R → CvAttrs ℝ) : Prop :=
  ∀ m, ∃ j : Nat, alphas[j]? = some (attrs m).alpha ∧ CvAt (attrs m) j m.cv

/-- **C106.** When the values of `alphas_ridge` are all different, fitting the ensemble does what the model of
`Model/Classifiers.lean` says, to which all other theorems about ensembles apply. -/
theorem C106_distinct_alphas {alphas : List ℝ} (hd : alphas.Nodup) {attrs : Member ℝ R → CvAttrs ℝ}
    (hl : AlphaLaw alphas attrs) (env : EnsEnv G ℝ R) (gs : Nat → Nat → G) (sched : Nat → Nat → List Nat)
    (order : List Nat) (e : Ensemble ℝ R) (w : World R) (X : XIn ℝ) (y : List Int) :
    e.fitAlphas alphas attrs env gs sched order w X y = e.fit env gs sched order w X y := by
  rw [← fitWith_looAcc]
  unfold Ensemble.fitAlphas
  apply fitWith_congr
  intro m
  obtain ⟨j, h1, h2⟩ := hl m
  exact acc_of_once h1 (List.count_eq_one_of_mem hd (List.mem_of_getElem? h1)) h2 y

/-- **C106 (violated when a value is repeated).** Suppose `fit` would succeed with the values all different, and that
the value chosen by some member occurs twice in `alphas_ridge`.  Then `fit` raises `ValueError`, after all members have
been fitted: the object has the new members, with the weights (if any) of the previous `fit`. -/
theorem C106_repeated_alpha {alphas : List ℝ} {attrs : Member ℝ R → CvAttrs ℝ} {env : EnsEnv G ℝ R}
    {gs : Nat → Nat → G} {sched : Nat → Nat → List Nat} {order : List Nat} {e e1 : Ensemble ℝ R} {w w1 : World R}
    {X : XIn ℝ} {y : List Int} (hl : AlphaLaw alphas attrs)
    (h : e.fit env gs sched order w X y = (e1, w1, .ok ()))
    {m : Member ℝ R} (hm : m ∈ e1.models) (hrep : 2 ≤ alphas.count (attrs m).alpha) :
    ∃ e2, e.fitAlphas alphas attrs env gs sched order w X y = (e2, w1, .error .valueError) ∧
      e2.models = e1.models ∧ e2.weights = e.weights := by
  unfold Ensemble.fit at h
  unfold Ensemble.fitAlphas Ensemble.fitWith
  rcases h1 : e.manageNJobs env.cpu with ⟨ea, r1⟩
  obtain ⟨k1, -, -⟩ := manageNJobs_keeps h1
  rw [h1] at h
  cases r1 with
  | error er1 => simp at h
  | ok u =>
    simp only at h ⊢
    rcases h2 : setNumThreads env.maxThreads w (ea.nJobsRdst.getD 1) with ⟨w2, r2⟩
    rw [h2] at h
    cases r2 with
    | error er2 => simp at h
    | ok u =>
      simp only at h ⊢
      rcases h3 : fitMembers (fun i => fitMember env ea (gs i) (sched i) X y i) order ea.rs w2 (fun _ => none)
        with ⟨rs3, w3, r3⟩
      rw [h3] at h
      cases r3 with
      | error er3 => simp at h
      | ok slots =>
        simp only at h ⊢
        generalize hms : (List.range ea.reps.length).filterMap slots = ms at h ⊢
        cases h4 : ms.mapM fun m => (looAcc m.cv y : Res ℝ) with
        | error er4 => rw [h4] at h; simp at h
        | ok accs =>
          rw [h4] at h
          simp only [Prod.mk.injEq, and_true] at h
          obtain ⟨rfl, rfl⟩ := h
          have hfail : (ms.mapM fun m => loocvTrainAcc alphas (attrs m) y) = .error .valueError := by
            have hm : m ∈ ms := hm
            clear hms
            induction ms generalizing accs with
            | nil => simp at hm
            | cons b ms ih =>
              rw [List.mapM_cons] at h4 ⊢
              obtain ⟨v, hv, h5⟩ := Res.bind_eq_ok.1 h4
              obtain ⟨vs, hvs, -⟩ := Res.bind_eq_ok.1 h5
              by_cases hb : alphas.count (attrs b).alpha = 1
              · obtain ⟨j, j1, j2⟩ := hl b
                rw [acc_of_once j1 hb j2 y, hv, Res.bind_ok]
                have hm' : m ∈ ms := by
                  rcases List.mem_cons.1 hm with rfl | hm
                  · omega
                  · exact hm
                rw [ih vs hvs hm' hm']
                rfl
              · rw [acc_of_repeated hb]; rfl
          rw [hfail]
          exact ⟨_, rfl, rfl, k1⟩

/-- **C106.** Consequence for a new object: `predict` raises `NotFittedError` although every member was fitted. -/
theorem C106_repeated_not_fitted {alphas : List ℝ} {attrs : Member ℝ R → CvAttrs ℝ} {env : EnsEnv G ℝ R}
    {gs : Nat → Nat → G} {sched : Nat → Nat → List Nat} {order : List Nat} {e e1 : Ensemble ℝ R} {w w1 : World R}
    {X : XIn ℝ} {y : List Int} (hl : AlphaLaw alphas attrs) (hw : e.weights = none)
    (h : e.fit env gs sched order w X y = (e1, w1, .ok ()))
    {m : Member ℝ R} (hm : m ∈ e1.models) (hrep : 2 ≤ alphas.count (attrs m).alpha) (Z : XIn ℝ) :
    (e.fitAlphas alphas attrs env gs sched order w X y).1.predict Z = .error .notFitted := by
  obtain ⟨e2, h1, -, h3⟩ := C106_repeated_alpha hl h hm hrep
  rw [h1]
  unfold Ensemble.predict
  rw [h3, hw]

/-- **C106.** Consequence for an object fitted before: contrary to `C86_ensemble_failed_refit` (all values different),
the `fit` that raised changes the predictions: they are those of the *new* members with the *old* weights. -/
theorem C106_repeated_refit {alphas : List ℝ} {attrs : Member ℝ R → CvAttrs ℝ} {env : EnsEnv G ℝ R}
    {gs : Nat → Nat → G} {sched : Nat → Nat → List Nat} {order : List Nat} {e e1 : Ensemble ℝ R} {w w1 : World R}
    {X : XIn ℝ} {y : List Int} (hl : AlphaLaw alphas attrs)
    (h : e.fit env gs sched order w X y = (e1, w1, .ok ()))
    {m : Member ℝ R} (hm : m ∈ e1.models) (hrep : 2 ≤ alphas.count (attrs m).alpha) (Z : XIn ℝ) :
    (e.fitAlphas alphas attrs env gs sched order w X y).1.predict Z =
      ({ e1 with weights := e.weights } : Ensemble ℝ R).predict Z := by
  obtain ⟨e2, h1, h2, h3⟩ := C106_repeated_alpha hl h hm hrep
  rw [h1]
  unfold Ensemble.predict
  rw [h2, h3]

/-- Attributes of a learner that chooses the first value of `alphas`. -/
def exAttrs (alphas : List ℝ) (m : Member ℝ Nat) : CvAttrs ℝ where
  alpha := alphas.getD 0 0
  cvValues := m.cv.map fun row => row.map fun v => List.replicate alphas.length v

theorem exAttrs_law {alphas : List ℝ} (h : alphas ≠ []) : AlphaLaw alphas (exAttrs alphas) := by
  intro m
  have h0 : 0 < alphas.length := List.length_pos_iff.2 h
  refine ⟨0, ?_, by simp [exAttrs], ?_⟩
  · simp only [exAttrs]
    rw [getD_lt _ h0, List.getElem?_eq_getElem h0]
  · intro i t c ht hc
    simp only [exAttrs, List.getElem?_map, hc, Option.map_some, Option.some.injEq] at ht
    subst ht
    refine ⟨by simp, ?_⟩
    intro q v hv
    rw [List.getElem?_map] at hv
    obtain ⟨b, hb, rfl⟩ := Option.map_eq_some_iff.1 hv
    rw [hb]
    simp [h0]

/-- **C106.** The example ensemble is fitted with `alphas_ridge=[1, 2]`; with `[1, 1]` its `fit` raises `ValueError` and
it stays unfitted. -/
example [LawfulGen G] (seed : Nat → G) (gs : Nat → Nat → G) (w : World Nat) :
    (∃ e' w', exEns.fitAlphas [1, 2] (exAttrs [1, 2]) (exEnsEnv seed) gs (fun _ => List.range) [0, 1] w
        (.array .float64 exArr) [0, 1] = (e', w', .ok ())) ∧
    (∃ e' w', exEns.fitAlphas [1, 1] (exAttrs [1, 1]) (exEnsEnv seed) gs (fun _ => List.range) [0, 1] w
        (.array .float64 exArr) [0, 1] = (e', w', .error .valueError) ∧ e'.models.length = 2 ∧
        e'.predict (.array .float64 exArr) = .error .notFitted) := by
  obtain ⟨e', w', h⟩ := exEns_fit seed gs (order := [0, 1]) (List.Perm.refl _) w [0, 1] rfl
  obtain ⟨w1, st, accs, -, -, -, h2, -, -, -⟩ := ens_fit_ok (e := exEns) (List.Perm.refl _) h
  have h2 : e'.models.length = 2 := h2
  obtain ⟨m, hm⟩ : ∃ m, m ∈ e'.models := List.exists_mem_of_length_pos (by omega)
  refine ⟨⟨e', w', ?_⟩, ?_⟩
  · rw [C106_distinct_alphas (by norm_num) (exAttrs_law (by simp)), h]
  · have hrep : 2 ≤ List.count (exAttrs [1, 1] m).alpha [(1 : ℝ), 1] := by simp [exAttrs]
    obtain ⟨e2, h3, h4, -⟩ := C106_repeated_alpha (exAttrs_law (by simp)) h hm hrep
    have h5 := C106_repeated_not_fitted (exAttrs_law (by simp)) rfl h hm hrep (.array .float64 exArr)
    rw [h3] at h5
    exact ⟨e2, w', h3, by rw [h4, h2], h5⟩

end

end Convst.Props
