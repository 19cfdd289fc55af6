import Verif.Props.GridSearch
import Verif.Props.SetParamsClf

/-! # C94: the candidates of a grid search on `R_DST_Ridge` are parameter settings

`grid_search_UCR_UEA` gives the candidates to `clone(est).set_params(...)`.  This file puts the model of `set_params`
(C108) in the place of the function that the other theorems on grid searches leave arbitrary. -/

set_option autoImplicit false
set_option linter.unusedSectionVars false

namespace Convst.Props

open Convst Spec

variable {G R L : Type} [Gen G ℝ] [LinearOrder L]

/-- The object scored for a candidate: `clone(est).set_params(**us)`. -/
def candidate (rsOf : Nat → R) (us : List (Upd ℝ R)) (c : RidgeClf ℝ R L) : RidgeClf ℝ R L :=
  (setParams (RidgeClf.setOne rsOf) us c).1

/-- **C94.** A grid over constructor arguments of `R_DST_Ridge` (not `n_jobs`): for a dataset in which no two series
have a common channel and candidates with an integer `random_state` and `n_samples=None`, the row of a candidate
holds the scores that `cross_validate_UCR_UEA` gives to the classifier *constructed* with the arguments of the
searched estimator, those of the candidate replacing the arguments of the same names. -/
theorem C94_param_grid (rsOf : Nat → R) (env : ClfEnv G ℝ R L) (gs : Nat → Nat → Nat → G) (order : Nat → List Nat)
    (ws : Nat → Nat → World R) (refit : RidgeClf ℝ R L → List (List (List ℝ)) → List L → Res (RidgeClf ℝ R L))
    (pack : List (List (List ℝ)) → XIn ℝ) (scorer : List L → List L → Res ℝ) (best : List (List (Option ℝ)) → Nat)
    {shuffles : Nat → Nat → List Nat → List Nat} (hs : ∀ i k l, (shuffles i k l).Perm l) (nSplit : Nat)
    {trX : List (Mat ℝ)} {trY : List L} {teX : List (Mat ℝ)} {teY : List L} (hd : GridData trX trY teX teY)
    {w0 w1 : World R} {p : Params ℝ R} {rs : RSrc R} {est : RidgeClf ℝ R L}
    (hest : RidgeClf.init env.toEnv w0 p rs = (w1, .ok est)) (cands : List (List (Upd ℝ R)))
    (hof : ∀ us ∈ cands, ∀ u ∈ us, OfRidge u)
    (hseed : ∀ us ∈ cands, ∃ s, (withRidgeArgs rsOf (p, rs) us).2 = .seed s)
    (hns : ∀ us ∈ cands, (withRidgeArgs rsOf (p, rs) us).1.nSamples = none) {table : List (List (Option ℝ))}
    (h : ridgeGrid env gs order ws refit pack scorer best shuffles nSplit trX trY teX teY est (candidate rsOf) cands =
      .ok table) :
    table.length = cands.length ∧ ∀ (j : Nat) (us : List (Upd ℝ R)) (row : List (Option ℝ)), cands[j]? = some us →
      table[j]? = some row → row.length = nSplit ∧ ∃ d w',
        RidgeClf.init env.toEnv w0 (withRidgeArgs rsOf (p, rs) us).1 (withRidgeArgs rsOf (p, rs) us).2 = (w', .ok d) ∧
        ∀ (w : World R) (vs : List ℝ),
          crossValidate (fun i (c : RidgeClf ℝ R L) w X y => c.fit env (gs j i) order w (pack X) y)
            (fun c X => c.predict (pack X)) scorer
            (cvSplit (trX.map (·.rows)) trY (teX.map (·.rows)) teY shuffles) nSplit 0 d w =
            .ok vs ↔ row = vs.map some := by
  have hcl : est.clone = est := by
    obtain ⟨hc, -⟩ := ridge_init hest
    rw [hc]; rfl
  have hcand : ∀ us ∈ cands, ∃ w', RidgeClf.init env.toEnv w0 (withRidgeArgs rsOf (p, rs) us).1
      (withRidgeArgs rsOf (p, rs) us).2 = (w', .ok (candidate rsOf us est.clone)) := by
    intro us hus
    obtain ⟨c', h1, h2⟩ := C108_ridge rsOf hest (hof us hus)
    obtain ⟨w3, h3⟩ := h2 w0
    refine ⟨w3, h3.trans ?_⟩
    unfold candidate
    rw [hcl, h1]
  have hfields : ∀ us ∈ cands, (candidate rsOf us est.clone).p = (withRidgeArgs rsOf (p, rs) us).1 ∧
      (candidate rsOf us est.clone).rs = (withRidgeArgs rsOf (p, rs) us).2 := by
    intro us hus
    obtain ⟨w', hw⟩ := hcand us hus
    obtain ⟨hc, -⟩ := ridge_init hw
    exact ⟨by rw [hc], by rw [hc]⟩
  obtain ⟨e1, e2⟩ := C94_same_scores env gs order ws refit pack scorer best hs nSplit hd est (candidate rsOf) cands
    (fun us hus => by rw [(hfields us hus).2]; exact hseed us hus)
    (fun us hus => by rw [(hfields us hus).1]; exact hns us hus) h
  refine ⟨e1, fun j us row hj hrow => ?_⟩
  obtain ⟨e3, e4⟩ := e2 j us row hj hrow
  obtain ⟨w', hw⟩ := hcand us (List.mem_of_getElem? hj)
  exact ⟨e3, _, w', hw, e4⟩

/-- C94: the hypotheses on the candidates, for a grid over `shp_alpha` and `random_state`. -/
example : (∀ us ∈ [[Upd.alpha (1 / 4 : ℝ), .rs (.seed 5)], [.alpha (1 / 2), .rs (.seed 6)]], ∀ u ∈ us, OfRidge (R := Nat) u) ∧
    (∀ us ∈ [[Upd.alpha (1 / 4 : ℝ), .rs (.seed 5)], [.alpha (1 / 2), .rs (.seed 6)]],
      ∃ s, (withRidgeArgs (R := Nat) id (exRidge.p, .none) us).2 = .seed s) ∧
    ∀ us ∈ [[Upd.alpha (1 / 4 : ℝ), .rs (.seed 5)], [.alpha (1 / 2), .rs (.seed 6)]],
      (withRidgeArgs (R := Nat) id (exRidge.p, .none) us).1.nSamples = none := by
  simp [OfRidge, withRidgeArgs, Params.upd, exRidge, exParams]

/-- C94: a grid of two settings on a dataset of four series; the first is that of the estimator, and the table is
returned. -/
example [LawfulGen G] (g : G) (ws : Nat → Nat → World Nat) (gs : Nat → Nat → Nat → G) :
    ∃ table, ridgeGrid (exClfEnv g) gs List.range ws (fun c _ _ => .ok c)
      (fun X => XIn.array .float64 ⟨X, 1, 5⟩) accuracyScore (fun _ => 1) (fun _ _ l => l) 1
      [⟨[[5, 5, 5, 5, 5]], 5⟩, ⟨[[7, 7, 7, 7, 7]], 5⟩] [0, 1] [⟨[[8, 8, 8, 8, 8]], 5⟩, ⟨[[6, 6, 6, 6, 6]], 5⟩] [1, 0]
      exRidge (candidate id) [[.alpha exRidge.p.alpha], [.alpha (1 / 4), .rs (.seed 3)]] = .ok table ∧
      table.length = 2 := by
  have hs : ∀ (i k : Nat) (l : List Nat), l.Perm l := fun _ _ l => List.Perm.refl l
  have hd := exGridData
  obtain ⟨c', w', P, h1, -⟩ := exRidge_predict g (ws 0 0) (gs 0 0)
  obtain ⟨table, ht⟩ := (C94_returns (exClfEnv g) gs List.range ws (fun c _ _ => .ok c)
    (fun X => XIn.array .float64 ⟨X, 1, 5⟩) accuracyScore (fun _ => 1) (shuffles := fun _ _ l => l) hs 1 hd exRidge
    (candidate id) [[.alpha exRidge.p.alpha], [.alpha (1 / 4), .rs (.seed 3)]]).1
    ⟨0, _, 0, _, rfl, by omega, rfl, by
      have : candidate id [.alpha exRidge.p.alpha] exRidge.clone = (exRidge : RidgeClf ℝ Nat Nat) := rfl
      rw [this]
      exact congrArg (fun z => z.2.2) h1⟩ (by simp) (fun c _ => ⟨_, rfl⟩)
  refine ⟨table, ht, (C94_same_scores (exClfEnv g) gs List.range ws (fun c _ _ => .ok c)
    (fun X => XIn.array .float64 ⟨X, 1, 5⟩) accuracyScore (fun _ => 1) hs 1 hd exRidge _ _ ?_ ?_ ht).1⟩
  · intro us hus
    simp only [List.mem_cons, List.not_mem_nil, or_false] at hus
    rcases hus with rfl | rfl
    · exact ⟨7, rfl⟩
    · exact ⟨3, rfl⟩
  · intro us hus
    simp only [List.mem_cons, List.not_mem_nil, or_false] at hus
    rcases hus with rfl | rfl <;> rfl

end Convst.Props
