import Verif.Props.ManyChannels
import Verif.Props.SetParamsClf

/-!
# Concrete cases

Cases that meet the hypotheses of theorems on histories of `fit` calls (C38, C39, C41, C44), on the vote of the ensemble (C50, C52)
and on `set_params` (C108).
-/

set_option autoImplicit false
set_option linter.unusedSectionVars false

namespace Convst.Props
open Convst Spec

section object
variable {G : Type} [Gen G ℝ] [LawfulGen G]

/-- After any history, an object with integer lengths and a fixed type still accepts the two series of five points. -/
theorem exAfter (env : Env G Nat Nat) (w w2 : World Nat) (hist : List (FitCall G ℝ Nat)) :
    ∃ o2 w2' c2 s2, (afterFits env (exObj .multi) w hist).1.prepare env w2 (.array .float64 exArr) [0, 1] =
      (o2, w2', .ok (c2, s2)) ∧ c2.points = 5 ∧ c2.args.sizes = [3] := by
  obtain ⟨t, ml, mc, ls, rs', S, h1, -, h3, -, -, h6⟩ := afterFits_spec env (exObj .multi) w hist
  obtain rfl : t = .multi := h3 (by simp [exObj])
  obtain rfl : ls = (exObj .multi).lens := h6 rfl ⟨_, rfl⟩
  have hcp : checkParams (setLengths (exObj .multi).lens (exObj .multi).bounds (exObj .multi).reduction 5) 5 = .ok [3] := by
    rw [checkParams_eq]
    simp [exObj, setLengths, intLengths]
  have hA1 : toArr3 (.array .float64 exArr) = .ok exArr := toArr3_array (by simp [exArr]) (by simp [exArr]) (by simp [exArr])
  obtain ⟨o2, w2', c2, s2, h2, -, -, -, hargs, -, hc, -⟩ := prepare_forward env
    ({ exObj .multi with minLen := ml, maxChannels := mc, rs := rs', shapelets := S } : Rdst ℝ Nat) w2 [0, 1] (t := .multi)
    (m := 5) (Or.inr (Or.inl rfl)) (C34_fixed_type _ (Or.inr (Or.inl rfl)) (.array .float64 exArr))
    (loadTrain_same (by simp [TType.Var]) hA1) rfl hcp
  refine ⟨o2, w2', c2, s2, ?_, ?_, ?_⟩
  · rw [h1]; exact h2
  · rw [hc rfl, hargs]; rfl
  · rw [hargs]

/-- C38, C39: a fresh object and one fitted on series with two channels. -/
example (env : Env G Nat Nat) (w w1 w2 : World Nat) (gs : Nat → G) :
    ∃ o1 w1' c1 s1 o2 w2' c2 s2, (exObj .multi).prepare env w1 (.array .float64 exArr) [0, 1] = (o1, w1', .ok (c1, s1)) ∧
      (afterFits env (exObj .multi) w [⟨.array .float64 exTwo, [0, 1], gs, List.range⟩]).1.prepare env w2
        (.array .float64 exArr) [0, 1] = (o2, w2', .ok (c2, s2)) ∧
      c1.args.sizes = c2.args.sizes ∧ c1.args = c2.args ∧ c2.points = 5 := by
  obtain ⟨o1, w1', c1, s1, h1, p1, -⟩ := exAfter env w w1 []
  obtain ⟨o2, w2', c2, s2, h2, p2, -⟩ := exAfter env w w2 [⟨.array .float64 exTwo, [0, 1], gs, List.range⟩]
  obtain ⟨A, hA, hp, -⟩ := C39_same_length_recomputed env (exObj .multi) (Or.inr rfl) w _ h2
  exact ⟨o1, w1', c1, s1, o2, w2', c2, s2, h1, h2,
    C38_refit_lengths_partial env (exObj .multi) (Or.inr ⟨_, rfl⟩) w _ h1 h2 (p1.trans p2.symm),
    C38_refit_same_length_partial env (exObj .multi) (Or.inr ⟨_, rfl⟩) (Or.inr rfl) rfl w _ h1 h2, p2⟩

/-- C39: the object fitted on series of five and four points keeps `min_len = 4`. -/
example (g : G) (w : World Nat) (gs : Nat → G) :
    ∃ o2 w2 w2' c2 s2, (afterFits (exEnv g) (exObj .uniVar) w [⟨.list exList, [0, 1], gs, List.range⟩]).1.prepare (exEnv g) w2
        (.list exLong) [0, 1] = (o2, w2', .ok (c2, s2)) ∧ c2.points ∈ [5, 4] ∧ c2.points ≤ 4 := by
  obtain ⟨-, o1, w1, hfit, o2, w2, c2, s2, h2, -⟩ := C39_history_changes_fit g w gs
  have hf0 : formatUneven (.list exList) = .ok (⟨[[[0, 1, 2, 3, 4]], [[7, 8, 9, 8, 0]]], 1, 5⟩, [5, 4]) := by
    simp [formatUneven, exList, samples, Bind.bind, Except.bind, nmax, pure, Except.pure, padRow]
  have h : (afterFits (exEnv g) (exObj .uniVar) w [⟨.list exList, [0, 1], gs, List.range⟩]).1.prepare (exEnv g) w1
      (.list exLong) [0, 1] = (o2, w2, .ok (c2, s2)) := by
    simp only [afterFits, hfit]
    exact h2
  obtain ⟨k1, k2⟩ := C39_min_len_fixed (exEnv g) (exObj .uniVar) (Or.inr rfl) rfl w ⟨.list exList, [0, 1], gs, List.range⟩ hf0
    ⟨2, 1, 5, rfl, by omega, by omega, by omega, by omega, by simp⟩ [] h
  exact ⟨o2, w1, w2, c2, s2, h, k2, k1 4 (by simp)⟩

/-- C39: the type chosen on a list of univariate series stays when an array is given later. -/
example (env : Env G Nat Nat) (w : World Nat) (gs : Nat → G) :
    (afterFits env (exObj .auto) w [⟨.list exList, [0, 1], gs, List.range⟩, ⟨.array .float64 exTwo, [0, 1], gs, List.range⟩]).1.transformType
      = .uniVar :=
  C39_type_fixed env (exObj .auto) rfl w ⟨.list exList, [0, 1], gs, List.range⟩ (by simp [autoClass, exList]) _

/-- C41: one sample of two is selected; the label goes with the series, the lengths do not. -/
example (g : G) : ∃ o' w' a seed, ({ exObj .uniVar with nSamples := some (1 / 2) } : Rdst ℝ Nat).prepare (exEnv g) ⟨1, 1⟩
      (.list exList) [0, 0] = (o', w', .ok (.uvl a 4 [5, 4], seed)) ∧ ∃ ids : List Nat, a.X.length = ids.length ∧ ids.length = 1 := by
  obtain ⟨o', w', a, seed, h, hX⟩ := C41_wrong_length g
  obtain ⟨A, ids, -, h2, -⟩ := C41_series_labels_paired_partial _ _ _ _ _ h
  have h2 : a.X.length = ids.length := h2
  exact ⟨o', w', a, seed, h, ids, h2, by rw [← h2, hX]; rfl⟩

/-- C44: `n_jobs = 0` is a `ValueError` when all other parameters are accepted. -/
example (w : World Nat) : ∃ p : Params ℝ Nat, p.nJobs = .int 0 ∧ Rdst.init exSeedEnv w p = (w, .error .valueError) := by
  have hred : ¬ (Scalar.leb (1 : ℝ) (1 / 2)) = true := by rw [real_leb]; norm_num
  have hpc : validatePercentiles [(5 : ℝ), 50] = .ok (5, 50) := by
    have : Scalar.leb (5 : ℝ) 50 = true := by rw [real_leb]; norm_num
    simp [validatePercentiles, this]
  have ht : validateTransformType "auto" = .ok .auto := by decide +kernel
  have hok : ∃ w1 o, Rdst.init exSeedEnv w { exSetArgs with nJobs := .none } = (w1, .ok o) := by
    unfold Rdst.init
    simp only [exSetArgs, exParams, ht, hpc, exSeedEnv, LenArr.length]
    rw [if_neg (by simp)]
    simp [checkNJobs, setNumThreads]
    norm_num
  obtain ⟨w1, o, hok⟩ := hok
  exact ⟨{ exSetArgs with nJobs := .int 0 }, rfl,
    C44_constructor_value_error exSeedEnv w w1 { exSetArgs with nJobs := .int 0 } 0 0 hok rfl (by simp [checkNJobs])
      (by omega)⟩

end object

section set
/-- C108: fewer than two percentiles, a float for `n_shapelets`, `transform_type` in upper case. -/
example (w : World Nat) :
    (∃ e, (Rdst.init exSeedEnv w (withArgs id exSetArgs [.percentiles [5]])).2 = .error e) ∧
    (∃ r : RawRdst ℝ Nat, ∀ (f : FitCall Script ℝ Nat) (w : World Nat), (r.fit id exSeedEnv f.gs f.order w f.X f.y).2.2 ≠ .ok ()) ∧
    ∃ r : RawRdst ℝ Nat, ∀ (f : FitCall Script ℝ Nat) (w : World Nat),
      (r.fit id exSeedEnv f.gs f.order w f.X f.y).2 = (w, .error .valueError) := by
  obtain ⟨h1, -⟩ := C108_short_percentiles id (exSet_new w) (l := [5]) (by simp)
  obtain ⟨r, -, h2, -⟩ := C108_violated_float_count id (exSet_new w) 100
  obtain ⟨r', -, h3⟩ := C108_violated_type_case (G := Script) (L := Nat) id (env := exSeedEnv)
    (RawRdst.ofRdst (exObj .multi)) (s := "Multivariate") (by decide +kernel)
  exact ⟨h1 w, ⟨r, h2⟩, ⟨r', h3⟩⟩

/-- C108: an object fitted on two series, then `transform_type` of the other family, or `phase_invariance`, is set. -/
example (w : World Nat) (gs : Nat → Script) :
    (∃ r' : RawRdst ℝ Nat, ∀ Z, ∃ e, r'.transform Z = .error e) ∧
    ∃ r' : RawRdst ℝ Nat, ∀ Z, r'.transform Z = ({ (afterFits exSeedEnv exRefit w
      [⟨.array .float64 exArr, [0, 1], gs, List.range⟩]).1 with phase := true } : Rdst ℝ Nat).transform Z := by
  obtain ⟨o', w', S, hf, ho, -⟩ := exRefit_fit (o := exRefit) (k := 0) (ml := 5) (mc := none) (m := none) (S0 := none) rfl
    (by simp) gs w rfl
  have h : (afterFits exSeedEnv exRefit w [⟨.array .float64 exArr, [0, 1], gs, List.range⟩]).1.transformType = .multi := by
    simp only [afterFits, hf]
    rw [ho]
    rfl
  obtain ⟨r', -, h1⟩ := C108_type_after_fit_other_family id exSeedEnv (o := exRefit) rfl
    [⟨.array .float64 exArr, [0, 1], gs, List.range⟩] w (s := "univariate_variable") (by
      rw [h]
      have : storedType "univariate_variable" = .uniVar := by decide +kernel
      rw [this]
      simp [TType.Var])
  obtain ⟨r2, -, h2⟩ := C108_phase_after_fit id exSeedEnv (o := exRefit) rfl
    [⟨.array .float64 exArr, [0, 1], gs, List.range⟩] w true
  exact ⟨⟨r', h1⟩, ⟨r2, h2⟩⟩

end set

section ensemble
variable {G : Type} [Gen G ℝ] [LawfulGen G]

/-- A learner that always prefers the second of the classes 0 and 1. -/
noncomputable def exSure (seed : Nat → G) : EnsEnv G ℝ Nat :=
  { exEnsEnv seed with ridgeCV := fun F y => .ok (⟨[List.replicate (nCols F) 0], [1], [0, 1]⟩, y.map fun l => [(l : ℝ)]) }

theorem exSure_cv (seed : Nat → G) : CVLaw (exSure seed).ridgeCV := by
  intro F y m cv h
  simp only [exSure, Except.ok.injEq, Prod.mk.injEq] at h
  obtain ⟨rfl, rfl⟩ := h
  exact ⟨⟨by simp, by simp, by simp, by simp⟩, by simp, by simp⟩

/-- C50, C52: the fitted ensemble predicts the second class for every series, never a label above 1, and what it predicts is a
label; a second fit in another process gives the same members. -/
example (seed : Nat → G) (gs : Nat → Nat → G) (w w2 : World Nat) :
    ∃ e' w' e2 w3, exEns.fit (exSure seed) gs (fun _ => List.range) [0, 1] w (.array .float64 exArr) [0, 1] = (e', w', .ok ()) ∧
      exEns.fit (exSure seed) gs (fun _ => List.range) [0, 1] w2 (.array .float64 exArr) [0, 1] = (e2, w3, .ok ()) ∧
      e'.models = e2.models ∧ ∃ P, e'.predict (.array .float64 exArr) = .ok P ∧ P[0]? = some 1 ∧ (∀ p ∈ P, (p : Int) ≠ 2) ∧
        ∀ p ∈ P, ([0, 1] : List Int)[p]? = some (p : Int) := by
  have hord : ([0, 1] : List Nat).Perm (List.range exEns.reps.length) := List.Perm.refl _
  have hus : EnsUsable (exSure seed) exEns 1 5 exG := exEns_usable seed
  have hfit : ∀ w, ∃ e' w', exEns.fit (exSure seed) gs (fun _ => List.range) [0, 1] w (.array .float64 exArr) [0, 1] =
      (e', w', .ok ()) := fun w =>
    C50_fit_succeeds (exSure_cv seed) gs (fun _ => range_schedule) (order := [0, 1]) (e := exEns) hord
      (by simp [exEns]) w exEns_rep hus (fun _ _ _ _ _ _ => ⟨_, rfl⟩) exArr_wf (by simp [exArr])
      (by simp [exArr]) exEns_nt (by simp [exArr]) (t := 2) (by simp [checkNJobs, exEns, exSure, exEnsEnv])
      (by norm_num) (by simp [exSure, exEnsEnv])
  obtain ⟨e', w', h⟩ := hfit w
  obtain ⟨e2, w3, h2⟩ := hfit w2
  refine ⟨e', w', e2, w3, h, h2, (C52_same_order_partial hord rfl (r := 0) rfl h h2).1, ?_⟩
  have hcls : ∀ F y m cv, (exSure seed).ridgeCV F y = .ok (m, cv) → m.classes.length = (fun _ : List Int => 2) y := by
    intro F y m cv h
    simp only [exSure, Except.ok.injEq, Prod.mk.injEq] at h
    obtain ⟨rfl, -⟩ := h
    rfl
  obtain ⟨ws, Ss, h1, hl, h5, hp⟩ := C50_fit_predict_same_length (exSure_cv seed) (ncls := fun _ => 2) hcls
    (fun _ => range_schedule) (e := exEns) hord (by simp [exEns]) exEns_rep (hus.good _) exArr_wf
    (by simp [exArr]) (by simp [exArr]) exEns_nt (by simp [exArr]) h
  obtain ⟨P, h6, -⟩ := hp .float64 exArr exArr_wf (by simp [exArr]) rfl le_rfl
  have hmem : ∀ i m, e'.models[i]? = some m → RepOn m.rep (.array .float64 exArr) (arrSeries exArr)
      (repSeries (exF i) (exG i)) 1 ∧ m.lin.classes = [0, 1] ∧ m.lin.intercept = [1] ∧ (∃ n, m.lin.coef = [List.replicate n 0]) ∧
      m.cv = [[0], [1]] := by
    intro i m hm
    obtain ⟨_, st, _, -, -, -, hml, hmem, -, -⟩ := ens_fit_ok hord h
    obtain ⟨hi, -⟩ := List.getElem?_eq_some_iff.1 hm
    have : i ∈ [0, 1] := hord.mem_iff.2 (by simp; omega)
    obtain ⟨k, hk, rfl⟩ := List.getElem_of_mem this
    obtain ⟨m', h1, h2⟩ := hmem k hk
    rw [hm, Option.some.injEq] at h1
    subst h1
    obtain ⟨rep, _, _, _, _, _, hrep, -, -, -, -, hr, -, -, -, hl⟩ := fitMember_ok h2
    simp only [exSure, Except.ok.injEq, Prod.mk.injEq] at hl
    refine ⟨?_, ?_⟩
    · rw [hr]
      exact arrRep_on (exEns_rep _ _ hrep) exArr_wf (by simp [exArr]) (by simp [exArr])
    · rw [← hl.1, ← hl.2]
      exact ⟨rfl, rfl, ⟨_, rfl⟩, by simp⟩
  have hne : ws ≠ [] := by
    intro h0
    rw [h0] at hl
    simp [exEns] at hl
  obtain ⟨m0, hm0⟩ : ∃ m0, e'.models[0]? = some m0 := by
    obtain ⟨_, st, _, -, -, -, hml, -⟩ := ens_fit_ok hord h
    exact ⟨_, List.getElem?_eq_getElem (by rw [hml]; simp [exEns])⟩
  have hc0 := (hmem 0 m0 hm0).2.1
  refine ⟨P, h6, ?_, ?_, ?_⟩
  · obtain ⟨ws', k1, k2, k3, k4, k5⟩ := C51_weights (exSure_cv seed) hord h
    rw [h1, Option.some.injEq] at k1
    subst k1
    refine C50_unanimous h1 h5 (fun i m hm => (hmem i m hm).1) h6 (fun v hv => (k5 (by norm_num [exEns]) v hv).1) ?_
      (x := ⟨[[0, 1, 2, 3, 4]], 5⟩) (by simp [arrSeries, exArr]) (k := 1) ?_
    · obtain ⟨ks, q1, q2⟩ := k4 0 m0 hm0
      rw [(hmem 0 m0 hm0).2.2.2.2] at q1
      match ks, q1 with
      | [a, b], .cons ha (.cons hb .nil) =>
        rw [show a = 0 by simpa [Chosen] using ha, show b = 1 by simpa [Chosen] using hb] at q2
        refine ⟨_, List.mem_of_getElem? q2, ?_⟩
        norm_num [agree, exEns]
    · intro i m hm
      obtain ⟨-, a1, a2, ⟨n, a3⟩, -⟩ := hmem i m hm
      refine ⟨by rw [a1]; simp, fun j hj hne => ?_⟩
      have hj0 : j = 0 := by rw [a1] at hj; simp at hj; omega
      subst hj0
      refine ((C51_probabilities (h5 i m hm) _).2.2 0 1 (by rw [a1]; simp) (by rw [a1]; simp)).2 ?_
      have hd : ∀ z : List ℝ, decision m.lin z = [1] := by
        intro z
        unfold decision
        rw [a3, a2]
        simp [total]
      unfold classScores
      rw [if_pos (by rw [a3]; rfl), hd]
      norm_num
  · exact C50_label_never_predicted h1 hne h5 (fun i m hm => (hmem i m hm).1) h6 hm0 (Or.inr (by rw [hc0]; simp))
  · have := C50_index_is_label_partial h1 hne h5 (fun i m hm => (hmem i m hm).1) h6 hm0 (by rw [hc0]; rfl)
    rwa [hc0] at this

end ensemble
end Convst.Props
