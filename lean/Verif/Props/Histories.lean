import Verif.Props.FitCount

/-!
# Concrete histories meeting the hypotheses of the history theorems (C38, C39, C44, C46)
-/

set_option autoImplicit false
set_option linter.unusedSectionVars false

namespace Convst.Props

open Convst Spec

variable {G : Type} [Gen G ℝ] [LawfulGen G]

theorem range_schedule : IsSchedule List.range := fun _ => List.Perm.refl _

/-- Two series of ten points. -/
noncomputable def exArr10 : Arr3 ℝ :=
  ⟨[[[0, 1, 2, 3, 4, 5, 4, 3, 2, 1]], [[1, 1, 0, 0, 2, 2, 3, 3, 1, 1]]], 1, 10⟩

/-- An object with the fractional length 0.3. -/
noncomputable def exFrac : Rdst ℝ Nat := { exObj .uni with lens := .floats [3 / 10] }

theorem exFrac_good : GoodParams exFrac 10 where
  nShp := by simp [exFrac, exObj]
  perc := by norm_num [exFrac, exObj]
  nSamples := rfl
  red := by norm_num [exFrac, exObj]
  lens _ := Or.inr ⟨[3 / 10], rfl, by simp, by norm_num⟩

/-- **C38 (violated).** With `shapelet_lengths=[0.3]` on series of ten points, the first `fit` uses the
length 3 and a second `fit` of the same object on the same data uses the length 5. -/
theorem C38_fraction_example (g : G) (w : World Nat) (gs : Nat → G) :
    ∃ o1 w1 w2 c1 s1 o2 w2' c2 s2,
      exFrac.fit (exEnv g) gs List.range w (.array .float64 exArr10) [0, 1] = (o1, w1, .ok ()) ∧
      (exFrac.prepare (exEnv g) w (.array .float64 exArr10) [0, 1]).2 = (w2, .ok (c1, s1)) ∧
      c1.args.sizes = [3] ∧
      o1.prepare (exEnv g) w1 (.array .float64 exArr10) [0, 1] = (o2, w2', .ok (c2, s2)) ∧
      c2.args.sizes = [5] := by
  have hwf : (XIn.array .float64 exArr10).WF := by simp [XIn.WF, exArr10]
  have harr : toArr3 (.array .float64 exArr10) = .ok exArr10 :=
    toArr3_array (by simp [exArr10]) (by simp [exArr10]) (by simp [exArr10])
  have hfl : ⌊(exArr10.nt : ℝ) * (3 / 10)⌋ = 3 := by
    show ⌊((10 : Nat) : ℝ) * (3 / 10)⌋ = 3
    norm_num
  obtain ⟨o1, w1, S, hfit, -, -⟩ := C43_object_same_length (exEnv g) exFrac w .float64 exArr10 [0, 1]
    (Or.inl rfl) hwf (by simp [exArr10]) (by simp [exArr10]) (by simp [exArr10])
    (by simp [exArr10]) exFrac_good (by simp [exFrac, exObj]) gs range_schedule
  obtain ⟨⟨o', w', c, s, hp, hc⟩, h2⟩ := C38_fractions_change_on_refit (exEnv g) exFrac (Or.inl rfl) rfl
    (l := [3 / 10]) rfl harr (by
      intro x hx
      simp only [List.mem_singleton] at hx
      subst hx
      rw [hfl]
      simp [exArr10]) hfit
  -- the second preparation succeeds
  have hty1 : o1.transformType = .uni ∧ o1.nSamples = none ∧ o1.bounds = none ∧
      ∃ l, o1.lens = .floats l ∧ l = [3] := by
    obtain ⟨o1', r1, hp', S', rfl, -⟩ := fit_cases hfit
    rw [hp] at hp'
    simp only [Prod.mk.injEq] at hp'
    obtain ⟨rfl, rfl, rfl⟩ := hp'
    obtain ⟨t, ml, mc, ls, rs', rfl, -, e3, -, -, -, -, hcc⟩ := prepare_cases hp
    have ht : t = .uni := e3 (by simp [exFrac, exObj])
    refine ⟨ht, rfl, rfl, ?_⟩
    obtain ⟨-, -, A0, xLen, A, w0, y', m, hm, hload, -, -, hls, -⟩ := hcc c s rfl
    have : loadTrain { exFrac with transformType := t } (.array .float64 exArr10) =
        ({ exFrac with transformType := t, minLen := some exArr10.nt }, .ok (exArr10, [])) :=
      loadTrain_same (o := { exFrac with transformType := t }) (by simp [ht, TType.Var]) harr
    rw [this] at hload
    have hmm := congrArg (fun p => p.1.minLen) hload
    have hmm : some exArr10.nt = some m := hmm
    obtain rfl := Option.some.inj hmm
    refine ⟨_, hls.trans rfl, ?_⟩
    simp only [List.map_cons, List.map_nil, real_ofNat, real_floor, hfl, ofInt_real]
    norm_num
  obtain ⟨ht1, hns1, hb1, l1, hl1, rfl⟩ := hty1
  have hcp : checkParams (setLengths o1.lens o1.bounds o1.reduction exArr10.nt) exArr10.nt = .ok [5] := by
    rw [hl1, hb1, checkParams_eq]
    have h30 : ⌊(exArr10.nt : ℝ) * 3⌋ = 30 := by
      show ⌊((10 : Nat) : ℝ) * 3⌋ = 30
      norm_num
    have : intLengths (setLengths (LenArr.floats [(3 : ℝ)]) none o1.reduction exArr10.nt) = [30] := by
      simp only [setLengths, intLengths, List.map_cons, List.map_nil, real_ofNat, real_floor, h30,
        ofInt_real]
      norm_num
    rw [this]
    simp [exArr10]
  obtain ⟨o2, w2', c2, s2, hp2, -⟩ := prepare_forward (exEnv g) o1 w1
    (X := .array .float64 exArr10) [0, 1] (t := .uni) (Or.inl rfl)
    (by rw [C34_fixed_type o1 (Or.inl ht1), ← ht1])
    (by
      rw [show ({ o1 with transformType := .uni } : Rdst ℝ Nat) = o1 by rw [← ht1]]
      rw [loadTrain_same (o := o1) (by simp [ht1, TType.Var]) harr, ← ht1]) hns1 hcp
  refine ⟨o1, w1, w', c, s, o2, w2', c2, s2, hfit, by rw [hp], ?_, hp2, ?_⟩
  · rw [hc]
    simp [hfl]
  · rw [h2 hp2]
    simp [exArr10]

/-- A list of longer series: six and seven points. -/
noncomputable def exLong : List (Mat ℝ) :=
  [⟨[[0, 1, 2, 3, 4, 5]], 6⟩, ⟨[[7, 8, 9, 8, 7, 6, 5]], 7⟩]

/-- **C39 (violated).** A fresh object fitted on series of six and seven points uses `min_len` 6; the
same object fitted before on series of five and four points uses 4. -/
theorem C39_history_changes_fit (g : G) (w : World Nat) (gs : Nat → G) :
    (∃ o1 w1 c1 s1, (exObj .uniVar).prepare (exEnv g) w (.list exLong) [0, 1] = (o1, w1, .ok (c1, s1)) ∧
      c1.points = 6) ∧
    ∃ o1 w1, (exObj .uniVar).fit (exEnv g) gs List.range w (.list exList) [0, 1] = (o1, w1, .ok ()) ∧
      ∃ o2 w2 c2 s2, o1.prepare (exEnv g) w1 (.list exLong) [0, 1] = (o2, w2, .ok (c2, s2)) ∧
      c2.points = 4 := by
  have hlwf : ∀ x ∈ exLong, x.WF := by simp [exLong, Mat.WF]
  obtain ⟨A, hf, hAf, hAl, -, -, Y, hY⟩ := formatUneven_list (m := 6) hlwf (by simp [exLong]) (nf := 1)
    (by simp [exLong]) le_rfl (by omega) (by simp [exLong])
  have hlens : exLong.map Mat.len = [6, 7] := rfl
  rw [hlens] at hf
  have hcp : ∀ m, 4 ≤ m → checkParams (setLengths (exObj .uniVar).lens (exObj .uniVar).bounds
      (exObj .uniVar).reduction m) m = .ok [3] := by
    intro m hm
    rw [checkParams_eq]
    simp [exObj, setLengths, intLengths]
    omega
  constructor
  · obtain ⟨o1, w1, c1, s1, h1, -, -, -, -, -, -, k, -⟩ := prepare_forward (exEnv g) (exObj .uniVar) w
      [0, 1] (t := .uniVar) (m := 6) (Or.inr (Or.inr (Or.inl rfl)))
      (C34_fixed_type (exObj .uniVar) (Or.inr (Or.inr (Or.inl rfl))) (.list exLong))
      (loadTrain_var_none (o := exObj .uniVar) (Or.inr rfl) hf hY rfl rfl) rfl (hcp 6 (by omega))
    refine ⟨o1, w1, c1, s1, h1, ?_⟩
    rw [k rfl]; rfl
  · obtain ⟨o1, w1, S, hfit, -, -⟩ := C43_object_variable_length (exEnv g) (exObj .uniVar) w exList [0, 1]
      (Or.inl (Or.inr rfl)) exList_wf (by simp [exList]) 1 le_rfl (by simp [exList]) 4 le_rfl
      (by simp [exList]) (Or.inr ⟨rfl, by simp [exList]⟩)
      (by simp [exList]) (exObj_good _ _) (by simp [exObj]) gs range_schedule
    refine ⟨o1, w1, hfit, ?_⟩
    obtain ⟨o1', r1, hp', S', rfl, -, hok⟩ := fit_cases hfit
    obtain ⟨c, s, S2, rfl, -, -⟩ := hok rfl
    obtain ⟨t, ml, mc, ls, rs', rfl, -, e3, -, -, e6, e7, -⟩ := prepare_cases hp'
    have ht : t = .uniVar := e3 (by simp [exObj])
    subst ht
    have hf0 : formatUneven (.list exList) =
        .ok (⟨[[[0, 1, 2, 3, 4]], [[7, 8, 9, 8, 0]]], 1, 5⟩, [5, 4]) := by
      simp [formatUneven, exList, samples, Bind.bind, Except.bind, nmax, pure, Except.pure, padRow]
    have hml : ml = some 4 := by
      rw [e6 (Or.inr (Or.inr (Or.inl rfl)))]
      rcases C62_check_array_3D (Arr3.py (K := ℝ) ⟨[[[0, 1, 2, 3, 4]], [[7, 8, 9, 8, 0]]], 1, 5⟩) false 2
        with ⟨-, -, Y, hY, -⟩ | ⟨hn, -⟩
      · exact congrArg (fun p => p.1.minLen)
          (loadTrain_var_none (o := exObj .uniVar) (Or.inr rfl) hf0 hY rfl rfl)
      · exact absurd ⟨Or.inr rfl, 2, 1, 5, rfl, by omega, by omega, by omega, by omega, by simp⟩ hn
    have hls : ls = (exObj .uniVar).lens := by
      rcases e7 with e | ⟨m, e⟩
      · exact e
      · rw [e]; rfl
    subst hml hls
    obtain ⟨o2, w2, c2, s2, h2, -, -, -, -, -, -, k, -⟩ := prepare_forward (exEnv g)
      ({ exObj .uniVar with minLen := some 4, maxChannels := mc, rs := rs', shapelets := S' } :
        Rdst ℝ Nat) w1 [0, 1] (t := .uniVar) (m := 4) (Or.inr (Or.inr (Or.inl rfl)))
      (C34_fixed_type _ (Or.inr (Or.inr (Or.inl rfl))) (.list exLong))
      (loadTrain_var_some (Or.inr rfl) hf hY rfl) rfl (hcp 4 (by omega))
    refine ⟨o2, w2, c2, s2, h2, ?_⟩
    rw [k rfl]; rfl

/-- Constructor arguments with the given `n_jobs`. -/
noncomputable def exParams (nJobs : PyVal ℝ) : Params ℝ Nat where
  transformType := "auto"
  phase := false
  alpha := 1 / 2
  normalizeOutput := false
  nSamples := none
  nShp := 100
  lens := .ints [11]
  bounds := none
  reduction := 3 / 4
  prime := true
  pNorm := 4 / 5
  percentiles := [5, 10]
  rs := .own 7
  maxChannels := none
  minLen := none
  nJobs := nJobs

theorem exInit (g : G) (w : World Nat) {n : Int} (h1 : 1 ≤ n) (h4 : n ≤ 4) :
    ∃ o, Rdst.init (exEnv g) w (exParams (.int n)) = (⟨w.glob, n⟩, .ok o) ∧ o.nJobs = n := by
  have ht : validateTransformType "auto" = .ok .auto := by decide +kernel
  have hr : ¬ (Scalar.leb (1 : ℝ) (3 / 4)) = true := by rw [real_leb]; norm_num
  have hp : validatePercentiles [(5 : ℝ), 10] = .ok (5, 10) := by
    have : Scalar.leb (5 : ℝ) 10 = true := by rw [real_leb]; norm_num
    simp [validatePercentiles, this]
  have hn : checkNJobs (K := ℝ) 4 (.int n) = .ok n := by
    have : ¬ n < 0 := by omega
    simp [checkNJobs, this]
    omega
  unfold Rdst.init
  simp only [exParams, ht, LenArr.length, hr, hp, exEnv, hn, setNumThreads]
  simp [h1, h4]

/-- **C46 (witness).** Two objects with `n_jobs` 1 and 3: whichever is fitted, both run with 3 threads
if the second was constructed last. -/
example (g : G) (w : World Nat) (gs : Nat → G) (X : XIn ℝ) (y : List Nat) :
    ∃ o1 w1 o2 w2, Rdst.init (exEnv g) w (exParams (.int 1)) = (w1, .ok o1) ∧
      Rdst.init (exEnv g) w1 (exParams (.int 3)) = (w2, .ok o2) ∧ o1.nJobs = 1 ∧
      (runFits (exEnv g) w2 [(o1, ⟨X, y, gs, List.range⟩)]).numThreads = 3 := by
  obtain ⟨o1, h1, e1⟩ := exInit g w (n := 1) (by omega) (by omega)
  obtain ⟨o2, h2, e2⟩ := exInit g ⟨w.glob, 1⟩ (n := 3) (by omega) (by omega)
  exact ⟨o1, _, o2, _, h1, h2, e1, (C46_last_construction (exEnv g) _ _ (by simp [exParams]) h2 _).trans e2⟩

/-- **C44 (witness).** `n_jobs=0` and `n_jobs=-5` on four processors: the constructor raises. -/
example (g : G) (w : World Nat) :
    (∃ e, Rdst.init (exEnv g) w (exParams (.int 0)) = (w, .error e)) ∧
    ∃ e, Rdst.init (exEnv g) w (exParams (.int (-5))) = (w, .error e) :=
  ⟨C44_constructor_rejects _ w _ 0 0 rfl rfl (by omega),
    C44_constructor_rejects _ w _ (-5) 0 rfl rfl (by omega)⟩

end Convst.Props
