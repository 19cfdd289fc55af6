import Verif.Props.Ridge
import Verif.Props.FitCount
import Verif.Props.Histories

/-!
# `R_DST_Ridge`: histories of fits (C68, C69), separation of series (C70), and concrete fits
-/

set_option autoImplicit false
set_option linter.unusedSectionVars false

namespace Convst.Props

open Convst Spec

section
variable {G R L : Type} [Gen G ℝ] [LawfulGen G] [DecidableEq L]

/-! ## C70: series without common values are told apart -/

/-- Lists without a common value are at positive distance. -/
theorem l1_pos {w v : List ℝ} (hw : w ≠ []) (hv : v.length = w.length) (h : ∀ a ∈ w, a ∉ v) : 0 < l1 w v := by
  rw [l1_eq_sum]
  have hw0 : 0 < w.length := List.length_pos_of_ne_nil hw
  have key : ∀ j ∈ List.range w.length, 0 < |w.getD j 0 - v.getD j 0| := by
    intro j hj
    rw [List.mem_range] at hj
    rw [abs_pos, sub_ne_zero, getD_lt _ hj, getD_lt _ (by omega)]
    intro he
    exact h _ (List.getElem_mem hj) (he ▸ List.getElem_mem _)
  apply List.sum_pos
  · intro x hx
    obtain ⟨j, hj, rfl⟩ := List.mem_map.1 hx
    exact key j hj
  · simp only [ne_eq, List.map_eq_nil_iff, List.range_eq_nil]
    omega

/-- **C70.** With `proba_norm <= 0`, every returned shapelet is taken from a training series `s`, on which
its distance feature is 0, and its distance feature is positive on every series, seen or not, that has no
value in common with `s`. -/
theorem C70_separates {a : FitArgs ℝ L} (hv : ValidSL a) (hp : a.pNorm ≤ 0) {g0 : G} {gs : Nat → G}
    {order : Nat → List Nat} (ho : IsSchedule order) {S : UShp ℝ} (hS : uslGenerate a g0 gs order = .ok S) :
    ∀ k, k < S.lengths.length → ∃ s, s < a.X.length ∧
      (uRow a.phase S ((a.X.getD s []).getD 0 []))[3 * k]? = some 0 ∧
      ∀ x : List ℝ, HasWindow a.phase x.length (S.lengths.getD k 0) (S.dilations.getD k 0) →
        (∀ v ∈ x, v ∉ (a.X.getD s []).getD 0 []) →
        ∃ d, (uRow a.phase S x)[3 * k]? = some d ∧ 0 < d := by
  intro k hk
  obtain ⟨P, rec, out, kept, h⟩ := usl_fitted hv ho hS
  obtain ⟨hwf, -, hk3⟩ := uFitted_wf hv.bounds h
  obtain ⟨M, hM, hsrc⟩ := C23_sources_univariate_same_length hv ho hS
  obtain ⟨s, t, hs, ht, hval, row, hrow, hrow0⟩ := hsrc k hk
  rw [usl_transform hv hwf (fun k hk => (hk3 k hk).2.2.1), Except.ok.injEq] at hM
  rw [← hM, row_get _ [] hs] at hrow
  cases hrow
  have hnorm : S.normalize.getD k false = false := by
    have := (C31_proba_norm_univariate ho (Or.inl ⟨hv, hS⟩)).1 hp
    have hkn : k < S.normalize.length := by rw [hwf.normalize]; exact hk
    rw [getD_lt _ hkn]
    exact this _ (List.getElem_mem hkn)
  refine ⟨s, hs, hrow0, ?_⟩
  intro x hx hdis
  have hcell := row_cells (fun k => uFeatures a.phase S x k) S.lengths.length k 0 hk (by omega)
  refine ⟨_, hcell, ?_⟩
  show 0 < (uFeatures a.phase S x k).1
  have hlen := hwf.pos k hk
  have hwin : 0 < nWin a.phase x.length (S.lengths.getD k 0) (S.dilations.getD k 0) := by
    unfold HasWindow at hx
    unfold nWin
    split
    · rename_i hph; rw [if_pos hph] at hx; exact hx
    · rename_i hph; rw [if_neg hph] at hx; omega
  have hne : uDistances a.phase S x k ≠ [] := by
    unfold uDistances distances
    simp only [ne_eq, List.map_eq_nil_iff, List.range_eq_nil]
    omega
  have hmem := (features_isFeatures (thr := S.threshold.getD k 0) hne (distances_nonneg _ _ _ _ _ _)).1.1
  obtain ⟨i, hi, hie⟩ := List.mem_map.1 hmem
  rw [List.mem_range] at hi
  show 0 < (features (uDistances a.phase S x k) (S.threshold.getD k 0)).1
  rw [← hie, hval, hnorm]
  simp only [seen, Bool.false_eq_true, if_false]
  apply l1_pos
  · simp only [window, ne_eq, List.map_eq_nil_iff, List.range_eq_nil]
    omega
  · simp [window]
  · intro v hvw hvs
    refine hdis v (mem_window hi hvw) (mem_window ?_ hvs)
    have := trainSL_len hv hs
    have e : ((a.X.getD s []).getD 0 []).length = a.nt := this
    rw [e]
    exact ht

/-- Two constant series of five points. -/
noncomputable def exSep : FitArgs ℝ Nat :=
  { exA with X := [[[5, 5, 5, 5, 5]], [[7, 7, 7, 7, 7]]], y := [0, 1], pNorm := 0 }

theorem exSep_valid : ValidSL exSep where
  data := ⟨rfl, by simp [exSep, exA], by simp [exSep, exA]⟩
  nf := le_refl _
  perc := ⟨by norm_num [exSep, exA], by norm_num [exSep, exA], by norm_num [exSep, exA]⟩
  nShp := by norm_num [exSep, exA]
  sizes := by simp [exSep, exA]
  bounds := by simp [exSep, exA]

/-- The hypotheses of `C70_separates` are met: the two series get different rows. -/
theorem exSep_rows (g0 : G) (gs : Nat → G) {S : UShp ℝ} (hS : uslGenerate exSep g0 gs List.range = .ok S) :
    2 ≤ S.lengths.length ∧
    (uRow false S [5, 5, 5, 5, 5]).getD 0 0 ≠ (uRow false S [7, 7, 7, 7, 7]).getD 0 0 := by
  have ho : IsSchedule List.range := fun _ => List.Perm.refl _
  have hc := C32_count_univariate_same_length exSep_valid (by norm_num [exSep, exA]) (le_refl _)
    (by simp [exSep]) ho hS
  have hc2 : 2 ≤ S.lengths.length := hc
  refine ⟨hc2, ?_⟩
  obtain ⟨s, hs, h0, hx⟩ := C70_separates exSep_valid (le_refl _) ho hS 0 (by omega)
  have hwin : (S.lengths.getD 0 0 - 1) * S.dilations.getD 0 0 < 5 := by
    obtain ⟨S', h, -, -, hk⟩ := C19_fit_univariate_same_length exSep_valid g0 gs
    have := h _ ho
    rw [hS, Except.ok.injEq] at this
    subst this
    exact (hk 0 (by omega)).2.2
  have hw : ∀ x : List ℝ, x.length = 5 →
      HasWindow exSep.phase x.length (S.lengths.getD 0 0) (S.dilations.getD 0 0) := by
    intro x hx
    rw [hx]
    show (S.lengths.getD 0 0 - 1) * S.dilations.getD 0 0 < 5
    exact hwin
  have hs2 : s < 2 := hs
  have get : ∀ (l : List ℝ) v, l[3 * 0]? = some v → l.getD 0 0 = v := by
    intro l v h
    rw [List.getD_eq_getElem?_getD]
    rw [Nat.mul_zero] at h
    rw [h]; rfl
  match s, hs2 with
  | 0, _ =>
    obtain ⟨d, hd, hd0⟩ := hx [7, 7, 7, 7, 7] (hw _ rfl) (by simp [exSep])
    have e1 := get _ _ h0
    have e2 := get _ _ hd
    have e1' : (uRow false S [5, 5, 5, 5, 5]).getD 0 0 = 0 := e1
    have e2' : (uRow false S [7, 7, 7, 7, 7]).getD 0 0 = d := e2
    rw [e1', e2']
    exact hd0.ne
  | 1, _ =>
    obtain ⟨d, hd, hd0⟩ := hx [5, 5, 5, 5, 5] (hw _ rfl) (by simp [exSep])
    have e1 := get _ _ h0
    have e2 := get _ _ hd
    have e1' : (uRow false S [7, 7, 7, 7, 7]).getD 0 0 = 0 := e1
    have e2' : (uRow false S [5, 5, 5, 5, 5]).getD 0 0 = d := e2
    rw [e1', e2']
    exact hd0.ne'

example (g0 : G) (gs : Nat → G) : ∃ S, uslGenerate exSep g0 gs List.range = .ok S := by
  obtain ⟨S, h, -⟩ := C19_fit_univariate_same_length exSep_valid g0 gs
  exact ⟨S, h _ fun _ => List.Perm.refl _⟩

/-! ## A concrete classifier -/

/-- The two constant series as an array. -/
noncomputable def exSepArr : Arr3 ℝ := ⟨[[[5, 5, 5, 5, 5]], [[7, 7, 7, 7, 7]]], 1, 5⟩

/-- A learner that always returns the second class. -/
noncomputable def exRidgeLearner (F : List (List ℝ)) (_ : List Nat) : Res (Linear ℝ Nat) :=
  .ok ⟨[List.replicate (nCols F) 0], [1], [0, 1]⟩

theorem exRidgeLearner_law : RidgeLaw exRidgeLearner := by
  intro F y m h
  cases h
  exact ⟨by simp, rfl, by simp, by simp⟩

noncomputable def exClfEnv (g : G) : ClfEnv G ℝ Nat Nat where
  toEnv := exEnv g
  randomState s := s
  ridge := exRidgeLearner

/-- A classifier object before any `fit`, with `random_state=7`. -/
noncomputable def exRidge : RidgeClf ℝ Nat Nat where
  p := { exParams (.int 1) with transformType := "univariate", nShp := 4, lens := .ints [2, 3], pNorm := 0,
                                percentiles := [5, 50], reduction := 1 / 2 }
  rs := .seed 7
  nJobs := .int 1
  transformer := none
  classifier := none

noncomputable def exSepObj : Rdst ℝ Nat := { exObj .uni with lens := .ints [2, 3], pNorm := 0, nJobs := 0 }

theorem exRidge_init (g : G) (w : World Nat) :
    Rdst.init (exClfEnv g).toEnv w (exRidge.args (exClfEnv g)) = (w, .ok exSepObj) := by
  have ht : validateTransformType "univariate" = .ok .uni := by decide +kernel
  have hr : ¬ (Scalar.leb (1 : ℝ) (1 / 2)) = true := by rw [real_leb]; norm_num
  have hp : validatePercentiles [(5 : ℝ), 50] = .ok (5, 50) := by
    have : Scalar.leb (5 : ℝ) 50 = true := by rw [real_leb]; norm_num
    simp [validatePercentiles, this]
  unfold Rdst.init
  simp only [RidgeClf.args, exRidge, exParams, ht, LenArr.length, hr, hp]
  rfl

/-- The fit of the concrete classifier succeeds. -/
theorem exRidge_fit (g : G) (w : World Nat) (gs : Nat → G) :
    ∃ c' w', exRidge.fit (exClfEnv g) gs List.range w (.array .float64 exSepArr) [0, 1] = (c', w', .ok ()) := by
  have ho : IsSchedule List.range := fun _ => List.Perm.refl _
  have harr : toArr3 (.array .float64 exSepArr) = .ok exSepArr :=
    toArr3_array (by simp [exSepArr]) (by simp [exSepArr]) (by simp [exSepArr])
  have hcp : checkParams (setLengths exSepObj.lens exSepObj.bounds exSepObj.reduction exSepArr.nt)
      exSepArr.nt = .ok [2, 3] := by
    rw [checkParams_eq]; simp [exSepObj, exSepArr, exObj, setLengths, intLengths]
  obtain ⟨o1, w1, c, seed, hprep, e1, e2, -, ha, k1, -⟩ := prepare_forward (exEnv g) exSepObj w [0, 1]
    (t := .uni) (Or.inl rfl) (C34_fixed_type exSepObj (Or.inl rfl) (.array .float64 exSepArr))
    (loadTrain_same (o := exSepObj) (by simp [exSepObj, exObj, TType.Var]) harr) rfl hcp
  have hargs : c.args = exSep := by
    rw [ha]; rfl
  obtain ⟨S, h, hwf, -, hk⟩ := C19_fit_univariate_same_length exSep_valid g gs
  obtain ⟨hc2, hrows⟩ := exSep_rows g gs (h _ ho)
  have hfit : exSepObj.fit (exClfEnv g).toEnv gs List.range w (.array .float64 exSepArr) [0, 1] =
      ({ o1 with shapelets := some (.u S) }, w1, .ok ()) := by
    unfold Rdst.fit
    rw [show (exClfEnv g).toEnv = exEnv g from rfl, hprep]
    simp only
    rw [k1 rfl, hargs]
    have : (exEnv g).seedG seed = g := rfl
    simp [Call.run, this, h _ ho, Except.map]
  have htr : ({ o1 with shapelets := some (.u S) } : Rdst ℝ Nat).transform (.array .float64 exSepArr) =
      .ok [uRow false S [5, 5, 5, 5, 5], uRow false S [7, 7, 7, 7, 7]] := by
    unfold Rdst.transform
    simp only [e1, e2]
    rw [if_neg (by simp), harr, Res.bind_ok]
    exact usl_transform exSep_valid hwf (fun k hkl => (hk k hkl).2.2)
  obtain ⟨sm, hsm⟩ : ∃ sm, fitPipeline (exClfEnv g)
      [uRow false S [5, 5, 5, 5, 5], uRow false S [7, 7, 7, 7, 7]] [0, 1] = .ok sm := by
    have hlen : ∀ x, (uRow false S x).length = 3 * S.lengths.length := fun x =>
      objRow_length false (.u S) ⟨[x], 0⟩
    have hF : ∀ r ∈ [uRow false S [5, 5, 5, 5, 5], uRow false S [7, 7, 7, 7, 7]],
        r.length = 3 * S.lengths.length := by
      intro r hr
      simp only [List.mem_cons, List.not_mem_nil, or_false] at hr
      rcases hr with rfl | rfl <;> exact hlen _
    have hn : nCols [uRow false S [5, 5, 5, 5, 5], uRow false S [7, 7, 7, 7, 7]] = 3 * S.lengths.length :=
      hF _ (by simp)
    have hstd : std (colOf [uRow false S [5, 5, 5, 5, 5], uRow false S [7, 7, 7, 7, 7]] 0) ≠ 0 := by
      intro h0
      rw [std_eq_zero_iff] at h0
      exact hrows (h0 _ (by simp [colOf]) _ (by simp [colOf]))
    have hatts : (whereIdx (3 * S.lengths.length) fun j =>
        !(Scalar.eqb (std (colOf [uRow false S [5, 5, 5, 5, 5], uRow false S [7, 7, 7, 7, 7]] j)) 0)) ≠ [] := by
      apply List.ne_nil_of_mem (a := 0)
      rw [mem_whereIdx]
      refine ⟨by omega, ?_⟩
      rw [Bool.not_eq_true', ← Bool.not_eq_true, real_eqb]
      exact hstd
    unfold fitPipeline
    rw [hn, fitStandard_eq hF, if_neg (by simp [hatts]), Res.bind_ok]
    rw [transformStandard_ok (n := 3 * S.lengths.length)
      ⟨by simp, by simp, fun j hj => (mem_whereIdx.1 hj).1, whereIdx_nodup _ _⟩ hF, Res.bind_ok]
    exact ⟨_, rfl⟩
  unfold RidgeClf.fit
  simp only
  rw [exRidge_init]
  simp only
  rw [hfit]
  simp only
  rw [htr, Res.bind_ok, hsm]
  exact ⟨_, _, rfl⟩

/-- The hypotheses of the C53 theorems are met. -/
theorem exRidge_predict (g : G) (w : World Nat) (gs : Nat → G) :
    ∃ c' w' P, exRidge.fit (exClfEnv g) gs List.range w (.array .float64 exSepArr) [0, 1] =
        (c', w', .ok ()) ∧ c'.predict (.array .float64 exSepArr) = .ok P ∧ P.length = 2 ∧
      ∃ v, c'.score (.array .float64 exSepArr) [0, 1] = .ok v ∧ 0 ≤ v ∧ v ≤ 1 := by
  obtain ⟨c', w', h⟩ := exRidge_fit g w gs
  have hwf : (XIn.array .float64 exSepArr).WF := by simp [XIn.WF, exSepArr]
  obtain ⟨o, S, sc, m, hfd, hpred⟩ := C53_fit_predict_same_length (env := exClfEnv g) exRidgeLearner_law
    (fun _ => List.Perm.refl _) (by
      intro w1 o ho
      rw [exRidge_init] at ho
      simp only [Prod.mk.injEq, Except.ok.injEq] at ho
      obtain ⟨-, rfl⟩ := ho
      exact ⟨Or.inl rfl, by simp [exSepObj, exObj], by norm_num [exSepObj, exObj], rfl,
        by norm_num [exSepObj, exObj], fun _ => Or.inl ⟨[2, 3], rfl, by simp, by simp⟩⟩)
    hwf (by simp [exSepArr]) (by simp [exSepArr]) (by simp [exSepArr]) (by simp [exSepArr]) h
  obtain ⟨P, hP, hl, -⟩ := hpred .float64 exSepArr hwf (by simp [exSepArr]) rfl le_rfl
  refine ⟨c', w', P, h, hP, hl, ?_⟩
  obtain ⟨v, hv, -, h0, h1, -⟩ := (C53_score c' (.array .float64 exSepArr) [0, 1]).2.1 P hP hl.symm
  exact ⟨v, hv, h0, h1⟩

end

/-! ## C68, C69: histories -/

section
variable {G K R L : Type} [Scalar K] [Gen G K] [DecidableEq L]

/-- **C68 (violated: a failed refit does not leave the previous classifier usable).** After a `fit` that
raised, whatever the state of the object before, `predict` raises for every input. -/
theorem C68_failed_fit_unusable (env : ClfEnv G K R L) (gs : Nat → G) (order : Nat → List Nat)
    (c c' : RidgeClf K R L) (w w' : World R) (X : XIn K) (y : List L) {e : Err}
    (h : c.fit env gs order w X y = (c', w', .error e)) (Z : XIn K) :
    ∃ e', c'.predict Z = .error e' := by
  have hcl : c'.classifier = some none := by
    unfold RidgeClf.fit at h
    simp only at h
    split at h
    · cases h; rfl
    · split at h
      · cases h; rfl
      · split at h
        · cases h; rfl
        · simp at h
  unfold RidgeClf.predict
  rw [hcl]
  simp only
  split
  · exact ⟨_, rfl⟩
  · rename_i o _
    cases ht : o.transform Z with
    | error e => exact ⟨e, rfl⟩
    | ok F => exact ⟨_, rfl⟩

/-- A sequence of `fit` calls on a classifier, whatever their outcome. -/
def ridgeAfter (env : ClfEnv G K R L) (c : RidgeClf K R L) (w : World R) :
    List (FitCall G K L) → RidgeClf K R L × World R
  | [] => (c, w)
  | f :: fs => ridgeAfter env (c.fit env f.gs f.order w f.X f.y).1 (c.fit env f.gs f.order w f.X f.y).2.1 fs

theorem ridge_fit_keeps (env : ClfEnv G K R L) (gs : Nat → G) (order : Nat → List Nat)
    (c : RidgeClf K R L) {s : Nat} (hs : c.rs = .seed s) (w : World R) (X : XIn K) (y : List L) :
    (c.fit env gs order w X y).1.p = c.p ∧ (c.fit env gs order w X y).1.rs = .seed s := by
  unfold RidgeClf.fit
  simp only
  have hafter : ∀ o : Rdst K R, c.rs.after o = .seed s := by
    intro o
    rw [hs]
    unfold RSrc.after
    split
    · rename_i h1 h2; cases h1
    · rfl
  split
  · exact ⟨rfl, hs⟩
  · split
    · exact ⟨rfl, hafter _⟩
    · split
      · exact ⟨rfl, hafter _⟩
      · exact ⟨rfl, hafter _⟩

theorem init_world (env : Env G R L) {p : Params K R} {b : Bool} (hb : p.nJobs = .bool b) :
    ∃ r, ∀ w : World R, Rdst.init env w p = (w, r) := by
  unfold Rdst.init
  rw [hb]
  cases h1 : validateTransformType p.transformType with
  | error e => exact ⟨_, fun w => rfl⟩
  | ok tt =>
    simp only
    split
    · exact ⟨_, fun w => rfl⟩
    · split
      · exact ⟨_, fun w => rfl⟩
      · split
        · exact ⟨_, fun w => rfl⟩
        · split
          · exact ⟨_, fun w => rfl⟩
          · exact ⟨_, fun w => rfl⟩

theorem init_keeps (env : Env G R L) {p : Params K R} {w w' : World R} {o : Rdst K R}
    (h : Rdst.init env w p = (w', .ok o)) : o.rs = p.rs ∧ o.nSamples = p.nSamples ∧ o.pNorm = p.pNorm ∧
      o.maxChannels = p.maxChannels ∧ o.minLen = p.minLen ∧ o.shapelets = none := by
  unfold Rdst.init at h
  repeat' split at h
  all_goals (try (simp at h; done))
  all_goals (
    simp only [Prod.mk.injEq, Except.ok.injEq] at h
    obtain ⟨-, rfl⟩ := h
    exact ⟨rfl, rfl, rfl, rfl, rfl, rfl⟩)

/-- **C69.** A classifier constructed with an integer `random_state` and `n_samples=None` is refitted
from scratch: after any sequence of earlier `fit` calls, successful or not, on any data, and whatever the
state of the process, `fit(X, y)` has the same outcome and gives the same transformer and the same linear
classifier. -/
theorem C69_refit_from_scratch (env : ClfEnv G K R L) (gs : Nat → G) (order : Nat → List Nat)
    (c : RidgeClf K R L) {s : Nat} (hs : c.rs = .seed s) (hns : c.p.nSamples = none) (X : XIn K) (y : List L) :
    ∃ res clf tr, ∀ (w0 w : World R) (hist : List (FitCall G K L)),
      ∃ c' w', (ridgeAfter env c w0 hist).1.fit env gs order w X y = (c', w', res) ∧
        c'.classifier = clf ∧ (res = .ok () → c'.transformer = tr) := by
  have hkeep : ∀ (hist : List (FitCall G K L)) (c1 : RidgeClf K R L) (w0 : World R), c1.p = c.p → c1.rs = .seed s →
      (ridgeAfter env c1 w0 hist).1.p = c.p ∧ (ridgeAfter env c1 w0 hist).1.rs = .seed s := by
    intro hist
    induction hist with
    | nil => intro c1 w0 h1 h2; exact ⟨h1, h2⟩
    | cons f fs ih =>
      intro c1 w0 h1 h2
      obtain ⟨k1, k2⟩ := ridge_fit_keeps env f.gs f.order c1 h2 w0 f.X f.y
      exact ih _ _ (k1.trans h1) k2
  obtain ⟨ri, hinit⟩ := init_world (L := L) (p := c.args env) env.toEnv (b := false) rfl
  have hargs : ∀ c1 : RidgeClf K R L, c1.p = c.p → c1.rs = .seed s → c1.args env = c.args env := by
    intro c1 h1 h2
    unfold RidgeClf.args
    rw [h1, h2, hs]
  cases ri with
  | error e =>
    refine ⟨.error e, some none, none, fun w0 w hist => ?_⟩
    obtain ⟨h1, h2⟩ := hkeep hist c w0 rfl hs
    refine ⟨_, _, by unfold RidgeClf.fit; simp only; rw [hargs _ h1 h2, hinit], rfl, fun h => by cases h⟩
  | ok o =>
    have hi := init_keeps env.toEnv (hinit ⟨(env.nextSeed (env.randomState s)).2, 0⟩)
    obtain ⟨o', res, hfit⟩ := C42_random_state_determines_fit env.toEnv o (r := env.randomState s)
      (by rw [hi.1]; simp only [RidgeClf.args, hs]; rfl) (by rw [hi.2.1]; exact hns) gs order X y
    cases res with
    | error e =>
      refine ⟨.error e, some none, none, fun w0 w hist => ?_⟩
      obtain ⟨h1, h2⟩ := hkeep hist c w0 rfl hs
      refine ⟨_, _, by
        unfold RidgeClf.fit; simp only; rw [hargs _ h1 h2, hinit]; simp only; rw [hfit], rfl,
        fun h => by cases h⟩
    | ok u =>
      cases hpipe : (do let F ← o'.transform X; fitPipeline env F y : Res (Scaler K × Linear K L)) with
      | error e =>
        refine ⟨.error e, some none, none, fun w0 w hist => ?_⟩
        obtain ⟨h1, h2⟩ := hkeep hist c w0 rfl hs
        refine ⟨_, _, by
          unfold RidgeClf.fit; simp only; rw [hargs _ h1 h2, hinit]; simp only; rw [hfit]; simp only
          rw [hpipe], rfl, fun h => by cases h⟩
      | ok sm =>
        refine ⟨.ok (), some (some sm), some o', fun w0 w hist => ?_⟩
        obtain ⟨h1, h2⟩ := hkeep hist c w0 rfl hs
        refine ⟨_, _, by
          unfold RidgeClf.fit; simp only; rw [hargs _ h1 h2, hinit]; simp only; rw [hfit]; simp only
          rw [hpipe], rfl, fun _ => rfl⟩

end

section
variable {G : Type} [Gen G ℝ] [LawfulGen G]

/-- Witness for C68: the concrete classifier is fitted, predicts, and then a `fit` on an empty list raises;
from then on `predict` raises on the very series it could predict before. -/
theorem C68_witness (g : G) (w : World Nat) (gs : Nat → G) :
    ∃ c1 w1 P c2 w2 e e', exRidge.fit (exClfEnv g) gs List.range w (.array .float64 exSepArr) [0, 1] =
        (c1, w1, .ok ()) ∧
      c1.predict (.array .float64 exSepArr) = .ok P ∧
      c1.fit (exClfEnv g) gs List.range w1 (.list []) [] = (c2, w2, .error e) ∧
      c2.predict (.array .float64 exSepArr) = .error e' := by
  obtain ⟨c', w', h⟩ := exRidge_fit g w gs
  have hwf : (XIn.array .float64 exSepArr).WF := by simp [XIn.WF, exSepArr]
  obtain ⟨o, S, sc, m, hfd, hpred⟩ := C53_fit_predict_same_length (env := exClfEnv g) exRidgeLearner_law
    (fun _ => List.Perm.refl _) (by
      intro w1 o ho
      rw [exRidge_init] at ho
      simp only [Prod.mk.injEq, Except.ok.injEq] at ho
      obtain ⟨-, rfl⟩ := ho
      exact ⟨Or.inl rfl, by simp [exSepObj, exObj], by norm_num [exSepObj, exObj], rfl,
        by norm_num [exSepObj, exObj], fun _ => Or.inl ⟨[2, 3], rfl, by simp, by simp⟩⟩)
    hwf (by simp [exSepArr]) (by simp [exSepArr]) (by simp [exSepArr]) (by simp [exSepArr]) h
  obtain ⟨P, hP, hl, -⟩ := hpred .float64 exSepArr hwf (by simp [exSepArr]) rfl le_rfl
  have hk := ridge_fit_keeps (exClfEnv g) gs List.range exRidge (s := 7) rfl w (.array .float64 exSepArr) [0, 1]
  rw [h] at hk
  have hargs : c'.args (exClfEnv g) = exRidge.args (exClfEnv g) := by
    unfold RidgeClf.args
    rw [hk.1, hk.2]
    rfl
  have hbad : toArr3 (.list [] : XIn ℝ) = .error .valueError := by
    unfold toArr3
    rcases C62_check_array_3D (asArray (.list [] : XIn ℝ)) false 2 with ⟨-, hg, -⟩ | ⟨-, he⟩
    · obtain ⟨n, f, t, hsh, -⟩ := hg
      simp [asArray] at hsh
    · rw [he]; rfl
  have hprep : exSepObj.prepare (exEnv g) w' (.list []) [] = (exSepObj, w', .error .valueError) := by
    unfold Rdst.prepare
    rw [C34_fixed_type exSepObj (Or.inl rfl) (.list [])]
    simp only
    have : loadTrain exSepObj (.list [] : XIn ℝ) = (exSepObj, .error .valueError) := by
      unfold loadTrain
      rw [if_neg (by simp [exSepObj, exObj])]
      rw [hbad]
    rw [this]
  have hfail : ∃ c2 w2 e, c'.fit (exClfEnv g) gs List.range w' (.list []) [] = (c2, w2, .error e) := by
    have hf : exSepObj.fit (exClfEnv g).toEnv gs List.range w' (.list []) [] =
        (exSepObj, w', .error .valueError) := by
      unfold Rdst.fit
      rw [show (exClfEnv g).toEnv = exEnv g from rfl, hprep]
    refine ⟨_, _, _, by unfold RidgeClf.fit; simp only; rw [hargs, exRidge_init]; simp only; rw [hf]⟩
  obtain ⟨c2, w2, e, h2⟩ := hfail
  obtain ⟨e', he'⟩ := C68_failed_fit_unusable (exClfEnv g) gs List.range c' c2 w' w2 (.list []) [] h2
    (.array .float64 exSepArr)
  exact ⟨c', w', P, c2, w2, e, e', h, hP, h2, he'⟩

/-- The hypotheses of `C69_refit_from_scratch` are met. -/
example (g : G) (gs : Nat → G) : ∃ res clf tr, ∀ (w0 w : World Nat) (hist : List (FitCall G ℝ Nat)),
    ∃ c' w', (ridgeAfter (exClfEnv g) exRidge w0 hist).1.fit (exClfEnv g) gs List.range w
        (.array .float64 exSepArr) [0, 1] = (c', w', res) ∧
      c'.classifier = clf ∧ (res = .ok () → c'.transformer = tr) :=
  C69_refit_from_scratch (exClfEnv g) gs List.range exRidge (s := 7) rfl rfl _ _

end
end Convst.Props
