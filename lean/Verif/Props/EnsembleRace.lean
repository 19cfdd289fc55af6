import Verif.Props.EnsembleDraws
import Verif.Props.Histories

/-!
# `R_DST_Ensemble`: the order of the draws changes the members (C52), and concrete ensembles
-/

set_option autoImplicit false
set_option linter.unusedSectionVars false

namespace Convst.Props
open Convst Spec

theorem mem_of_compress {α : Type} {mask : List Bool} {a : List α} {v : α} (h : v ∈ compress mask a) : v ∈ a := by
  obtain ⟨p, hp, rfl⟩ := List.mem_map.1 h
  obtain ⟨p1, p2⟩ := p
  exact (List.of_mem_zip (List.mem_filter.1 hp).1).1

section
variable {G K L : Type} [Scalar K] [Gen G K] [DecidableEq L]

/-- The lengths of the fitted shapelets are among the first numbers drawn. -/
theorem mslGenerate_lengths {a : FitArgs K L} {mc : Nat} {g0 : G} {gs : Nat → G} {order : Nat → List Nat}
    {S : MShp K} (h : mslGenerate a mc g0 gs order = .ok S) :
    ∃ ls g', choiceN a.sizes a.nShp g0 = .ok (ls, g') ∧ ∀ l ∈ S.lengths, l ∈ ls := by
  unfold mslGenerate at h
  rw [Res.bind_eq_ok] at h
  obtain ⟨⟨P, g1⟩, hP, h⟩ := h
  simp only at h
  rw [Res.bind_eq_ok] at h
  obtain ⟨r, -, h⟩ := h
  have hS : S.lengths = compress r.2.maskReturn P.lengths := by
    unfold mFinish at h
    simp only at h
    rw [Res.bind_eq_ok] at h
    obtain ⟨q, -, h⟩ := h
    rw [Res.pure_eq, Except.ok.injEq] at h
    rw [← h]
  unfold mInit at hP
  rw [RM.bind_apply, Res.bind_eq_ok] at hP
  obtain ⟨⟨ls, g2⟩, h1, hP⟩ := hP
  refine ⟨ls, g2, h1, ?_⟩
  have hl : P.lengths = ls := by
    simp only [RM.bind_apply] at hP
    repeat
      rw [Res.bind_eq_ok] at hP
      obtain ⟨⟨_, _⟩, -, hP⟩ := hP
    have hP : (⟨_, ls, _, _, _, _, _⟩, _) = (P, g1) := Except.ok.inj hP
    rw [Prod.mk.injEq] at hP
    rw [← hP.1]
  rw [hS, hl]
  exact fun l hl => mem_of_compress hl

end

/-- A generator whose integer draws all come from `j`. -/
noncomputable def constScript (j : Nat) : Script := ⟨fun _ => j, fun _ => 0⟩

theorem choiceN_const {α : Type} {a : List α} (j n : Nat) (ha : a ≠ []) :
    ∃ ls, choiceN a n (constScript j) = .ok (ls, constScript j) ∧ ∀ v ∈ ls, a[j % a.length]? = some v := by
  have hlt : j % a.length < a.length := Nat.mod_lt _ (List.length_pos_of_ne_nil ha)
  have h1 : choice1 a (constScript j) = .ok (a[j % a.length], constScript j) := by
    unfold choice1 draw
    rw [RM.bind_apply, if_pos (List.length_pos_of_ne_nil ha), Res.bind_ok]
    show ofRes (aget a (0 + j % (a.length - 0))) (constScript j) = _
    rw [Nat.zero_add, Nat.sub_zero, aget_ok hlt]
    rfl
  have key : ∀ l : List Nat, ∃ ls, l.mapM (fun _ => choice1 a) (constScript j) = .ok (ls, constScript j) ∧
      ∀ v ∈ ls, a[j % a.length]? = some v := by
    intro l
    induction l with
    | nil => exact ⟨[], rfl, by simp⟩
    | cons x l ih =>
      obtain ⟨ls, e1, e2⟩ := ih
      refine ⟨a[j % a.length] :: ls, ?_, ?_⟩
      · rw [List.mapM_cons, RM.bind_apply, h1, Res.bind_ok, RM.bind_apply, e1, Res.bind_ok]
        rfl
      · intro v hv
        rcases List.mem_cons.1 hv with rfl | hv
        · exact List.getElem?_eq_getElem hlt
        · exact e2 v hv
  exact key (List.range n)

/-! ## A concrete ensemble -/

section
variable {G : Type} [Gen G ℝ] [LawfulGen G]

/-- Seeds `0, 1, 2, …`; a learner with the classes 0 and 1 that puts all coefficients at 1 and whose
leave-one-out predictions are the labels. -/
noncomputable def exEnsEnv (seed : Nat → G) : EnsEnv G ℝ Nat where
  seedG := seed
  nextSeed r := (r, r + 1)
  resample r n _ k _ := .ok ((List.range k.toNat).map fun i => (i + r) % n, r + 1)
  cpu := 4
  maxThreads := 4
  ridgeCV F y := .ok (⟨[List.replicate (nCols F) 1], [0], [0, 1]⟩, y.map fun l => [(l : ℝ)])

/-- Two members, `Raw` and `Derivate(order=1)`, with one shapelet each of length 2 or 3. -/
noncomputable def exEns : Ensemble ℝ Nat where
  p := { exParams (.int 1) with transformType := "multivariate", nShp := 1, lens := .ints [2, 3] }
  reps := [fun X => .ok X, derivate 1]
  pNorms := [1 / 2, 1 / 2]
  rs := .own 0
  aW := 4
  nJobs := .int 2
  nJobsRdst := none
  models := []
  weights := none

theorem exEns_cv (seed : Nat → G) : CVLaw (exEnsEnv seed).ridgeCV := by
  intro F y m cv h
  simp only [exEnsEnv, Except.ok.injEq, Prod.mk.injEq] at h
  obtain ⟨rfl, rfl⟩ := h
  exact ⟨⟨by simp, by simp, by simp, by simp⟩, by simp, by simp⟩

theorem exEns_learns (seed : Nat → G) (y : List Int) : Learns (exEnsEnv seed).ridgeCV y :=
  fun _ _ _ _ _ _ => ⟨_, rfl⟩

theorem exEns_args (seed : Nat → G) {i : Nat} (rs : RState Nat) (w : World Nat) :
    ∃ o, Rdst.init (exEnsEnv seed).toEnv w (exEns.args i rs) = (w, .ok o) ∧
      o.transformType = .multi ∧ o.alpha = 1 / 2 ∧ o.nShp = 1 ∧ o.lens = .ints [2, 3] ∧ o.bounds = none ∧
      o.maxChannels = none ∧ o.pMin = 5 ∧ o.pMax = 10 ∧ o.nSamples = none ∧ o.reduction = 3 / 4 ∧ o.rs = rs := by
  have ht : validateTransformType "multivariate" = .ok .multi := by decide +kernel
  have hr : ¬ (Scalar.leb (1 : ℝ) (3 / 4)) = true := by rw [real_leb]; norm_num
  have hp : validatePercentiles [(5 : ℝ), 10] = .ok (5, 10) := by
    have : Scalar.leb (5 : ℝ) 10 = true := by rw [real_leb]; norm_num
    simp [validatePercentiles, this]
  unfold Rdst.init
  simp only [Ensemble.args, exEns, exParams, ht, LenArr.length, hp, List.length_cons]
  rw [if_neg (by simp), if_neg hr]
  exact ⟨_, rfl, rfl, rfl, rfl, rfl, rfl, rfl, rfl, rfl, rfl, rfl, rfl⟩

/-- The transformation of member `i`. -/
noncomputable def exF (i : Nat) : List ℝ → List ℝ := if i = 0 then id else derivateRow 1

/-- Its effect on the lengths. -/
def exG (i : Nat) : Nat → Nat := if i = 0 then id else (· - 1)

theorem exEns_rep (i : Nat) (rep) (h : exEns.reps[i]? = some rep) : ArrRep rep (exF i) (exG i) := by
  match i, h with
  | 0, h =>
    simp only [exEns, List.getElem?_cons_zero, Option.some.injEq] at h
    subst h
    exact arrRep_raw
  | 1, h =>
    simp only [exEns, List.getElem?_cons_succ, List.getElem?_cons_zero, Option.some.injEq] at h
    subst h
    exact arrRep_derivate 1
  | n + 2, h => simp [exEns] at h

theorem exEns_usable (seed : Nat → G) : EnsUsable (exEnsEnv seed) exEns 1 5 exG := by
  intro i _ rs w
  obtain ⟨o, h1, h2, h3, h4, h5, h6, h7, h8, h9, h10, h11, -⟩ := exEns_args seed (i := i) rs w
  refine ⟨o, h1, h2, by rw [h3]; norm_num, ⟨by omega, ?_, h10, ?_, ?_⟩, by simp [h7]⟩
  · rw [h8, h9]; norm_num
  · rw [h11]; norm_num
  · intro _; exact Or.inl ⟨_, h5, by simp, by simp⟩

theorem exArr_wf : (XIn.array .float64 exArr).WF := by simp [XIn.WF, exArr]

theorem exEns_nt : ∀ i < exEns.reps.length, 4 ≤ exG i exArr.nt := by
  intro i hi
  unfold exG
  split <;> simp [exArr]

/-- The example ensemble can be fitted on two series, in either order of its members. -/
theorem exEns_fit (seed : Nat → G) (gs : Nat → Nat → G) {order : List Nat} (hord : order.Perm [0, 1]) (w : World Nat)
    (y : List Int) (hy : y.length = 2) :
    ∃ e' w', exEns.fit (exEnsEnv seed) gs (fun _ => List.range) order w (.array .float64 exArr) y = (e', w', .ok ()) :=
  C50_fit_succeeds (exEns_cv seed) gs (fun _ => range_schedule) (order := order) (e := exEns) hord
    (by simp [exEns]) w exEns_rep (exEns_usable seed) (exEns_learns seed y) exArr_wf (by simp [exArr])
    (by simp [exArr]) exEns_nt (by simp [hy, exArr]) (t := 2) (by simp [checkNJobs, exEns, exEnsEnv])
    (by norm_num) (by simp [exEnsEnv])

/-- **C50, C51, C67.** The hypotheses of the theorems on fitted ensembles are met: the example is fitted,
its weights are `1` for the labels 0 and 1 and `0` for the labels 5 and 6, and it predicts. -/
example (seed : Nat → G) (gs : Nat → Nat → G) (w : World Nat) :
    (∃ e' w', exEns.fit (exEnsEnv seed) gs (fun _ => List.range) [0, 1] w (.array .float64 exArr) [0, 1] =
        (e', w', .ok ()) ∧ e'.weights = some [1, 1] ∧ ∃ P, e'.predict (.array .float64 exArr) = .ok P ∧ P.length = 2) ∧
    (∃ e' w', exEns.fit (exEnsEnv seed) gs (fun _ => List.range) [0, 1] w (.array .float64 exArr) [5, 6] =
        (e', w', .ok ()) ∧ e'.weights = some [0, 0] ∧ e'.predict (.array .float64 exArr) = .ok [0, 0]) := by
  have hord : ([0, 1] : List Nat).Perm (List.range exEns.reps.length) := List.Perm.refl _
  have hcls : ∀ F y m cv, (exEnsEnv seed).ridgeCV F y = .ok (m, cv) → m.classes.length = (fun _ : List Int => 2) y := by
    intro F y m cv h
    simp only [exEnsEnv, Except.ok.injEq, Prod.mk.injEq] at h
    obtain ⟨rfl, -⟩ := h
    rfl
  have hcv : ∀ {y : List Int} {e' w'}, exEns.fit (exEnsEnv seed) gs (fun _ => List.range) [0, 1] w
      (.array .float64 exArr) y = (e', w', .ok ()) → ∀ m ∈ e'.models, m.cv = y.map (fun l => [(l : ℝ)]) ∧
        m.lin.classes.length = 2 := by
    intro y e' w' h m hm
    obtain ⟨_, st, _, -, -, -, hml, hmem, -, -⟩ := ens_fit_ok hord h
    obtain ⟨i, hi, rfl⟩ := List.getElem_of_mem hm
    have : i ∈ [0, 1] := hord.mem_iff.2 (by simp; omega)
    obtain ⟨k, hk, rfl⟩ := List.getElem_of_mem this
    obtain ⟨m', h1, h2⟩ := hmem k hk
    rw [List.getElem?_eq_getElem hi, Option.some.injEq] at h1
    rw [h1]
    obtain ⟨_, _, _, _, _, _, -, -, -, -, -, -, -, -, -, h10⟩ := fitMember_ok h2
    refine ⟨?_, hcls _ _ _ _ h10⟩
    simp only [exEnsEnv, Except.ok.injEq, Prod.mk.injEq] at h10
    exact h10.2.symm
  constructor
  · obtain ⟨e', w', h⟩ := exEns_fit seed gs (order := [0, 1]) (List.Perm.refl _) w [0, 1] rfl
    refine ⟨e', w', h, ?_, ?_⟩
    · obtain ⟨ws, h1, h2, h3, h4, -⟩ := C51_weights (exEns_cv seed) hord h
      have hl2 : e'.models.length = 2 := h3
      have hval : ∀ i, i < 2 → ws[i]? = some 1 := by
        intro i hi
        obtain ⟨ks, k1, k2⟩ := h4 i e'.models[i] (List.getElem?_eq_getElem (by omega))
        rw [(hcv h _ (List.getElem_mem _)).1] at k1
        match ks, k1 with
        | [a, b], .cons ha (.cons hb .nil) =>
          rw [show a = 0 by simpa [Chosen] using ha, show b = 1 by simpa [Chosen] using hb] at k2
          rw [k2]
          norm_num [agree, exEns]
      rw [h1]
      have hw2 : ws.length = 2 := h2
      match ws, hw2, hval with
      | [a, b], _, hval =>
        have := hval 0 (by norm_num)
        have := hval 1 (by norm_num)
        simp_all
    · obtain ⟨ws, Ss, -, -, -, hp⟩ := C50_fit_predict_same_length (exEns_cv seed) (ncls := fun _ => 2) hcls
        (fun _ => range_schedule) (e := exEns) hord (by simp [exEns]) exEns_rep ((exEns_usable seed).good _) exArr_wf
        (by simp [exArr]) (by simp [exArr]) exEns_nt (by simp [exArr]) h
      obtain ⟨P, h1, h2⟩ := hp .float64 exArr exArr_wf (by simp [exArr]) rfl le_rfl
      exact ⟨P, h1, by rw [← h2.length_eq]; rfl⟩
  · obtain ⟨e', w', h⟩ := exEns_fit seed gs (order := [0, 1]) (List.Perm.refl _) w [5, 6] rfl
    obtain ⟨ws, h1, h2, h3⟩ := C67_all_weights_zero (exEns_cv seed) hord h (by norm_num [exEns]) (by
      intro m hm l hl
      rw [(hcv h m hm).2]
      right
      simp at hl
      rcases hl with rfl | rfl <;> norm_num)
    have hws : ws = [0, 0] := by
      have hw2 : ws.length = 2 := h2
      match ws, hw2, h3 with
      | [a, b], _, h3 => rw [h3 a (by simp), h3 b (by simp)]
    refine ⟨e', w', h, by rw [h1, hws], ?_⟩
    obtain ⟨ws', Ss, h4, -, h5, hp⟩ := C50_fit_predict_same_length (exEns_cv seed) (ncls := fun _ => 2) hcls
      (fun _ => range_schedule) (e := exEns) hord (by simp [exEns]) exEns_rep ((exEns_usable seed).good _) exArr_wf
      (by simp [exArr]) (by simp [exArr]) exEns_nt (by simp [exArr]) h
    obtain ⟨P, h6, h7⟩ := hp .float64 exArr exArr_wf (by simp [exArr]) rfl le_rfl
    rw [h6]
    have hreps : ∀ i m, e'.models[i]? = some m → RepOn m.rep (.array .float64 exArr) (arrSeries exArr)
        (repSeries (exF i) (exG i)) 1 := by
      intro i m hm
      obtain ⟨_, st, _, -, -, -, hml, hmem, -, -⟩ := ens_fit_ok hord h
      obtain ⟨hi, -⟩ := List.getElem?_eq_some_iff.1 hm
      have : i ∈ [0, 1] := hord.mem_iff.2 (by simp; omega)
      obtain ⟨k, hk, rfl⟩ := List.getElem_of_mem this
      obtain ⟨m', h1, h2⟩ := hmem k hk
      rw [hm, Option.some.injEq] at h1
      subst h1
      obtain ⟨rep, _, _, _, _, _, hrep, -, -, -, -, hr, -, -, -, -⟩ := fitMember_ok h2
      rw [hr]
      exact arrRep_on (exEns_rep _ _ hrep) exArr_wf (by simp [exArr]) (by simp [exArr])
    rw [C67_predict_constant h1 (by rw [hws]; simp) h3 h5 hreps h6]
    simp [arrSeries, exArr]

end

/-- **C45.** Instance: two members and `n_jobs=7` on a machine with eight cores: two members in parallel with
three threads each; at the next `fit`, two members with one thread each. -/
example : ∃ e1 e2, ({ exEns with nJobs := .int 7 } : Ensemble ℝ Nat).manageNJobs 8 = (e1, .ok ()) ∧
    e1.nJobs = .int 2 ∧ e1.nJobsRdst = some 3 ∧ e1.manageNJobs 8 = (e2, .ok ()) ∧
    e2.nJobs = .int 2 ∧ e2.nJobsRdst = some 1 := by
  have ht : checkNJobs 8 ({ exEns with nJobs := .int 7 } : Ensemble ℝ Nat).nJobs = .ok 7 := by simp [checkNJobs]
  obtain ⟨o, i, h1, h2, h3, h4, h5, h6, h7⟩ := C45_split 8 ({ exEns with nJobs := .int 7 } : Ensemble ℝ Nat) ht
    (by norm_num) (by simp [exEns])
  have hl : (exEns.reps.length : Int) = 2 := rfl
  simp only [hl] at h5 h7
  have ho : o = 2 := by omega
  subst ho
  have hi : i = 3 := by omega
  subst hi
  exact ⟨_, _, h1, rfl, rfl, rfl, rfl, rfl⟩

/-! ## C52: the members depend on the order -/

theorem exEns_after (k : Nat) : seedsDrawn (exEnsEnv constScript).toEnv 0 k = k := by
  induction k with
  | zero => rfl
  | succ k ih =>
    show ((exEnsEnv constScript).nextSeed (seedsDrawn (exEnsEnv constScript).toEnv 0 k)).2 = k + 1
    rw [ih]
    rfl

/-- The shapelet of member `i` of the example has the length its seed selects. -/
theorem exEns_length {gs : Nat → Nat → Script} {order : List Nat} (hord : order.Perm [0, 1])
    {w w' : World Nat} {e' : Ensemble ℝ Nat}
    (h : exEns.fit (exEnsEnv constScript) gs (fun _ => List.range) order w (.array .float64 exArr) [0, 1] = (e', w', .ok ()))
    (k : Nat) (hk : k < order.length) : ∃ m S, e'.models[order[k]]? = some m ∧ m.rdst.shapelets = some (.m S) ∧
      S.lengths ≠ [] ∧ ∀ l ∈ S.lengths, [2, 3][k % 2]? = some l := by
  have hord' : order.Perm (List.range exEns.reps.length) := hord
  obtain ⟨-, hm⟩ := C52_kth_draw hord' rfl (r := 0) rfl h
  obtain ⟨m, h1, h2⟩ := hm k hk
  rw [exEns_after] at h2
  have h2 := h2 w
  set i := order[k] with hidef
  have hi : i < 2 := by
    have := hord.mem_iff.1 (List.getElem_mem hk)
    simp at this
    omega
  have hfm : ∃ rs' w2, fitMember (exEnsEnv constScript) exEns (gs i) List.range (.array .float64 exArr) [0, 1] i (.own k) w =
      (rs', w2, .ok m) := ⟨_, _, by rw [← h2]⟩
  obtain ⟨rs', w2, hfm⟩ := hfm
  obtain ⟨rep, Xi, w1, o0, F, Fs, e1, e2, e3, e4, -, -, -, -, -, -⟩ := fitMember_ok hfm
  obtain ⟨o, a1, a2, a3, a4, a5, a6, a7, a8, a9, a10, a11, a12⟩ := exEns_args constScript (i := i) (.own k) w
  rw [a1, Prod.mk.injEq, Except.ok.injEq] at e3
  obtain ⟨rfl, rfl⟩ := e3
  have hr := exEns_rep i rep e1
  obtain ⟨dt', hXi, -⟩ := hr.arr .float64 exArr exArr_wf (by simp [exArr]) (by simp [exArr])
  rw [e2, Except.ok.injEq] at hXi
  have hwf' := arrRep_wf (dt := .float64) (dt' := dt') hr.len exArr_wf
  have hnt := exEns_nt i hi
  obtain ⟨o', wx, S, b1, b2, -, -, b5, -⟩ := C43_object_same_length (exEnsEnv constScript).toEnv o w dt'
    ⟨exArr.data.map fun s => s.map (exF i), exArr.nf, exG i exArr.nt⟩ [0, 1] (Or.inr (Or.inl a2)) hwf' (by simp [exArr])
    (by simp [exArr]) hnt (by simp [exArr])
    ⟨by omega, by rw [a8, a9]; norm_num, a10, by rw [a11]; norm_num, fun _ => Or.inl ⟨_, a5, by simp, by simp⟩⟩
    (by simp [a7]) (gs i) range_schedule
  rw [hXi] at e4
  rw [e4, Prod.mk.injEq] at b1
  obtain ⟨rfl, -⟩ := b1
  have hcount := b5 a2 (by rw [a3]; norm_num)
  obtain ⟨o1, r1, hp, S2, ho, -, hok⟩ := fit_cases e4
  obtain ⟨c, seed, S', rfl, hrun, rfl⟩ := hok rfl
  obtain ⟨-, hseed⟩ := prepare_own_state a12 hp
  have hseed : seed = k := hseed
  rw [hseed] at hrun
  obtain ⟨t, ml, mc, ls, rs2, rfl, -, c3, -, -, -, -, hc⟩ := prepare_cases hp
  have ht : t = .multi := by rw [c3 (by rw [a2]; simp), a2]
  subst ht
  obtain ⟨-, -, A0, xLen, A, w0, y', m0, -, hload, hsub, -, hls, sizes, hsz, ha, -, k2, -, -⟩ := hc c _ rfl
  have hm0 : 4 ≤ m0 := by
    rw [loadTrain_same (by simp [TType.Var]) (toArr3_array (by simp [exArr]) (by simp [exArr]) (by
      show 3 ≤ exG i exArr.nt
      omega)), Prod.mk.injEq] at hload
    have := congrArg Rdst.minLen hload.1
    simp only [Option.some.injEq] at this
    omega
  have hsizes : sizes = [2, 3] := by
    rw [hls, a5, a6] at hsz
    have g2 : (2 : Int) ≤ m0 := by omega
    have g3 : (3 : Int) ≤ m0 := by omega
    simp [checkParams, setLengths, LenArr.astypeInt, g2, g3] at hsz
    exact hsz.symm
  rw [k2 rfl] at hrun
  have hrun : (mslGenerate c.args (o.maxChannels.getD A.nf) (constScript k) (gs i) List.range).map .m = .ok S' := hrun
  cases hg : mslGenerate c.args (o.maxChannels.getD A.nf) (constScript k) (gs i) List.range with
  | error er => rw [hg] at hrun; cases hrun
  | ok SM =>
    rw [hg] at hrun
    have hrun := Except.ok.inj hrun
    subst hrun
    obtain ⟨ls', g', q1, q2⟩ := mslGenerate_lengths hg
    have hsm : m.rdst.shapelets = some (.m SM) := by rw [ho]
    refine ⟨m, SM, h1, hsm, ?_, ?_⟩
    · rw [hsm, Option.some.injEq] at b2
      subst b2
      simp only [Shapelets.count] at hcount
      intro hnil
      rw [hnil] at hcount
      simp [a4, exArr] at hcount
    · intro l hl
      have hargs : c.args.sizes = [2, 3] := by rw [ha]; exact hsizes
      rw [hargs] at q1
      obtain ⟨ls2, d1, d2⟩ := choiceN_const (a := [2, 3]) k c.args.nShp (by simp)
      rw [q1, Except.ok.injEq, Prod.mk.injEq] at d1
      rw [d1.1] at q2
      exact d2 l (q2 l hl)

/-- **C52 (violated: `random_state` does not determine the ensemble).** The same ensemble, with its own
generator in the same state, fitted in the same process on the same data: when its two members draw in one
order the first member has a shapelet of 2 points, in the other order only shapelets of 3 points. -/
theorem C52_order_changes_members (gs : Nat → Nat → Script) (w : World Nat) :
    ∃ e1 e2 w1 w2 m1 m2 S1 S2,
      exEns.fit (exEnsEnv constScript) gs (fun _ => List.range) [0, 1] w (.array .float64 exArr) [0, 1] = (e1, w1, .ok ()) ∧
      exEns.fit (exEnsEnv constScript) gs (fun _ => List.range) [1, 0] w (.array .float64 exArr) [0, 1] = (e2, w2, .ok ()) ∧
      e1.models[0]? = some m1 ∧ e2.models[0]? = some m2 ∧
      m1.rdst.shapelets = some (.m S1) ∧ m2.rdst.shapelets = some (.m S2) ∧ 2 ∈ S1.lengths ∧ 2 ∉ S2.lengths := by
  have hsw : ([1, 0] : List Nat).Perm [0, 1] := List.Perm.swap _ _ _
  obtain ⟨e1, w1, f1⟩ := exEns_fit constScript gs (order := [0, 1]) (List.Perm.refl _) w [0, 1] rfl
  obtain ⟨e2, w2, f2⟩ := exEns_fit constScript gs (order := [1, 0]) hsw w [0, 1] rfl
  obtain ⟨m1, S1, a1, a2, a3, a4⟩ := exEns_length (List.Perm.refl _) f1 0 (by simp)
  obtain ⟨m2, S2, b1, b2, b3, b4⟩ := exEns_length hsw f2 1 (by simp)
  refine ⟨e1, e2, w1, w2, m1, m2, S1, S2, f1, f2, a1, b1, a2, b2, ?_, ?_⟩
  · obtain ⟨l, hl⟩ := List.exists_mem_of_ne_nil _ a3
    have := a4 l hl
    simp at this
    rw [this]; exact hl
  · intro h
    have := b4 2 h
    simp at this

end Convst.Props
