import Verif.Proofs.Object
import Verif.Props.Params
import Verif.Props.FitMore

/-!
# Properties of the `R_DST` object (C16, C38, C39, C41, C42, C43, C46)
-/

set_option autoImplicit false
set_option linter.unusedSectionVars false

namespace Convst.Props

open Convst Spec

section generic
variable {G K R L : Type} [Scalar K] [Gen G K] [DecidableEq L]

/-- One call of `fit`: the data and labels, and the generators and schedule of the parallel loop. -/
structure FitCall (G K L : Type) where
  X : XIn K
  y : List L
  gs : Nat → G
  order : Nat → List Nat

/-- The object and the process-wide state after a history of `fit` calls, successful or not. -/
def afterFits (env : Env G R L) (o : Rdst K R) (w : World R) : List (FitCall G K L) → Rdst K R × World R
  | [] => (o, w)
  | c :: cs =>
    afterFits env (o.fit env c.gs c.order w c.X c.y).1 (o.fit env c.gs c.order w c.X c.y).2.1 cs

/-- What no history of `fit` calls can change. -/
theorem afterFits_spec (env : Env G R L) (o : Rdst K R) (w : World R) (hist : List (FitCall G K L)) :
    ∃ t ml mc ls rs' S, (afterFits env o w hist).1 =
        { o with transformType := t, minLen := ml, maxChannels := mc, lens := ls, rs := rs',
                 shapelets := S } ∧
      (afterFits env o w hist).2.numThreads = w.numThreads ∧
      (o.transformType ≠ .auto → t = o.transformType) ∧
      (o.maxChannels.isSome → mc = o.maxChannels) ∧
      (o.transformType.Var → o.minLen.isSome → ml = o.minLen) ∧
      (o.bounds = none → (∃ l, o.lens = .ints l) → ls = o.lens) := by
  induction hist generalizing o w with
  | nil => exact ⟨_, _, _, _, _, _, rfl, rfl, fun _ => rfl, fun _ => rfl, fun _ _ => rfl, fun _ _ => rfl⟩
  | cons c cs ih =>
    rcases hfit : o.fit env c.gs c.order w c.X c.y with ⟨o2, w2, r2⟩
    have hstep : afterFits env o w (c :: cs) = afterFits env o2 w2 cs := by rw [afterFits, hfit]
    rw [hstep]
    obtain ⟨o1, r1, hp, S1, rfl, -⟩ := fit_cases hfit
    obtain ⟨t1, ml1, mc1, ls1, rs1, rfl, e2, e3, e4, e5, -, e7, -⟩ := prepare_cases hp
    obtain ⟨t, ml, mc, ls, rs', S, h1, h2, h3, h4, h5, h6⟩ :=
      ih { o with transformType := t1, minLen := ml1, maxChannels := mc1, lens := ls1, rs := rs1,
                  shapelets := S1 } w2
    refine ⟨t, ml, mc, ls, rs', S, h1, h2.trans e2, ?_, ?_, ?_, ?_⟩
    · intro h
      have := e3 h
      exact (h3 (by simpa only [this] using h)).trans this
    · intro h
      have := e4 h
      exact (h4 (by simpa only [this] using h)).trans this
    · intro h h'
      have ht : t1 = o.transformType := e3 (by rintro ha; rw [ha] at h; rcases h with h | h <;> cases h)
      have := e5 (by rw [ht]; exact h) h'
      exact (h5 (by simpa only [ht] using h)
        (by simpa only [this] using h')).trans this
    · intro h h'
      obtain ⟨l, hl⟩ := h'
      have : ls1 = o.lens := by
        rcases e7 with e | ⟨m, e⟩
        · exact e
        · rw [e, h, hl]; rfl
      exact (h6 h ⟨l, by simpa only [this] using hl⟩).trans this

/-! ## C16: normalize_output -/

/-- **C16 (violated).** `transform` returns the same result for both values of `normalize_output`. -/
theorem C16_normalize_output_ignored (o : Rdst K R) (b : Bool) (X : XIn K) :
    ({ o with normalizeOutput := b } : Rdst K R).transform X = o.transform X := rfl

/-! ## C38: refitting -/

/-- **C38.** When `shapelet_lengths` are integers, or bounds are given, then after any history of `fit`
calls, successful or not and on any data, `fit` uses the same candidate lengths as on a fresh object
for the same number of points. -/
theorem C38_refit_lengths_partial (env : Env G R L) (o : Rdst K R)
    (ho : o.bounds.isSome ∨ ∃ l, o.lens = .ints l) (w : World R) (hist : List (FitCall G K L))
    {w1 w2 : World R} {X : XIn K} {y : List L} {o1 o2 : Rdst K R} {w1' w2' : World R}
    {c1 c2 : Call K L} {s1 s2 : Nat}
    (h1 : o.prepare env w1 X y = (o1, w1', .ok (c1, s1)))
    (h2 : (afterFits env o w hist).1.prepare env w2 X y = (o2, w2', .ok (c2, s2)))
    (hpts : c1.points = c2.points) : c1.args.sizes = c2.args.sizes := by
  obtain ⟨t, ml, mc, ls, rs', S, e, -, -, -, -, e6⟩ := afterFits_spec env o w hist
  rw [e] at h2
  obtain ⟨A1, x1, -, -, -, k1, -⟩ := prepare_ok h1
  obtain ⟨A2, x2, -, -, -, k2, -⟩ := prepare_ok h2
  rw [← hpts] at k2
  simp only at k2
  have : setLengths ls o.bounds o.reduction c1.points = setLengths o.lens o.bounds o.reduction c1.points := by
    cases hb : o.bounds with
    | none =>
      rw [hb] at ho
      simp only [Option.isSome_none, Bool.false_eq_true, false_or] at ho
      rw [e6 hb ho]
    | some b => rfl
  rw [this, k1] at k2
  exact Except.ok.inj k2

/-- **C38.** For an object of fixed equal-length type without subsampling, every argument of the fitter
except the seed is the same after any history. -/
theorem C38_refit_same_length_partial (env : Env G R L) (o : Rdst K R)
    (ho : o.bounds.isSome ∨ ∃ l, o.lens = .ints l)
    (ht : o.transformType = .uni ∨ o.transformType = .multi) (hns : o.nSamples = none)
    (w : World R) (hist : List (FitCall G K L))
    {w1 w2 : World R} {X : XIn K} {y : List L} {o1 o2 : Rdst K R} {w1' w2' : World R}
    {c1 c2 : Call K L} {s1 s2 : Nat}
    (h1 : o.prepare env w1 X y = (o1, w1', .ok (c1, s1)))
    (h2 : (afterFits env o w hist).1.prepare env w2 X y = (o2, w2', .ok (c2, s2))) :
    c1.args = c2.args := by
  have hva : o.transformType ≠ .auto ∧ ¬ o.transformType.Var := by
    rcases ht with h | h <;> simp [h, TType.Var]
  have hsz : c1.points = c2.points → c1.args.sizes = c2.args.sizes :=
    C38_refit_lengths_partial env o ho w hist h1 h2
  obtain ⟨t, ml, mc, ls, rs', S, e, -, e3, -, -, e6⟩ := afterFits_spec env o w hist
  rw [e] at h2
  obtain ⟨A1, x1, -, a1, b1, k1, -, n1, -, -, d1⟩ := prepare_ok h1
  obtain ⟨A2, x2, -, a2, b2, k2, -, n2, -, -, d2⟩ := prepare_ok h2
  obtain ⟨t1, ml1, mc1, ls1, rs1, rfl, -, e31, -, -, -, -, f1⟩ := prepare_cases h1
  obtain ⟨t2, ml2, mc2, ls2, rs2, rfl, -, e32, -, -, -, -, f2⟩ := prepare_cases h2
  have ht1 : t1 = o.transformType := e31 hva.1
  have htt : t = o.transformType := e3 hva.1
  have ht2 : t2 = o.transformType := (e32 (by simpa only [htt] using hva.1)).trans htt
  obtain ⟨p1, q1, -⟩ := n1 (by simpa only [ht1] using hva.2)
  obtain ⟨p2, q2, -⟩ := n2 (by simpa only [ht2] using hva.2)
  obtain rfl : A1 = A2 := Except.ok.inj (p1.symm.trans p2)
  have hs := hsz (q1.trans q2.symm)
  obtain ⟨_, _, _, _, _, _, _, _, _, _, _, _, _, _, _, g1, _⟩ := f1 c1 s1 rfl
  obtain ⟨_, _, _, _, _, _, _, _, _, _, _, _, _, _, _, g2, _⟩ := f2 c2 s2 rfl
  have d1 : c1.args.X = A1.data ∧ c1.args.y = y := by
    rcases d1 with d | ⟨q, -, -, -, hq, -⟩
    · exact d
    · rw [hns] at hq; cases hq
  have d2 : c2.args.X = A1.data ∧ c2.args.y = y := by
    rcases d2 with d | ⟨q, -, -, -, hq, -⟩
    · exact d
    · simp only at hq; rw [hns] at hq; cases hq
  have hX : c1.args.X = c2.args.X := d1.1.trans d2.1.symm
  have hy : c1.args.y = c2.args.y := d1.2.trans d2.2.symm
  have hnf : c1.args.nf = c2.args.nf := a1.trans a2.symm
  have hnt : c1.args.nt = c2.args.nt := b1.trans b2.symm
  rw [g1, g2] at hX hy hnf hnt hs ⊢
  simp only at hX hy hnf hnt hs
  rw [hX, hy, hnf, hnt, hs]

/-! ## C39: history -/

theorem nmin_spec {l : List Nat} {m : Nat} (h : nmin l = .ok m) : (∀ n ∈ l, m ≤ n) ∧ m ∈ l := by
  cases l with
  | nil => cases h
  | cons a l =>
    cases h
    have : ∀ (l : List Nat) (a : Nat), l.foldl min a ≤ a ∧ (∀ x ∈ l, l.foldl min a ≤ x) ∧
        (l.foldl min a = a ∨ l.foldl min a ∈ l) := by
      intro l
      induction l with
      | nil => simp
      | cons b l ih =>
        intro a
        obtain ⟨h1, h2, h3⟩ := ih (min a b)
        simp only [List.foldl_cons, List.mem_cons]
        refine ⟨by omega, ?_, ?_⟩
        · rintro x (rfl | hx)
          · omega
          · exact h2 x hx
        · rcases h3 with h3 | h3
          · rcases Nat.le_total a b with h | h
            · left; rw [h3]; omega
            · right; left; rw [h3]; omega
          · right; right; exact h3
    obtain ⟨h1, h2, h3⟩ := this l a
    refine ⟨?_, ?_⟩
    · intro n hn
      rcases List.mem_cons.1 hn with rfl | hn
      · exact h1
      · exact h2 n hn
    · rcases h3 with h3 | h3
      · rw [h3]; exact List.mem_cons_self
      · exact List.mem_cons_of_mem _ h3

/-- **C39.** Variable-length types: as soon as the data of one `fit` call have been read -- even if that
call raises afterwards -- `min_len` is the least length of these data, and every later call, on any
data and after any further history, uses this value. -/
theorem C39_min_len_fixed (env : Env G R L) (o : Rdst K R) (hv : o.transformType.Var)
    (hm : o.minLen = none) (w : World R) (first : FitCall G K L) {A : Arr3 K} {xLen : List Nat}
    (hf : formatUneven first.X = .ok (A, xLen)) (hg : Good3 A.shape false 2)
    (rest : List (FitCall G K L)) {w2 : World R} {X : XIn K} {y : List L} {o2 : Rdst K R}
    {w2' : World R} {c2 : Call K L} {s2 : Nat}
    (h2 : (afterFits env o w (first :: rest)).1.prepare env w2 X y = (o2, w2', .ok (c2, s2))) :
    (∀ n ∈ xLen, c2.points ≤ n) ∧ c2.points ∈ xLen := by
  have hna : o.transformType ≠ .auto := by
    rintro h; rw [h] at hv; rcases hv with h | h <;> cases h
  have hconc : o.transformType.Concrete := by
    rcases hv with h | h <;> simp [h, TType.Concrete]
  rcases hfit : o.fit env first.gs first.order w first.X first.y with ⟨o1, w1, r1⟩
  have hstep : afterFits env o w (first :: rest) = afterFits env o1 w1 rest := by rw [afterFits, hfit]
  rw [hstep] at h2
  obtain ⟨o1', r1', hp, S1, rfl, -⟩ := fit_cases hfit
  obtain ⟨t1, ml1, mc1, ls1, rs1, rfl, -, e3, -, -, e6, -⟩ := prepare_cases hp
  obtain rfl := e3 hna
  have hml : ∃ m, ml1 = some m ∧ nmin xLen = .ok m := by
    have hc3 : ∃ Y, checkArray3D A.py = .ok Y := by
      rcases C62_check_array_3D A.py false 2 with ⟨-, -, Y, hY, -⟩ | ⟨hn, -⟩
      · exact ⟨Y, hY⟩
      · exact absurd ⟨Or.inr rfl, hg⟩ hn
    obtain ⟨Y, hY⟩ := hc3
    have hne : xLen ≠ [] := by
      rintro rfl
      unfold formatUneven at hf
      cases hs : samples first.X with
      | error e => simp [hs, Bind.bind, Except.bind] at hf
      | ok xs =>
        cases xs with
        | nil => simp [hs, Bind.bind, Except.bind] at hf
        | cons x xs =>
          simp only [hs, Bind.bind, Except.bind] at hf
          split at hf
          · split at hf
            · cases hf
            · simp [pure, Except.pure] at hf
          · cases hf
    obtain ⟨m, hmm⟩ : ∃ m, nmin xLen = .ok m := by
      cases xLen with
      | nil => exact absurd rfl hne
      | cons a l => exact ⟨_, rfl⟩
    refine ⟨m, ?_, hmm⟩
    rw [e6 hconc]
    exact congrArg (fun p => p.1.minLen) (loadTrain_var_none hv hf hY hm hmm)
  obtain ⟨m, rfl, hmm⟩ := hml
  obtain ⟨t, ml, mc, ls, rs', S, e, -, e3', -, e5', -⟩ := afterFits_spec env
    ({ o with minLen := some m, maxChannels := mc1, lens := ls1, rs := rs1, shapelets := S1 }) w1 rest
  have ht : t = o.transformType := e3' hna
  have hml : ml = some m := e5' hv rfl
  subst hml
  have e' := e
  rw [e] at h2
  obtain ⟨A2, x2, hpts, -⟩ := prepare_ok h2
  obtain ⟨t2, ml2, mc2, ls2, rs2, rfl, -, e32, -, e52, -⟩ := prepare_cases h2
  have ht2 : t2 = o.transformType := (e32 (by simpa only [ht] using hna)).trans ht
  have hml2 : ml2 = some m := e52 (by rw [ht2]; exact hv) rfl
  simp only at hpts
  have : c2.points = m := by
    rw [hml2] at hpts
    exact (Option.some.inj hpts).symm
  rw [this]
  exact nmin_spec hmm

/-- **C39.** `max_channels`, once set by the user or by the first successful parameter preparation,
stays: every later multivariate call draws at most that number of channels, whatever the data. -/
theorem C39_max_channels_fixed (env : Env G R L) (o : Rdst K R) (w : World R)
    (first : FitCall G K L) {o1 : Rdst K R} {w1 : World R} {c1 : Call K L} {s1 : Nat}
    (h1 : o.prepare env w first.X first.y = (o1, w1, .ok (c1, s1)))
    (rest : List (FitCall G K L)) {w2 : World R} {X : XIn K} {y : List L} {o2 : Rdst K R}
    {w2' : World R} {c2 : Call K L} {s2 : Nat}
    (h2 : (afterFits env o w (first :: rest)).1.prepare env w2 X y = (o2, w2', .ok (c2, s2)))
    (hc2 : c2.maxCh.isSome) : c2.maxCh = some (o.maxChannels.getD c1.args.nf) := by
  rcases hfit : o.fit env first.gs first.order w first.X first.y with ⟨o1', w1', r1⟩
  have hstep : afterFits env o w (first :: rest) = afterFits env o1' w1' rest := by rw [afterFits, hfit]
  rw [hstep] at h2
  obtain ⟨o1'', r1', hp, S1, rfl, -⟩ := fit_cases hfit
  rw [h1] at hp
  simp only [Prod.mk.injEq] at hp
  obtain ⟨rfl, rfl, rfl⟩ := hp
  obtain ⟨A1, x1, -, hnf, -, -, -, -, hmc, -⟩ := prepare_ok h1
  obtain ⟨t, ml, mc, ls, rs', S, e, -, -, e4, -⟩ := afterFits_spec env
    ({ o1 with shapelets := S1 }) w1 rest
  rw [e] at h2
  obtain ⟨A2, x2, -, -, -, -, -, -, -, hmc2, -⟩ := prepare_ok h2
  have hmc' : mc = o1.maxChannels := e4 (by simp only [hmc]; rfl)
  have h3 := hmc2 hc2
  rw [h3]
  simp only [hmc', hmc, Option.getD_some, hnf]

/-- **C39.** The type chosen by the first `fit` call is used for all later ones. -/
theorem C39_type_fixed (env : Env G R L) (o : Rdst K R) (ho : o.transformType = .auto) (w : World R)
    (first : FitCall G K L) {t : TType} (ht : autoClass first.X = .ok t)
    (rest : List (FitCall G K L)) :
    (afterFits env o w (first :: rest)).1.transformType = t := by
  rcases hfit : o.fit env first.gs first.order w first.X first.y with ⟨o1', w1', r1⟩
  have hstep : afterFits env o w (first :: rest) = afterFits env o1' w1' rest := by rw [afterFits, hfit]
  rw [hstep]
  obtain ⟨o1'', r1', hp, S1, rfl, -⟩ := fit_cases hfit
  have hna : t ≠ .auto := by
    rintro rfl
    cases hX : first.X with
    | list X =>
      rw [hX] at ht
      cases X with
      | nil => simp [autoClass] at ht
      | cons x xs => simp only [autoClass, Except.ok.injEq] at ht; split at ht <;> cases ht
    | objArray X =>
      rw [hX] at ht
      cases X with
      | nil => simp [autoClass] at ht
      | cons x xs => simp only [autoClass, Except.ok.injEq] at ht; split at ht <;> cases ht
    | array dt A =>
      rw [hX] at ht
      simp only [autoClass, Bind.bind, Except.bind] at ht
      split at ht
      · cases ht
      · split at ht
        · cases ht
        · simp only [pure, Except.pure, Except.ok.injEq] at ht; split at ht <;> cases ht
    | arrayOther dt A =>
      rw [hX] at ht
      simp only [autoClass, Bind.bind, Except.bind] at ht
      split at ht
      · cases ht
      · split at ht
        · cases ht
        · simp only [pure, Except.pure, Except.ok.injEq] at ht; split at ht <;> cases ht
  have h1 : o1''.transformType = t := by
    unfold Rdst.prepare at hp
    rcases hs : setFitTransform o first.X with ⟨oo, rr⟩
    have hoo : oo.transformType = t := by
      unfold setFitTransform at hs
      rw [if_pos ho, ht] at hs
      simp only at hs
      split at hs <;> (simp only [Prod.mk.injEq] at hs; obtain ⟨rfl, -⟩ := hs; rfl)
    rw [hs] at hp
    cases rr with
    | error e =>
      simp only [Prod.mk.injEq] at hp
      obtain ⟨rfl, -⟩ := hp
      exact hoo
    | ok u =>
      have hp' : oo.prepare env w first.X first.y = (o1'', w1', r1') := by
        unfold Rdst.prepare
        have hconc : setFitTransform oo first.X = (oo, .ok ()) := by
          obtain ⟨t', ht', -, hc, -⟩ := setFitTransform_cases hs
          have : oo.transformType.Concrete := by rw [ht']; exact hc rfl
          unfold setFitTransform
          rw [if_neg (by rw [hoo]; exact hna)]
          simp only
          exact if_pos this
        rw [hconc]
        exact hp
      obtain ⟨t1, ml1, mc1, ls1, rs1, rfl, -, e3, -⟩ := prepare_cases hp'
      exact (e3 (by rw [hoo]; exact hna)).trans hoo
  obtain ⟨t', ml, mc, ls, rs', S, e, -, e3, -⟩ := afterFits_spec env
    ({ o1'' with shapelets := S1 }) w1' rest
  rw [e]
  exact (e3 (by simp only [h1]; exact hna)).trans h1

/-- **C39.** For equal-length types the history does not matter: the number of points is that of the
current data. -/
theorem C39_same_length_recomputed (env : Env G R L) (o : Rdst K R)
    (ht : o.transformType = .uni ∨ o.transformType = .multi) (w : World R)
    (hist : List (FitCall G K L)) {w2 : World R} {X : XIn K} {y : List L} {o2 : Rdst K R}
    {w2' : World R} {c2 : Call K L} {s2 : Nat}
    (h2 : (afterFits env o w hist).1.prepare env w2 X y = (o2, w2', .ok (c2, s2))) :
    ∃ A, toArr3 X = .ok A ∧ c2.points = A.nt ∧ o2.minLen = some A.nt := by
  have hva : o.transformType ≠ .auto ∧ ¬ o.transformType.Var := by
    rcases ht with h | h <;> simp [h, TType.Var]
  obtain ⟨t, ml, mc, ls, rs', S, e, -, e3, -⟩ := afterFits_spec env o w hist
  rw [e] at h2
  obtain ⟨A2, x2, hpts, -, -, -, -, hnv, -⟩ := prepare_ok h2
  obtain ⟨t2, ml2, mc2, ls2, rs2, rfl, -, e32, -⟩ := prepare_cases h2
  have htt : t = o.transformType := e3 hva.1
  have ht2 : t2 = o.transformType := (e32 (by simpa only [htt] using hva.1)).trans htt
  obtain ⟨p, q, -⟩ := hnv (by simpa only [ht2] using hva.2)
  exact ⟨A2, p, q, by rw [← q]; exact hpts⟩

/-! ## C41: subsampling -/

/-- **C41.** In every successful preparation, series and labels stay paired: there is a list of sample
indices such that series and label number `i` given to the fitter are those of sample `ids[i]`. -/
theorem C41_series_labels_paired_partial (env : Env G R L) (o : Rdst K R) (w : World R) (X : XIn K)
    (y : List L) {o' : Rdst K R} {w' : World R} {c : Call K L} {s : Nat}
    (h : o.prepare env w X y = (o', w', .ok (c, s))) :
    ∃ (A : Arr3 K) (ids : List Nat),
      (toArr3 X = .ok A ∨ ∃ xLen, formatUneven X = .ok (A, xLen) ∧ c.xLen = some xLen) ∧
      c.args.X.length = ids.length ∧
      (∀ (i id : Nat), ids[i]? = some id → c.args.X[i]? = A.data[id]? ∧ (A.data[id]?).isSome ∧
        c.args.y[i]? = y[id]?) ∧
      (o.nSamples = none → ids = List.range A.data.length) := by
  obtain ⟨A, xLen, -, -, -, -, hv, hnv, -, -, hd⟩ := prepare_ok h
  have hA : toArr3 X = .ok A ∨ ∃ xLen, formatUneven X = .ok (A, xLen) ∧ c.xLen = some xLen := by
    by_cases hvar : o'.transformType.Var
    · exact Or.inr ⟨xLen, hv hvar⟩
    · exact Or.inl (hnv hvar).1
  rcases hd with ⟨h1, h2⟩ | ⟨q, repl, ids, r, hq, -, h1, h2⟩
  · refine ⟨A, List.range A.data.length, hA, by simp [h1], ?_, fun _ => rfl⟩
    intro i id hi
    obtain ⟨hi', rfl⟩ := List.getElem?_eq_some_iff.1 hi
    rw [List.getElem_range] at *
    rw [List.length_range] at hi'
    rw [h1, h2]
    exact ⟨rfl, by simp [hi'], rfl⟩
  · obtain ⟨k1, k2⟩ := takeIds_ok h1
    obtain ⟨k3, k4⟩ := takeIds_ok h2
    refine ⟨A, ids, hA, k1, fun i id hi => ⟨(k2 i id hi).2, (k2 i id hi).1, (k4 i id hi).2⟩, ?_⟩
    intro h; rw [hq] at h; cases h

/-- **C41 (violated).** For variable-length data the true lengths given to the fitter are those of the
original series in their original order, whatever samples were selected. -/
theorem C41_lengths_not_subsampled (env : Env G R L) (o : Rdst K R) (w : World R) (X : XIn K)
    (y : List L) {o' : Rdst K R} {w' : World R} {c : Call K L} {s : Nat}
    (h : o.prepare env w X y = (o', w', .ok (c, s))) (hv : o'.transformType.Var) :
    ∃ A xLen, formatUneven X = .ok (A, xLen) ∧ c.xLen = some xLen := by
  obtain ⟨A, xLen, -, -, -, -, hvv, -⟩ := prepare_ok h
  exact ⟨A, xLen, hvv hv⟩

/-! ## C42: random_state -/

/-- With its own generator and without subsampling, `prepare` neither reads nor changes the global
state. -/
theorem prepare_own (env : Env G R L) (o : Rdst K R) {r : R} (hr : o.rs = .own r)
    (hns : o.nSamples = none) (X : XIn K) (y : List L) :
    ∃ o1 r1, ∀ w, o.prepare env w X y = (o1, w, r1) := by
  unfold Rdst.prepare
  rcases h1 : setFitTransform o X with ⟨o1, r1⟩
  obtain ⟨t, rfl, -⟩ := setFitTransform_cases h1
  cases r1 with
  | error e => exact ⟨_, _, fun _ => rfl⟩
  | ok u =>
  simp only
  rcases h2 : loadTrain { o with transformType := t } X with ⟨o2, r2⟩
  obtain ⟨ml, rfl, -⟩ := loadTrain_cases h2
  cases r2 with
  | error e => exact ⟨_, _, fun _ => rfl⟩
  | ok Ax =>
  obtain ⟨A, xLen⟩ := Ax
  simp only [hns, subsample]
  split
  · exact ⟨_, _, fun _ => rfl⟩
  · simp only [drawSeed, hr]
    cases t <;> exact ⟨_, _, fun _ => rfl⟩

/-- **C42.** When `random_state` is an integer or a generator of its own and `n_samples=None`, the
result of `fit` is a function of the object, the data and the per-thread generators: it does not
depend on NumPy's global generator, which it leaves unchanged. -/
theorem C42_random_state_determines_fit (env : Env G R L) (o : Rdst K R) {r : R} (hr : o.rs = .own r)
    (hns : o.nSamples = none) (gs : Nat → G) (order : Nat → List Nat) (X : XIn K) (y : List L) :
    ∃ o' res, ∀ w, o.fit env gs order w X y = (o', w, res) := by
  obtain ⟨o1, r1, h⟩ := prepare_own env o hr hns X y
  unfold Rdst.fit
  cases r1 with
  | error e => exact ⟨o1, .error e, fun w => by rw [h w]⟩
  | ok cs =>
    obtain ⟨c, seed⟩ := cs
    cases hrun : c.run (env.seedG seed) gs order with
    | error e => exact ⟨o1, .error e, fun w => by rw [h w]; simp only [hrun]⟩
    | ok S => exact ⟨{ o1 with shapelets := some S }, .ok (), fun w => by rw [h w]; simp only [hrun]⟩

/-! ## C46: the thread count is global -/

/-- A sequence of `fit` calls on arbitrary objects. -/
def runFits (env : Env G R L) (w : World R) : List (Rdst K R × FitCall G K L) → World R
  | [] => w
  | (o, c) :: cs => runFits env (o.fit env c.gs c.order w c.X c.y).2.1 cs

/-- **C46.** After the construction of an object with an integer (or `None`) `n_jobs`, all `fit` calls,
of this or any other object, run with the thread count of the object constructed last. -/
theorem C46_last_construction (env : Env G R L) (w : World R) (p : Params K R) {o : Rdst K R}
    {w1 : World R} (hb : ∀ b, p.nJobs ≠ .bool b) (h : Rdst.init env w p = (w1, .ok o))
    (fits : List (Rdst K R × FitCall G K L)) :
    (runFits env w1 fits).numThreads = o.nJobs := by
  have h1 : w1.numThreads = o.nJobs := by
    unfold Rdst.init at h
    split at h
    · simp at h
    · simp only at h
      split at h
      · simp at h
      · split at h
        · simp at h
        · split at h
          · simp at h
          · split at h
            · simp at h
            · split at h
              · simp at h
              · split at h
                · simp at h
                · rename_i hset
                  simp only [Prod.mk.injEq, Except.ok.injEq] at h
                  obtain ⟨rfl, rfl⟩ := h
                  unfold setNumThreads at hset
                  split at hset
                  · simp only [Prod.mk.injEq] at hset
                    obtain ⟨rfl, -⟩ := hset
                    rfl
                  · simp at hset
  rw [← h1]
  clear h1 h
  induction fits generalizing w1 with
  | nil => rfl
  | cons oc cs ih =>
    obtain ⟨o', c⟩ := oc
    rw [runFits, ih]
    rcases hfit : o'.fit env c.gs c.order w1 c.X c.y with ⟨o2, w2, r2⟩
    obtain ⟨o1, r1, hp, -⟩ := fit_cases hfit
    obtain ⟨t1, ml1, mc1, ls1, rs1, -, e2, -⟩ := prepare_cases hp
    exact e2

/-- **C44/C46.** An `R_DST` whose `n_jobs` gives a thread count below 1 or above the number of threads
of the process cannot be constructed: the constructor raises `ValueError` (after all other checks
passed) and the thread count stays as it was. -/
theorem C44_constructor_rejects (env : Env G R L) (w : World R) (p : Params K R) (z n : Int)
    (hz : p.nJobs = .int z) (hn : checkNJobs (K := K) env.cpu (.int z) = .ok n)
    (hbad : n < 1 ∨ (env.maxThreads : Int) < n) :
    ∃ e, Rdst.init env w p = (w, .error e) := by
  unfold Rdst.init
  split
  · exact ⟨_, rfl⟩
  · split
    · exact ⟨_, rfl⟩
    · simp only
      split
      · exact ⟨_, rfl⟩
      · split
        · exact ⟨_, rfl⟩
        · split
          · exact ⟨_, rfl⟩
          · rw [hz]
            simp only [hn]
            have : setNumThreads env.maxThreads w n = (w, .error .valueError) := by
              unfold setNumThreads
              rw [if_neg (by omega)]
            rw [this]
            exact ⟨_, rfl⟩

/-- **C44/C46.** The exception is `ValueError` whenever the other parameters are accepted, that is, whenever
the construction with the default `n_jobs=None` would succeed. -/
theorem C44_constructor_value_error (env : Env G R L) (w w1 : World R) (p : Params K R) {o : Rdst K R}
    (z n : Int) (hok : Rdst.init env w { p with nJobs := .none } = (w1, .ok o))
    (hz : p.nJobs = .int z) (hn : checkNJobs (K := K) env.cpu (.int z) = .ok n)
    (hbad : n < 1 ∨ (env.maxThreads : Int) < n) :
    Rdst.init env w p = (w, .error .valueError) := by
  have hset : setNumThreads env.maxThreads w n = (w, .error .valueError) := by
    unfold setNumThreads
    rw [if_neg (by omega)]
  unfold Rdst.init at hok ⊢
  simp only at hok
  split at hok
  · simp at hok
  · split at hok
    · simp at hok
    · rename_i htt hl
      split at hok
      · simp at hok
      · split at hok
        · simp at hok
        · split at hok
          · simp at hok
          · rename_i b hb hr x pMin pMax hp
            rw [hz]
            simp only [if_neg hl]
            rw [hb]
            simp only [if_neg hr, hp, hn, hset]

end generic

section real
variable {G R L : Type} [Gen G ℝ] [LawfulGen G] [DecidableEq L]

/-! ## C38: fractions -/

/-- **C38 (violated).** With fractional `shapelet_lengths` the first `fit` on series of `m` points uses
the lengths `floor(m * x)`, but every later `fit` on the same data uses `m / 2` for all of them,
whatever the fractions were. -/
theorem C38_fractions_change_on_refit (env : Env G R L) (o : Rdst ℝ R)
    (ht : o.transformType = .uni ∨ o.transformType = .multi) (hb : o.bounds = none) {l : List ℝ}
    (hl : o.lens = .floats l) {X : XIn ℝ} {A : Arr3 ℝ} (hX : toArr3 X = .ok A)
    (h2 : ∀ x ∈ l, 2 ≤ ⌊(A.nt : ℝ) * x⌋ ∧ ⌊(A.nt : ℝ) * x⌋ ≤ A.nt) {w w1 : World R} {y : List L}
    {gs : Nat → G} {order : Nat → List Nat} {o1 : Rdst ℝ R}
    (hfit : o.fit env gs order w X y = (o1, w1, .ok ())) :
    (∃ o' w' c s, o.prepare env w X y = (o', w', .ok (c, s)) ∧
      c.args.sizes = l.map fun x => ⌊(A.nt : ℝ) * x⌋.toNat) ∧
    ∀ {w2 : World R} {y2 : List L} {o2 : Rdst ℝ R} {w2' : World R} {c2 : Call ℝ L} {s2 : Nat},
      o1.prepare env w2 X y2 = (o2, w2', .ok (c2, s2)) → c2.args.sizes = l.map fun _ => A.nt / 2 := by
  have hva : o.transformType ≠ .auto ∧ ¬ o.transformType.Var := by
    rcases ht with h | h <;> simp [h, TType.Var]
  obtain ⟨o', r1, hp, S, rfl, -, hok⟩ := fit_cases hfit
  obtain ⟨c, s, S', rfl, -, -⟩ := hok rfl
  obtain ⟨A1, x1, -, -, -, k1, -, n1, -⟩ := prepare_ok hp
  obtain ⟨t, ml, mc, ls, rs', rfl, -, e3, -, -, -, -, hc⟩ := prepare_cases hp
  have htt : t = o.transformType := e3 hva.1
  obtain ⟨p1, q1, -⟩ := n1 (by simpa only [htt] using hva.2)
  obtain rfl : A1 = A := Except.ok.inj (p1.symm.trans hX)
  obtain ⟨_, _, A0', x', A', w0', y', m, hm, hload, _, _, hls, _⟩ := hc c s rfl
  have hm1 : m = A1.nt := by
    have := loadTrain_same (o := { o with transformType := t }) (by simpa only [htt] using hva.2) hX
    rw [this] at hload
    have := congrArg (fun p => p.1.minLen) hload
    simp only at this
    exact (Option.some.inj this).symm
  subst hm1
  have hofInt : ∀ z : Int, (Convst.ofInt z : ℝ) = (z : ℝ) := by
    intro z
    cases z with
    | ofNat n => simp [Convst.ofInt]
    | negSucc n =>
      simp only [Convst.ofInt, Int.cast_negSucc]
      simp
  have hls' : ls = .floats (l.map fun x => ((⌊(A1.nt : ℝ) * x⌋ : Int) : ℝ)) := by
    rw [hls, hb, hl]
    simp only [setLengths]
    congr 1
    refine List.map_congr_left fun x _ => ?_
    rw [hofInt]
    simp
  have hints : intLengths (LenArr.floats (l.map fun x => ((⌊(A1.nt : ℝ) * x⌋ : Int) : ℝ))) =
      l.map fun x => ⌊(A1.nt : ℝ) * x⌋ := by
    simp only [intLengths, List.map_map]
    refine List.map_congr_left fun x hx => ?_
    have := (h2 x hx).1
    simp
  have hne : l ≠ [] := by
    rintro rfl
    rw [q1, ← hls, hls', checkParams_eq, hints] at k1
    simp at k1
  refine ⟨⟨_, _, c, s, hp, ?_⟩, ?_⟩
  · rw [q1, ← hls, hls', checkParams_eq, hints, if_neg (by simp [hne]), if_neg, if_neg] at k1
    · have := Except.ok.inj k1
      rw [← this, List.map_map]
      rfl
    · rw [not_not]
      intro z hz
      obtain ⟨x, hx, rfl⟩ := List.mem_map.1 hz
      exact (h2 x hx).2
    · rw [not_not]
      intro z hz
      obtain ⟨x, hx, rfl⟩ := List.mem_map.1 hz
      have := (h2 x hx).1
      omega
  · intro w2 y2 o2 w2' c2 s2 hp2
    obtain ⟨A2, x2, -, -, -, k2, -, n2, -⟩ := prepare_ok hp2
    obtain ⟨t2, ml2, mc2, ls2, rs2, rfl, -, e32, -⟩ := prepare_cases hp2
    have ht2 : t2 = o.transformType := (e32 (by simpa only [htt] using hva.1)).trans htt
    obtain ⟨p2, q2, -⟩ := n2 (by simpa only [ht2] using hva.2)
    obtain rfl : A1 = A2 := Except.ok.inj (p1.symm.trans p2)
    simp only at k2
    have hset : setLengths ls o.bounds o.reduction A1.nt =
        .floats (l.map fun x => ((⌊(A1.nt : ℝ) * (⌊(A1.nt : ℝ) * x⌋ : Int)⌋ : Int) : ℝ)) := by
      rw [hls', hb]
      simp only [setLengths, List.map_map]
      congr 1
      refine List.map_congr_left fun x _ => ?_
      simp only [Function.comp, hofInt]
      simp
    have hfl : ∀ x : ℝ, ⌊(A1.nt : ℝ) * (⌊(A1.nt : ℝ) * x⌋ : Int)⌋ = (A1.nt : Int) * ⌊(A1.nt : ℝ) * x⌋ := by
      intro x
      have : (A1.nt : ℝ) * (⌊(A1.nt : ℝ) * x⌋ : Int) = (((A1.nt : Int) * ⌊(A1.nt : ℝ) * x⌋ : Int) : ℝ) := by
        push_cast; ring
      rw [this, Int.floor_intCast]
    have hnt : 2 ≤ A1.nt := by
      obtain ⟨x, hx⟩ := List.exists_mem_of_ne_nil l hne
      have := h2 x hx
      omega
    have hbig : ∀ x ∈ l, (A1.nt : Int) < (A1.nt : Int) * ⌊(A1.nt : ℝ) * x⌋ := by
      intro x hx
      have := (h2 x hx).1
      nlinarith
    have hints2 : intLengths (LenArr.floats (l.map fun x =>
        ((⌊(A1.nt : ℝ) * (⌊(A1.nt : ℝ) * x⌋ : Int)⌋ : Int) : ℝ))) =
        l.map fun x => (A1.nt : Int) * ⌊(A1.nt : ℝ) * x⌋ := by
      simp only [intLengths, List.map_map]
      refine List.map_congr_left fun x hx => ?_
      simp only [Function.comp]
      rw [hfl]
      exact (real_trunc _).trans (by
        have h0 : (0 : ℝ) ≤ (((A1.nt : Int) * ⌊(A1.nt : ℝ) * x⌋ : Int) : ℝ) := by
          have := (h2 x hx).1
          have h1 : (0 : Int) ≤ (A1.nt : Int) * ⌊(A1.nt : ℝ) * x⌋ := by positivity
          exact_mod_cast h1
        rw [if_pos h0, Int.floor_intCast])
    rw [q2, hset, checkParams_eq, hints2, if_neg (by simp [hne]), if_neg, if_pos] at k2
    · split at k2
      · cases k2
      have := Except.ok.inj k2
      rw [← this, List.map_map]
      refine List.map_congr_left fun x hx => ?_
      simp only [Function.comp]
      rw [if_pos (hbig x hx)]
    · intro h
      obtain ⟨x, hx⟩ := List.exists_mem_of_ne_nil l hne
      have h1 := h _ (List.mem_map.2 ⟨x, hx, rfl⟩)
      have := hbig x hx
      omega
    · rw [not_not]
      intro z hz
      obtain ⟨x, hx, rfl⟩ := List.mem_map.1 hz
      have := hbig x hx
      omega

end real

end Convst.Props
