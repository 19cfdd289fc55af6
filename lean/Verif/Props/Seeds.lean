import Verif.Props.EnsembleRace

/-!
# Seeds drawn by `R_DST.fit` (C42) and repeated fits of one `R_DST` (C78)
-/

set_option autoImplicit false
set_option linter.unusedSectionVars false

namespace Convst.Props
open Convst Spec

section
variable {G K R L : Type} [Scalar K] [Gen G K] [DecidableEq L]

/-- **C42.** Every successful `fit` of an object with a generator of its own draws exactly one seed from it:
the fitters start from that seed, and the generator is left one draw further. -/
theorem C42_one_draw_own {env : Env G R L} {o o' : Rdst K R} {r : R} (hr : o.rs = .own r) {gs : Nat → G}
    {order : Nat → List Nat} {w w' : World R} {X : XIn K} {y : List L}
    (h : o.fit env gs order w X y = (o', w', .ok ())) :
    o'.rs = .own (env.nextSeed r).2 ∧
    ∃ c S, (o.prepare env w X y).2.2 = .ok (c, (env.nextSeed r).1) ∧
      c.run (env.seedG (env.nextSeed r).1) gs order = .ok S ∧ o'.shapelets = some S := by
  obtain ⟨o1, r1, hp, S, ho, -, hok⟩ := fit_cases h
  obtain ⟨c, seed, S', rfl, hrun, rfl⟩ := hok rfl
  obtain ⟨e1, rfl⟩ := prepare_own_state hr hp
  refine ⟨by rw [ho]; exact e1, c, S', by rw [hp], hrun, by rw [ho]⟩

theorem prepare_glob_state {env : Env G R L} {o : Rdst K R} (hr : o.rs = .glob) (hns : o.nSamples = none)
    {w w' : World R} {X : XIn K} {y : List L} {o' : Rdst K R} {c : Call K L} {seed : Nat}
    (h : o.prepare env w X y = (o', w', .ok (c, seed))) :
    o'.rs = .glob ∧ w' = { w with glob := (env.nextSeed w.glob).2 } ∧ seed = (env.nextSeed w.glob).1 := by
  unfold Rdst.prepare at h
  rcases h1 : setFitTransform o X with ⟨o1, r1⟩
  obtain ⟨t, rfl, -⟩ := setFitTransform_cases h1
  rw [h1] at h
  cases r1 with
  | error e => simp at h
  | ok u =>
  simp only at h
  rcases h2 : loadTrain { o with transformType := t } X with ⟨o2, r2⟩
  obtain ⟨ml, rfl, -⟩ := loadTrain_cases h2
  rw [h2] at h
  cases r2 with
  | error e => simp at h
  | ok Ax =>
  obtain ⟨A, xLen⟩ := Ax
  simp only [hns, subsample] at h
  split at h
  · simp at h
  · simp only [drawSeed, hr] at h
    cases t <;> simp only [Prod.mk.injEq, Except.ok.injEq, reduceCtorEq, and_false] at h <;>
      (obtain ⟨rfl, rfl, -, rfl⟩ := h; exact ⟨rfl, rfl, rfl⟩)

/-- **C42.** With `random_state=None` and no subsampling, every successful `fit` draws exactly one seed from
NumPy's global generator. -/
theorem C42_one_draw_global {env : Env G R L} {o o' : Rdst K R} (hr : o.rs = .glob) (hns : o.nSamples = none)
    {gs : Nat → G} {order : Nat → List Nat} {w w' : World R} {X : XIn K} {y : List L}
    (h : o.fit env gs order w X y = (o', w', .ok ())) :
    o'.rs = .glob ∧ w' = { w with glob := (env.nextSeed w.glob).2 } ∧
    ∃ c S, (o.prepare env w X y).2.2 = .ok (c, (env.nextSeed w.glob).1) ∧
      c.run (env.seedG (env.nextSeed w.glob).1) gs order = .ok S ∧ o'.shapelets = some S := by
  obtain ⟨o1, r1, hp, S, ho, -, hok⟩ := fit_cases h
  obtain ⟨c, seed, S', rfl, hrun, rfl⟩ := hok rfl
  obtain ⟨e1, e2, rfl⟩ := prepare_glob_state hr hns hp
  refine ⟨by rw [ho]; exact e1, e2, c, S', by rw [hp], hrun, by rw [ho]⟩

/-! ## C78: repeated fits -/

/-- `Refits env o w k`: the object and process after `k` successful fits on arbitrary data. -/
inductive Refits (env : Env G R L) (o : Rdst K R) (w : World R) : Nat → Rdst K R → World R → Prop
  | zero : Refits env o w 0 o w
  | succ {k : Nat} {o1 o2 : Rdst K R} {w1 w2 : World R} {gs : Nat → G} {order : Nat → List Nat} {X : XIn K}
      {y : List L} : Refits env o w k o1 w1 → o1.fit env gs order w1 X y = (o2, w2, .ok ()) →
      Refits env o w (k + 1) o2 w2

/-- **C78.** After `k` successful fits of an `R_DST`, on whatever data, its generator is `k` draws further:
the next fit starts from the `k+1`-st seed, not from the first one. -/
theorem C78_kth_fit {env : Env G R L} {o : Rdst K R} {r : R} (hr : o.rs = .own r) {w : World R} {k : Nat}
    {o1 : Rdst K R} {w1 : World R} (h : Refits env o w k o1 w1) :
    o1.rs = .own (seedsDrawn env r k) ∧
    ∀ (gs : Nat → G) (order : Nat → List Nat) (X : XIn K) (y : List L) (o2 : Rdst K R) (w2 : World R),
      o1.fit env gs order w1 X y = (o2, w2, .ok ()) →
      ∃ c S, (o1.prepare env w1 X y).2.2 = .ok (c, (env.nextSeed (seedsDrawn env r k)).1) ∧
        c.run (env.seedG (env.nextSeed (seedsDrawn env r k)).1) gs order = .ok S ∧ o2.shapelets = some S := by
  have key : o1.rs = .own (seedsDrawn env r k) := by
    induction h with
    | zero => exact hr
    | succ _ hf ih => exact (C42_one_draw_own ih hf).1
  exact ⟨key, fun gs order X y o2 w2 hf => (C42_one_draw_own key hf).2⟩

end

/-- A multivariate object with one shapelet of length 2 or 3, whose generator is in state 0. -/
noncomputable def exRefit : Rdst ℝ Nat := { exObj .multi with nShp := 1, lens := .ints [2, 3], rs := .own 0 }

/-- Seeds `0, 1, 2, …`; the generator seeded with `j` draws index `j` only. -/
noncomputable def exSeedEnv : Env Script Nat Nat where
  seedG := constScript
  nextSeed r := (r, r + 1)
  resample r n _ k _ := .ok ((List.range k.toNat).map fun i => (i + r) % n, r + 1)
  cpu := 4
  maxThreads := 4

/-- A fit of the object, or of what an earlier fit made of it, with the generator in state `k`. -/
theorem exRefit_fit {o : Rdst ℝ Nat} {k ml : Nat} {mc : Option Nat} {m : Option Nat} {S0 : Option (Shapelets ℝ)}
    (ho : o = { exRefit with rs := .own k, minLen := m, maxChannels := mc, shapelets := S0 })
    (hmc : ∀ c, mc = some c → c = 1) (gs : Nat → Script) (w : World Nat) (hml : ml = 5) :
    ∃ o' w' S, o.fit exSeedEnv gs List.range w (.array .float64 exArr) [0, 1] = (o', w', .ok ()) ∧
      o' = { exRefit with rs := .own (k + 1), minLen := some ml, maxChannels := some 1, shapelets := some (.m S) } ∧
      S.lengths ≠ [] ∧ ∀ l ∈ S.lengths, [2, 3][k % 2]? = some l := by
  have hty : o.transformType = .multi := by rw [ho]; rfl
  have hlens : o.lens = .ints [2, 3] := by rw [ho]; rfl
  have hbd : o.bounds = none := by rw [ho]; rfl
  have hns : o.nSamples = none := by rw [ho]; rfl
  have hrs : o.rs = .own k := by rw [ho]
  obtain ⟨o', w', S, b1, b2, -, -, b5, -⟩ := C43_object_same_length exSeedEnv o w .float64 exArr [0, 1]
    (Or.inr (Or.inl hty)) (by simp [XIn.WF, exArr]) (by simp [exArr]) (by simp [exArr]) (by simp [exArr])
    (by simp [exArr])
    ⟨by rw [ho]; simp [exRefit], by rw [ho]; norm_num [exRefit, exObj], hns, by rw [ho]; norm_num [exRefit, exObj],
      fun _ => Or.inl ⟨_, hlens, by simp, by simp⟩⟩
    (by
      intro c hc
      have : mc = some c := by rw [ho] at hc; exact hc
      rw [hmc c this]
      simp [exArr]) gs (order := List.range) (fun _ => List.Perm.refl _)
  have hcount := b5 hty (by rw [ho]; norm_num [exRefit, exObj])
  obtain ⟨o1, r1, hp, S2, ho', -, hok⟩ := fit_cases b1
  obtain ⟨c, seed, S', rfl, hrun, rfl⟩ := hok rfl
  obtain ⟨hrs1, hseed⟩ := prepare_own_state hrs hp
  have hseed : seed = k := hseed
  rw [hseed] at hrun
  obtain ⟨t, ml', mc', ls, rs2, rfl, -, c3, -, -, -, -, hc⟩ := prepare_cases hp
  have ht : t = .multi := by rw [c3 (by rw [hty]; simp), hty]
  subst ht
  obtain ⟨-, -, A0, xLen, A, w0, y', m0, hm0, hload, hsub, hmc', hls, sizes, hsz, ha, -, k2, -, -⟩ := hc c _ rfl
  rw [loadTrain_same (by simp [TType.Var]) (toArr3_array (A := exArr) (by simp [exArr]) (by simp [exArr])
    (by simp [exArr])), Prod.mk.injEq, Except.ok.injEq, Prod.mk.injEq] at hload
  have hm5 : m0 = 5 := by
    have := congrArg Rdst.minLen hload.1
    simp only [Option.some.injEq] at this
    rw [← this]; rfl
  subst hm5
  rw [hns] at hsub
  have hA : A = exArr := by
    rw [← hload.2.1] at hsub
    simp only [subsample, Prod.mk.injEq, Except.ok.injEq] at hsub
    exact hsub.2.1.symm
  have hls' : ls = .ints [2, 3] := by rw [hls, hlens, hbd]; rfl
  have hsizes : sizes = [2, 3] := by
    rw [hls'] at hsz
    simp [checkParams, LenArr.astypeInt] at hsz
    exact hsz.symm
  have hmc1 : o.maxChannels.getD A.nf = 1 := by
    cases hm : o.maxChannels with
    | none => rw [Option.getD_none, hA]; rfl
    | some c =>
      have : mc = some c := by rw [ho] at hm; exact hm
      rw [hmc c this]; rfl
  rw [k2 rfl] at hrun
  have hrun : (mslGenerate c.args (o.maxChannels.getD A.nf) (constScript k) gs List.range).map .m = .ok S' := hrun
  cases hg : mslGenerate c.args (o.maxChannels.getD A.nf) (constScript k) gs List.range with
  | error er => rw [hg] at hrun; cases hrun
  | ok SM =>
    rw [hg] at hrun
    have hrun := Except.ok.inj hrun
    subst hrun
    obtain ⟨ls', g', q1, q2⟩ := mslGenerate_lengths hg
    refine ⟨o', w', SM, b1, ?_, ?_, ?_⟩
    · rw [ho', hm0, hmc', hmc1, hls', ho, hml]
      have : rs2 = .own (k + 1) := hrs1
      rw [this]
      rfl
    · have hsm : o'.shapelets = some (.m SM) := by rw [ho']
      rw [hsm, Option.some.injEq] at b2
      subst b2
      simp only [Shapelets.count] at hcount
      intro hnil
      rw [hnil] at hcount
      have hn : o.nShp = 1 := by rw [ho]; rfl
      simp [hn, exArr] at hcount
    · intro l hl
      have hargs : c.args.sizes = [2, 3] := by rw [ha]; exact hsizes
      rw [hargs] at q1
      obtain ⟨ls2, d1, d2⟩ := choiceN_const (a := [2, 3]) k c.args.nShp (by simp)
      rw [q1, Except.ok.injEq, Prod.mk.injEq] at d1
      rw [d1.1] at q2
      exact d2 l (q2 l hl)

/-- **C78 (violated: a refit on the same data repeats the result).** The same object, with a `random_state`
of its own, fitted twice on the same data by the same per-thread generators: the first fit gives a shapelet
of 2 points, the second only shapelets of 3 points. -/
theorem C78_refit_differs (gs : Nat → Script) (w : World Nat) :
    ∃ (o1 o2 : Rdst ℝ Nat) (w1 w2 : World Nat) (S1 S2 : MShp ℝ),
      exRefit.fit exSeedEnv gs List.range w (.array .float64 exArr) [0, 1] = (o1, w1, .ok ()) ∧
      o1.fit exSeedEnv gs List.range w1 (.array .float64 exArr) [0, 1] = (o2, w2, .ok ()) ∧
      o1.shapelets = some (.m S1) ∧ o2.shapelets = some (.m S2) ∧ 2 ∈ S1.lengths ∧ 2 ∉ S2.lengths := by
  obtain ⟨o1, w1, S1, a1, a2, a3, a4⟩ := exRefit_fit (o := exRefit) (k := 0) (ml := 5) (mc := none) (m := none)
    (S0 := none) rfl (by simp) gs w rfl
  obtain ⟨o2, w2, S2, b1, b2, b3, b4⟩ := exRefit_fit (k := 0 + 1) (ml := 5) a2 (by simp) gs w1 rfl
  refine ⟨o1, o2, w1, w2, S1, S2, a1, b1, by rw [a2], by rw [b2], ?_, ?_⟩
  · obtain ⟨l, hl⟩ := List.exists_mem_of_ne_nil _ a3
    have := a4 l hl
    simp at this
    rw [this]; exact hl
  · intro h
    have := b4 2 h
    simp at this

/-- C78: two fits in a row. -/
example (gs : Nat → Script) (w : World Nat) : ∃ o2 w2, Refits exSeedEnv exRefit w 2 o2 w2 ∧ o2.rs = .own 2 := by
  obtain ⟨o1, o2, w1, w2, S1, S2, h1, h2, -⟩ := C78_refit_differs gs w
  have h := (Refits.zero (env := exSeedEnv) (o := exRefit) (w := w)).succ h1 |>.succ h2
  exact ⟨o2, w2, h, (C78_kth_fit (r := 0) rfl h).1⟩

/-- C42, `random_state=None`: the hypotheses are met. -/
example (gs : Nat → Script) (w : World Nat) :
    ∃ o' w', ({ exRefit with rs := .glob } : Rdst ℝ Nat).fit exSeedEnv gs List.range w (.array .float64 exArr) [0, 1] =
      (o', w', .ok ()) ∧ w'.glob = w.glob + 1 := by
  obtain ⟨o', w', S, h, -⟩ := C43_object_same_length exSeedEnv ({ exRefit with rs := .glob } : Rdst ℝ Nat) w .float64 exArr [0, 1]
    (Or.inr (Or.inl rfl)) (by simp [XIn.WF, exArr]) (by simp [exArr]) (by simp [exArr]) (by simp [exArr])
    (by simp [exArr])
    ⟨by simp [exRefit], by norm_num [exRefit, exObj], rfl, by norm_num [exRefit, exObj],
      fun _ => Or.inl ⟨_, rfl, by simp, by simp⟩⟩ (by intro c hc; cases hc) gs (order := List.range) (fun _ => List.Perm.refl _)
  obtain ⟨-, h2, -⟩ := C42_one_draw_global rfl rfl h
  exact ⟨o', w', h, by rw [h2]; rfl⟩

end Convst.Props
