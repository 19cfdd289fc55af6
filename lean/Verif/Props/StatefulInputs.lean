import Verif.Spec.StatefulInputs
import Verif.Props.Lifecycle

/-!
# C91: input transformers with random parameters
-/

set_option autoImplicit false
set_option linter.unusedSectionVars false

namespace Convst.Props
open Convst Spec

section
variable {K R : Type} [Scalar K]

/-! ## One transformer -/

theorem mem_windows (s : String) : s ∈ windows ↔ s ∈ windowNames := by
  simp only [windows, windowNames, List.mem_cons, List.not_mem_nil]
  tauto

/-- **C91.** `fit` of an input transformer: with `random=True` the order is from 1 to 4 and the window one of the
sixteen, whatever the parameter was before; without it neither the transformer nor the process changes. -/
theorem C91_one_fit {ienv : InEnv K R} (hc : ChoiceLaw ienv) (t : InTr) (w : World R) :
    MayBecome t (t.fit ienv w).1 ∧ (¬ IsRandom t → t.fit ienv w = (t, w)) := by
  cases t with
  | raw => exact ⟨.same _ id, fun _ => rfl⟩
  | zNormalizer => exact ⟨.same _ id, fun _ => rfl⟩
  | derivate o b =>
    cases b with
    | false => exact ⟨.same _ (by simp [IsRandom]), fun _ => rfl⟩
    | true =>
      refine ⟨.order _ _ (by omega) ?_, fun h => absurd rfl h⟩
      have := hc w.glob 4 (by omega)
      omega
  | periodigram s b =>
    cases b with
    | false => exact ⟨.same _ (by simp [IsRandom]), fun _ => rfl⟩
    | true =>
      refine ⟨.window _ _ ?_, fun h => absurd rfl h⟩
      have h : (ienv.choice w.glob windows.length).1 < windows.length := hc w.glob _ (by decide)
      rw [getD_lt _ h]
      exact (mem_windows _).mp (List.getElem_mem h)

/-- **C91.** What the four input transformers return: the data, the data normalised, the derivative of the current order,
and the periodogram with the current window. -/
theorem C91_transforms (ienv : InEnv K R) (X : XIn K) :
    InTr.raw.transform ienv X = .ok X ∧
    (∀ A, toArr3 X = .ok A → InTr.zNormalizer.transform ienv X =
      .ok (.array .float64 ⟨A.data.map fun x => x.map znorm, A.nf, A.nt⟩)) ∧
    (∀ k b, (InTr.derivate k b).transform ienv X = derivate k X) ∧
    ∀ w b, (InTr.periodigram w b).transform ienv X = periodigramIn (ienv.pg w) X := by
  refine ⟨rfl, ?_, fun _ _ => rfl, fun _ _ => rfl⟩
  intro A h
  unfold InTr.transform
  simp only
  rw [h, Res.bind_ok, C57_all_samples]
  rfl

/-- C57: two series, the second one flat. -/
example : zNormalizer (.array .float64 ⟨[[[0, 1, 5]], [[2, 2, 2]]], 1, 3⟩ : XIn ℝ) =
    .ok [[znorm [0, 1, 5]], [znorm [2, 2, 2]]] :=
  C57_transformer (toArr3_array (by simp) (by simp) (by simp))

/-- **C91.** Every order from 1 to 4 and every window is drawn for some state of the global generator, when
`np.random.choice` can return every position. -/
theorem C91_all_reached {ienv : InEnv K R} (hs : ∀ n i, i < n → ∃ r, (ienv.choice r n).1 = i) {t t' : InTr}
    (h : MayBecome t t') (n : Int) : ∃ r, (t.fit ienv ⟨r, n⟩).1 = t' := by
  cases h with
  | same _ hr =>
    obtain ⟨r, -⟩ := hs 1 0 (by omega)
    refine ⟨r, ?_⟩
    cases t with
    | raw => rfl
    | zNormalizer => rfl
    | derivate o b => cases b with
      | false => rfl
      | true => exact absurd rfl hr
    | periodigram o b => cases b with
      | false => rfl
      | true => exact absurd rfl hr
  | order o o' h1 h2 =>
    obtain ⟨r, hr⟩ := hs 4 (o' - 1) (by omega)
    refine ⟨r, ?_⟩
    simp only [InTr.fit, hr]
    congr 1
    omega
  | window s s' h1 =>
    obtain ⟨i, hi, rfl⟩ := List.getElem_of_mem ((mem_windows _).mpr h1)
    obtain ⟨r, hr⟩ := hs windows.length i hi
    refine ⟨r, ?_⟩
    simp only [InTr.fit, hr]
    rw [getD_lt _ hi]

theorem MayBecome.trans {t t' t'' : InTr} (h : MayBecome t t') (h' : MayBecome t' t'') : MayBecome t t'' := by
  cases h with
  | same => exact h'
  | order =>
    cases h' with
    | same _ hr => exact absurd rfl hr
    | order o o' h1 h2 => exact .order _ _ h1 h2
  | window =>
    cases h' with
    | same _ hr => exact absurd rfl hr
    | window s s' h1 => exact .window _ _ h1

/-! ## Predictions -/

/-- **C91.** When every member applies the representation it was fitted on, the predictions are those of the
ensemble of its members (C50, C51). -/
theorem C91_predict_synced {ienv : InEnv K R} {h : Heap} {e : ObjEnsemble K R} (hs : Synced ienv h e) (X : XIn K) :
    e.predict ienv h X = e.base.predict X := by
  have : List.zipWith (fun k m => ({ m with rep := (h k).transform ienv } : Member K R)) e.objs e.base.models =
      e.base.models := by
    apply List.ext_getElem?
    intro i
    rw [List.getElem?_zipWith]
    cases hm : e.base.models[i]? with
    | none => cases e.objs[i]? <;> rfl
    | some m =>
      have hi : i < e.objs.length := (List.getElem?_eq_some_iff.1 hm).1.trans_le hs.1
      have hk : e.objs[i]? = some e.objs[i] := List.getElem?_eq_getElem hi
      rw [hk]
      simp only [Option.some.injEq]
      rw [← hs.2 i m _ hm hk]
  unfold ObjEnsemble.predict
  rw [this]

end

section
variable {G K R : Type} [Scalar K] [Gen G K]

/-! ## `fit` without random transformers -/

theorem fitObjMembers_static {ienv : InEnv K R} {env : EnsEnv G K R} {e : ObjEnsemble K R} {gs : Nat → Nat → G}
    {sched : Nat → Nat → List Nat} {X : XIn K} {y : List Int} {h : Heap}
    (hr : ∀ k ∈ e.objs, ∀ w : World R, (h k).fit ienv w = (h k, w)) {order : List Nat} (rs : RState R) (w : World R)
    (slots : Nat → Option (Member K R)) :
    fitObjMembers (fun i => fitObjMember ienv env e (gs i) (sched i) X y i) order rs w h slots =
      ((fitMembers (fun i => fitMember env (e.now ienv h) (gs i) (sched i) X y i) order rs w slots).1,
        (fitMembers (fun i => fitMember env (e.now ienv h) (gs i) (sched i) X y i) order rs w slots).2.1, h,
        (fitMembers (fun i => fitMember env (e.now ienv h) (gs i) (sched i) X y i) order rs w slots).2.2) := by
  induction order generalizing rs w slots with
  | nil => rfl
  | cons i order ih =>
    have h1 : fitObjMember ienv env e (gs i) (sched i) X y i rs w h =
        ((fitMember env (e.now ienv h) (gs i) (sched i) X y i rs w).1,
          (fitMember env (e.now ienv h) (gs i) (sched i) X y i rs w).2.1, h,
          (fitMember env (e.now ienv h) (gs i) (sched i) X y i rs w).2.2) := by
      unfold fitObjMember
      cases hk : e.objs[i]? with
      | none =>
        have : (e.now ienv h).reps[i]? = none := by
          simp only [ObjEnsemble.now, List.getElem?_map, hk, Option.map_none]
        unfold fitMember
        simp only [this]
      | some k =>
        have hu : Function.update h k (h k) = h := Function.update_eq_self k h
        simp only [hr k (List.mem_of_getElem? hk) w, hu]
    rw [fitObjMembers, fitMembers, h1]
    rcases fitMember env (e.now ienv h) (gs i) (sched i) X y i rs w with ⟨rs1, w1, r1⟩
    cases r1 with
    | error er => rfl
    | ok m => exact ih rs1 w1 _

/-- **C91.** Without `random=True` the objects play no role: `fit` leaves them as they are and does what
`Ensemble.fit` describes. -/
theorem C91_no_random {ienv : InEnv K R} (hc : ChoiceLaw ienv) (env : EnsEnv G K R) (gs : Nat → Nat → G)
    (sched : Nat → Nat → List Nat) (order : List Nat) (e : ObjEnsemble K R) (h : Heap)
    (hr : ∀ k ∈ e.objs, ¬ IsRandom (h k)) (w : World R) (X : XIn K) (y : List Int) :
    e.fit ienv env gs sched order h w X y =
      (⟨((e.now ienv h).fit env gs sched order w X y).1, e.objs⟩, h,
        ((e.now ienv h).fit env gs sched order w X y).2.1, ((e.now ienv h).fit env gs sched order w X y).2.2) := by
  have hr' : ∀ k ∈ e.objs, ∀ w : World R, (h k).fit ienv w = (h k, w) := fun k hk w => (C91_one_fit hc _ w).2 (hr k hk)
  unfold ObjEnsemble.fit Ensemble.fit
  rcases h1 : (e.now ienv h).manageNJobs env.cpu with ⟨b, r1⟩
  obtain ⟨-, -, hreps⟩ := manageNJobs_keeps h1
  have hb : (⟨b, e.objs⟩ : ObjEnsemble K R).now ienv h = b := by
    unfold ObjEnsemble.now at hreps ⊢
    simp only at hreps ⊢
    rw [← hreps]
  have hlen : b.reps.length = e.objs.length := by rw [hreps]; simp [ObjEnsemble.now]
  cases r1 with
  | error er => rfl
  | ok u =>
    simp only
    rcases h2 : setNumThreads env.maxThreads w (b.nJobsRdst.getD 1) with ⟨w1, r2⟩
    cases r2 with
    | error er => rfl
    | ok u =>
      simp only
      rw [fitObjMembers_static (e := ⟨b, e.objs⟩) hr', hb, hlen]
      rcases fitMembers (fun i => fitMember env b (gs i) (sched i) X y i) order b.rs w1 (fun _ => none) with ⟨rs, w2, r3⟩
      cases r3 with
      | error er => rfl
      | ok slots =>
        simp only
        cases ((List.range e.objs.length).filterMap slots).mapM fun m => (looAcc m.cv y : Res K) with
        | error er => rfl
        | ok accs => rfl

/-! ## `fit` in general -/

/-- The steps of a successful loop over the members. -/
theorem fitObjMembers_ok
    {fitOne : Nat → RState R → World R → Heap → RState R × World R × Heap × Res (Member K R)}
    {order : List Nat} (hnd : order.Nodup) {rs rs' : RState R} {w w' : World R} {h h' : Heap}
    {slots0 slots : Nat → Option (Member K R)}
    (hf : fitObjMembers fitOne order rs w h slots0 = (rs', w', h', .ok slots)) :
    ∃ st : Nat → RState R × World R × Heap, st 0 = (rs, w, h) ∧ st order.length = (rs', w', h') ∧
      (∀ i ∉ order, slots i = slots0 i) ∧
      ∀ k (hk : k < order.length), ∃ m, fitOne order[k] (st k).1 (st k).2.1 (st k).2.2 =
        ((st (k + 1)).1, (st (k + 1)).2.1, (st (k + 1)).2.2, .ok m) ∧ slots order[k] = some m := by
  induction order generalizing rs w h slots0 with
  | nil =>
    simp only [fitObjMembers, Prod.mk.injEq, Except.ok.injEq] at hf
    obtain ⟨rfl, rfl, rfl, rfl⟩ := hf
    exact ⟨fun _ => (rs, w, h), rfl, rfl, fun _ _ => rfl, fun k hk => absurd hk (by simp)⟩
  | cons i order ih =>
    unfold fitObjMembers at hf
    split at hf
    · simp at hf
    · rename_i rs1 w1 g1 m hm
      obtain ⟨st, h0, h1, h2, h3⟩ := ih (List.nodup_cons.1 hnd).2 hf
      refine ⟨fun k => if k = 0 then (rs, w, h) else st (k - 1), rfl, by simpa using h1, ?_, ?_⟩
      · intro j hj
        rw [List.mem_cons, not_or] at hj
        rw [h2 j hj.2, Function.update_of_ne hj.1]
      · intro k hk
        cases k with
        | zero =>
          refine ⟨m, by simpa [h0] using hm, ?_⟩
          show slots i = some m
          rw [h2 i (List.nodup_cons.1 hnd).1, Function.update_self]
        | succ k =>
          obtain ⟨m', h4, h5⟩ := h3 k (by simpa using hk)
          exact ⟨m', by simpa using h4, by simpa using h5⟩

/-- The steps of a successful `fit`. -/
theorem obj_fit_ok {ienv : InEnv K R} {env : EnsEnv G K R} {gs : Nat → Nat → G} {sched : Nat → Nat → List Nat}
    {order : List Nat} {e e' : ObjEnsemble K R} (hord : order.Perm (List.range e.objs.length)) {w w' : World R}
    {h h' : Heap} {X : XIn K} {y : List Int} (hf : e.fit ienv env gs sched order h w X y = (e', h', w', .ok ())) :
    ∃ (b : Ensemble K R) (n : Int) (st : Nat → RState R × World R × Heap),
      b.p = e.base.p ∧ b.pNorms = e.base.pNorms ∧
      st 0 = (e.base.rs, { w with numThreads := n }, h) ∧ st e.objs.length = (e'.base.rs, w', h') ∧ e'.objs = e.objs ∧
      e'.base.models.length = e.objs.length ∧
      ∀ k (hk : k < order.length), ∃ m, e'.base.models[order[k]]? = some m ∧
        fitObjMember ienv env ⟨b, e.objs⟩ (gs order[k]) (sched order[k]) X y order[k] (st k).1 (st k).2.1 (st k).2.2 =
          ((st (k + 1)).1, (st (k + 1)).2.1, (st (k + 1)).2.2, .ok m) := by
  unfold ObjEnsemble.fit at hf
  split at hf
  · simp at hf
  · rename_i b hm
    have hb : ∃ a c, b = { e.now ienv h with nJobs := a, nJobsRdst := c } := by
      unfold Ensemble.manageNJobs at hm
      split at hm
      · simp at hm
      · simp only at hm
        split at hm
        · simp at hm
        · simp only [Prod.mk.injEq, and_true] at hm
          exact ⟨_, _, hm.symm⟩
    obtain ⟨a, c, rfl⟩ := hb
    split at hf
    · simp at hf
    · rename_i w1 hthr
      have hw1 : ∃ n, w1 = { w with numThreads := n } := by
        unfold setNumThreads at hthr
        split at hthr
        · simp only [Prod.mk.injEq, and_true] at hthr
          exact ⟨_, hthr.symm⟩
        · simp at hthr
      obtain ⟨n, rfl⟩ := hw1
      split at hf
      · simp at hf
      · rename_i rs2 w2 h2 slots hfm
        simp only at hf
        split at hf
        · simp at hf
        · rename_i accs hacc
          simp only [Prod.mk.injEq, and_true] at hf
          obtain ⟨rfl, rfl, rfl⟩ := hf
          have hnd : order.Nodup := hord.nodup_iff.2 List.nodup_range
          obtain ⟨st, h0, h1, -, h3⟩ := fitObjMembers_ok hnd hfm
          have hlen : order.length = e.objs.length := by rw [hord.length_eq]; simp
          have hall : ∀ i < e.objs.length, (slots i).isSome := by
            intro i hi
            have : i ∈ order := hord.mem_iff.2 (by simpa using hi)
            obtain ⟨k, hk, rfl⟩ := List.getElem_of_mem this
            obtain ⟨m, -, hs⟩ := h3 k hk
            simp [hs]
          obtain ⟨f1, f2⟩ := filterMap_range e.objs.length slots hall
          refine ⟨_, n, st, rfl, rfl, h0, by rw [← hlen]; exact h1, rfl, f1, ?_⟩
          intro k hk
          obtain ⟨m, h4, h5⟩ := h3 k hk
          have hlt : order[k] < e.objs.length := by
            have := hord.mem_iff.1 (List.getElem_mem hk)
            simpa using this
          exact ⟨m, by rw [← h5]; exact f2 _ hlt, h4⟩

/-- What a successful step does: the object of the member is fitted and the member keeps its representation. -/
theorem fitObjMember_ok {ienv : InEnv K R} {env : EnsEnv G K R} {e : ObjEnsemble K R} {gs : Nat → G}
    {order : Nat → List Nat} {X : XIn K} {y : List Int} {i : Nat} {rs rs' : RState R} {w w' : World R} {h h' : Heap}
    {m : Member K R} (hf : fitObjMember ienv env e gs order X y i rs w h = (rs', w', h', .ok m)) :
    ∃ k, e.objs[i]? = some k ∧ h' = Function.update h k ((h k).fit ienv w).1 ∧ m.rep = (h' k).transform ienv ∧
      fitMember env (e.now ienv h') gs order X y i rs ((h k).fit ienv w).2 = (rs', w', .ok m) := by
  unfold fitObjMember at hf
  cases hk : e.objs[i]? with
  | none => rw [hk] at hf; simp at hf
  | some k =>
    rw [hk] at hf
    simp only [Prod.mk.injEq] at hf
    obtain ⟨h1, h2, h3, h4⟩ := hf
    subst h3
    have hm : fitMember env (e.now ienv (Function.update h k ((h k).fit ienv w).1)) gs order X y i rs
        ((h k).fit ienv w).2 = (rs', w', .ok m) := by
      rw [← h1, ← h2, ← h4]
    refine ⟨k, rfl, rfl, ?_, hm⟩
    obtain ⟨rep, Xi, w1, o0, F, Fs, g1, -, -, -, -, g6, -⟩ := fitMember_ok hm
    simp only [ObjEnsemble.now, List.getElem?_map, hk, Option.map_some, Option.some.injEq] at g1
    rw [g6, ← g1]

/-- **C91.** After a successful `fit` with distinct transformer objects every member applies the representation
it was fitted on, in whatever order the members were fitted. -/
theorem C91_distinct {ienv : InEnv K R} {env : EnsEnv G K R} {gs : Nat → Nat → G} {sched : Nat → Nat → List Nat}
    {order : List Nat} {e e' : ObjEnsemble K R} (hord : order.Perm (List.range e.objs.length))
    (hdis : e.objs.Nodup) {w w' : World R} {h h' : Heap} {X : XIn K} {y : List Int}
    (hf : e.fit ienv env gs sched order h w X y = (e', h', w', .ok ())) : Synced ienv h' e' := by
  obtain ⟨b, n, st, -, -, h0, hend, ho, hl, hmem⟩ := obj_fit_ok hord hf
  have hlen : order.length = e.objs.length := by rw [hord.length_eq]; simp
  have hnd : order.Nodup := hord.nodup_iff.2 List.nodup_range
  -- an object not touched from step `a` on keeps its state
  have keep : ∀ (o : Nat) (a d : Nat), a + d ≤ order.length →
      (∀ k (hk : k < order.length), a ≤ k → e.objs[order[k]]? ≠ some o) → (st (a + d)).2.2 o = (st a).2.2 o := by
    intro o a d
    induction d with
    | zero => intro _ _; rfl
    | succ d ih =>
      intro hd hno
      obtain ⟨m, -, hm⟩ := hmem (a + d) (by omega)
      obtain ⟨k, hk, hupd, -, -⟩ := fitObjMember_ok hm
      rw [show a + (d + 1) = a + d + 1 by omega, hupd, Function.update_of_ne ?_, ih (by omega) hno]
      rintro rfl
      exact hno (a + d) (by omega) (by omega) hk
  refine ⟨by rw [hl, ho], ?_⟩
  intro i m k hm hk
  rw [ho] at hk
  have hi : i < e.objs.length := (List.getElem?_eq_some_iff.1 hk).1
  have : i ∈ order := hord.mem_iff.2 (by simpa using hi)
  obtain ⟨j, hj, rfl⟩ := List.getElem_of_mem this
  obtain ⟨m', hm', hstep⟩ := hmem j hj
  rw [hm, Option.some.injEq] at hm'
  subst hm'
  obtain ⟨k', hk', -, hrep, -⟩ := fitObjMember_ok hstep
  simp only at hk'
  rw [hk, Option.some.injEq] at hk'
  subst hk'
  rw [hrep]
  have e1 := keep k (j + 1) (order.length - (j + 1)) (by omega) (by
    intro l hl' hjl hl2
    have hli : order[l] < e.objs.length := (List.getElem?_eq_some_iff.1 hl2).1
    have e2 : e.objs[order[l]] = e.objs[order[j]] := by
      rw [(List.getElem?_eq_some_iff.1 hl2).2, (List.getElem?_eq_some_iff.1 hk).2]
    have := (hdis.getElem_inj_iff).1 e2
    have := (hnd.getElem_inj_iff).1 this
    omega)
  rw [show j + 1 + (order.length - (j + 1)) = order.length by omega, hlen, hend] at e1
  simp only at e1
  rw [e1]

/-- The process after one member with its own generator and no subsampling is the one before it. -/
theorem fitMember_world {env : EnsEnv G K R} {e : Ensemble K R} (hns : e.p.nSamples = none) {gs : Nat → G}
    {order : Nat → List Nat} {X : XIn K} {y : List Int} {i : Nat} {r : R} {rs' : RState R} {w w' : World R}
    {m : Member K R} (h : fitMember env e gs order X y i (.own r) w = (rs', w', .ok m)) : w' = w := by
  obtain ⟨rep, Xi, w1, o0, F, Fs, h1, h2, h3, h4, h5, h6, h7, h8, h9, h10⟩ := fitMember_ok h
  obtain ⟨a, b, c⟩ := init_bool (b := false) rfl h3
  rw [a w] at h3
  simp only [Prod.mk.injEq, and_true] at h3
  obtain ⟨o', res, hall⟩ := C42_random_state_determines_fit env.toEnv o0 b (c.trans hns) gs order Xi y
  rw [hall w1, Prod.mk.injEq, Prod.mk.injEq] at h4
  rw [← h4.2.1, h3]

/-- **C91.** `random_state` has no influence on the random parameters: with a generator of its own and no
subsampling, a successful `fit` leaves the transformer objects, and NumPy's global generator, as if they had been
fitted alone, in the order of the members.  They depend on the state of the global generator only. -/
theorem C91_not_random_state {ienv : InEnv K R} {env : EnsEnv G K R} {gs : Nat → Nat → G}
    {sched : Nat → Nat → List Nat} {order : List Nat} {e e' : ObjEnsemble K R}
    (hord : order.Perm (List.range e.objs.length)) (hns : e.base.p.nSamples = none) {r : R} (hr : e.base.rs = .own r)
    {w w' : World R} {h h' : Heap} {X : XIn K} {y : List Int}
    (hf : e.fit ienv env gs sched order h w X y = (e', h', w', .ok ())) :
    ∃ n, fitObjs ienv e.objs order h { w with numThreads := n } = (h', w') := by
  obtain ⟨b, n, st, hb, -, h0, hend, ho, hl, hmem⟩ := obj_fit_ok hord hf
  have hlen : order.length = e.objs.length := by rw [hord.length_eq]; simp
  refine ⟨n, ?_⟩
  have key : ∀ j, j ≤ order.length → (∃ r, (st j).1 = .own r) ∧
      fitObjs ienv e.objs order h { w with numThreads := n } =
        fitObjs ienv e.objs (order.drop j) (st j).2.2 (st j).2.1 := by
    intro j
    induction j with
    | zero => intro _; rw [h0]; exact ⟨⟨r, hr⟩, rfl⟩
    | succ j ih =>
      intro hj
      obtain ⟨⟨r', hr'⟩, ih⟩ := ih (by omega)
      obtain ⟨m, -, hm⟩ := hmem j (by omega)
      obtain ⟨k, hk, hupd, -, hfm⟩ := fitObjMember_ok hm
      rw [hr'] at hfm
      have hns' : ((⟨b, e.objs⟩ : ObjEnsemble K R).now ienv (st (j + 1)).2.2).p.nSamples = none := by
        show b.p.nSamples = none
        rw [hb]; exact hns
      refine ⟨⟨_, (fitMember_own hns' hfm).1⟩, ?_⟩
      rw [ih, List.drop_eq_getElem_cons (by omega), fitObjs]
      simp only at hk
      rw [hk]
      simp only
      rw [fitMember_world hns' hfm, ← hupd]
  have := (key order.length le_rfl).2
  rw [this, List.drop_length, hlen, hend]
  rfl

end

/-! ## `fit` succeeds -/

section
variable {G R : Type} [Gen G ℝ] [LawfulGen G]

/-- The fit of member `i` only reads transformer `i`. -/
theorem fitMember_congr {K : Type} [Scalar K] [Gen G K] {env : EnsEnv G K R} {e e2 : Ensemble K R} {i : Nat}
    (h1 : e2.reps[i]? = e.reps[i]?) (h2 : ∀ rs, e2.args i rs = e.args i rs) (gs : Nat → G) (order : Nat → List Nat)
    (X : XIn K) (y : List Int) (rs : RState R) (w : World R) :
    fitMember env e2 gs order X y i rs w = fitMember env e gs order X y i rs w := by
  unfold fitMember
  rw [h1, h2]

/-- Parameters of the ensemble usable for all lengths from 4 to `n`. -/
def ObjUsable (env : EnsEnv G ℝ R) (e : Ensemble ℝ R) (members nf n : Nat) : Prop :=
  ∀ i < members, ∀ rs w, ∃ o, Rdst.init env.toEnv w (e.args i rs) = (w, .ok o) ∧
    o.transformType = .multi ∧ o.alpha ≤ 1 ∧ (∀ m, 4 ≤ m → m ≤ n → GoodParams o m) ∧
    ∀ m, o.maxChannels = some m → 1 ≤ m ∧ m ≤ nf

/-- Every state the object may get into gives representations with at least 4 points, and not more than the
series have. -/
def ObjRep (ienv : InEnv ℝ R) (t : InTr) (n : Nat) : Prop :=
  ∀ t', MayBecome t t' → ∃ f g, ArrRep (t'.transform ienv) f g ∧ 4 ≤ g n ∧ g n ≤ n

theorem fitObjMember_total {ienv : InEnv ℝ R} (hc : ChoiceLaw ienv) {env : EnsEnv G ℝ R} {e : ObjEnsemble ℝ R}
    {gs : Nat → G} {order : Nat → List Nat} (ho : IsSchedule order) {dt : DType} {A : Arr3 ℝ} {y : List Int} {i : Nat}
    (hgood : ObjUsable env e.base e.objs.length A.nf A.nt) (hlearn : Learns env.ridgeCV y)
    (hWF : (XIn.array dt A).WF) (hne : A.data ≠ []) (hnf : 1 ≤ A.nf) (hy : y.length = A.data.length)
    (hi : i < e.objs.length) {h : Heap} (hh : ∀ k ∈ e.objs, ObjRep ienv (h k) A.nt) (rs : RState R) (w : World R) :
    ∃ rs' w' h' m, fitObjMember ienv env e gs order (.array dt A) y i rs w h = (rs', w', h', .ok m) ∧
      ∀ k ∈ e.objs, ObjRep ienv (h' k) A.nt := by
  have hk : e.objs[i]? = some e.objs[i] := List.getElem?_eq_getElem hi
  set k := e.objs[i] with hkdef
  have hkm : k ∈ e.objs := List.getElem_mem hi
  have hb := (C91_one_fit hc (h k) w).1
  obtain ⟨f, g, hrep, hg4, hgn⟩ := hh k hkm _ hb
  set h' := Function.update h k ((h k).fit ienv w).1 with hh'
  have hk' : h' k = ((h k).fit ienv w).1 := by rw [hh', Function.update_self]
  -- the same member in an ensemble with this representation everywhere
  have hlen : (e.now ienv h').reps.length = e.objs.length := by simp [ObjEnsemble.now]
  obtain ⟨rs', w', m, hm⟩ := fitMember_total (env := env)
    (e := { e.now ienv h' with reps := List.replicate e.objs.length ((h' k).transform ienv) }) (gs := gs) ho (dt := dt)
    (A := A) (y := y) (i := i) (f := fun _ => f) (g := fun _ => g) (by
      intro j rep hj
      have := List.mem_of_getElem? hj
      simp only at this
      rw [List.eq_of_mem_replicate this, hk']
      exact hrep) (by
      intro j hj rs w
      rw [List.length_replicate] at hj
      obtain ⟨o, h1, h2, h3, h4, h5⟩ := hgood j hj rs w
      exact ⟨o, h1, h2, h3, h4 _ hg4 hgn, h5⟩) hlearn hWF hne hnf (fun _ _ => hg4) hy (by
      rw [List.length_replicate]; exact hi) rs ((h k).fit ienv w).2
  have hcg := fitMember_congr (env := env) (e := e.now ienv h')
    (e2 := { e.now ienv h' with reps := List.replicate e.objs.length ((h' k).transform ienv) }) (i := i) (by
    simp only [ObjEnsemble.now, List.getElem?_map, hk, Option.map_some]
    rw [List.getElem?_replicate, if_pos hi]) (fun _ => rfl) gs order (.array dt A) y rs ((h k).fit ienv w).2
  rw [hcg] at hm
  refine ⟨rs', w', h', m, ?_, ?_⟩
  · unfold fitObjMember
    rw [hk]
    simp only
    rw [← hh', hm]
  · intro k2 hk2
    by_cases e2 : k2 = k
    · subst e2
      rw [hk']
      intro t' ht'
      exact hh _ hk2 t' (MayBecome.trans hb ht')
    · rw [hh', Function.update_of_ne e2]
      exact hh k2 hk2

theorem fitObjMembers_total {P : Heap → Prop}
    {fitOne : Nat → RState R → World R → Heap → RState R × World R × Heap × Res (Member ℝ R)} {order : List Nat}
    (hone : ∀ i ∈ order, ∀ rs w h, P h → ∃ rs' w' h' m, fitOne i rs w h = (rs', w', h', .ok m) ∧ P h')
    (rs : RState R) (w : World R) (h : Heap) (hh : P h) (slots0 : Nat → Option (Member ℝ R)) :
    ∃ rs' w' h' slots, fitObjMembers fitOne order rs w h slots0 = (rs', w', h', .ok slots) := by
  induction order generalizing rs w h slots0 with
  | nil => exact ⟨_, _, _, _, rfl⟩
  | cons i order ih =>
    obtain ⟨rs', w', h', m, hm, hP⟩ := hone i (by simp) rs w h hh
    obtain ⟨a, b, c, d, habc⟩ := ih (fun j hj => hone j (by simp [hj])) rs' w' h' hP (Function.update slots0 i (some m))
    exact ⟨a, b, c, d, by unfold fitObjMembers; rw [hm]; exact habc⟩

/-- **C91.** `fit` succeeds whatever is drawn, when the series have enough points for every representation that
may be drawn. -/
theorem C91_fit_succeeds {ienv : InEnv ℝ R} (hc : ChoiceLaw ienv) {env : EnsEnv G ℝ R} (hl : CVLaw env.ridgeCV)
    (gs : Nat → Nat → G) {sched : Nat → Nat → List Nat} (ho : ∀ i, IsSchedule (sched i)) {order : List Nat}
    {e : ObjEnsemble ℝ R} (hord : order.Perm (List.range e.objs.length)) (hobj : e.objs ≠ [])
    (w : World R) {h : Heap} {dt : DType} {A : Arr3 ℝ} {y : List Int}
    (hh : ∀ k ∈ e.objs, ObjRep ienv (h k) A.nt)
    (hgood : ObjUsable env e.base e.objs.length A.nf A.nt) (hlearn : Learns env.ridgeCV y)
    (hWF : (XIn.array dt A).WF) (hne : A.data ≠ []) (hnf : 1 ≤ A.nf) (hy : y.length = A.data.length)
    {t : Int} (ht : checkNJobs env.cpu e.base.nJobs = .ok t) (ht1 : 1 ≤ t) (htm : t ≤ env.maxThreads) :
    ∃ e' h' w', e.fit ienv env gs sched order h w (.array dt A) y = (e', h', w', .ok ()) := by
  obtain ⟨outer, inner, hm, h1, h2, h3, -, -, -⟩ := C45_split env.cpu (e.now ienv h) ht ht1 (by
    simpa [ObjEnsemble.now] using hobj)
  have hin : inner ≤ t := by nlinarith
  obtain ⟨b1, hb1⟩ : ∃ b1 : Ensemble ℝ R, b1 = { e.now ienv h with nJobs := .int outer, nJobsRdst := some inner } := ⟨_, rfl⟩
  rw [← hb1] at hm
  have hgood1 : ObjUsable env b1 e.objs.length A.nf A.nt := by rw [hb1]; exact hgood
  have hj1 : b1.nJobsRdst = some inner := by rw [hb1]
  obtain ⟨rs', w', h', slots, hfm⟩ := fitObjMembers_total (order := order)
    (P := fun h => ∀ k ∈ e.objs, ObjRep ienv (h k) A.nt)
    (fitOne := fun i => fitObjMember ienv env ⟨b1, e.objs⟩ (gs i) (sched i) (.array dt A) y i) (by
      intro i hi rs w h hh
      have hi : i < e.objs.length := by simpa using hord.mem_iff.1 hi
      exact fitObjMember_total (e := ⟨b1, e.objs⟩) hc (ho i) hgood1 hlearn hWF hne hnf hy hi hh rs w)
    b1.rs { w with numThreads := inner } h hh (fun _ => none)
  unfold ObjEnsemble.fit
  rw [hm]
  simp only [hj1, Option.getD_some]
  unfold setNumThreads
  rw [if_pos ⟨h2, by omega⟩]
  simp only [hfm]
  obtain ⟨st, -, -, h5, h6⟩ := fitObjMembers_ok (hord.nodup_iff.2 List.nodup_range) hfm
  have hacc : ∃ accs, (((List.range e.objs.length).filterMap slots).mapM fun m => (looAcc m.cv y : Res ℝ)) = .ok accs := by
    refine ⟨_, mapM_ok (g := fun m => (agree (m.cv.map looIdx) y : ℝ) / (m.cv.map looIdx).length) ?_⟩
    intro m hm
    obtain ⟨i, hi, hs⟩ := List.mem_filterMap.1 hm
    have hi : i ∈ order := hord.mem_iff.2 hi
    obtain ⟨k, hk, rfl⟩ := List.getElem_of_mem hi
    obtain ⟨m', h7, h8⟩ := h6 k hk
    rw [hs] at h8
    cases h8
    obtain ⟨_, _, _, _, hmk⟩ := fitObjMember_ok h7
    obtain ⟨c1, -⟩ := fitMember_cv hl hmk
    exact accuracy_eq (by simp [c1])
  obtain ⟨accs, hacc⟩ := hacc
  rw [hacc]
  exact ⟨_, _, _, rfl⟩

/-! ## What goes wrong -/

/-- **C91.** The same object twice, e.g. `[Derivate(random=True)] * 2`, members fitted one after the other: the
first member was fitted on differences of the order drawn first, and predicts with differences of the order
drawn second. -/
theorem C91_shared_object {K : Type} [Scalar K] [Gen G K] {ienv : InEnv K R} {env : EnsEnv G K R} {gs : Nat → Nat → G}
    {sched : Nat → Nat → List Nat} {b : Ensemble K R} (hns : b.p.nSamples = none) {r : R} (hr : b.rs = .own r) {o k : Nat}
    {e' : ObjEnsemble K R} {w w' : World R} {h h' : Heap} (hk : h k = .derivate o true) {X : XIn K} {y : List Int}
    (hf : (⟨b, [k, k]⟩ : ObjEnsemble K R).fit ienv env gs sched [0, 1] h w X y = (e', h', w', .ok ())) :
    ∃ m, e'.base.models[0]? = some m ∧
      m.rep = derivate (1 + (ienv.choice w.glob 4).1) ∧
      (h' k).transform ienv = derivate (1 + (ienv.choice (ienv.choice w.glob 4).2 4).1) := by
  obtain ⟨b', n, st, hb, -, h0, hend, ho, hl, hmem⟩ := obj_fit_ok (by simp [List.range_succ]) hf
  obtain ⟨m0, g0, s0⟩ := hmem 0 (by simp)
  obtain ⟨m1, g1, s1⟩ := hmem 1 (by simp)
  obtain ⟨k0, e0, u0, r0, f0⟩ := fitObjMember_ok s0
  obtain ⟨k1, e1, u1, r1, f1⟩ := fitObjMember_ok s1
  simp only [List.getElem_cons_zero, List.getElem?_cons_zero, Option.some.injEq] at e0 g0 f0
  simp only [List.getElem_cons_succ, List.getElem_cons_zero, List.getElem?_cons_succ, List.getElem?_cons_zero,
    Option.some.injEq] at e1
  subst e0
  subst e1
  rw [h0] at u0 f0
  simp only at u0 f0
  have hst1 : (st 1).2.2 k = .derivate (1 + (ienv.choice w.glob 4).1) true := by
    rw [u0, Function.update_self, hk]; rfl
  rw [hr] at f0
  have hw : (st 1).2.1 = { w with numThreads := n, glob := (ienv.choice w.glob 4).2 } := by
    have := fitMember_world (e := (⟨b', [k, k]⟩ : ObjEnsemble K R).now ienv (st (0 + 1)).2.2)
      (by show b'.p.nSamples = none; rw [hb]; exact hns) f0
    rw [this, hk]
    rfl
  refine ⟨m0, g0, ?_, ?_⟩
  · rw [r0]
    simp only [Nat.zero_add]
    rw [hst1]
    rfl
  · have e2 : (st 2).2.2 = h' := by
      have := congrArg (fun q => q.2.2) hend
      simpa using this
    rw [← e2, u1, Function.update_self, hst1, hw]
    rfl

/-- **C91.** A `fit` that raises changes the transformer objects: with `Derivate(random=True)` as transformer of
the member fitted first, `fit` on series of different lengths raises `ValueError`, and the members fitted before
apply the order just drawn from then on. -/
theorem C91_failed_refit {K : Type} [Scalar K] [Gen G K] {ienv : InEnv K R} {env : EnsEnv G K R} {gs : Nat → Nat → G}
    {sched : Nat → Nat → List Nat} {order : List Nat} {e : ObjEnsemble K R} {i k o : Nat} (hi : e.objs[i]? = some k)
    {h : Heap} (hk : h k = .derivate o true) {w : World R} {y : List Int} {e1 : Ensemble K R}
    (h1 : (e.now ienv h).manageNJobs env.cpu = (e1, .ok ())) {w1 : World R}
    (h2 : setNumThreads env.maxThreads w (e1.nJobsRdst.getD 1) = (w1, .ok ()))
    {x : Mat K} {xs : List (Mat K)} (hx : ∃ z ∈ xs, z.len ≠ x.len) :
    ∃ e' w', e.fit ienv env gs sched (i :: order) h w (.list (x :: xs)) y =
        (e', Function.update h k (.derivate (1 + (ienv.choice w1.glob 4).1) true), w', .error .valueError) ∧
      e'.base.models = e.base.models ∧ e'.base.weights = e.base.weights ∧ e'.objs = e.objs := by
  obtain ⟨k1, k2, k3⟩ := manageNJobs_keeps h1
  have hst : fitObjMember ienv env ⟨e1, e.objs⟩ (gs i) (sched i) (.list (x :: xs)) y i e1.rs w1 h =
      (e1.rs, { w1 with glob := (ienv.choice w1.glob 4).2 },
        Function.update h k (.derivate (1 + (ienv.choice w1.glob 4).1) true), .error .valueError) := by
    unfold fitObjMember
    simp only [hi, hk, InTr.fit]
    have hrep : ((⟨e1, e.objs⟩ : ObjEnsemble K R).now ienv
        (Function.update h k (.derivate (1 + (ienv.choice w1.glob 4).1) true))).reps[i]? =
        some (derivate (1 + (ienv.choice w1.glob 4).1)) := by
      simp only [ObjEnsemble.now, List.getElem?_map, hi, Option.map_some, Function.update_self]
      rfl
    have hd : derivate (1 + (ienv.choice w1.glob 4).1) (.list (x :: xs)) = .error .valueError := by
      obtain ⟨z, hz, hzl⟩ := hx
      exact (C61_inputs _ _).2 x xs rfl (by omega) ⟨z, hz, Or.inr hzl⟩
    unfold fitMember
    simp only [hrep, hd]
  refine ⟨⟨{ e1 with rs := e1.rs }, e.objs⟩, { w1 with glob := (ienv.choice w1.glob 4).2 }, ?_, k2, k1, rfl⟩
  unfold ObjEnsemble.fit
  simp only [h1, h2]
  unfold fitObjMembers
  simp only [hst]

end

/-! ## The hypotheses are met -/

section
variable {G : Type} [Gen G ℝ] [LawfulGen G]

/-- Successive draws are 0, 1, 2, … modulo the number of choices. -/
def exInEnv : InEnv ℝ Nat where
  choice r n := (r % n, r + 1)
  pg _ x := x

theorem exInEnv_law : ChoiceLaw exInEnv := fun r _ hn => Nat.mod_lt r hn

/-- Two members with random orders. -/
noncomputable def exObjEns (objs : List Nat) : ObjEnsemble ℝ Nat := ⟨{ exEns with reps := [] }, objs⟩

/-- Both objects are `Derivate(random=True)`. -/
def exHeap : Heap := fun _ => .derivate 1 true

theorem exHeap_rep (k : Nat) : ObjRep exInEnv (exHeap k) 10 := by
  intro t' ht'
  cases ht' with
  | same _ hr => exact absurd rfl hr
  | order o o' h1 h2 => exact ⟨derivateRow o', (· - o'), arrRep_derivate o', by simp only; omega, by simp⟩

theorem exObj_usable (seed : Nat → G) (objs : List Nat) :
    ObjUsable (exEnsEnv seed) (exObjEns objs).base objs.length 1 10 := by
  intro i _ rs w
  obtain ⟨o, h1, h2, h3, h4, h5, h6, h7, h8, h9, h10, h11, -⟩ := exEns_args seed (i := i) rs w
  refine ⟨o, h1, h2, by rw [h3]; norm_num, fun m _ _ => ⟨by omega, ?_, h10, ?_, ?_⟩, by simp [h7]⟩
  · rw [h8, h9]; norm_num
  · rw [h11]; norm_num
  · intro _; exact Or.inl ⟨_, h5, by simp, by simp⟩

theorem exArr10_wf : (XIn.array .float64 exArr10).WF := by simp [XIn.WF, exArr10]

theorem exObj_fits (seed : Nat → G) (gs : Nat → Nat → G) (a b : Nat) (w : World Nat) :
    ∃ e' h' w', (exObjEns [a, b]).fit exInEnv (exEnsEnv seed) gs (fun _ => List.range) [0, 1] exHeap w
      (.array .float64 exArr10) [0, 1] = (e', h', w', .ok ()) :=
  C91_fit_succeeds exInEnv_law (exEns_cv seed) gs (fun _ => range_schedule) (e := exObjEns [a, b])
    (by simp [exObjEns, List.range_succ]) (by simp [exObjEns]) w (fun k _ => exHeap_rep k) (exObj_usable seed _)
    (exEns_learns seed _) exArr10_wf (by simp [exArr10]) (by simp [exArr10]) (by simp [exArr10]) (t := 2)
    (by simp [checkNJobs, exEns, exEnsEnv, exObjEns]) (by norm_num) (by simp [exEnsEnv])

/-- Distinct objects: the hypotheses of `C91_distinct` and `C91_not_random_state` are met; the orders drawn are
1 and 2. -/
example (seed : Nat → G) (gs : Nat → Nat → G) :
    ∃ e' h' w', (exObjEns [0, 1]).fit exInEnv (exEnsEnv seed) gs (fun _ => List.range) [0, 1] exHeap ⟨0, 1⟩
      (.array .float64 exArr10) [0, 1] = (e', h', w', .ok ()) ∧ Synced exInEnv h' e' ∧
      h' 0 = .derivate 1 true ∧ h' 1 = .derivate 2 true ∧ w'.glob = 2 := by
  obtain ⟨e', h', w', hf⟩ := exObj_fits seed gs 0 1 ⟨0, 1⟩
  have hord : ([0, 1] : List Nat).Perm (List.range (exObjEns [0, 1]).objs.length) := by simp [exObjEns, List.range_succ]
  obtain ⟨n, hn⟩ := C91_not_random_state hord rfl (r := 0) rfl hf
  refine ⟨e', h', w', hf, C91_distinct hord (by simp [exObjEns]) hf, ?_⟩
  rw [show h' = (h', w').1 from rfl, show w' = (h', w').2 from rfl, ← hn]
  refine ⟨rfl, rfl, rfl⟩

/-- Another state of the global generator, same `random_state`: other orders. -/
example (seed : Nat → G) (gs : Nat → Nat → G) :
    ∃ e' h' w', (exObjEns [0, 1]).fit exInEnv (exEnsEnv seed) gs (fun _ => List.range) [0, 1] exHeap ⟨2, 1⟩
      (.array .float64 exArr10) [0, 1] = (e', h', w', .ok ()) ∧
      h' 0 = .derivate 3 true ∧ h' 1 = .derivate 4 true := by
  obtain ⟨e', h', w', hf⟩ := exObj_fits seed gs 0 1 ⟨2, 1⟩
  have hord : ([0, 1] : List Nat).Perm (List.range (exObjEns [0, 1]).objs.length) := by simp [exObjEns, List.range_succ]
  obtain ⟨n, hn⟩ := C91_not_random_state hord rfl (r := 0) rfl hf
  refine ⟨e', h', w', hf, ?_⟩
  rw [show h' = (h', w').1 from rfl, ← hn]
  exact ⟨rfl, rfl⟩

/-- One object twice: the first member was fitted on first differences and predicts with second ones. -/
theorem C91_shared_object_example (seed : Nat → G) (gs : Nat → Nat → G) :
    ∃ e' h' w' m, (exObjEns [0, 0]).fit exInEnv (exEnsEnv seed) gs (fun _ => List.range) [0, 1] exHeap ⟨0, 1⟩
      (.array .float64 exArr10) [0, 1] = (e', h', w', .ok ()) ∧ e'.base.models[0]? = some m ∧
      m.rep = derivate 1 ∧ (h' 0).transform exInEnv = derivate 2 ∧ ¬ Synced exInEnv h' e' := by
  obtain ⟨e', h', w', hf⟩ := exObj_fits seed gs 0 0 ⟨0, 1⟩
  obtain ⟨m, h1, h2, h3⟩ := C91_shared_object (b := (exObjEns [0, 0]).base) rfl (r := 0) rfl (k := 0) (o := 1) rfl hf
  refine ⟨e', h', w', m, hf, h1, h2, h3, ?_⟩
  intro hs
  obtain ⟨b', n, st, -, -, -, -, ho, -, -⟩ := obj_fit_ok (by simp [exObjEns, List.range_succ]) hf
  have e := hs.2 0 m 0 h1 (by rw [ho]; rfl)
  rw [h2, h3] at e
  have := congrFun e (.array .float64 exArr10)
  have hn : ∀ k, (derivate (1 + k) (.array .float64 exArr10) : Res (XIn ℝ)) =
      .ok (.array .float64 (derivate3 (1 + k) exArr10)) := by
    intro k
    unfold derivate
    rw [if_neg (by omega)]
  change derivate (1 + 0) _ = derivate (1 + 1) _ at this
  rw [hn, hn, Except.ok.injEq, XIn.array.injEq] at this
  have h4 := congrArg Arr3.nt this.2
  have h5 : (derivate3 (1 + 0) exArr10).nt = 9 := rfl
  have h6 : (derivate3 (1 + 1) exArr10).nt = 8 := rfl
  rw [h5, h6] at h4
  omega

/-- A refit on two series of different lengths raises, and changes the order of the object of the members fitted before. -/
example (seed : Nat → G) (gs : Nat → Nat → G) :
    ∃ e' w', (exObjEns [0, 1]).fit exInEnv (exEnsEnv seed) gs (fun _ => List.range) [0, 1] exHeap ⟨1, 1⟩
        (.list [⟨[[1, 2]], 2⟩, ⟨[[1, 2, 3]], 3⟩]) [0, 1] =
      (e', Function.update exHeap 0 (.derivate 2 true), w', .error .valueError) := by
  have ht : checkNJobs 4 ((exObjEns [0, 1]).now exInEnv exHeap).nJobs = .ok 2 := by
    simp [checkNJobs, exEns, exObjEns, ObjEnsemble.now]
  obtain ⟨outer, inner, hm, h1, h2, h3, -, -, -⟩ := C45_split 4 ((exObjEns [0, 1]).now exInEnv exHeap) ht
    (by norm_num) (by simp [exObjEns, ObjEnsemble.now])
  have hin : inner ≤ 2 := by nlinarith
  obtain ⟨e', w', hf, -⟩ := C91_failed_refit (env := exEnsEnv seed) (gs := gs) (sched := fun _ => List.range) (order := [1])
    (e := exObjEns [0, 1]) (i := 0) (k := 0) (o := 1) rfl (h := exHeap) rfl (w := ⟨1, 1⟩) (y := [0, 1]) hm
    (w1 := ⟨1, inner⟩) (by
      unfold setNumThreads
      simp only [Option.getD_some]
      rw [if_pos ⟨h2, by simp [exEnsEnv]; omega⟩])
    (x := ⟨[[1, 2]], 2⟩) (xs := [⟨[[1, 2, 3]], 3⟩]) (by simp)
  exact ⟨e', w', hf⟩

end
end Convst.Props
