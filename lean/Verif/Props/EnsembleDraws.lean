import Verif.Props.EnsembleEnd
import Verif.Proofs.Reach

/-!
# `R_DST_Ensemble`: `fit` succeeds, and the draws from the shared generator (C45, C50, C51, C52, C67)
-/

set_option autoImplicit false
set_option linter.unusedSectionVars false

namespace Convst.Props
open Convst Spec

/-! ## `fit` succeeds -/

section
variable {G R : Type} [Gen G ℝ] [LawfulGen G]

/-- Parameters of the ensemble usable for training series of `n` points and `nf` channels: for every
member the transformer can be built, has type `'multivariate'`, `alpha ≤ 1`, usable parameters for the
length it sees and `max_channels` not above the number of channels. -/
def EnsUsable (env : EnsEnv G ℝ R) (e : Ensemble ℝ R) (nf n : Nat) (g : Nat → Nat → Nat) : Prop :=
  ∀ i < e.reps.length, ∀ rs w, ∃ o, Rdst.init env.toEnv w (e.args i rs) = (w, .ok o) ∧
    o.transformType = .multi ∧ o.alpha ≤ 1 ∧ GoodParams o (g i n) ∧
    ∀ m, o.maxChannels = some m → 1 ≤ m ∧ m ≤ nf

theorem EnsUsable.good {env : EnsEnv G ℝ R} {e : Ensemble ℝ R} {nf n : Nat} {g : Nat → Nat → Nat}
    (h : EnsUsable env e nf n g) (dt : DType) : EnsGood env e dt nf n g := by
  intro i hi rs w w1 o ho
  obtain ⟨o', h1, h2, -, h4, h5⟩ := h i hi rs w
  rw [h1, Prod.mk.injEq, Except.ok.injEq] at ho
  obtain ⟨-, rfl⟩ := ho
  exact ⟨Or.inr (Or.inl h2), h4, h5⟩

/-- The learner accepts every non-empty rectangular matrix with the labels `y`. -/
def Learns (ridgeCV : List (List ℝ) → List Int → Res (Linear ℝ Int × List (List ℝ))) (y : List Int) : Prop :=
  ∀ F n, F.length = y.length → F ≠ [] → 1 ≤ n → (∀ r ∈ F, r.length = n) → ∃ r, ridgeCV F y = .ok r

theorem fitMember_total {env : EnsEnv G ℝ R} {e : Ensemble ℝ R} {gs : Nat → G}
    {order : Nat → List Nat} (ho : IsSchedule order) {dt : DType} {A : Arr3 ℝ} {y : List Int} {i : Nat}
    {f : Nat → List ℝ → List ℝ} {g : Nat → Nat → Nat}
    (hrep : ∀ i rep, e.reps[i]? = some rep → ArrRep rep (f i) (g i))
    (hgood : EnsUsable env e A.nf A.nt g) (hlearn : Learns env.ridgeCV y)
    (hWF : (XIn.array dt A).WF) (hne : A.data ≠ []) (hnf : 1 ≤ A.nf)
    (hnt : ∀ i < e.reps.length, 4 ≤ g i A.nt) (hy : y.length = A.data.length) (hi : i < e.reps.length)
    (rs : RState R) (w : World R) :
    ∃ rs' w' m, fitMember env e gs order (.array dt A) y i rs w = (rs', w', .ok m) := by
  have h1 : e.reps[i]? = some e.reps[i] := List.getElem?_eq_getElem hi
  have hr := hrep i _ h1
  obtain ⟨dt', hXi, -⟩ := hr.arr dt A hWF hne hnf
  obtain ⟨o0, h3, hty, hal, hgp, hmc⟩ := hgood i hi rs w
  have hwf' := arrRep_wf (dt := dt) (dt' := dt') hr.len hWF
  obtain ⟨o', w2, S, hfit', hS, hwfS, hph, hcnt, htr⟩ := C43_object_same_length env.toEnv o0 w dt'
    ⟨A.data.map fun s => s.map (f i), A.nf, g i A.nt⟩ y (Or.inr (Or.inl hty)) hwf' (by simpa using hne) hnf
    (hnt i hi) (by simpa using hy) hgp hmc gs ho
  obtain ⟨M, hM, -⟩ := htr dt' ⟨A.data.map fun s => s.map (f i), A.nf, g i A.nt⟩ hwf' (by simpa using hne) rfl le_rfl
  obtain ⟨rfl, -⟩ := transform_rows hS hwfS hwf' (xs := (A.data.map fun s => s.map (f i)).map fun s => ⟨s, g i A.nt⟩)
    rfl (by
      intro x hx
      obtain ⟨s, hs, rfl⟩ := List.mem_map.1 hx
      exact (hwf' s hs).1) hM
  set F := ((A.data.map fun s => s.map (f i)).map fun s => (⟨s, g i A.nt⟩ : Mat ℝ)).map (objRow o'.phase S) with hFdef
  have hrow : ∀ r ∈ F, r.length = 3 * Shapelets.count S := by
    intro r hr
    obtain ⟨x, -, rfl⟩ := List.mem_map.1 hr
    exact objRow_length _ _ _
  have hc1 : 1 ≤ 3 * Shapelets.count S := by
    have := hcnt hty hal
    have h2 := hgp.nShp
    have h3 := List.length_pos_of_ne_nil hne
    simp only [List.length_map] at this
    have : 1 ≤ min o0.nShp A.data.length := by omega
    omega
  have hFne : F ≠ [] := by simpa [hFdef] using hne
  obtain ⟨f1, f2⟩ := fitPlainScaler_ok hFne hrow
  obtain ⟨sc, hsc⟩ := f1 hc1
  obtain ⟨l1, l2⟩ := f2 sc hsc
  have hpt := plainTransform_ok l1 l2 hrow
  obtain ⟨r, hr'⟩ := hlearn (F.map (plainStd sc)) _ (by simp [hFdef, hy]) (by simpa using hFne) hc1 (by
    intro r hr
    obtain ⟨x, hx, rfl⟩ := List.mem_map.1 hr
    rw [plainStd_length, hrow x hx])
  refine ⟨o'.rs, w2, ⟨e.reps[i], o', sc, r.1, r.2⟩, ?_⟩
  unfold fitMember
  rw [h1]
  simp only [hXi]
  rw [h3]
  simp only [hfit', hM, Res.bind_ok, hsc, hpt, hr']
  rfl

theorem fitMembers_total {K : Type} {fitOne : Nat → RState R → World R → RState R × World R × Res (Member K R)}
    {order : List Nat} (h : ∀ i ∈ order, ∀ rs w, ∃ rs' w' m, fitOne i rs w = (rs', w', .ok m))
    (rs : RState R) (w : World R) (slots0 : Nat → Option (Member K R)) :
    ∃ rs' w' slots, fitMembers fitOne order rs w slots0 = (rs', w', .ok slots) := by
  induction order generalizing rs w slots0 with
  | nil => exact ⟨_, _, _, rfl⟩
  | cons i order ih =>
    obtain ⟨rs', w', m, hm⟩ := h i (by simp) rs w
    obtain ⟨a, b, c, habc⟩ := ih (fun j hj => h j (by simp [hj])) rs' w' (Function.update slots0 i (some m))
    exact ⟨a, b, c, by unfold fitMembers; rw [hm]; exact habc⟩

/-- **C50.** `fit` succeeds on equal-length series: for usable parameters, at least one member, `n_jobs`
standing for between 1 and the number of threads available, and a learner that accepts the training
labels, whatever the generators and the order of the members. -/
theorem C50_fit_succeeds {env : EnsEnv G ℝ R} (hl : CVLaw env.ridgeCV) (gs : Nat → Nat → G)
    {sched : Nat → Nat → List Nat} (ho : ∀ i, IsSchedule (sched i)) {order : List Nat}
    {e : Ensemble ℝ R} (hord : order.Perm (List.range e.reps.length)) (hreps : e.reps ≠ [])
    (w : World R) {dt : DType} {A : Arr3 ℝ} {y : List Int} {f : Nat → List ℝ → List ℝ} {g : Nat → Nat → Nat}
    (hrep : ∀ i rep, e.reps[i]? = some rep → ArrRep rep (f i) (g i))
    (hgood : EnsUsable env e A.nf A.nt g) (hlearn : Learns env.ridgeCV y)
    (hWF : (XIn.array dt A).WF) (hne : A.data ≠ []) (hnf : 1 ≤ A.nf)
    (hnt : ∀ i < e.reps.length, 4 ≤ g i A.nt) (hy : y.length = A.data.length)
    {t : Int} (ht : checkNJobs env.cpu e.nJobs = .ok t) (ht1 : 1 ≤ t) (htm : t ≤ env.maxThreads) :
    ∃ e' w', e.fit env gs sched order w (.array dt A) y = (e', w', .ok ()) := by
  obtain ⟨outer, inner, hm, h1, h2, h3, -, -, -⟩ := C45_split env.cpu e ht ht1 hreps
  have hin : inner ≤ t := by nlinarith
  obtain ⟨rs', w', slots, hfm⟩ := fitMembers_total (order := order)
    (fitOne := fun i => fitMember env { e with nJobs := .int outer, nJobsRdst := some inner } (gs i) (sched i)
      (.array dt A) y i) (by
      intro i hi rs w
      have hi : i < e.reps.length := by simpa using hord.mem_iff.1 hi
      exact fitMember_total (e := { e with nJobs := .int outer, nJobsRdst := some inner }) (ho i) hrep hgood hlearn
        hWF hne hnf hnt hy hi rs w) e.rs { w with numThreads := inner } (fun _ => none)
  unfold Ensemble.fit
  rw [hm]
  simp only [Option.getD_some]
  unfold setNumThreads
  rw [if_pos ⟨h2, by omega⟩]
  simp only [hfm]
  obtain ⟨st, -, -, h5, h6⟩ := fitMembers_ok (hord.nodup_iff.2 List.nodup_range) hfm
  have hacc : ∃ accs, (((List.range e.reps.length).filterMap slots).mapM fun m => (looAcc m.cv y : Res ℝ)) = .ok accs := by
    refine ⟨_, mapM_ok (g := fun m => (agree (m.cv.map looIdx) y : ℝ) / (m.cv.map looIdx).length) ?_⟩
    intro m hm
    obtain ⟨i, hi, hs⟩ := List.mem_filterMap.1 hm
    have hi : i ∈ order := hord.mem_iff.2 hi
    obtain ⟨k, hk, rfl⟩ := List.getElem_of_mem hi
    obtain ⟨m', h7, h8⟩ := h6 k hk
    rw [hs] at h8
    cases h8
    obtain ⟨c1, -⟩ := fitMember_cv hl h7
    exact accuracy_eq (by simp [c1])
  obtain ⟨accs, hacc⟩ := hacc
  rw [hacc]
  exact ⟨_, _, rfl⟩

end

/-! ## C52: the shared generator -/

section
variable {G K R : Type} [Scalar K] [Gen G K]

/-- The state of the generator after `k` seeds were drawn. -/
def seedsDrawn {L : Type} (env : Env G R L) (r : R) : Nat → R
  | 0 => r
  | k + 1 => (env.nextSeed (seedsDrawn env r k)).2

theorem prepare_own_state {L : Type} {env : Env G R L} {o : Rdst K R} {r : R} (hr : o.rs = .own r)
    {w w' : World R} {X : XIn K} {y : List L} {o' : Rdst K R} {c : Call K L} {seed : Nat}
    (h : o.prepare env w X y = (o', w', .ok (c, seed))) :
    o'.rs = .own (env.nextSeed r).2 ∧ seed = (env.nextSeed r).1 := by
  unfold Rdst.prepare at h
  rcases h1 : setFitTransform o X with ⟨o1, r1⟩
  obtain ⟨t, rfl, -⟩ := setFitTransform_cases h1
  rw [h1] at h
  cases r1 with
  | error e => simp at h
  | ok u =>
  simp only at h
  rcases h2 : loadTrain { o with transformType := t } X with ⟨o2, r2⟩
  obtain ⟨ml, rfl, -⟩ := loadTrain_cases h2
  rw [h2] at h
  cases r2 with
  | error e => simp at h
  | ok Ax =>
  obtain ⟨A, xLen⟩ := Ax
  simp only at h
  split at h
  · simp at h
  · split at h
    · simp at h
    · simp only [drawSeed, hr] at h
      cases t <;> simp only [Prod.mk.injEq, Except.ok.injEq, reduceCtorEq, and_false] at h <;>
        (obtain ⟨rfl, -, -, rfl⟩ := h; exact ⟨rfl, rfl⟩)

/-- A boolean `n_jobs`: the construction neither reads nor changes the process. -/
theorem init_bool {L : Type} {env : Env G R L} {p : Params K R} {b : Bool} (hb : p.nJobs = .bool b)
    {w w1 : World R} {o : Rdst K R} (h3 : Rdst.init env w p = (w1, .ok o)) :
    (∀ w2, Rdst.init env w2 p = (w2, .ok o)) ∧ o.rs = p.rs ∧ o.nSamples = p.nSamples := by
  unfold Rdst.init at h3 ⊢
  simp only [hb] at h3 ⊢
  split at h3
  · simp at h3
  · split at h3
    · simp at h3
    · split at h3
      · simp at h3
      · split at h3
        · simp at h3
        · split at h3
          · simp at h3
          · simp only [Prod.mk.injEq, Except.ok.injEq] at h3
            obtain ⟨-, rfl⟩ := h3
            refine ⟨fun w2 => ?_, rfl, rfl⟩
            simp only [*]
            rfl

/-- A member fitted with its own generator in state `r`: the result does not depend on the process, and
leaves the generator one draw further. -/
theorem fitMember_own {env : EnsEnv G K R} {e : Ensemble K R} (hns : e.p.nSamples = none) {gs : Nat → G}
    {order : Nat → List Nat} {X : XIn K} {y : List Int} {i : Nat} {r : R} {rs' : RState R} {w w' : World R}
    {m : Member K R} (h : fitMember env e gs order X y i (.own r) w = (rs', w', .ok m)) :
    rs' = .own (env.nextSeed r).2 ∧
      ∀ w2, (fitMember env e gs order X y i (.own r) w2).2.2 = .ok m := by
  obtain ⟨rep, Xi, w1, o0, F, Fs, h1, h2, h3, h4, h5, h6, h7, h8, h9, h10⟩ := fitMember_ok h
  have hinit : ∀ w2 : World R, Rdst.init env.toEnv w2 (e.args i (.own r)) = (w2, .ok o0) ∧ o0.rs = .own r ∧
      o0.nSamples = none := by
    intro w2
    obtain ⟨a, b, c⟩ := init_bool (b := false) rfl h3
    exact ⟨a w2, b, c.trans hns⟩
  obtain ⟨-, hrs, hns0⟩ := hinit w
  obtain ⟨o1, r1, hp, S, ho, -, hok⟩ := fit_cases h4
  obtain ⟨c, seed, S', rfl, -, -⟩ := hok rfl
  obtain ⟨e1, -⟩ := prepare_own_state hrs hp
  constructor
  · rw [h5, ho]; exact e1
  · intro w2
    obtain ⟨o', res, hall⟩ := C42_random_state_determines_fit env.toEnv o0 hrs hns0 gs order Xi y
    rw [hall w1, Prod.mk.injEq, Prod.mk.injEq] at h4
    obtain ⟨rfl, -, rfl⟩ := h4
    unfold fitMember
    simp only [h1, h2, (hinit w2).1, hall w2, h7, h8, h9, h10, Res.bind_ok, Res.pure_eq]
    cases m
    subst h6
    rfl

/-- **C52.** With a generator of its own (`random_state` not `None`) and no subsampling, the member fitted
`k`-th is the one a single fit from the generator advanced `k` draws gives, in every process state; and the
generator is left advanced by one draw per member. -/
theorem C52_kth_draw {env : EnsEnv G K R} {gs : Nat → Nat → G} {sched : Nat → Nat → List Nat}
    {order : List Nat} {e e' : Ensemble K R} (hord : order.Perm (List.range e.reps.length))
    (hns : e.p.nSamples = none) {r : R} (hr : e.rs = .own r) {w w' : World R} {X : XIn K} {y : List Int}
    (h : e.fit env gs sched order w X y = (e', w', .ok ())) :
    e'.rs = .own (seedsDrawn env.toEnv r e.reps.length) ∧
    ∀ k (hk : k < order.length), ∃ m, e'.models[order[k]]? = some m ∧
      ∀ w2, (fitMember env e (gs order[k]) (sched order[k]) X y order[k]
        (.own (seedsDrawn env.toEnv r k)) w2).2.2 = .ok m := by
  obtain ⟨w1, st, accs, h0, hn, -, -, hmem, -, -⟩ := ens_fit_ok hord h
  have hlen : order.length = e.reps.length := by rw [hord.length_eq]; simp
  have key : ∀ k, k ≤ order.length → (st k).1 = .own (seedsDrawn env.toEnv r k) := by
    intro k
    induction k with
    | zero => intro _; rw [h0]; exact hr
    | succ k ih =>
      intro hk
      obtain ⟨m, -, h2⟩ := hmem k (by omega)
      rw [ih (by omega)] at h2
      exact (fitMember_own hns h2).1
  constructor
  · have := key _ le_rfl
    rw [hlen, hn] at this
    exact this
  · intro k hk
    obtain ⟨m, h1, h2⟩ := hmem k hk
    rw [key k (by omega)] at h2
    exact ⟨m, h1, (fitMember_own hns h2).2⟩

/-- **C52.** Two successful fits of the same ensemble (own generator, no subsampling) whose members draw in
the same order give the same members and weights, whatever happened in the process before.  In particular
for `n_jobs=1`, where the order is always the increasing one. -/
theorem C52_same_order_partial {env : EnsEnv G K R} {gs : Nat → Nat → G} {sched : Nat → Nat → List Nat}
    {order : List Nat} {e e1 e2 : Ensemble K R} (hord : order.Perm (List.range e.reps.length))
    (hns : e.p.nSamples = none) {r : R} (hr : e.rs = .own r) {w w1 w2 w3 : World R} {X : XIn K} {y : List Int}
    (h1 : e.fit env gs sched order w X y = (e1, w1, .ok ()))
    (h2 : e.fit env gs sched order w2 X y = (e2, w3, .ok ())) :
    e1.models = e2.models ∧ e1.weights = e2.weights ∧ e1.rs = e2.rs := by
  obtain ⟨a1, a2⟩ := C52_kth_draw hord hns hr h1
  obtain ⟨b1, b2⟩ := C52_kth_draw hord hns hr h2
  obtain ⟨_, _, accs1, -, -, -, l1, -, acc1, ws1⟩ := ens_fit_ok hord h1
  obtain ⟨_, _, accs2, -, -, -, l2, -, acc2, ws2⟩ := ens_fit_ok hord h2
  have hm : e1.models = e2.models := by
    apply List.ext_getElem?
    intro i
    by_cases hi : i < e.reps.length
    · have : i ∈ order := hord.mem_iff.2 (by simpa using hi)
      obtain ⟨k, hk, rfl⟩ := List.getElem_of_mem this
      obtain ⟨m, c1, c2⟩ := a2 k hk
      obtain ⟨m', d1, d2⟩ := b2 k hk
      have := (c2 w).symm.trans (d2 w)
      rw [Except.ok.injEq] at this
      rw [c1, d1, this]
    · rw [List.getElem?_eq_none (by omega), List.getElem?_eq_none (by omega)]
  refine ⟨hm, ?_, by rw [a1, b1]⟩
  rw [hm, acc2, Except.ok.injEq] at acc1
  rw [ws1, ws2, acc1]

end
end Convst.Props
