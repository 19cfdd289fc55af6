import Verif.Spec.DoubleEns
import Verif.Props.DoubleVote
import Verif.Props.EnsembleFit

/-!
# C123: `R_DST_Ensemble.fit` in double precision on data of moderate magnitude
-/

set_option autoImplicit false
set_option linter.unusedSectionVars false

namespace Convst.Props
open Convst Spec

section
variable {F : FloatFormat} {δ t big : ℝ} {N : Nat} {G R : Type} [Gen G (Ieee F)] [LawfulIeee G (F := F)]

/-- The parameters of the members, as `R_DST` receives them, are usable: member `i` sees series of `nf` channels and
`nt i` points. -/
def EnsParams (env : EnsEnv G (Ieee F) R) (e : Ensemble (Ieee F) R) (N nf : Nat) (nt : Nat → Nat) : Prop :=
  ∀ i < e.reps.length, ∀ rs w, ∃ w1 o, Rdst.init env.toEnv w (e.args i rs) = (w1, .ok o) ∧
    (o.transformType = .uni ∨ o.transformType = .multi ∨ o.transformType = .auto) ∧ IeeeParams o (nt i) N ∧
    ∀ k, o.maxChannels = some k → 1 ≤ k ∧ k ≤ nf

/-- Member `i`, built and fitted in some state, keeps no shapelet. -/
def NoShapelet (env : EnsEnv G (Ieee F) R) (e : Ensemble (Ieee F) R) (gs : Nat → Nat → G) (sched : Nat → Nat → List Nat)
    (X : XIn (Ieee F)) (y : List Int) (i : Nat) : Prop :=
  ∃ rep X' rs w w1 o o' w' S, e.reps[i]? = some rep ∧ rep X = .ok X' ∧ Rdst.init env.toEnv w (e.args i rs) = (w1, .ok o) ∧
    o.fit env.toEnv (gs i) (sched i) w1 X' y = (o', w', .ok ()) ∧ o'.shapelets = some S ∧ Shapelets.count S = 0

theorem fitMember_double (hD : Double F) (h : Ranged F δ t big N) (hN : N ≤ 2 ^ 40) {env : EnsEnv G (Ieee F) R}
    (hr : AcceptsFiniteCV env.ridgeCV) {e : Ensemble (Ieee F) R} {gs : Nat → Nat → G} {sched : Nat → Nat → List Nat}
    (ho : ∀ i, IsSchedule (sched i)) {X : XIn (Ieee F)} {y : List Int} (hy : y ≠ []) (hy40 : y.length ≤ 2 ^ 40) {nf : Nat}
    (hnf : 1 ≤ nf) (hnf40 : nf ≤ 2 ^ 40) {nt : Nat → Nat}
    (hrep : ∀ (i : Nat) rep, e.reps[i]? = some rep → ∃ X', rep X = .ok X' ∧ ModerateArr X' y.length nf (nt i))
    (hnt : ∀ i, i < e.reps.length → 4 ≤ nt i ∧ nt i < N) (hp : EnsParams env e N nf nt) {i : Nat} (hi : i < e.reps.length)
    (rs : RState R) (w : World R) :
    ∃ rs' w', (∃ m, fitMember env e (gs i) (sched i) X y i rs w = (rs', w', .ok m) ∧ e.reps[i]? = some m.rep ∧
        FiniteMember m nf (nt i) ∧ m.cv.length = y.length ∧
        ∃ Z, FiniteRows Z ∧ Z.length = y.length ∧ env.ridgeCV Z y = .ok (m.lin, m.cv)) ∨
      fitMember env e (gs i) (sched i) X y i rs w = (rs', w', .error .valueError) ∧
        NoShapelet env e gs sched X y i := by
  have h1 : e.reps[i]? = some e.reps[i] := List.getElem?_eq_getElem hi
  obtain ⟨X', hX', dt, A, rfl, hdt, hWF, hns, hAf, hAt, hval⟩ := hrep i _ h1
  obtain ⟨w1, o, hinit, hty, hpar, hmc⟩ := hp i hi rs w
  have hAne : A.data ≠ [] := by
    intro h0
    rw [h0] at hns
    exact hy (List.length_eq_zero_iff.1 hns.symm)
  obtain ⟨o', w', S, f1, f2, f3, f4⟩ := bd_fit_same_length hD h hN env.toEnv o w1 dt A y (by
      rcases hty with h | h | h
      · exact Or.inl h
      · exact Or.inr (Or.inl h)
      · exact Or.inr (Or.inr ⟨h, hdt⟩)) hWF hAne (by omega) (by omega) (by rw [hAt]; exact (hnt i hi).1)
    (by rw [hAt]; exact (hnt i hi).2) hval hns.symm (by rw [hAt]; exact hpar) (by rw [hAf]; exact hmc) (gs i)
  have hfit := f1 (sched i) (ho i)
  have hNt : nt i ≤ 2 ^ 40 := by have := (hnt i hi).2; omega
  obtain ⟨M, hM, hMl, hMb⟩ := f4 dt A hWF hAne rfl le_rfl (by omega) hval
  have hMne : M ≠ [] := by
    intro h0
    rw [h0] at hMl
    exact hAne (List.length_eq_zero_iff.1 hMl.symm)
  have heq : fitMember env e (gs i) (sched i) X y i rs w =
      (o'.rs, w', do
        let sc ← fitPlainScaler M
        let Fs ← plainTransform sc M
        let r ← env.ridgeCV Fs y
        pure ⟨e.reps[i], o', sc, r.1, r.2⟩) := by
    unfold fitMember
    rw [h1]
    simp only [hX', hinit, hfit, hM, Res.bind_ok]
  refine ⟨o'.rs, w', ?_⟩
  rw [heq]
  by_cases hc : Shapelets.count S = 0
  · refine Or.inr ⟨?_, _, _, rs, w, w1, o, o', w', S, h1, hX', hinit, hfit, f2, hc⟩
    have : fitPlainScaler M = .error .valueError := by
      unfold fitPlainScaler
      rw [if_pos]
      refine Or.inr ?_
      cases M with
      | nil => exact absurd rfl hMne
      | cons r M =>
        have := (hMb r (by simp)).1
        show r.length = 0
        omega
    rw [this]
    rfl
  · have hn1 : 1 ≤ 3 * Shapelets.count S := by omega
    obtain ⟨sc, hsc, htr⟩ := hD.plain hMne hn1 hMb (by rw [hMl, hns]; exact hy40)
    obtain ⟨Z, hZ, hZl, hZf⟩ := htr M hMb
    have hZne : Z ≠ [] := by
      intro h0
      rw [h0] at hZl
      exact hMne (List.length_eq_zero_iff.1 hZl.symm)
    obtain ⟨lin, cv, hlin, hwf, hcv⟩ := hr Z y _ hZne hn1 (fun row hrow => (hZf row hrow).1)
      (fun row hrow => (hZf row hrow).2) (by rw [hZl, hMl, hns])
    refine Or.inl ⟨⟨e.reps[i], o', sc, lin, cv⟩, ?_, h1, ?_, hcv, Z, fun row hrow => (hZf row hrow).2, by
      rw [hZl, hMl, hns], hlin⟩
    · simp only [hsc, Res.bind_ok, hZ, hlin]
      rfl
    · rintro X2 X2' ns nt' hX2 ⟨dt2, B, rfl, -, b1, b2, b3, b4, b5⟩ hns1 hle hle40
      obtain ⟨M', hM', hMl', hMb'⟩ := f4 dt2 B b1 (by
        intro h0
        rw [h0] at b2
        simp at b2
        omega) (by omega) (by omega) (by omega) b5
      obtain ⟨Z', hZ', hZl', hZf'⟩ := htr M' hMb'
      refine ⟨M', Z', hM', hZ', by rw [hZl', hMl', b2], fun row hrow => (hZf' row hrow).2, ?_⟩
      intro z hz
      refine ⟨List.zipWith (fun c b => dot z c + b) lin.coef lin.intercept, ?_, ?_⟩
      · unfold Linear.scores
        rw [if_pos]
        rw [List.all_eq_true]
        intro c hc
        rw [beq_iff_eq, hwf.cols c hc, (hZf' z hz).1]
      · rw [List.length_zipWith, hwf.intercept, Nat.min_self]

/-- The members fitted in a given order, when each of them succeeds or raises `ValueError`. -/
theorem fitMembers_either {fitOne : Nat → RState R → World R → RState R × World R × Res (Member (Ieee F) R)}
    {P : Nat → Prop} : ∀ (order : List Nat), (∀ i ∈ order, ∀ rs w, ∃ rs' w', (∃ m, fitOne i rs w = (rs', w', .ok m)) ∨
      fitOne i rs w = (rs', w', .error .valueError) ∧ P i) → ∀ rs w slots, ∃ rs' w',
      (∃ slots', fitMembers fitOne order rs w slots = (rs', w', .ok slots')) ∨
      fitMembers fitOne order rs w slots = (rs', w', .error .valueError) ∧ ∃ i ∈ order, P i := by
  intro order
  induction order with
  | nil => intro _ rs w slots; exact ⟨rs, w, Or.inl ⟨slots, rfl⟩⟩
  | cons i order ih =>
    intro hstep rs w slots
    obtain ⟨rs1, w1, ⟨m, hm⟩ | ⟨hm, hP⟩⟩ := hstep i (by simp) rs w
    · obtain ⟨rs2, w2, h2⟩ := ih (fun j hj => hstep j (by simp [hj])) rs1 w1 (Function.update slots i (some m))
      refine ⟨rs2, w2, ?_⟩
      unfold fitMembers
      rw [hm]
      rcases h2 with h2 | ⟨h2, j, hj, hPj⟩
      · exact Or.inl h2
      · exact Or.inr ⟨h2, j, by simp [hj], hPj⟩
    · refine ⟨rs1, w1, Or.inr ⟨?_, i, by simp, hP⟩⟩
      unfold fitMembers
      rw [hm]

/-- Accuracies and weights are numbers between 0 and 1. -/
theorem weight_double (hD : Double F) (hpow : SoundPow F) {b : ℝ} (hb : 0 ≤ b) {cv : List (List (Ieee F))} {y : List Int}
    (hy : y ≠ []) (hy40 : y.length ≤ 2 ^ 40) (hcv : cv.length = y.length) :
    ∃ a : Ieee F, looAcc cv y = .ok a ∧ ∃ x : ℝ, Scalar.rpow a (.fin b) = .fin x ∧ 0 ≤ x ∧ x ≤ 1 := by
  have hpos : 0 < y.length := List.length_pos_of_ne_nil hy
  unfold looAcc accuracyScore
  rw [if_pos (by simpa using hcv)]
  refine ⟨_, rfl, ?_⟩
  obtain ⟨c, hc⟩ : ∃ c, c = ((cv.map looIdx).zip y).countP fun p => p.1 == p.2 := ⟨_, rfl⟩
  have hcl : c ≤ y.length := by
    rw [hc]
    refine List.countP_le_length.trans ?_
    simp [hcv]
  rw [← hc, List.length_map, hcv, hD.ofNat (by omega), hD.ofNat (by omega)]
  have hlen : (0 : ℝ) < y.length := by exact_mod_cast hpos
  have hc' : (c : ℝ) ≤ y.length := by exact_mod_cast hcl
  have hq0 : (0 : ℝ) ≤ c / y.length := div_nonneg (Nat.cast_nonneg _) hlen.le
  have hq1 : |(c : ℝ) / y.length| ≤ (2 : ℝ) ^ (0 : Int) := by
    rw [abs_of_nonneg hq0, zpow_zero, div_le_one hlen]
    exact hc'
  have r0 := hD.sign _ hq0
  have r1 := hD.rnd_le (by norm_num) hq1
  have htop := F.top_gt
  have e1 : (.fin (c : ℝ) / .fin (y.length : ℝ) : Ieee F) = .fin (F.rnd (c / y.length)) := by
    show (if ((y.length : Nat) : ℝ) = 0 then _ else Ieee.over (F.rnd ((c : ℝ) / y.length))) = _
    rw [if_neg hlen.ne']
    apply over_fin
    rw [zpow_zero] at r1
    linarith
  rw [abs_of_nonneg r0, zpow_zero] at r1
  obtain ⟨p0, p1⟩ := hpow _ b r0 r1 hb
  rw [e1]
  refine ⟨F.r.rpow (F.rnd (c / y.length)) b, ?_, p0, p1⟩
  show Ieee.over (F.r.rpow _ b) = _
  apply over_fin
  rw [abs_of_nonneg p0]
  linarith

/-- **C123.** `R_DST_Ensemble.fit` in double precision, for representations of the training data that are 3D arrays of
moderate magnitude with usable parameters.  For every order of the members, every generator and every schedule, `fit`
succeeds, or raises `ValueError` because a member keeps no shapelet.  When it succeeds: the ridge
classifiers are given finite numbers only; there is one weight per member, a number between 0 and 1; and every member gives finite
scaled features and scores for data of moderate magnitude. -/
theorem C123_fit (hD : Double F) (h : Ranged F δ t big N) (hN : N ≤ 2 ^ 40) (hpow : SoundPow F)
    (env : EnsEnv G (Ieee F) R) (hr : AcceptsFiniteCV env.ridgeCV) (e : Ensemble (Ieee F) R) (hreps : e.reps ≠ [])
    {b : ℝ} (hb : 0 ≤ b) (hab : e.aW = .fin b)
    {k : Int} (hk : checkNJobs env.cpu e.nJobs = .ok k) (hk1 : 1 ≤ k) (hkm : k ≤ env.maxThreads)
    (X : XIn (Ieee F)) (y : List Int) (hy : y ≠ []) (hy40 : y.length ≤ 2 ^ 40) {nf : Nat} (hnf : 1 ≤ nf) (hnf40 : nf ≤ 2 ^ 40)
    {nt : Nat → Nat}
    (hrep : ∀ (i : Nat) rep, e.reps[i]? = some rep → ∃ X', rep X = .ok X' ∧ ModerateArr X' y.length nf (nt i))
    (hnt : ∀ i, i < e.reps.length → 4 ≤ nt i ∧ nt i < N) (hp : EnsParams env e N nf nt)
    (gs : Nat → Nat → G) (sched : Nat → Nat → List Nat) (ho : ∀ i, IsSchedule (sched i)) (order : List Nat)
    (hord : order.Perm (List.range e.reps.length)) (w : World R) :
    (∃ (e' : Ensemble (Ieee F) R) (w' : World R) (ws : List ℝ), e.fit env gs sched order w X y = (e', w', .ok ()) ∧ e'.weights = some (ws.map Ieee.fin) ∧
      ws.length = e.reps.length ∧ (∀ x ∈ ws, 0 ≤ x ∧ x ≤ 1) ∧ e'.models.length = e.reps.length ∧
      ∀ (i : Nat) m, e'.models[i]? = some m → e.reps[i]? = some m.rep ∧ FiniteMember m nf (nt i) ∧
        ∃ Z, FiniteRows Z ∧ Z.length = y.length ∧ env.ridgeCV Z y = .ok (m.lin, m.cv)) ∨
    (e.fit env gs sched order w X y).2.2 = .error .valueError ∧
      ∃ i, i < e.reps.length ∧ NoShapelet env e gs sched X y i := by
  have key : ∀ (a : PyVal (Ieee F)) (c : Option Int), ∀ i ∈ order, ∀ rs w, ∃ rs' w',
      (∃ m, fitMember env { e with nJobs := a, nJobsRdst := c } (gs i) (sched i) X y i rs w = (rs', w', .ok m)) ∨
      fitMember env { e with nJobs := a, nJobsRdst := c } (gs i) (sched i) X y i rs w = (rs', w', .error .valueError) ∧
        NoShapelet env e gs sched X y i := by
    intro a c i hi rs w
    have hi : i < e.reps.length := by simpa using hord.mem_iff.1 hi
    obtain ⟨rs', w', hm⟩ := fitMember_double hD h hN hr ho hy hy40 hnf hnf40 hrep hnt hp hi rs w
    refine ⟨rs', w', ?_⟩
    rcases hm with ⟨m, hm, -⟩ | hm
    · exact Or.inl ⟨m, hm⟩
    · exact Or.inr hm
  obtain ⟨outer, inner, hm, h1, h2, h3, -, -, -⟩ := C45_split env.cpu e hk hk1 hreps
  have hin : inner ≤ k := by nlinarith
  obtain ⟨rs', w', hfm⟩ := fitMembers_either order (key (.int outer) (some inner)) e.rs { w with numThreads := inner }
    (fun _ => none)
  rcases hfm with ⟨slots, hfm⟩ | ⟨hfm, i, hi, hP⟩
  · left
    obtain ⟨st, -, -, -, h6⟩ := fitMembers_ok (hord.nodup_iff.2 List.nodup_range) hfm
    have hgood : ∀ i < e.reps.length, ∃ m, slots i = some m ∧ e.reps[i]? = some m.rep ∧ FiniteMember m nf (nt i) ∧
        m.cv.length = y.length ∧ ∃ Z, FiniteRows Z ∧ Z.length = y.length ∧ env.ridgeCV Z y = .ok (m.lin, m.cv) := by
      intro i hi
      have hio : i ∈ order := hord.mem_iff.2 (by simpa using hi)
      obtain ⟨j, hj, rfl⟩ := List.getElem_of_mem hio
      obtain ⟨m, h7, h8⟩ := h6 j hj
      refine ⟨m, h8, ?_⟩
      obtain ⟨rs2, w2, hm2⟩ := fitMember_double hD h hN hr ho hy hy40 hnf hnf40 hrep hnt hp hi (st j).1 (st j).2
      have h7' : fitMember env e (gs order[j]) (sched order[j]) X y order[j] (st j).1 (st j).2 = _ := h7
      rcases hm2 with ⟨m', hm', c1, c2, c3, c4⟩ | ⟨hm', -⟩
      · rw [h7'] at hm'
        cases hm'
        exact ⟨c1, c2, c3, c4⟩
      · rw [h7'] at hm'
        cases hm'
    obtain ⟨g1, g2⟩ := filterMap_range e.reps.length slots (by
      intro i hi
      obtain ⟨m, hs, -⟩ := hgood i hi
      simp [hs])
    have hmod : ∀ (i : Nat) m, ((List.range e.reps.length).filterMap slots)[i]? = some m → i < e.reps.length ∧ slots i = some m := by
      intro i m hi
      have hlt : i < e.reps.length := by
        have := (List.getElem?_eq_some_iff.1 hi).1
        omega
      rw [g2 i hlt] at hi
      exact ⟨hlt, hi⟩
    have hacc : ∀ m ∈ (List.range e.reps.length).filterMap slots, ∃ a : Ieee F, looAcc m.cv y = .ok a ∧
        ∃ x : ℝ, Scalar.rpow a (.fin b) = .fin x ∧ 0 ≤ x ∧ x ≤ 1 := by
      intro m hm
      obtain ⟨i, hi⟩ := List.getElem?_of_mem hm
      obtain ⟨hlt, hs⟩ := hmod i m hi
      obtain ⟨m', hs', -, -, c3, -⟩ := hgood i hlt
      rw [hs] at hs'
      cases hs'
      exact weight_double hD hpow hb hy hy40 c3
    choose! acc hacc1 wt hwt1 hwt2 hwt3 using hacc
    have hmap : (((List.range e.reps.length).filterMap slots).mapM fun m => (looAcc m.cv y : Res (Ieee F))) =
        .ok (((List.range e.reps.length).filterMap slots).map acc) := mapM_ok hacc1
    unfold Ensemble.fit
    rw [hm]
    simp only [Option.getD_some]
    unfold setNumThreads
    rw [if_pos ⟨h2, by omega⟩]
    simp only [hfm]
    rw [hmap]
    simp only
    refine ⟨_, _, ((List.range e.reps.length).filterMap slots).map wt, rfl, ?_, by rw [List.length_map, g1], ?_, g1, ?_⟩
    · simp only [List.map_map]
      congr 1
      apply List.map_congr_left
      intro m hm
      rw [hab]
      exact hwt1 m hm
    · intro x hx
      obtain ⟨m, hm, rfl⟩ := List.mem_map.1 hx
      exact ⟨hwt2 m hm, hwt3 m hm⟩
    · intro i m hi
      obtain ⟨hlt, hs⟩ := hmod i m hi
      obtain ⟨m', hs', c1, c2, -, c4⟩ := hgood i hlt
      rw [hs] at hs'
      cases hs'
      exact ⟨c1, c2, c4⟩
  · right
    unfold Ensemble.fit
    rw [hm]
    simp only [Option.getD_some]
    unfold setNumThreads
    rw [if_pos ⟨h2, by omega⟩]
    simp only [hfm]
    exact ⟨trivial, i, by simpa using hord.mem_iff.1 hi, hP⟩

end

/-- The assumption on powers holds of doubles, with a correctly rounded power. -/
theorem C123_float64 : SoundPow FloatFormat.float64 := by
  intro x y h0 h1 hy
  refine ⟨rndBin_nonneg (Real.rpow_nonneg h0 y), ?_⟩
  have := rndBin_mono 52 (Real.rpow_le_one h0 h1 hy)
  have h2 := rndBin_pow (p := 52) 0
  rw [zpow_zero] at h2
  rw [h2] at this
  exact this

/-! ## A concrete case -/

/-- An environment whose ridge classifier always answers class 0 or 1. -/
noncomputable def ensEnv (env : Env IeeeGen Nat Int) : EnsEnv IeeeGen (Ieee .float64) Nat :=
  { env with
    maxThreads := 4
    ridgeCV := fun Z y => .ok (⟨[List.replicate (nCols Z) (.fin 0)], [.fin 0], [0, 1]⟩, y.map fun _ => [.fin 1]) }

theorem ensEnv_accepts (env : Env IeeeGen Nat Int) : AcceptsFiniteCV (ensEnv env).ridgeCV := by
  intro Z y n hne _ hZ _ _
  refine ⟨_, _, rfl, ⟨by simp, rfl, ?_, rfl⟩, by simp⟩
  intro c hc
  rw [List.mem_singleton.1 hc, List.length_replicate]
  cases Z with
  | nil => exact absurd rfl hne
  | cons r Z => exact hZ r (by simp)

/-- Two members, both on the raw series, that normalise with different probabilities. -/
noncomputable def twoMembers : Ensemble (Ieee .float64) Nat where
  p := ridgeClf.p
  reps := [.ok, .ok]
  pNorms := [.fin (4 / 5), .fin 1]
  rs := .glob
  aW := .fin 4
  nJobs := .none
  nJobsRdst := none
  models := []
  weights := none

theorem twoMembers_params (env : Env IeeeGen Nat Int) : EnsParams (ensEnv env) twoMembers (2 ^ 40) 1 (fun _ => 5) := by
  intro i _ rs w
  have h1 : validateTransformType "auto" = .ok .auto := by decide +kernel
  have h2 : Scalar.leb (1 : Ieee .float64) (.fin (1 / 2)) = false := by
    have := ieee_leb_fin (F := .float64) 1 (1 / 2)
    exact this.trans (by norm_num)
  have h3 : Scalar.leb (.fin 5 : Ieee .float64) (.fin 10) = true := by
    rw [ieee_leb_fin]; norm_num
  refine ⟨w, { ieeeObj .auto with nJobs := 0, rs := rs, pNorm := twoMembers.pNorms.getD i 0 }, ?_, Or.inr (Or.inr rfl), { ieeeObj_ok .auto 5 with }, ?_⟩
  · unfold Rdst.init
    simp only [twoMembers, ridgeClf, Ensemble.args, h1, h2, validatePercentiles, h3]
    rfl
  · intro k hk
    cases hk

/-- The hypotheses of `C123_fit` are met. -/
example (env : Env IeeeGen Nat Int) (w : World Nat) (gs : Nat → Nat → IeeeGen) (sched : Nat → Nat → List Nat)
    (ho : ∀ i, IsSchedule (sched i)) :=
  C123_fit C117_float64 C113_float64 le_rfl C123_float64 (ensEnv env) (ensEnv_accepts env) twoMembers (by simp [twoMembers])
    (b := 4) (by norm_num) rfl (k := 1) rfl le_rfl (by simp [ensEnv]) (.array .float64 plainArr) [0, 1] (by simp) (by simp)
    (nf := 1) le_rfl (by norm_num) (nt := fun _ => 5) (by
      intro i rep hrep
      have : rep = .ok := by
        have := List.mem_of_getElem? hrep
        simpa [twoMembers] using this
      subst this
      exact ⟨_, rfl, _, _, rfl, by simp, by simp [XIn.WF, plainArr], by simp [plainArr], rfl, rfl, plainArr_moderate⟩)
    (fun _ _ => by norm_num) (twoMembers_params env) gs sched ho [1, 0] (by
      show [1, 0].Perm (List.range 2)
      decide) w

end Convst.Props
