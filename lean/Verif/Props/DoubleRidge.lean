import Verif.Proofs.ScalerDouble
import Verif.Proofs.LinearAny
import Verif.Spec.DoubleRidge
import Verif.Props.DoubleFit

/-!
# C120: `R_DST_Ridge` in double precision on data of moderate magnitude
-/

set_option autoImplicit false
set_option linter.unusedSectionVars false

namespace Convst.Props
open Convst Spec

theorem args_maxChannels {G K R L : Type} [Scalar K] {env : ClfEnv G K R L} {w w1 : World R} {c : RidgeClf K R L}
    {o : Rdst K R} (hinit : Rdst.init env.toEnv w (c.args env) = (w1, .ok o)) : o.maxChannels = none := by
  unfold Rdst.init at hinit
  repeat' split at hinit
  all_goals (try (simp at hinit; done))
  all_goals (
    simp only [Prod.mk.injEq, Except.ok.injEq] at hinit
    obtain ⟨-, rfl⟩ := hinit
    rfl)

section
variable {F : FloatFormat} {δ t big : ℝ} {N : Nat} {G R L : Type} [Gen G (Ieee F)] [LawfulIeee G (F := F)]
  [DecidableEq L]

theorem ridge_finite (hD : Double F) {env : ClfEnv G (Ieee F) R L} {c : RidgeClf (Ieee F) R L} {w w1 w' : World R}
    {o o' : Rdst (Ieee F) R} {gs : Nat → G} {X : XIn (Ieee F)} {y : List L} {M : List (List (Ieee F))} {n : Nat}
    (hinit : Rdst.init env.toEnv w (c.args env) = (w1, .ok o))
    (hfit : ∀ order, IsSchedule order → o.fit env.toEnv gs order w1 X y = (o', w', .ok ()))
    (hM : o'.transform X = .ok M) (hne : M ≠ []) (hb : BdRows n M) (hl : M.length ≤ 2 ^ 40) (hy : y.length = M.length)
    (hr : AcceptsFinite env.ridge) :
    ((∀ order, IsSchedule order → (c.fit env gs order w X y).2.2 = .error .valueError) ∧
      ∀ j, j < n → std (K := Ieee F) (M.map (List.getD · j 0)) = .fin 0) ∨
    ∃ c' Z m, (∀ order, IsSchedule order → c.fit env gs order w X y = (c', w', .ok ())) ∧
      FiniteRows Z ∧ Z.length = M.length ∧ env.ridge Z y = .ok m ∧
      ∀ X' M', o'.transform X' = .ok M' → M' ≠ [] → BdRows n M' → ∃ Z' P, FiniteRows Z' ∧ Z'.length = M'.length ∧
        c'.predict X' = m.predict Z' ∧ m.predict Z' = .ok P ∧ P.length = M'.length ∧ ∀ p ∈ P, p ∈ m.classes := by
  have hnc : nCols M = n := by
    cases M with
    | nil => exact absurd rfl hne
    | cons r M => exact (hb r (by simp)).1
  have hcf : ∀ order, IsSchedule order → c.fit env gs order w X y =
      match fitPipeline env M y with
      | .error e => ({ c with classifier := some none, transformer := some o', rs := c.rs.after o' }, w', .error e)
      | .ok sm => ({ c with classifier := some (some sm), transformer := some o', rs := c.rs.after o' }, w', .ok ()) := by
    intro order ho
    unfold RidgeClf.fit
    simp only [hinit, hfit order ho, hM, Res.bind_ok]
    cases fitPipeline env M y <;> rfl
  cases hs : Scaler.fitStandard M n with
  | error e =>
    have heq := fitStandard_any (fun r hr => (hb r hr).1)
    simp only at heq
    rw [hs] at heq
    split at heq
    · rename_i hc
      cases heq
      refine Or.inl ⟨?_, ?_⟩
      · intro order ho
        rw [hcf order ho]
        unfold fitPipeline
        rw [hnc, hs]
        rfl
      · intro j hj
        have hc := hc.resolve_left hne
        by_contra hne'
        have : j ∈ whereIdx n fun j => !(Scalar.eqb (std (colAt M j)) 0) := by
          rw [mem_whereIdx, Bool.not_eq_true', Bool.eq_false_iff]
          refine ⟨hj, ?_⟩
          intro h0
          exact hne' ((ieee_eqb_zero _).1 h0)
        rw [hc] at this
        cases this
    · cases heq
  | ok s =>
    obtain ⟨Z, hZ, hZl, hZf⟩ := hD.scaler hb hl hs hb
    have hatts : 1 ≤ s.atts.length := by
      have heq := fitStandard_any (fun r hr => (hb r hr).1)
      simp only at heq
      rw [hs] at heq
      split at heq
      · cases heq
      · rename_i hc
        cases heq
        push Not at hc
        exact List.length_pos_of_ne_nil hc.2
    have hZne : Z ≠ [] := by
      intro h0
      rw [h0] at hZl
      exact hne (List.length_eq_zero_iff.1 hZl.symm)
    obtain ⟨m, hm, hwf⟩ := hr Z y s.atts.length hZne hatts (fun row h => (hZf row h).1) (fun row h => (hZf row h).2)
      (hy.trans hZl.symm)
    have hp : fitPipeline env M y = .ok (s, m) := by
      unfold fitPipeline
      rw [hnc, hs, Res.bind_ok, hZ, Res.bind_ok, hm]
      rfl
    refine Or.inr ⟨_, Z, m, fun order ho => by rw [hcf order ho, hp], fun row h => (hZf row h).2, hZl, hm, ?_⟩
    intro X' M' hM' hne' hb'
    obtain ⟨Z', hZ', hZl', hZf'⟩ := hD.scaler hb hl hs hb'
    obtain ⟨P, hP, hPl, hPc⟩ := linear_predict_any hwf (Z := Z') (by
      intro h0
      rw [h0] at hZl'
      exact hne' (List.length_eq_zero_iff.1 hZl'.symm)) (fun z hz => (hZf' z hz).1)
    refine ⟨Z', P, fun row h => (hZf' row h).2, hZl', ?_, hP, hPl.trans hZl', hPc⟩
    unfold RidgeClf.predict
    simp only [hM', Res.bind_ok]
    unfold predictPipeline
    simp only [hZ', Res.bind_ok]

/-- **C120.** `R_DST_Ridge` in double precision, 3D arrays.  Suppose that the ridge classifier of scikit-learn accepts every
matrix of finite numbers.  On training data of moderate magnitude with usable parameters (those of the transformer built from the
arguments), `fit` succeeds with the same result for every schedule, or raises `ValueError` because all features
have the standard deviation 0; the matrix it gives to the ridge classifier contains finite numbers only.  After a successful
`fit`, `predict` on data of moderate magnitude gives finite numbers only to the linear model and returns one of its
classes for each series. -/
theorem C120_same_length (hD : Double F) (h : Ranged F δ t big N) (hN : N ≤ 2 ^ 40) (env : ClfEnv G (Ieee F) R L)
    (hr : AcceptsFinite env.ridge) (c : RidgeClf (Ieee F) R L) {w w1 : World R} {o : Rdst (Ieee F) R}
    (hinit : Rdst.init env.toEnv w (c.args env) = (w1, .ok o)) (dt : DType) (A : Arr3 (Ieee F)) (y : List L)
    (hty : o.transformType = .uni ∨ o.transformType = .multi ∨ o.transformType = .auto ∧ dt ≠ .otherDtype)
    (hWF : (XIn.array dt A).WF) (hne : A.data ≠ []) (hnf : 1 ≤ A.nf) (hnf' : A.nf ≤ 2 ^ 40) (hnt : 4 ≤ A.nt)
    (hntN : A.nt < N) (hns : A.data.length ≤ 2 ^ 40)
    (hval : ∀ x ∈ A.data, ∀ row ∈ x, ∀ a ∈ row, Finite (Moderate F) a)
    (hy : y.length = A.data.length) (hp : IeeeParams o A.nt N) (gs : Nat → G) :
    (∃ o' w' M, (∀ order, IsSchedule order → o.fit env.toEnv gs order w1 (.array dt A) y = (o', w', .ok ()) ∧
        (c.fit env gs order w (.array dt A) y).2.2 = .error .valueError) ∧ o'.transform (.array dt A) = .ok M ∧
      ∀ j, j < nCols M → std (K := Ieee F) (M.map (List.getD · j 0)) = .fin 0) ∨
    ∃ c' w' Z m, (∀ order, IsSchedule order → c.fit env gs order w (.array dt A) y = (c', w', .ok ())) ∧
      FiniteRows Z ∧ Z.length = A.data.length ∧ env.ridge Z y = .ok m ∧
      ∀ (dt' : DType) (B : Arr3 (Ieee F)), (XIn.array dt' B).WF → B.data ≠ [] → B.nf = A.nf → A.nt ≤ B.nt →
        B.nt ≤ 2 ^ 40 → (∀ x ∈ B.data, ∀ row ∈ x, ∀ a ∈ row, Finite (Moderate F) a) →
        ∃ Z' P, FiniteRows Z' ∧ Z'.length = B.data.length ∧ c'.predict (.array dt' B) = m.predict Z' ∧
          m.predict Z' = .ok P ∧ P.length = B.data.length ∧ ∀ p ∈ P, p ∈ m.classes := by
  have hmc := args_maxChannels hinit
  obtain ⟨o', w', S, h1, h2, -, h4⟩ := bd_fit_same_length hD h hN env.toEnv o w1 dt A y hty hWF hne hnf hnf' hnt hntN hval
    hy hp (by simp [hmc]) gs
  obtain ⟨M, hM, hMl, hMb⟩ := h4 dt A hWF hne rfl le_rfl (by omega) hval
  have hMne : M ≠ [] := by
    intro h0
    rw [h0] at hMl
    exact hne (List.length_eq_zero_iff.1 hMl.symm)
  have hnc : nCols M = 3 * Shapelets.count S := by
    cases M with
    | nil => exact absurd rfl hMne
    | cons r M => exact (hMb r (by simp)).1
  rcases ridge_finite hD hinit h1 hM hMne hMb (hMl ▸ hns) (hy.trans hMl.symm) hr with ⟨a1, a2⟩ | ⟨c', Z, m, a1, a2, a3, a4, a5⟩
  · exact Or.inl ⟨o', w', M, fun order ho => ⟨h1 order ho, a1 order ho⟩, hM, hnc ▸ a2⟩
  · refine Or.inr ⟨c', w', Z, m, a1, a2, a3.trans hMl, a4, ?_⟩
    intro dt' B b1 b2 b3 b4 b5 b6
    obtain ⟨M', hM', hMl', hMb'⟩ := h4 dt' B b1 b2 b3 b4 b5 b6
    rw [← hMl']
    refine a5 _ M' hM' ?_ hMb'
    intro h0
    rw [h0] at hMl'
    exact b2 (List.length_eq_zero_iff.1 hMl'.symm)

/-- **C120.** The same for series of different lengths given as a list of 2D arrays. -/
theorem C120_variable_length (hD : Double F) (h : Ranged F δ t big N) (hN : N ≤ 2 ^ 40) (env : ClfEnv G (Ieee F) R L)
    (hr : AcceptsFinite env.ridge) (c : RidgeClf (Ieee F) R L) {w w1 : World R} {o : Rdst (Ieee F) R}
    (hinit : Rdst.init env.toEnv w (c.args env) = (w1, .ok o)) (xs : List (Mat (Ieee F))) (y : List L)
    (hty : o.transformType.Var ∨ o.transformType = .auto)
    (hwf : ∀ x ∈ xs, x.WF) (hne : xs ≠ []) (nf : Nat) (hnf1 : 1 ≤ nf) (hnf2 : nf ≤ 2 ^ 40)
    (hnf : ∀ x ∈ xs, x.rows.length = nf) (m : Nat) (hm4 : 4 ≤ m) (hmN : m < N) (hlen : ∀ x ∈ xs, m ≤ x.len)
    (hm : o.minLen = some m ∨ o.minLen = none ∧ ∃ x ∈ xs, x.len = m) (hns : xs.length ≤ 2 ^ 40)
    (hval : ∀ x ∈ xs, ModerateMat x) (hy : y.length = xs.length) (hp : IeeeParams o m N) (gs : Nat → G) :
    (∃ o' w' M, (∀ order, IsSchedule order → o.fit env.toEnv gs order w1 (.list xs) y = (o', w', .ok ()) ∧
        (c.fit env gs order w (.list xs) y).2.2 = .error .valueError) ∧ o'.transform (.list xs) = .ok M ∧
      ∀ j, j < nCols M → std (K := Ieee F) (M.map (List.getD · j 0)) = .fin 0) ∨
    ∃ c' w' Z lin, (∀ order, IsSchedule order → c.fit env gs order w (.list xs) y = (c', w', .ok ())) ∧
      FiniteRows Z ∧ Z.length = xs.length ∧ env.ridge Z y = .ok lin ∧
      ∀ zs : List (Mat (Ieee F)), (∀ z ∈ zs, z.WF) → zs ≠ [] → (∀ z ∈ zs, z.rows.length = nf) →
        (∀ z ∈ zs, m ≤ z.len) → (∀ z ∈ zs, ModerateMat z) →
        ∃ Z' P, FiniteRows Z' ∧ Z'.length = zs.length ∧ c'.predict (.list zs) = lin.predict Z' ∧
          lin.predict Z' = .ok P ∧ P.length = zs.length ∧ ∀ p ∈ P, p ∈ lin.classes := by
  have hmc := args_maxChannels hinit
  obtain ⟨o', w', S, h1, h2, -, h4⟩ := bd_fit_variable_length hD h hN env.toEnv o w1 xs y hty hwf hne nf hnf1 hnf2 hnf m hm4
    hmN hlen hm hval hy hp (by simp [hmc]) gs
  obtain ⟨M, hM, hMl, hMb⟩ := h4 xs hwf hne hnf hlen hval
  have hMne : M ≠ [] := by
    intro h0
    rw [h0] at hMl
    exact hne (List.length_eq_zero_iff.1 hMl.symm)
  have hnc : nCols M = 3 * Shapelets.count S := by
    cases M with
    | nil => exact absurd rfl hMne
    | cons r M => exact (hMb r (by simp)).1
  rcases ridge_finite hD hinit h1 hM hMne hMb (hMl ▸ hns) (hy.trans hMl.symm) hr with ⟨a1, a2⟩ | ⟨c', Z, lin, a1, a2, a3, a4, a5⟩
  · exact Or.inl ⟨o', w', M, fun order ho => ⟨h1 order ho, a1 order ho⟩, hM, hnc ▸ a2⟩
  · refine Or.inr ⟨c', w', Z, lin, a1, a2, a3.trans hMl, a4, ?_⟩
    intro zs b1 b2 b3 b4 b5
    obtain ⟨M', hM', hMl', hMb'⟩ := h4 zs b1 b2 b3 b4 b5
    rw [← hMl']
    refine a5 _ M' hM' ?_ hMb'
    intro h0
    rw [h0] at hMl'
    exact b2 (List.length_eq_zero_iff.1 hMl'.symm)

end

/-! ## Concrete cases -/

/-- An environment whose ridge classifier always answers class 0 or 1. -/
noncomputable def ridgeEnv (env : Env IeeeGen Nat Nat) : ClfEnv IeeeGen (Ieee .float64) Nat Nat :=
  { env with
    randomState := id
    ridge := fun Z _ => .ok ⟨[List.replicate (nCols Z) (.fin 0)], [.fin 0], [0, 1]⟩ }

theorem ridgeEnv_accepts (env : Env IeeeGen Nat Nat) : AcceptsFinite (ridgeEnv env).ridge := by
  intro Z y n hne _ hZ _ _
  refine ⟨_, rfl, ⟨by simp, rfl, ?_, rfl⟩⟩
  intro c hc
  rw [List.mem_singleton.1 hc, List.length_replicate]
  cases Z with
  | nil => exact absurd rfl hne
  | cons r Z => exact hZ r (by simp)

/-- A classifier with the default parameters but for the number of shapelets. -/
noncomputable def ridgeClf : RidgeClf (Ieee .float64) Nat Nat where
  p := { transformType := "auto", phase := false, alpha := .fin (1 / 2), normalizeOutput := false, nSamples := none, nShp := 4, lens := .ints [11], bounds := none, reduction := .fin (1 / 2), prime := true, pNorm := .fin (4 / 5), percentiles := [.fin 5, .fin 10], rs := .glob, maxChannels := none, minLen := none, nJobs := .bool false }
  rs := .seed 7
  nJobs := .bool false
  transformer := none
  classifier := none

theorem ridgeClf_init (env : Env IeeeGen Nat Nat) (w : World Nat) :
    Rdst.init (ridgeEnv env).toEnv w (ridgeClf.args (ridgeEnv env)) = (w, .ok { ieeeObj .auto with nJobs := 0 }) := by
  have h1 : validateTransformType "auto" = .ok .auto := by decide +kernel
  have h2 : Scalar.leb (1 : Ieee .float64) (.fin (1 / 2)) = false := by
    have := ieee_leb_fin (F := .float64) 1 (1 / 2)
    exact this.trans (by norm_num)
  have h3 : Scalar.leb (.fin 5 : Ieee .float64) (.fin 10) = true := by
    rw [ieee_leb_fin]; norm_num
  unfold Rdst.init
  simp only [ridgeClf, RidgeClf.args, h1, h2, validatePercentiles, h3]
  rfl

/-- The hypotheses of `C120_same_length` are met. -/
example (env : Env IeeeGen Nat Nat) (w : World Nat) (gs : Nat → IeeeGen) :=
  C120_same_length C117_float64 C113_float64 le_rfl (ridgeEnv env) (ridgeEnv_accepts env) ridgeClf (ridgeClf_init env w)
    .float64 plainArr [0, 1] (Or.inr (Or.inr ⟨rfl, by simp⟩)) (by simp [XIn.WF, plainArr]) (by simp [plainArr])
    (by simp [plainArr]) (by simp [plainArr]) (by simp [plainArr]) (by simp [plainArr]) (by simp [plainArr])
    plainArr_moderate (by simp [plainArr])
    { ieeeObj_ok .auto 5 with } gs

/-- The hypotheses of `C120_variable_length` are met. -/
example (env : Env IeeeGen Nat Nat) (w : World Nat) (gs : Nat → IeeeGen) :=
  C120_variable_length C117_float64 C113_float64 le_rfl (ridgeEnv env) (ridgeEnv_accepts env) ridgeClf (ridgeClf_init env w)
    plainList [0, 1] (Or.inr rfl) (by simp [plainList, Mat.WF]) (by simp [plainList]) 1 le_rfl (by norm_num)
    (by simp [plainList]) 4 le_rfl (by norm_num) (by simp [plainList]) (Or.inr ⟨rfl, by simp [plainList]⟩)
    (by simp [plainList]) plainList_moderate (by simp [plainList]) { ieeeObj_ok .auto 4 with } gs

end Convst.Props
