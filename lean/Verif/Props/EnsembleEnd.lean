import Verif.Props.EnsembleFit

/-!
# `R_DST_Ensemble`: fit, then predict (C50, C51, C52)
-/

set_option autoImplicit false
set_option linter.unusedSectionVars false

namespace Convst.Props
open Convst Spec

/-! ## Input transformers on arrays -/

/-- An input transformer that maps every channel of an array by `f`, from `n` points to `g n`. -/
structure ArrRep (rep : XIn ℝ → Res (XIn ℝ)) (f : List ℝ → List ℝ) (g : Nat → Nat) : Prop where
  mono : ∀ a b, a ≤ b → g a ≤ g b
  len : ∀ x, (f x).length = g x.length
  arr : ∀ dt A, (XIn.array dt A).WF → A.data ≠ [] → 1 ≤ A.nf →
    ∃ dt', rep (.array dt A) = .ok (.array dt' ⟨A.data.map fun s => s.map f, A.nf, g A.nt⟩) ∧
      (dt ≠ .otherDtype → dt' ≠ .otherDtype)

/-- `Raw`. -/
theorem arrRep_raw : ArrRep (fun X => .ok X) id id where
  mono _ _ h := h
  len _ := rfl
  arr dt A _ _ _ := ⟨dt, by simp, id⟩

/-- `Derivate(order=k)`. -/
theorem arrRep_derivate (k : Nat) : ArrRep (derivate k) (derivateRow k) (· - k) where
  mono _ _ h := Nat.sub_le_sub_right h k
  len x := C61_length k x
  arr dt A _ _ _ := ⟨dt, (C61_inputs k _).1 dt A rfl, id⟩

/-- `Periodigram`, for a periodogram with `g n` values on a series of `n` points. -/
theorem arrRep_periodigram (pg : List ℝ → List ℝ) (g : Nat → Nat) (hm : ∀ a b, a ≤ b → g a ≤ g b)
    (hl : ∀ x, (pg x).length = g x.length) : ArrRep (periodigramIn pg) pg g where
  mono := hm
  len := hl
  arr dt A hWF hne hnf := by
    refine ⟨.float64, ?_, fun _ => by simp⟩
    obtain ⟨s0, hs0, hs0'⟩ : ∃ s0, pyGet A.data 0 = .ok s0 ∧ s0 ∈ A.data := by
      cases hA : A.data with
      | nil => exact absurd hA hne
      | cons a l => exact ⟨a, rfl, by simp⟩
    obtain ⟨x0, hx0, hx0'⟩ : ∃ x0, pyGet s0 0 = .ok x0 ∧ x0 ∈ s0 := by
      have := (hWF s0 hs0').1
      cases hs : s0 with
      | nil => rw [hs] at this; simp at this; omega
      | cons a l => exact ⟨a, rfl, by simp⟩
    have hn : (pg x0).length = g A.nt := by rw [hl, (hWF s0 hs0').2 x0 hx0']
    unfold periodigramIn periodigram
    simp only [hs0, hx0, Res.bind_ok]
    rw [mapM_ok (g := fun s => s.map pg)]
    · rw [Res.bind_ok, Res.pure_eq, hn]
      rfl
    · intro s hs
      apply mapM_ok
      intro x hx
      rw [if_pos]
      rw [hn, hl, (hWF s hs).2 x hx]

theorem arrRep_wf {f : List ℝ → List ℝ} {g : Nat → Nat} (hl : ∀ x, (f x).length = g x.length) {dt dt' : DType}
    {A : Arr3 ℝ} (hA : (XIn.array dt A).WF) :
    (XIn.array dt' (⟨A.data.map fun s => s.map f, A.nf, g A.nt⟩ : Arr3 ℝ)).WF := by
  intro s hs
  obtain ⟨s', hs', rfl⟩ := List.mem_map.1 hs
  refine ⟨by simpa using (hA s' hs').1, ?_⟩
  intro r hr
  obtain ⟨x, hx, rfl⟩ := List.mem_map.1 hr
  rw [hl, (hA s' hs').2 x hx]

/-- The series of an array. -/
def arrSeries (A : Arr3 ℝ) : List (Mat ℝ) := A.data.map fun s => ⟨s, A.nt⟩

/-- The series transformed by a member. -/
def repSeries (f : List ℝ → List ℝ) (g : Nat → Nat) (x : Mat ℝ) : Mat ℝ := ⟨x.rows.map f, g x.len⟩

theorem arrRep_on {rep : XIn ℝ → Res (XIn ℝ)} {f : List ℝ → List ℝ} {g : Nat → Nat} (h : ArrRep rep f g)
    {dt : DType} {A : Arr3 ℝ} (hA : (XIn.array dt A).WF) (hne : A.data ≠ []) (hnf : 1 ≤ A.nf) :
    RepOn rep (.array dt A) (arrSeries A) (repSeries f g) A.nf := by
  intro X' hX'
  obtain ⟨dt', hr, -⟩ := h.arr dt A hA hne hnf
  rw [hr, Except.ok.injEq] at hX'
  subst hX'
  refine ⟨arrRep_wf (dt := dt) h.len hA, ?_, ?_⟩
  · simp only [samples, arrSeries, List.map_map]
    rfl
  · intro x hx
    obtain ⟨s, hs, rfl⟩ := List.mem_map.1 hx
    simpa [repSeries] using (hA s hs).1

/-! ## Sums of matrices exist -/

theorem addMat_ok {A B : List (List ℝ)} (h : SameShape A B) : ∃ C, addMat A B = .ok C := by
  unfold addMat
  rw [if_pos]
  · exact ⟨_, rfl⟩
  · refine ⟨h.1, ?_⟩
    rw [List.all_eq_true]
    intro b hb
    obtain ⟨i, hi, rfl⟩ := List.getElem_of_mem hb
    have hi' : i < A.length ∧ i < B.length := by simpa using hi
    have := h.2 i
    rw [getD_lt _ hi'.1, getD_lt _ hi'.2] at this
    simp [this]

theorem foldl_addMat_ok {l : List (List (List ℝ))} {A : List (List ℝ)} (h : ∀ B ∈ l, SameShape B A) :
    ∃ C, l.foldlM addMat A = .ok C := by
  induction l generalizing A with
  | nil => exact ⟨A, rfl⟩
  | cons B l ih =>
    obtain ⟨C, hC⟩ := addMat_ok (h B (by simp)).symm
    obtain ⟨h1, -, -⟩ := addMat_spec hC
    obtain ⟨D, hD⟩ := ih (A := C) fun B' hB' => (h B' (by simp [hB'])).trans h1.symm
    exact ⟨D, by rw [List.foldlM_cons, hC]; exact hD⟩

theorem sumMats_ok {Ps : List (List (List ℝ))} (hne : Ps ≠ [])
    (h : ∀ A ∈ Ps, ∀ B ∈ Ps, SameShape A B) : ∃ C, sumMats Ps = .ok C := by
  cases Ps with
  | nil => exact absurd rfl hne
  | cons A l => exact foldl_addMat_ok fun B hB => h B (by simp [hB]) A (by simp)

theorem sameShape_grid {α : Type} (l : List α) (n : Nat) (F H : α → Nat → ℝ) :
    SameShape (l.map fun x => (List.range n).map (F x)) (l.map fun x => (List.range n).map (H x)) := by
  refine ⟨by simp, ?_⟩
  intro q
  by_cases hq : q < l.length
  · rw [getD_lt [] (by simpa using hq), getD_lt [] (by simpa using hq)]
    simp
  · rw [getD_ge [] (by simpa using hq), getD_ge [] (by simpa using hq)]

/-! ## Members after `fit` -/

section
variable {G R : Type} [Gen G ℝ] [LawfulGen G]

theorem fitPlainScaler_ok {F : List (List ℝ)} {n : Nat} (hne : F ≠ []) (hF : ∀ r ∈ F, r.length = n) :
    (1 ≤ n → ∃ sc, fitPlainScaler F = .ok sc) ∧
    ∀ sc, fitPlainScaler F = .ok sc → sc.1.length = n ∧ sc.2.length = n := by
  have hn : nCols F = n := by
    cases F with
    | nil => exact absurd rfl hne
    | cons r F => exact hF r (by simp)
  have hcol : (List.range (nCols F)).mapM (fun j => column F j) = .ok ((List.range n).map (colOf F)) := by
    rw [hn]
    apply mapM_ok
    intro j hj
    exact column_ok fun r hr => by rw [hF r hr]; simpa using hj
  unfold fitPlainScaler
  constructor
  · intro h1
    rw [if_neg (by simp [hne, hn]; omega), hcol, Res.bind_ok]
    exact ⟨_, rfl⟩
  · intro sc h
    split at h
    · cases h
    · rw [hcol, Res.bind_ok, Res.pure_eq, Except.ok.injEq] at h
      subst h
      simp

omit [Gen G ℝ] [LawfulGen G] in
/-- The steps of a successful fit of one member. -/
theorem fitMember_ok {K : Type} [Scalar K] [Gen G K] {env : EnsEnv G K R} {e : Ensemble K R} {gs : Nat → G}
    {order : Nat → List Nat} {X : XIn K} {y : List Int} {i : Nat} {rs rs' : RState R} {w w' : World R}
    {m : Member K R} (h : fitMember env e gs order X y i rs w = (rs', w', .ok m)) :
    ∃ rep Xi w1 o0 F Fs, e.reps[i]? = some rep ∧ rep X = .ok Xi ∧
      Rdst.init env.toEnv w (e.args i rs) = (w1, .ok o0) ∧
      o0.fit env.toEnv gs order w1 Xi y = (m.rdst, w', .ok ()) ∧ rs' = m.rdst.rs ∧ m.rep = rep ∧
      m.rdst.transform Xi = .ok F ∧ fitPlainScaler F = .ok m.scaler ∧ plainTransform m.scaler F = .ok Fs ∧
      env.ridgeCV Fs y = .ok (m.lin, m.cv) := by
  unfold fitMember at h
  split at h
  · simp at h
  · rename_i rep hrep
    split at h
    · simp at h
    · rename_i Xi hXi
      split at h
      · simp at h
      · rename_i w1 o0 hinit
        split at h
        · simp at h
        · rename_i o w2 hfit
          simp only [Prod.mk.injEq] at h
          obtain ⟨rfl, rfl, h⟩ := h
          rw [Res.bind_eq_ok] at h
          obtain ⟨F, hF, h⟩ := h
          rw [Res.bind_eq_ok] at h
          obtain ⟨sc, hsc, h⟩ := h
          rw [Res.bind_eq_ok] at h
          obtain ⟨Fs, hFs, h⟩ := h
          rw [Res.bind_eq_ok] at h
          obtain ⟨r, hr, h⟩ := h
          rw [Res.pure_eq, Except.ok.injEq] at h
          subst h
          exact ⟨rep, Xi, w1, o0, F, Fs, hrep, hXi, hinit, hfit, rfl, rfl, hF, hsc, hFs, hr⟩

/-- Conditions on the parameters of the ensemble for training series of `n` points and `nf` channels: every
transformer built has a type for equal-length series, usable parameters for the length it sees, and
`max_channels` not above the number of channels. -/
def EnsGood (env : EnsEnv G ℝ R) (e : Ensemble ℝ R) (dt : DType) (nf n : Nat) (g : Nat → Nat → Nat) : Prop :=
  ∀ i < e.reps.length, ∀ rs w w1 o, Rdst.init env.toEnv w (e.args i rs) = (w1, .ok o) →
    (o.transformType = .uni ∨ o.transformType = .multi ∨ o.transformType = .auto ∧ dt ≠ .otherDtype) ∧
    GoodParams o (g i n) ∧ ∀ m, o.maxChannels = some m → 1 ≤ m ∧ m ≤ nf

/-- A fitted member is well-formed and its transformer accepts all arrays with enough points. -/
theorem fitMember_wf {env : EnsEnv G ℝ R} (hl : CVLaw env.ridgeCV) {e : Ensemble ℝ R} {gs : Nat → G}
    {order : Nat → List Nat} (ho : IsSchedule order) {dt : DType} {A : Arr3 ℝ} {y : List Int} {i : Nat}
    {rs rs' : RState R} {w w' : World R} {m : Member ℝ R} {f : Nat → List ℝ → List ℝ} {g : Nat → Nat → Nat}
    (hrep : ∀ i rep, e.reps[i]? = some rep → ArrRep rep (f i) (g i))
    (hgood : EnsGood env e dt A.nf A.nt g)
    (hWF : (XIn.array dt A).WF) (hne : A.data ≠ []) (hnf : 1 ≤ A.nf)
    (hnt : ∀ i < e.reps.length, 4 ≤ g i A.nt) (hy : y.length = A.data.length)
    (h : fitMember env e gs order (.array dt A) y i rs w = (rs', w', .ok m)) :
    ArrRep m.rep (f i) (g i) ∧ ∃ S, MemberWF m S A.nf ∧
      ∀ (dt' : DType) (B : Arr3 ℝ), (XIn.array dt' B).WF → B.data ≠ [] → B.nf = A.nf → g i A.nt ≤ B.nt →
        ∃ M, m.rdst.transform (.array dt' B) = .ok M := by
  obtain ⟨rep, Xi, w1, o0, F, Fs, h1, h2, h3, h4, h5, h6, h7, h8, h9, h10⟩ := fitMember_ok h
  have hi : i < e.reps.length := (List.getElem?_eq_some_iff.1 h1).1
  have hr := hrep i rep h1
  obtain ⟨dt', hXi, hdt⟩ := hr.arr dt A hWF hne hnf
  rw [h2, Except.ok.injEq] at hXi
  obtain ⟨hty, hgp, hmc⟩ := hgood i hi rs w w1 o0 h3
  have hwf' := arrRep_wf (dt := dt) (dt' := dt') hr.len hWF
  obtain ⟨o', w2, S, hfit', hS, hwfS, hph, -, htr⟩ := C43_object_same_length env.toEnv o0 w1 dt'
    ⟨A.data.map fun s => s.map (f i), A.nf, g i A.nt⟩ y
    (by rcases hty with h | h | ⟨h, h'⟩
        · exact Or.inl h
        · exact Or.inr (Or.inl h)
        · exact Or.inr (Or.inr ⟨h, hdt h'⟩)) hwf' (by simpa using hne) hnf (hnt i hi) (by simpa using hy) hgp hmc gs ho
  rw [hXi] at h4 h7
  rw [h4, Prod.mk.injEq] at hfit'
  obtain ⟨rfl, -⟩ := hfit'
  obtain ⟨rfl, hxne⟩ := transform_rows hS hwfS hwf' (xs := (A.data.map fun s => s.map (f i)).map fun s => ⟨s, g i A.nt⟩)
    rfl (by
      intro x hx
      obtain ⟨s, hs, rfl⟩ := List.mem_map.1 hx
      exact (hwf' s hs).1) h7
  have hrow : ∀ r ∈ ((A.data.map fun s => s.map (f i)).map fun s => (⟨s, g i A.nt⟩ : Mat ℝ)).map
      (objRow m.rdst.phase S), r.length = 3 * Shapelets.count S := by
    intro r hr
    obtain ⟨x, -, rfl⟩ := List.mem_map.1 hr
    exact objRow_length _ _ _
  obtain ⟨l1, l2⟩ := (fitPlainScaler_ok (by simpa using hne) hrow).2 _ h8
  rw [plainTransform_ok l1 l2 hrow, Except.ok.injEq] at h9
  subst h9
  obtain ⟨c1, -, -⟩ := hl _ _ _ _ h10
  have hcols : nCols ((((A.data.map fun s => s.map (f i)).map fun s => (⟨s, g i A.nt⟩ : Mat ℝ)).map
      (objRow m.rdst.phase S)).map (plainStd m.scaler)) = 3 * Shapelets.count S := by
    obtain ⟨a, l, hal⟩ := List.exists_cons_of_ne_nil hne
    rw [hal]
    simp [nCols, plainStd_length, objRow_length]
  rw [hcols] at c1
  refine ⟨h6 ▸ hr, S, ⟨hS, hwfS, l1, l2, c1⟩, ?_⟩
  intro dt2 B hB hBne hBf hBt
  obtain ⟨M, hM, -⟩ := htr dt2 B hB hBne hBf hBt
  exact ⟨M, hM⟩

/-- **C50.** After a successful `fit` of an ensemble on equal-length series, with usable parameters and any
order of the members, `predict` succeeds on every array with as many channels and at least as many points:
it returns one value per series, the first index of the greatest weighted sum of the members'
probabilities. -/
theorem C50_fit_predict_same_length {env : EnsEnv G ℝ R} (hl : CVLaw env.ridgeCV)
    {ncls : List Int → Nat} (hcls : ∀ F y m cv, env.ridgeCV F y = .ok (m, cv) → m.classes.length = ncls y)
    {gs : Nat → Nat → G} {sched : Nat → Nat → List Nat} (ho : ∀ i, IsSchedule (sched i)) {order : List Nat}
    {e e' : Ensemble ℝ R} (hord : order.Perm (List.range e.reps.length)) (hreps : e.reps ≠ [])
    {w w' : World R} {dt : DType} {A : Arr3 ℝ}
    {y : List Int} {f : Nat → List ℝ → List ℝ} {g : Nat → Nat → Nat}
    (hrep : ∀ i rep, e.reps[i]? = some rep → ArrRep rep (f i) (g i))
    (hgood : EnsGood env e dt A.nf A.nt g)
    (hWF : (XIn.array dt A).WF) (hne : A.data ≠ []) (hnf : 1 ≤ A.nf)
    (hnt : ∀ i < e.reps.length, 4 ≤ g i A.nt) (hy : y.length = A.data.length)
    (h : e.fit env gs sched order w (.array dt A) y = (e', w', .ok ())) :
    ∃ ws Ss, e'.weights = some ws ∧ ws.length = e.reps.length ∧
      (∀ i m, e'.models[i]? = some m → MemberWF m (Ss i) A.nf) ∧
      ∀ (dt' : DType) (B : Arr3 ℝ), (XIn.array dt' B).WF → B.data ≠ [] → B.nf = A.nf → A.nt ≤ B.nt →
        ∃ P, e'.predict (.array dt' B) = .ok P ∧
          List.Forall₂ (fun x p =>
            FirstMax ((List.range (ncls y)).map (vote e' ws (fun i => repSeries (f i) (g i)) Ss x)) p)
            (arrSeries B) P := by
  obtain ⟨ws, hws, hwl, hml, -, -⟩ := C51_weights hl hord h
  obtain ⟨w1, st, accs, -, -, -, -, hmem, -, -⟩ := ens_fit_ok hord h
  have hidx : ∀ (i : Nat) (m : Member ℝ R), e'.models[i]? = some m → i < e.reps.length ∧
      ∃ rs rs' w w', fitMember env e (gs i) (sched i) (.array dt A) y i rs w = (rs', w', .ok m) := by
    intro i m hmi
    have hi : i < e.reps.length := by
      have := (List.getElem?_eq_some_iff.1 hmi).1
      omega
    refine ⟨hi, ?_⟩
    have : i ∈ order := hord.mem_iff.2 (by simpa using hi)
    obtain ⟨k, hk, rfl⟩ := List.getElem_of_mem this
    obtain ⟨m', h1, h2⟩ := hmem k hk
    rw [hmi] at h1
    cases h1
    exact ⟨_, _, _, _, h2⟩
  have hall : ∀ (i : Nat), ∃ S : Shapelets ℝ, ∀ m : Member ℝ R, e'.models[i]? = some m →
      ArrRep m.rep (f i) (g i) ∧ m.lin.classes.length = ncls y ∧ MemberWF m S A.nf ∧
      ∀ (dt' : DType) (B : Arr3 ℝ), (XIn.array dt' B).WF → B.data ≠ [] → B.nf = A.nf → g i A.nt ≤ B.nt →
        ∃ M, m.rdst.transform (.array dt' B) = .ok M := by
    intro i
    cases hmi : e'.models[i]? with
    | none => exact ⟨.u ⟨[], [], [], [], []⟩, fun m hm => by cases hm⟩
    | some m =>
      obtain ⟨hi, rs, rs', w2, w3, hfm⟩ := hidx i m hmi
      obtain ⟨a1, S, a2, a3⟩ := fitMember_wf hl (ho i) hrep hgood hWF hne hnf hnt hy hfm
      obtain ⟨_, _, _, _, _, _, -, -, -, -, -, -, -, -, -, h10⟩ := fitMember_ok hfm
      exact ⟨S, fun m' hm' => by cases hm'; exact ⟨a1, hcls _ _ _ _ h10, a2, a3⟩⟩
  choose Ss hSs using hall
  refine ⟨ws, Ss, hws, hwl, fun i m hm => (hSs i m hm).2.2.1, ?_⟩
  intro dt' B hB hBne hBf hBt
  have hpos : 0 < ws.length := by rw [hwl]; exact List.length_pos_of_ne_nil hreps
  have hon : ∀ i m, e'.models[i]? = some m → RepOn m.rep (.array dt' B) (arrSeries B) (repSeries (f i) (g i)) A.nf := by
    intro i m hm
    rw [← hBf]
    exact arrRep_on (hSs i m hm).1 hB hBne (by omega)
  -- every member gives a matrix
  have hproba : ∀ i < ws.length, ∃ m, e'.models[i]? = some m ∧
      m.proba (.array dt' B) = .ok ((arrSeries B).map fun x =>
        (List.range (ncls y)).map (memberProb m (Ss i) (repSeries (f i) (g i) x))) := by
    intro i hi
    have hi' : i < e'.models.length := by omega
    refine ⟨e'.models[i], List.getElem?_eq_getElem hi', ?_⟩
    have hm := List.getElem?_eq_getElem hi'
    obtain ⟨a1, a2, a3, a4⟩ := hSs i _ hm
    obtain ⟨dt2, hr2, -⟩ := a1.arr dt' B hB hBne (by omega)
    obtain ⟨M, hM⟩ := a4 dt2 ⟨B.data.map fun s => s.map (f i), B.nf, g i B.nt⟩
      (arrRep_wf (dt := dt') a1.len hB) (by simpa using hBne) hBf (a1.mono _ _ hBt)
    have hex : ∃ P, (e'.models[i]).proba (.array dt' B) = .ok P := by
      unfold Member.proba
      rw [hr2, Res.bind_ok, hM, Res.bind_ok]
      obtain ⟨rfl, -⟩ := transform_rows a3.fitted a3.shp (arrRep_wf (dt := dt') (dt' := dt2) a1.len hB)
        (xs := (B.data.map fun s => s.map (f i)).map fun s => ⟨s, g i B.nt⟩) rfl (by
          intro x hx
          obtain ⟨s, hs, rfl⟩ := List.mem_map.1 hx
          obtain ⟨s', hs', rfl⟩ := List.mem_map.1 hs
          rw [← hBf]
          simpa using (hB s' hs').1) hM
      exact ⟨_, predictProba_ok a3.offset a3.scale a3.lin (by
        intro r hr
        obtain ⟨x, -, rfl⟩ := List.mem_map.1 hr
        exact objRow_length _ _ _)⟩
    obtain ⟨P, hP⟩ := hex
    obtain ⟨-, hP'⟩ := proba_ok a3 (hon i _ hm) hP
    rw [hP, hP', a2]
  have hpred : ∃ P, e'.predict (.array dt' B) = .ok P := by
    unfold Ensemble.predict
    rw [hws]
    simp only
    have hmap : (List.range ws.length).mapM (fun i => do
        let m ← pyGet e'.models i
        let wt ← pyGet ws i
        m.weighted wt (.array dt' B)) = .ok ((List.range ws.length).map fun i =>
          (arrSeries B).map fun x => (List.range (ncls y)).map fun k =>
            (match e'.models[i]? with
              | some m => memberProb m (Ss i) (repSeries (f i) (g i) x) k
              | none => 0) * ws.getD i 0) := by
      apply mapM_ok
      intro i hi
      have hi : i < ws.length := by simpa using hi
      obtain ⟨m, hm, hp⟩ := hproba i hi
      have hw' : ws[i]? = some (ws.getD i 0) := by rw [getD_lt _ hi]; exact List.getElem?_eq_getElem hi
      simp only [pyGet, hm, hw', Res.bind_ok]
      rw [weighted_eq, hp]
      simp only [Except.map, Except.ok.injEq, List.map_map]
      refine List.map_congr_left fun x _ => ?_
      simp only [Function.comp_apply, List.map_map]
      rfl
    rw [hmap, Res.bind_ok]
    obtain ⟨C, hC⟩ := sumMats_ok (Ps := (List.range ws.length).map fun i =>
          (arrSeries B).map fun x => (List.range (ncls y)).map fun k =>
            (match e'.models[i]? with
              | some m => memberProb m (Ss i) (repSeries (f i) (g i) x) k
              | none => 0) * ws.getD i 0) (by
      simp only [ne_eq, List.map_eq_nil_iff, List.range_eq_nil]
      omega) (by
      intro P hP Q hQ
      obtain ⟨i, -, rfl⟩ := List.mem_map.1 hP
      obtain ⟨j, -, rfl⟩ := List.mem_map.1 hQ
      exact sameShape_grid _ _ _ _)
    rw [hC]
    exact ⟨_, rfl⟩
  obtain ⟨P, hP⟩ := hpred
  refine ⟨P, hP, ?_⟩
  obtain ⟨nc, h1, h2⟩ := C50_weighted_vote hws (List.ne_nil_of_length_pos hpos)
    (fun i m hm => (hSs i m hm).2.2.1) hon hP
  obtain ⟨m0, hm0, hc0⟩ := h1 0 hpos
  rw [← hc0, (hSs 0 m0 hm0).2.1] at h2
  exact h2

end
end Convst.Props
