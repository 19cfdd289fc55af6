import Verif.Model.Rdst
import Verif.Proofs.Basics

/-!
# Helper lemmas about the object model
-/

set_option autoImplicit false
set_option linter.unusedSectionVars false

namespace Convst

variable {G K R L : Type} [Scalar K]

/-- The type of an object is one of the four concrete ones. -/
def TType.Concrete (t : TType) : Prop := t = .uni ∨ t = .multi ∨ t = .uniVar ∨ t = .multiVar

/-- The type is a variable-length one. -/
def TType.Var (t : TType) : Prop := t = .multiVar ∨ t = .uniVar

theorem setFitTransform_cases {o o' : Rdst K R} {X : XIn K} {r : Res Unit}
    (h : setFitTransform o X = (o', r)) :
    ∃ t, o' = { o with transformType := t } ∧ (o.transformType ≠ .auto → t = o.transformType) ∧
      (r = .ok () → t.Concrete) ∧
      (o.transformType = .auto → r = .ok () → autoClass X = .ok t) ∧
      (∀ e, r = .error e → ¬ t.Concrete) := by
  unfold setFitTransform at h
  by_cases ha : o.transformType = .auto
  · rw [if_pos ha] at h
    cases hc : autoClass X with
    | error e =>
      rw [hc] at h
      simp only [Prod.mk.injEq] at h
      obtain ⟨rfl, rfl⟩ := h
      exact ⟨o.transformType, rfl, fun _ => rfl, fun h => (by cases h), fun _ h => (by cases h),
        fun _ _ => by rw [ha]; simp [TType.Concrete]⟩
    | ok t =>
      rw [hc] at h
      simp only at h
      split at h
      · rename_i ht
        simp only [Prod.mk.injEq] at h
        obtain ⟨rfl, rfl⟩ := h
        exact ⟨t, rfl, fun h => absurd ha h, fun _ => ht, fun _ _ => rfl, fun _ h => by cases h⟩
      · rename_i ht
        simp only [Prod.mk.injEq] at h
        obtain ⟨rfl, rfl⟩ := h
        exact ⟨t, rfl, fun h => absurd ha h, fun h => (by cases h), fun _ h => (by cases h),
          fun _ _ => ht⟩
  · rw [if_neg ha] at h
    simp only at h
    split at h
    · rename_i ht
      simp only [Prod.mk.injEq] at h
      obtain ⟨rfl, rfl⟩ := h
      exact ⟨_, rfl, fun _ => rfl, fun _ => ht, fun h => absurd h ha, fun _ h => by cases h⟩
    · rename_i ht
      simp only [Prod.mk.injEq] at h
      obtain ⟨rfl, rfl⟩ := h
      exact ⟨_, rfl, fun _ => rfl, fun h => (by cases h), fun h => absurd h ha, fun _ _ => ht⟩

theorem loadTrain_cases {o o' : Rdst K R} {X : XIn K} {r : Res (Arr3 K × List Nat)}
    (h : loadTrain o X = (o', r)) :
    ∃ ml, o' = { o with minLen := ml } ∧
      (o.transformType.Var → o.minLen.isSome → ml = o.minLen) ∧
      (∀ A xLen, r = .ok (A, xLen) → ∃ m, ml = some m ∧
        (o.transformType.Var → formatUneven X = .ok (A, xLen) ∧
          (o.minLen = none → nmin xLen = .ok m)) ∧
        (¬ o.transformType.Var → toArr3 X = .ok A ∧ xLen = [] ∧ m = A.nt)) := by
  unfold loadTrain at h
  by_cases hv : o.transformType = .multiVar ∨ o.transformType = .uniVar
  · rw [if_pos hv] at h
    split at h
    · simp only [Prod.mk.injEq] at h
      obtain ⟨rfl, rfl⟩ := h
      exact ⟨_, rfl, fun _ _ => rfl, fun _ _ h => by cases h⟩
    · rename_i A xLen hf
      split at h
      · simp only [Prod.mk.injEq] at h
        obtain ⟨rfl, rfl⟩ := h
        exact ⟨_, rfl, fun _ _ => rfl, fun _ _ h => by cases h⟩
      · split at h
        · rename_i m hm
          simp only [Prod.mk.injEq] at h
          obtain ⟨rfl, rfl⟩ := h
          refine ⟨_, rfl, fun _ _ => rfl, fun A' x' h => ?_⟩
          cases h
          exact ⟨m, hm, fun _ => ⟨hf, fun h => by rw [hm] at h; cases h⟩, fun h => absurd hv h⟩
        · rename_i hm
          split at h
          · simp only [Prod.mk.injEq] at h
            obtain ⟨rfl, rfl⟩ := h
            exact ⟨_, rfl, fun _ _ => rfl, fun _ _ h => by cases h⟩
          · rename_i m hmin
            simp only [Prod.mk.injEq] at h
            obtain ⟨rfl, rfl⟩ := h
            refine ⟨_, rfl, fun _ h => (by rw [hm] at h; cases h), fun A' x' h => ?_⟩
            cases h
            exact ⟨m, rfl, fun _ => ⟨hf, fun _ => hmin⟩, fun h => absurd hv h⟩
  · rw [if_neg hv] at h
    split at h
    · simp only [Prod.mk.injEq] at h
      obtain ⟨rfl, rfl⟩ := h
      exact ⟨_, rfl, fun h => absurd h hv, fun _ _ h => by cases h⟩
    · rename_i A hA
      simp only [Prod.mk.injEq] at h
      obtain ⟨rfl, rfl⟩ := h
      refine ⟨_, rfl, fun h => absurd h hv, fun A' x' h => ?_⟩
      cases h
      exact ⟨A.nt, rfl, fun h => absurd h hv, fun _ => ⟨hA, rfl, rfl⟩⟩

theorem loadTrain_var_none {o : Rdst K R} {X : XIn K} {A : Arr3 K} {xLen : List Nat} {m : Nat}
    (hv : o.transformType.Var) (hf : formatUneven X = .ok (A, xLen)) {Y : PyArr (Arr3 K)}
    (hY : checkArray3D A.py = .ok Y) (hm : o.minLen = none) (hn : nmin xLen = .ok m) :
    loadTrain o X = ({ o with minLen := some m }, .ok (A, xLen)) := by
  unfold loadTrain
  rw [if_pos (show o.transformType = .multiVar ∨ o.transformType = .uniVar from hv)]
  simp only [hf, hY, hm, hn]

theorem loadTrain_var_some {o : Rdst K R} {X : XIn K} {A : Arr3 K} {xLen : List Nat} {m : Nat}
    (hv : o.transformType.Var) (hf : formatUneven X = .ok (A, xLen)) {Y : PyArr (Arr3 K)}
    (hY : checkArray3D A.py = .ok Y) (hm : o.minLen = some m) :
    loadTrain o X = (o, .ok (A, xLen)) := by
  unfold loadTrain
  rw [if_pos (show o.transformType = .multiVar ∨ o.transformType = .uniVar from hv)]
  simp only [hf, hY, hm]

theorem loadTrain_same {o : Rdst K R} {X : XIn K} {A : Arr3 K}
    (hv : ¬ o.transformType.Var) (hA : toArr3 X = .ok A) :
    loadTrain o X = ({ o with minLen := some A.nt }, .ok (A, [])) := by
  unfold loadTrain
  rw [if_neg (show ¬ (o.transformType = .multiVar ∨ o.transformType = .uniVar) from hv)]
  simp only [hA]

theorem subsample_threads {env : Env G R L} {p : Option K} {w w' : World R} {A : Arr3 K} {y : List L}
    {r : Res (Arr3 K × List L)} (h : subsample env p w A y = (w', r)) :
    w'.numThreads = w.numThreads := by
  unfold subsample resampleXY at h
  repeat' split at h
  all_goals first
    | (simp only [Prod.mk.injEq] at h; obtain ⟨rfl, -⟩ := h; rfl)

theorem takeIds_ok {α : Type} {a r : List α} {ids : List Nat} (h : takeIds a ids = .ok r) :
    r.length = ids.length ∧ ∀ (i id : Nat), ids[i]? = some id → (a[id]?).isSome ∧ r[i]? = a[id]? := by
  unfold takeIds at h
  induction ids generalizing r with
  | nil =>
    simp only [List.mapM_nil, pure, Except.pure, Except.ok.injEq] at h
    subst h
    simp
  | cons j ids ih =>
    rw [List.mapM_cons] at h
    simp only [Bind.bind, Except.bind] at h
    split at h
    · cases h
    · rename_i v hv
      split at h
      · cases h
      · rename_i vs hvs
        simp only [pure, Except.pure, Except.ok.injEq] at h
        subst h
        obtain ⟨h1, h2⟩ := ih hvs
        refine ⟨by simp [h1], ?_⟩
        intro i id hi
        cases i with
        | zero =>
          simp only [List.getElem?_cons_zero, Option.some.injEq] at hi
          subst hi
          split at hv
          · rename_i u hu
            cases hv
            rw [hu]; simp
          · cases hv
        | succ i =>
          rw [List.getElem?_cons_succ] at hi ⊢
          exact h2 i id hi

/-- A successful subsampling keeps everything, or applies the indices returned by `resample` to the
series and to the labels. -/
theorem subsample_cases {env : Env G R L} {p : Option K} {w w' : World R} {A A' : Arr3 K}
    {y y' : List L} (h : subsample env p w A y = (w', .ok (A', y'))) :
    (A' = A ∧ y' = y ∧ w' = w) ∨
    ∃ (q : K) (repl : Bool) (ids : List Nat) (r : R), p = some q ∧
      env.resample w.glob A.data.length repl (Scalar.trunc (Scalar.ofNat A.data.length * q)) y =
        .ok (ids, r) ∧ A'.nf = A.nf ∧ A'.nt = A.nt ∧
      takeIds A.data ids = .ok A'.data ∧ takeIds y ids = .ok y' := by
  have go : ∀ (q : K) (repl : Bool), p = some q →
      resampleXY env repl q w A y = (w', .ok (A', y')) →
      ∃ (q : K) (repl : Bool) (ids : List Nat) (r : R), p = some q ∧
      env.resample w.glob A.data.length repl (Scalar.trunc (Scalar.ofNat A.data.length * q)) y =
        .ok (ids, r) ∧ A'.nf = A.nf ∧ A'.nt = A.nt ∧
      takeIds A.data ids = .ok A'.data ∧ takeIds y ids = .ok y' := by
    intro q repl hp h
    unfold resampleXY at h
    split at h
    · simp at h
    · rename_i ids r hr
      simp only [Prod.mk.injEq] at h
      obtain ⟨-, h⟩ := h
      simp only [Bind.bind, Except.bind] at h
      split at h
      · cases h
      · rename_i d hd
        split at h
        · cases h
        · rename_i yy hy
          simp only [pure, Except.pure, Except.ok.injEq, Prod.mk.injEq] at h
          obtain ⟨rfl, rfl⟩ := h
          exact ⟨q, repl, ids, r, hp, hr, rfl, rfl, hd, hy⟩
  unfold subsample at h
  split at h
  · simp only [Prod.mk.injEq, Except.ok.injEq] at h
    obtain ⟨rfl, rfl, rfl⟩ := h
    exact Or.inl ⟨rfl, rfl, rfl⟩
  · split at h
    · exact Or.inr (go _ false rfl h)
    · split at h
      · exact Or.inr (go _ true rfl h)
      · simp only [Prod.mk.injEq, Except.ok.injEq] at h
        obtain ⟨rfl, rfl, rfl⟩ := h
        exact Or.inl ⟨rfl, rfl, rfl⟩

/-- The common arguments of a fitter call. -/
def Call.args : Call K L → FitArgs K L
  | .usl a => a
  | .uvl a _ _ => a
  | .msl a _ => a
  | .mvl a _ _ _ => a

/-- The number of points the shapelets must fit in: `n_timestamps` or `min_len`. -/
def Call.points : Call K L → Nat
  | .usl a => a.nt
  | .uvl _ n _ => n
  | .msl a _ => a.nt
  | .mvl _ _ n _ => n

/-- The true lengths given to a variable-length fitter. -/
def Call.xLen : Call K L → Option (List Nat)
  | .usl _ => none
  | .uvl _ _ l => some l
  | .msl _ _ => none
  | .mvl _ _ _ l => some l

/-- `max_channels` of a multivariate call. -/
def Call.maxCh : Call K L → Option Nat
  | .usl _ => none
  | .uvl _ _ _ => none
  | .msl _ m => some m
  | .mvl _ m _ _ => some m

/-- Everything known about `prepare` on all objects and inputs. -/
theorem prepare_cases {env : Env G R L} {o o' : Rdst K R} {w w' : World R} {X : XIn K} {y : List L}
    {r : Res (Call K L × Nat)} (h : o.prepare env w X y = (o', w', r)) :
    ∃ t ml mc ls rs', o' = { o with transformType := t, minLen := ml, maxChannels := mc, lens := ls,
                                    rs := rs' } ∧
      w'.numThreads = w.numThreads ∧
      (o.transformType ≠ .auto → t = o.transformType) ∧
      (o.maxChannels.isSome → mc = o.maxChannels) ∧
      (t.Var → o.minLen.isSome → ml = o.minLen) ∧
      (t.Concrete → ml = (loadTrain { o with transformType := t } X).1.minLen) ∧
      (ls = o.lens ∨ ∃ m, ls = setLengths o.lens o.bounds o.reduction m) ∧
      (∀ c seed, r = .ok (c, seed) → t.Concrete ∧
        (o.transformType = .auto → autoClass X = .ok t) ∧
        ∃ A0 xLen A w0 y' m, ml = some m ∧
          loadTrain { o with transformType := t } X =
            ({ o with transformType := t, minLen := some m }, .ok (A0, xLen)) ∧
          subsample env o.nSamples w A0 y = (w0, .ok (A, y')) ∧
          mc = some (o.maxChannels.getD A.nf) ∧
          ls = setLengths o.lens o.bounds o.reduction m ∧
          ∃ sizes, checkParams ls m = .ok sizes ∧
          c.args = { X := A.data, nf := A.nf, nt := A.nt, y := y', nShp := o.nShp, sizes := sizes,
                     pNorm := o.pNorm, pMin := o.pMin, pMax := o.pMax, alpha := o.alpha,
                     phase := o.phase, prime := o.prime } ∧
          (t = .uni → c = .usl c.args) ∧ (t = .multi → c = .msl c.args (o.maxChannels.getD A.nf)) ∧
          (t = .uniVar → c = .uvl c.args m xLen) ∧
          (t = .multiVar → c = .mvl c.args (o.maxChannels.getD A.nf) m xLen)) := by
  unfold Rdst.prepare at h
  cases h1 : setFitTransform o X with
  | mk o1 r1 =>
  rw [h1] at h
  obtain ⟨t, rfl, ht1, ht2, ht3, ht4⟩ := setFitTransform_cases h1
  cases r1 with
  | error e =>
    simp only [Prod.mk.injEq] at h
    obtain ⟨rfl, rfl, rfl⟩ := h
    exact ⟨t, _, _, _, _, rfl, rfl, ht1, fun _ => rfl, fun _ _ => rfl, fun h => absurd h (ht4 e rfl), Or.inl rfl,
      fun _ _ h => by cases h⟩
  | ok u =>
  simp only at h
  cases h2 : loadTrain { o with transformType := t } X with
  | mk o2 r2 =>
  rw [h2] at h
  obtain ⟨ml, rfl, hl1, hl2⟩ := loadTrain_cases h2
  cases r2 with
  | error e =>
    simp only [Prod.mk.injEq] at h
    obtain ⟨rfl, rfl, rfl⟩ := h
    exact ⟨t, ml, _, _, _, rfl, rfl, ht1, fun _ => rfl, hl1, fun _ => (by rw [h2]), Or.inl rfl, fun _ _ h => by cases h⟩
  | ok AX =>
  obtain ⟨A0, xLen⟩ := AX
  obtain ⟨m, rfl, hm1, hm2⟩ := hl2 A0 xLen rfl
  simp only at h
  cases h3 : subsample env o.nSamples w A0 y with
  | mk w0 r3 =>
  rw [h3] at h
  have hw0 := subsample_threads h3
  cases r3 with
  | error e =>
    simp only [Prod.mk.injEq] at h
    obtain ⟨rfl, rfl, rfl⟩ := h
    exact ⟨t, some m, _, _, _, rfl, hw0, ht1, fun _ => rfl, hl1, fun _ => (by rw [h2]), Or.inl rfl, fun _ _ h => by cases h⟩
  | ok Ay =>
  obtain ⟨A, y'⟩ := Ay
  simp only [Option.getD_some] at h
  cases h4 : checkParams (setLengths o.lens o.bounds o.reduction m) m with
  | error e =>
    rw [h4] at h
    simp only [Prod.mk.injEq] at h
    obtain ⟨rfl, rfl, rfl⟩ := h
    exact ⟨t, some m, _, _, _, rfl, hw0, ht1,
      fun h => (by obtain ⟨v, hv⟩ := Option.isSome_iff_exists.1 h; rw [hv]; rfl),
      hl1, fun _ => (by rw [h2]), Or.inr ⟨m, rfl⟩, fun _ _ h => by cases h⟩
  | ok sizes =>
  rw [h4] at h
  simp only at h
  have hmc : o.maxChannels.isSome → some (o.maxChannels.getD A.nf) = o.maxChannels := by
    intro h
    obtain ⟨v, hv⟩ := Option.isSome_iff_exists.1 h
    rw [hv]; rfl
  have hds : ∃ rs' w1 seed, drawSeed env { o with transformType := t, minLen := some m, maxChannels := some (o.maxChannels.getD A.nf), lens := setLengths o.lens o.bounds o.reduction m } w0 =
      ({ o with transformType := t, minLen := some m, maxChannels := some (o.maxChannels.getD A.nf), lens := setLengths o.lens o.bounds o.reduction m, rs := rs' }, w1, seed) ∧ w1.numThreads = w0.numThreads := by
    unfold drawSeed
    cases hrs : o.rs with
    | own r => exact ⟨_, _, _, rfl, rfl⟩
    | glob =>
      exact ⟨.glob, _, _, rfl, rfl⟩
  obtain ⟨rs', w1, seed, hd, hw1⟩ := hds
  rw [hd] at h
  simp only at h
  have hconc := ht2 rfl
  rcases hconc with rfl | rfl | rfl | rfl <;>
  · simp only [Prod.mk.injEq] at h
    obtain ⟨rfl, rfl, rfl⟩ := h
    refine ⟨_, some m, _, _, rs', rfl, hw1.trans hw0, ht1, hmc, hl1, fun _ => (by rw [h2]), Or.inr ⟨m, rfl⟩, ?_⟩
    intro c s hc
    simp only [Except.ok.injEq, Prod.mk.injEq] at hc
    obtain ⟨rfl, rfl⟩ := hc
    refine ⟨ht2 rfl, fun h => ht3 h rfl, A0, xLen, A, w0, y', m, rfl, h2, h3, rfl, rfl, sizes, h4, rfl,
      ?_, ?_, ?_, ?_⟩ <;> intro h <;> first | rfl | cases h

/-- The facts about a successful `prepare` used by the properties. -/
theorem prepare_ok {env : Env G R L} {o o' : Rdst K R} {w w' : World R} {X : XIn K} {y : List L}
    {c : Call K L} {seed : Nat} (h : o.prepare env w X y = (o', w', .ok (c, seed))) :
    ∃ A0 xLen, o'.minLen = some c.points ∧ c.args.nf = A0.nf ∧ c.args.nt = A0.nt ∧
      checkParams (setLengths o.lens o.bounds o.reduction c.points) c.points = .ok c.args.sizes ∧
      (o'.transformType.Var → formatUneven X = .ok (A0, xLen) ∧ c.xLen = some xLen) ∧
      (¬ o'.transformType.Var → toArr3 X = .ok A0 ∧ c.points = A0.nt ∧ c.xLen = none) ∧
      (o'.maxChannels = some (o.maxChannels.getD A0.nf)) ∧
      (c.maxCh.isSome → c.maxCh = some (o.maxChannels.getD A0.nf)) ∧
      ((c.args.X = A0.data ∧ c.args.y = y) ∨
        ∃ (q : K) (repl : Bool) (ids : List Nat) (r : R), o.nSamples = some q ∧
          env.resample w.glob A0.data.length repl
            (Scalar.trunc (Scalar.ofNat A0.data.length * q)) y = .ok (ids, r) ∧
          takeIds A0.data ids = .ok c.args.X ∧ takeIds y ids = .ok c.args.y) := by
  obtain ⟨t, ml, mc, ls, rs', rfl, -, -, -, -, -, -, hc⟩ := prepare_cases h
  obtain ⟨ht, -, A0, xLen, A, w0, y', m, rfl, hl, hs, rfl, hls, sizes, hsz, ha, k1, k2, k3, k4⟩ := hc c seed rfl
  obtain ⟨ml', hml', -, hlt⟩ := loadTrain_cases hl
  obtain ⟨m', hm', hv, hnv⟩ := hlt A0 xLen rfl
  have hmm : m = m' := by
    have := congrArg Rdst.minLen hml'
    simp only at this
    rw [hm'] at this
    exact Option.some.inj this
  subst hmm
  have hsub := subsample_cases hs
  have hA : A.nf = A0.nf ∧ A.nt = A0.nt := by
    rcases hsub with ⟨rfl, -, -⟩ | ⟨q, repl, ids, r, -, -, h1, h2, -⟩
    · exact ⟨rfl, rfl⟩
    · exact ⟨h1, h2⟩
  have hpm : c.points = m := by
    rcases ht with rfl | rfl | rfl | rfl
    · rw [k1 rfl]
      show c.args.nt = m
      rw [ha, (hnv (by simp [TType.Var])).2.2, ← hA.2]
    · rw [k2 rfl]
      show c.args.nt = m
      rw [ha, (hnv (by simp [TType.Var])).2.2, ← hA.2]
    · rw [k3 rfl]; rfl
    · rw [k4 rfl]; rfl
  refine ⟨A0, xLen, by rw [hpm], by rw [ha]; exact hA.1, by rw [ha]; exact hA.2, ?_, ?_, ?_, ?_, ?_, ?_⟩
  · rw [hpm, ← hls, hsz, ha]
  · intro h
    refine ⟨(hv h).1, ?_⟩
    rcases h with h | h
    · rw [k4 h]; rfl
    · rw [k3 h]; rfl
  · intro h
    refine ⟨(hnv h).1, by rw [hpm]; exact (hnv h).2.2, ?_⟩
    rcases ht with h1 | h1 | h1 | h1
    · rw [k1 h1]; rfl
    · rw [k2 h1]; rfl
    · exact absurd (Or.inr h1) h
    · exact absurd (Or.inl h1) h
  · rw [← hA.1]
  · rw [← hA.1]
    intro h
    rcases ht with h1 | h1 | h1 | h1
    · rw [k1 h1] at h; cases h
    · rw [k2 h1]; rfl
    · rw [k3 h1] at h; cases h
    · rw [k4 h1]; rfl
  · rcases hsub with ⟨rfl, rfl, -⟩ | ⟨q, repl, ids, r, h1, h2, -, -, h3, h4⟩
    · left; rw [ha]; exact ⟨rfl, rfl⟩
    · right; rw [ha]; exact ⟨q, repl, ids, r, h1, h2, h3, h4⟩

variable [Gen G K] [DecidableEq L]

/-- `fit` in terms of `prepare`. -/
theorem fit_cases {env : Env G R L} {gs : Nat → G} {order : Nat → List Nat} {o o' : Rdst K R}
    {w w' : World R} {X : XIn K} {y : List L} {r : Res Unit}
    (h : o.fit env gs order w X y = (o', w', r)) :
    ∃ o1 r1, o.prepare env w X y = (o1, w', r1) ∧ ∃ S, o' = { o1 with shapelets := S } ∧
      (S = o.shapelets ∨ ∃ c seed S', r1 = .ok (c, seed) ∧ r = .ok () ∧
        c.run (env.seedG seed) gs order = .ok S' ∧ S = some S') ∧
      (r = .ok () → ∃ c seed S', r1 = .ok (c, seed) ∧
        c.run (env.seedG seed) gs order = .ok S' ∧ S = some S') := by
  unfold Rdst.fit at h
  cases h1 : o.prepare env w X y with
  | mk o1 p =>
  obtain ⟨w1, r1⟩ := p
  rw [h1] at h
  obtain ⟨t, ml, mc, ls, rs', ho1, -⟩ := prepare_cases h1
  have hsh : o1.shapelets = o.shapelets := by rw [ho1]
  cases r1 with
  | error e =>
    simp only [Prod.mk.injEq] at h
    obtain ⟨rfl, rfl, rfl⟩ := h
    exact ⟨o1, _, rfl, o1.shapelets, rfl, Or.inl hsh, fun h => by cases h⟩
  | ok cs =>
    obtain ⟨c, seed⟩ := cs
    simp only at h
    cases h2 : c.run (env.seedG seed) gs order with
    | error e =>
      rw [h2] at h
      simp only [Prod.mk.injEq] at h
      obtain ⟨rfl, rfl, rfl⟩ := h
      exact ⟨o1, _, rfl, o1.shapelets, rfl, Or.inl hsh, fun h => by cases h⟩
    | ok S =>
      rw [h2] at h
      simp only [Prod.mk.injEq] at h
      obtain ⟨rfl, rfl, rfl⟩ := h
      exact ⟨o1, _, rfl, some S, rfl, Or.inr ⟨c, seed, S, rfl, rfl, h2, rfl⟩,
        fun _ => ⟨c, seed, S, rfl, h2, rfl⟩⟩

end Convst
