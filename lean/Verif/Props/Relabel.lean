import Verif.Model.Rdst

/-!
# C83: the labels given to `fit` only matter through equality
-/

set_option autoImplicit false
set_option linter.unusedSectionVars false

namespace Convst.Props
open Convst

variable {G K R L L' : Type} [Gen G K] [Scalar K] [DecidableEq L] [DecidableEq L']

/-- The same arguments with renamed labels. -/
def FitArgs.relabel (f : L → L') (a : FitArgs K L) : FitArgs K L' :=
  { X := a.X, nf := a.nf, nt := a.nt, y := a.y.map f, nShp := a.nShp, sizes := a.sizes, pNorm := a.pNorm,
    pMin := a.pMin, pMax := a.pMax, alpha := a.alpha, phase := a.phase, prime := a.prime }

/-- The same call with renamed labels. -/
def Call.relabel (f : L → L') : Call K L → Call K L'
  | .usl a => .usl (FitArgs.relabel f a)
  | .uvl a n xLen => .uvl (FitArgs.relabel f a) n xLen
  | .msl a mc => .msl (FitArgs.relabel f a) mc
  | .mvl a mc n xLen => .mvl (FitArgs.relabel f a) mc n xLen

theorem aget_map_res {α β : Type} (f : α → β) (l : List α) (i : Nat) :
    aget (l.map f) i = (aget l i).map f := by
  unfold aget
  rw [List.getElem?_map]
  cases l[i]? <;> rfl

theorem whereIdx_congr {n : Nat} {p q : Nat → Bool} (h : ∀ i, i < n → p i = q i) : whereIdx n p = whereIdx n q := by
  unfold whereIdx
  exact List.filter_congr fun i hi => h i (List.mem_range.1 hi)

theorem pickOther_relabel {f : L → L'} (hf : Function.Injective f) (y : List L) (s : Nat) :
    (pickOther (y.map f) s : RM G Nat) = pickOther y s := by
  unfold pickOther
  rw [aget_map_res]
  cases h : aget y s with
  | error e => rfl
  | ok v =>
    funext g
    have hw : whereIdx (y.map f).length (fun i => (y.map f)[i]? == some (f v)) =
        whereIdx y.length (fun i => y[i]? == some v) := by
      rw [List.length_map]
      refine whereIdx_congr fun i hi => ?_
      rw [List.getElem?_map]
      cases y[i]? with
      | none => rfl
      | some w =>
        rw [Bool.eq_iff_iff]
        simp [hf.eq_iff]
    show (do
      let loc := whereIdx (y.map f).length (fun i => (y.map f)[i]? == some (f v))
      if loc.length > 1 then choice1 (loc.filter fun i => !(i == s)) else pure s : RM G Nat) g = _
    rw [hw]
    rfl

theorem uslStep_relabel {f : L → L'} (hf : Function.Injective f) (a : FitArgs K L) :
    (uslStep (G := G) (FitArgs.relabel f a)) = uslStep a := by
  funext lengths dilations normalize minL m i
  unfold uslStep
  have := fun s => pickOther_relabel (G := G) (K := K) hf a.y s
  simp only [FitArgs.relabel, this]
  rfl

theorem uvlStep_relabel {f : L → L'} (hf : Function.Injective f) (a : FitArgs K L) :
    (uvlStep (G := G) (FitArgs.relabel f a)) = uvlStep a := by
  funext xLen maxLen lengths dilations normalize minL m i
  unfold uvlStep
  have := fun s => pickOther_relabel (G := G) (K := K) hf a.y s
  simp only [FitArgs.relabel, this]

theorem mslStep_relabel {f : L → L'} (hf : Function.Injective f) (a : FitArgs K L) :
    (mslStep (G := G) (FitArgs.relabel f a)) = mslStep a := by
  funext lengths dilations normalize nChannels minL m i
  unfold mslStep
  have := fun s => pickOther_relabel (G := G) (K := K) hf a.y s
  simp only [FitArgs.relabel, this]
  rfl

theorem mvlStep_relabel {f : L → L'} (hf : Function.Injective f) (a : FitArgs K L) :
    (mvlStep (G := G) (FitArgs.relabel f a)) = mvlStep a := by
  funext xLen maxLen lengths dilations normalize nChannels minL m i
  unfold mvlStep
  have := fun s => pickOther_relabel (G := G) (K := K) hf a.y s
  simp only [FitArgs.relabel, this]
  rfl

/-- **C83.** Renaming the labels by an injective function changes nothing in the shapelets found, for any of the four
fitters, with the same random draws and the same schedule. -/
theorem C83_fitters {f : L → L'} (hf : Function.Injective f) (c : Call K L) (g0 : G) (gs : Nat → G)
    (order : Nat → List Nat) : (Call.relabel f c).run g0 gs order = c.run g0 gs order := by
  cases c with
  | usl a => simp only [Call.relabel, Call.run, uslGenerate, uslStep_relabel hf]; rfl
  | uvl a n xLen => simp only [Call.relabel, Call.run, uvlGenerate, uvlStep_relabel hf]; rfl
  | msl a mc => simp only [Call.relabel, Call.run, mslGenerate, mslStep_relabel hf]; rfl
  | mvl a mc n xLen => simp only [Call.relabel, Call.run, mvlGenerate, mvlStep_relabel hf]; rfl

theorem mapM_map_res {α β γ : Type} (f : β → γ) (g : α → Res β) (l : List α) :
    (l.mapM fun i => (g i).map f) = (l.mapM g).map (List.map f) := by
  induction l with
  | nil => rfl
  | cons i l ih =>
    rw [List.mapM_cons, List.mapM_cons, ih]
    cases g i with
    | error e => rfl
    | ok v => cases l.mapM g <;> rfl

theorem takeIds_map {α β : Type} (f : α → β) (l : List α) (ids : List Nat) :
    takeIds (l.map f) ids = (takeIds l ids).map (List.map f) := by
  unfold takeIds
  rw [← mapM_map_res]
  congr 1
  funext i
  rw [List.getElem?_map]
  cases l[i]? <;> rfl

/-- `env'` behaves as `env` on the labels `y` renamed by `f`: same seeds, and stratified resampling returns the same
indices (scikit-learn sorts the labels: this holds when `f` is increasing on them). -/
structure SameEnv (env : Env G R L) (env' : Env G R L') (f : L → L') (y : List L) : Prop where
  seedG : env'.seedG = env.seedG
  nextSeed : env'.nextSeed = env.nextSeed
  resample : ∀ r n b k, env'.resample r n b k (y.map f) = env.resample r n b k y

theorem resampleXY_relabel {f : L → L'} {env : Env G R L} {env' : Env G R L'} {y : List L}
    (he : SameEnv env env' f y) (b : Bool) (p : K) (w : World R) (A : Arr3 K) :
    resampleXY env' b p w A (y.map f) = ((resampleXY env b p w A y).1,
      (resampleXY env b p w A y).2.map fun q => (q.1, q.2.map f)) := by
  unfold resampleXY
  rw [he.resample]
  cases env.resample w.glob A.data.length b (Scalar.trunc (Scalar.ofNat A.data.length * p)) y with
  | error e => rfl
  | ok q =>
    obtain ⟨ids, r⟩ := q
    simp only [takeIds_map]
    cases takeIds A.data ids with
    | error e => rfl
    | ok d =>
      cases takeIds y ids <;> rfl

theorem subsample_relabel {f : L → L'} {env : Env G R L} {env' : Env G R L'} {y : List L}
    (he : SameEnv env env' f y) (ns : Option K) (w : World R) (A : Arr3 K) :
    subsample env' ns w A (y.map f) = ((subsample env ns w A y).1,
      (subsample env ns w A y).2.map fun q => (q.1, q.2.map f)) := by
  unfold subsample
  cases ns with
  | none => rfl
  | some p =>
    simp only
    split
    · exact resampleXY_relabel he _ _ _ _
    · split
      · exact resampleXY_relabel he _ _ _ _
      · rfl

theorem prepare_relabel {f : L → L'} {env : Env G R L} {env' : Env G R L'} {y : List L}
    (he : SameEnv env env' f y) (o : Rdst K R) (w : World R) (X : XIn K) :
    o.prepare env' w X (y.map f) = ((o.prepare env w X y).1, (o.prepare env w X y).2.1,
      (o.prepare env w X y).2.2.map fun q => (Call.relabel f q.1, q.2)) := by
  unfold Rdst.prepare
  rcases setFitTransform o X with ⟨o1, _ | u⟩
  · rfl
  · simp only
    rcases loadTrain o1 X with ⟨o2, _ | ⟨A, xLen⟩⟩
    · rfl
    · simp only
      rw [subsample_relabel he]
      rcases subsample env o2.nSamples w A y with ⟨w1, _ | ⟨A1, y1⟩⟩
      · rfl
      · simp only [Except.map]
        cases checkParams (setLengths o2.lens o2.bounds o2.reduction (o2.minLen.getD 0)) (o2.minLen.getD 0) with
        | error e => rfl
        | ok sizes =>
          simp only [drawSeed, he.nextSeed]
          cases o2.rs <;> cases o2.transformType <;> rfl

/-- **C83.** `fit` on renamed labels leaves the same object, the same process-wide state and the same outcome. Without
`n_samples` the labels may be renamed in any injective way. -/
theorem C83_fit {f : L → L'} (hf : Function.Injective f) {env : Env G R L} {env' : Env G R L'} {y : List L}
    (he : SameEnv env env' f y) (gs : Nat → G) (order : Nat → List Nat) (o : Rdst K R) (w : World R) (X : XIn K) :
    o.fit env' gs order w X (y.map f) = o.fit env gs order w X y := by
  unfold Rdst.fit
  rw [prepare_relabel he]
  rcases o.prepare env w X y with ⟨o1, w1, _ | ⟨c, seed⟩⟩
  · rfl
  · simp only [Except.map, C83_fitters hf, he.seedG]

/-- C83: three samples labelled `true`, `false`, `true` or 7, 3, 7. -/
example (g : G) (gs : Nat → G) (order : Nat → List Nat) (o : Rdst K Nat) (w : World Nat) (X : XIn K) :
    o.fit (L := Nat) ⟨fun _ => g, fun r => (r, r + 1), fun _ _ _ _ _ => .error .valueError, 4, 4⟩ gs order w X [7, 3, 7] =
    o.fit (L := Bool) ⟨fun _ => g, fun r => (r, r + 1), fun _ _ _ _ _ => .error .valueError, 4, 4⟩ gs order w X
      [true, false, true] :=
  C83_fit (L := Bool) (L' := Nat) (f := fun b : Bool => if b then 7 else 3) (by decide) (y := [true, false, true]) ⟨rfl, rfl, fun _ _ _ _ => rfl⟩
    gs order o w X

end Convst.Props
