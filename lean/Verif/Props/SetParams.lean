import Verif.Proofs.SetParams
import Verif.Props.Lifecycle
import Verif.Props.Constructor
import Verif.Props.EnsembleDraws
import Verif.Props.Seeds

/-!
# `set_params` (C108)
-/

set_option autoImplicit false
set_option linter.unusedSectionVars false

namespace Convst.Props
open Convst Spec

/-! ## Every estimator -/

section
variable {A U : Type}

theorem setParams_append (one : A → U → Res A) (us vs : List U) (a : A) {b : A}
    (h : setParams one us a = (b, .ok ())) : setParams one (us ++ vs) a = setParams one vs b := by
  induction us generalizing a with
  | nil =>
    simp only [setParams, Prod.mk.injEq, and_true] at h
    subst h; rfl
  | cons u us ih =>
    rw [List.cons_append, setParams]
    rw [setParams] at h
    cases h1 : one a u with
    | error e => rw [h1] at h; simp at h
    | ok a' => rw [h1] at h; exact ih a' h

/-- **C108.** `set_params` stops at the first argument that it refuses, with its error, and keeps what was stored
before it; it stores nothing that comes after. -/
theorem C108_partial_update (one : A → U → Res A) (us vs : List U) (u : U) {a b : A} {e : Err}
    (h : setParams one us a = (b, .ok ())) (hu : one b u = .error e) :
    setParams one (us ++ u :: vs) a = (b, .error e) := by
  rw [setParams_append one us _ a h, setParams, hu]

end

/-! ## `R_DST` -/

section
variable {G K R L : Type} [Scalar K] [Gen G K] [DecidableEq L]

/-- **C108.** `set_params` with values as the constructor stores them: the object cannot be told from one
constructed with the new arguments, by any sequence of calls of `fit` and `transform`. -/
theorem C108_rdst (rsOf : Nat → R) {env : Env G R L} {w0 w1 w2 w3 : World R} {p : Params K R} {o o' : Rdst K R}
    (h : Rdst.init env w0 p = (w1, .ok o)) {us : List (Upd K R)} (hus : ∀ u ∈ us, AsStored u)
    (h' : Rdst.init env w2 (withArgs rsOf p us) = (w3, .ok o')) :
    ∃ r, setParams RawRdst.setOne us (RawRdst.ofRdst o) = (r, .ok ()) ∧
      ∀ (uses : List (Use G K L)) (w : World R), watchRaw rsOf env uses r w = watchRdst env uses o' w := by
  have hus' : ∀ u ∈ us, AsStoredOrSeed u := by
    intro u hu
    have := hus u hu
    cases u <;> first | exact this | trivial
  obtain ⟨r, k1, k2, k3⟩ := same_setParams rsOf h hus' h'
  exact ⟨r, k1, fun uses w => same_watch rsOf env uses k2 (k3 hus) w⟩

/-- **C108.** With `random_state=seed` among the new values: the first `fit`, and the calls of `transform` that
follow it, are those of an object constructed with this seed. -/
theorem C108_rdst_seed_first_fit (rsOf : Nat → R) {env : Env G R L} {w0 w1 w2 w3 : World R} {p : Params K R}
    {o o' : Rdst K R} (h : Rdst.init env w0 p = (w1, .ok o)) {us : List (Upd K R)} (hus : ∀ u ∈ us, AsStoredOrSeed u)
    (h' : Rdst.init env w2 (withArgs rsOf p us) = (w3, .ok o')) :
    ∃ r, setParams RawRdst.setOne us (RawRdst.ofRdst o) = (r, .ok ()) ∧
      ∀ (f : FitCall G K L) (Zs : List (XIn K)) (w : World R),
        watchRaw rsOf env (.fit f :: Zs.map .transform) r w = watchRdst env (.fit f :: Zs.map .transform) o' w := by
  obtain ⟨r, k1, k2, -⟩ := same_setParams rsOf h hus h'
  refine ⟨r, k1, fun f Zs w => ?_⟩
  obtain ⟨r', h1, -, h3, -⟩ := same_fit env f.gs f.order k2 w f.X f.y
  show Seen.fit _ _ :: watchRaw rsOf env _ _ _ = Seen.fit _ _ :: watchRdst env _ _ _
  simp only [h1]
  congr 1
  generalize (o'.fit env f.gs f.order w f.X f.y).2.1 = w'
  generalize hq : (o'.fit env f.gs f.order w f.X f.y).1 = q at h3 ⊢
  induction Zs with
  | nil => rfl
  | cons Z Zs ih =>
    show Seen.transform _ :: watchRaw rsOf env _ _ _ = Seen.transform _ :: watchRdst env _ _ _
    rw [ih, same_transform h3 Z]
    rfl

/-- `loadTrain` reads the type and the minimum length only. -/
theorem loadTrain_again {o q : Rdst K R} {X : XIn K} {t : TType} {m : Nat} {A : Arr3 K} {xLen : List Nat}
    (h : loadTrain { o with transformType := t } X =
      ({ o with transformType := t, minLen := some m }, .ok (A, xLen)))
    (hq : q.transformType = t) (hm : q.minLen = some m) : loadTrain q X = (q, .ok (A, xLen)) := by
  unfold loadTrain at h ⊢
  simp only [hq]
  by_cases hv : t = .multiVar ∨ t = .uniVar
  · simp only [if_pos hv] at h ⊢
    cases hf : formatUneven X with
    | error e => simp [hf] at h
    | ok AX =>
      obtain ⟨A', x'⟩ := AX
      simp only [hf] at h ⊢
      cases hc : checkArray3D A'.py with
      | error e => simp [hc] at h
      | ok Y =>
        simp only [hc, hm] at h ⊢
        have hr := congrArg Prod.snd h
        have : (Except.ok (A', x') : Res (Arr3 K × List Nat)) = .ok (A, xLen) := by
          split at h
          · exact congrArg Prod.snd h
          · split at h
            · exact absurd (congrArg Prod.snd h) (by simp)
            · exact congrArg Prod.snd h
        rw [this]
  · simp only [if_neg hv] at h ⊢
    cases hA : toArr3 X with
    | error e => simp [hA] at h
    | ok A' =>
      simp only [hA, Prod.mk.injEq, Except.ok.injEq] at h ⊢
      obtain ⟨h1, rfl, rfl⟩ := h
      have := congrArg Rdst.minLen h1
      simp only [Option.some.injEq] at this
      subst this
      rcases q with ⟨_, _, _, _, _, _, _, _, _, _, _, _, _, _, _, _, _, _⟩
      simp only at hm hq
      subst hm hq
      exact ⟨rfl, rfl, rfl⟩

/-- Fitting again on the same data, the generator being back in the state in which it was. -/
theorem refit_same {env : Env G R L} {gs : Nat → G} {order : Nat → List Nat} {o o1 : Rdst K R} {w w1 : World R}
    {X : XIn K} {y : List L} {g : R} (h : o.fit env gs order w X y = (o1, w1, .ok ())) (hg : o.rs = .own g)
    (hns : o.nSamples = none) (hl : (∃ l, o.lens = .ints l) ∨ o.bounds ≠ none) (w' : World R) :
    ∃ o2, ({ o1 with rs := .own g } : Rdst K R).fit env gs order w' X y = (o2, w', .ok ()) ∧
      o2.shapelets = o1.shapelets ∧ o2.transformType = o1.transformType ∧ o2.phase = o1.phase := by
  obtain ⟨oa, r1, hp, S, rfl, -, hok⟩ := fit_cases h
  obtain ⟨c, seed, S', rfl, hrun, rfl⟩ := hok rfl
  obtain ⟨t, ml, mc, ls, rs', rfl, -, -, -, -, -, -, hc⟩ := prepare_cases hp
  obtain ⟨ht, -, A0, xLen, A, w0, y', m, rfl, hld, hs, rfl, hls, sizes, hsz, ha, k1, k2, k3, k4⟩ := hc c seed rfl
  obtain ⟨-, hseed⟩ := prepare_own_state hg hp
  have hAy : A0 = A ∧ y = y' := by
    rw [hns] at hs
    simp only [subsample, Prod.mk.injEq, Except.ok.injEq] at hs
    exact ⟨hs.2.1, hs.2.2⟩
  obtain ⟨rfl, rfl⟩ := hAy
  have hls2 : setLengths ls o.bounds o.reduction m = ls := by
    subst hls
    rcases hl with ⟨l, hl⟩ | hb
    · rw [hl]
      cases o.bounds <;> rfl
    · cases hob : o.bounds with
      | none => exact absurd hob hb
      | some b => rfl
  obtain ⟨q, hq⟩ : ∃ q : Rdst K R, q = { o with transformType := t, minLen := some m, maxChannels := some (o.maxChannels.getD A0.nf), lens := ls, rs := .own g, shapelets := some S' } := ⟨_, rfl⟩
  have hqe : ({ ({ ({ o with transformType := t, minLen := some m, maxChannels := some (o.maxChannels.getD A0.nf), lens := ls, rs := rs' } : Rdst K R) with shapelets := some S' } : Rdst K R) with rs := .own g } : Rdst K R) = q := hq.symm
  rw [hqe]
  have hset : setFitTransform q X = (q, .ok ()) := C34_fixed_type q (by rw [hq]; exact ht) X
  have hload : loadTrain q X = (q, .ok (A0, xLen)) := loadTrain_again hld (by rw [hq]) (by rw [hq])
  have hrec : q = { q with transformType := t, minLen := some m } := by subst hq; rfl
  have hrec1 : q = { q with transformType := t } := by subst hq; rfl
  obtain ⟨rs2, w2, seed2, hd, hpe⟩ := prepare_eq env q w' y (t := t) ht (m := m) (A := A0) (xLen := xLen) (sizes := sizes)
    (by rw [← hrec1]; exact hset) (by rw [← hrec, ← hrec1]; exact hload) (by rw [hq]; exact hns)
    (by rw [hq]; show checkParams (setLengths ls o.bounds o.reduction m) m = _; rw [hls2]; exact hsz)
  have hseed2 : seed2 = (env.nextSeed g).1 ∧ w2 = w' := by
    unfold drawSeed at hd
    subst hq
    simp only [Prod.mk.injEq] at hd
    exact ⟨hd.2.2.symm, hd.2.1.symm⟩
  obtain ⟨hs2, rfl⟩ := hseed2
  have hcc : callOf t ⟨A0.data, A0.nf, A0.nt, y, q.nShp, sizes, q.pNorm, q.pMin, q.pMax, q.alpha, q.phase, q.prime⟩
      (q.maxChannels.getD A0.nf) m xLen = c := by
    subst hq
    simp only [Option.getD_some]
    rw [← ha]
    rcases ht with rfl | rfl | rfl | rfl
    · exact (k1 rfl).symm
    · exact (k2 rfl).symm
    · exact (k3 rfl).symm
    · exact (k4 rfl).symm
  rw [hcc] at hpe
  unfold Rdst.fit
  rw [hpe]
  simp only
  rw [hs2, ← hseed, hrun]
  refine ⟨_, rfl, rfl, rfl, ?_⟩
  subst hq
  rfl

/-- **C108 (finding).** With `random_state=seed` stored by `set_params`, fitting again on the same data yields the
same features: the generator is built anew at every `fit`.  (The generator of a constructed object goes on from one
`fit` to the next, `C78_refit_differs`.) -/
theorem C108_seed_refit_repeats (rsOf : Nat → R) {env : Env G R L} {w0 w1 w2 w3 : World R} {p : Params K R}
    {o o' : Rdst K R} (h : Rdst.init env w0 p = (w1, .ok o)) {us : List (Upd K R)} (hus : ∀ u ∈ us, AsStored u)
    {s : Nat} (h' : Rdst.init env w2 (withArgs rsOf p (us ++ [.rs (.seed s)])) = (w3, .ok o'))
    (hns : o'.nSamples = none) (hl : (∃ l, o'.lens = .ints l) ∨ o'.bounds ≠ none) :
    ∃ r, setParams RawRdst.setOne (us ++ [.rs (.seed s)]) (RawRdst.ofRdst o) = (r, .ok ()) ∧
      ∀ (f : FitCall G K L) (w w4 : World R) (r1 : RawRdst K R),
        r.fit rsOf env f.gs f.order w f.X f.y = (r1, w4, .ok ()) → ∀ w5, ∃ r2,
          r1.fit rsOf env f.gs f.order w5 f.X f.y = (r2, w5, .ok ()) ∧ ∀ Z, r2.transform Z = r1.transform Z := by
  have hus' : ∀ u ∈ us ++ [Upd.rs (.seed s)], AsStoredOrSeed u := by
    intro u hu
    rcases List.mem_append.1 hu with hu | hu
    · have := hus u hu
      cases u <;> first | exact this | trivial
    · simp only [List.mem_singleton] at hu
      subst hu; trivial
  obtain ⟨r, k1, k2, -⟩ := same_setParams rsOf h hus' h'
  refine ⟨r, k1, fun f w w4 r1 hf w5 => ?_⟩
  have hseed : r.seed = some s := by
    have hall : ∀ (us : List (Upd K R)) (a b : RawRdst K R), setParams RawRdst.setOne (us ++ [.rs (.seed s)]) a = (b, .ok ()) →
        b.seed = some s := by
      intro us
      induction us with
      | nil =>
        intro a b hab
        simp only [List.nil_append, setParams, RawRdst.setOne, Prod.mk.injEq, and_true] at hab
        rw [← hab]
      | cons u us ih =>
        intro a b hab
        rw [List.cons_append, setParams] at hab
        cases h1 : RawRdst.setOne a u with
        | error e => rw [h1] at hab; simp at hab
        | ok a' => rw [h1] at hab; exact ih a' b hab
    exact hall us _ _ k1
  have hrs : o'.rs = .own (rsOf s) := by
    rw [← k2.view]
    show rsView rsOf r = _
    simp [rsView, hseed]
  obtain ⟨r', e1, e2, e3, -⟩ := same_fit env f.gs f.order k2 w f.X f.y
  rw [hf] at e1
  rcases ho : o'.fit env f.gs f.order w f.X f.y with ⟨o1, wa, res⟩
  rw [ho] at e1 e3
  simp only [Prod.mk.injEq] at e1
  obtain ⟨rfl, -, rfl⟩ := e1
  have hv1 : rsView rsOf r1 = .own (rsOf s) := by simp [rsView, e2, hseed]
  rw [hv1] at e3
  obtain ⟨o2, g1, g2, g3, g4⟩ := refit_same ho hrs hns hl w5
  obtain ⟨r2, f1, -, f3, -⟩ := same_fit env f.gs f.order e3 w5 f.X f.y
  rw [g1] at f1 f3
  refine ⟨r2, f1, fun Z => ?_⟩
  rw [same_transform f3 Z, same_transform e3 Z]
  unfold Rdst.transform
  simp only [g2, g3, g4]

/-! ### Values that the constructor converts or refuses -/

/-- The object of the constructor. -/
theorem same_new (rsOf : Nat → R) {o : Rdst K R} (hS : o.shapelets = none) : Same rsOf (RawRdst.ofRdst o) o := by
  refine ⟨⟨fun _ => rfl, ?_, rfl, by simp [RawRdst.ofRdst]⟩, ?_, fun h => absurd hS h⟩
  · intro b hb
    cases ho : o.bounds with
    | none => simp [RawRdst.ofRdst, ho] at hb
    | some q => simp [RawRdst.ofRdst, ho] at hb; rw [← hb]; simp
  · rcases o with ⟨_, _, _, _, _, _, _, b, _, _, _, _, _, _, _, _, _, _⟩
    cases b <;> rfl

/-- A stored list of lengths is not read as an array. -/
theorem raw_list (rsOf : Nat → R) (env : Env G R L) (gs : Nat → G) (order : Nat → List Nat) {r : RawRdst K R}
    (hb : r.bounds = none) (hl : r.lensIsList = true) (w : World R) (X : XIn K) (y : List L) :
    (r.fit rsOf env gs order w X y).2.2 ≠ .ok () ∧
    ((({ r with lensIsList := false } : RawRdst K R).fit rsOf env gs order w X y).2.2 = .ok () →
      (r.fit rsOf env gs order w X y).2.2 = .error .attributeError) := by
  unfold RawRdst.fit RawRdst.prepare
  simp only
  rcases h1 : setFitTransform r.obj X with ⟨o1, _ | u⟩
  · simp
  · simp only
    rcases h2 : loadTrain o1 X with ⟨o2, _ | AX⟩
    · simp
    · obtain ⟨A, xLen⟩ := AX
      simp only
      rcases h3 : subsample env o2.nSamples w A y with ⟨w1, _ | Ay⟩
      · simp
      · simp [RawRdst.lengths, hb, hl]

/-- A number of shapelets that is a float is refused by the fitters. -/
theorem raw_float (rsOf : Nat → R) (env : Env G R L) (gs : Nat → G) (order : Nat → List Nat) {r : RawRdst K R}
    (hl : r.shpIsFloat = true) (w : World R) (X : XIn K) (y : List L) :
    (r.fit rsOf env gs order w X y).2.2 ≠ .ok () ∧
    ((({ r with shpIsFloat := false } : RawRdst K R).fit rsOf env gs order w X y).2.2 = .ok () →
      (r.fit rsOf env gs order w X y).2.2 = .error .typeError) := by
  unfold RawRdst.fit RawRdst.prepare
  simp only
  rcases h1 : setFitTransform r.obj X with ⟨o1, _ | u⟩
  · simp
  · simp only
    rcases h2 : loadTrain o1 X with ⟨o2, _ | AX⟩
    · simp
    · obtain ⟨A, xLen⟩ := AX
      simp only
      rcases h3 : subsample env o2.nSamples w A y with ⟨w1, _ | Ay⟩
      · simp
      · simp only [RawRdst.lengths]
        cases r.bounds with
        | none => by_cases hli : r.lensIsList = true <;> simp [hli, hl]
        | some b =>
          match b with
          | [] => simp
          | [_] => simp
          | b0 :: b1 :: t => simp [hl]

/-- Fewer than two percentiles. -/
theorem raw_percentiles (rsOf : Nat → R) (env : Env G R L) (gs : Nat → G) (order : Nat → List Nat) {r : RawRdst K R}
    (hl : r.percentiles.length < 2) (a b : K) (w : World R) (X : XIn K) (y : List L) :
    (r.fit rsOf env gs order w X y).2.2 ≠ .ok () ∧
    ((({ r with percentiles := [a, b] } : RawRdst K R).fit rsOf env gs order w X y).2.2 = .ok () →
      (r.fit rsOf env gs order w X y).2.2 = .error .indexError) := by
  have hp : ∀ q : RawRdst K R, q.percentiles = r.percentiles → q.percentiles = [] ∨ ∃ x, q.percentiles = [x] := by
    intro q hq
    rw [hq]
    match hl' : r.percentiles, hl with
    | [], _ => exact .inl rfl
    | [x], _ => exact .inr ⟨x, rfl⟩
    | _ :: _ :: _, h => simp at h
  unfold RawRdst.fit RawRdst.prepare
  simp only
  rcases h1 : setFitTransform r.obj X with ⟨o1, _ | u⟩
  · simp
  · simp only
    rcases h2 : loadTrain o1 X with ⟨o2, _ | AX⟩
    · simp
    · obtain ⟨A, xLen⟩ := AX
      simp only
      rcases h3 : subsample env o2.nSamples w A y with ⟨w1, _ | Ay⟩
      · simp
      · obtain ⟨A, y'⟩ := Ay
        simp only [RawRdst.lengths]
        rcases hbb : r.bounds with _ | _ | ⟨b0, _ | ⟨b1, t⟩⟩
        · by_cases hli : r.lensIsList = true
          · simp [hli]
          · simp only [hli, Bool.false_eq_true, if_false]
            by_cases hf : r.shpIsFloat = true
            · simp [hf]
            · simp only [if_neg hf]
              cases checkParams (setLengths o2.lens none o2.reduction (o2.minLen.getD 0)) (o2.minLen.getD 0) with
              | error e => simp
              | ok sizes =>
                simp only [RawRdst.draw]
                cases r.seed <;> rcases hp r rfl with h | ⟨x, h⟩ <;> simp [h]
        · simp
        · simp
        · simp only
          by_cases hf : r.shpIsFloat = true
          · simp [hf]
          · simp only [if_neg hf]
            cases checkParams (setLengths o2.lens (some (b0, b1)) o2.reduction (o2.minLen.getD 0)) (o2.minLen.getD 0) with
            | error e => simp
            | ok sizes =>
              simp only [RawRdst.draw]
              cases r.seed <;> rcases hp r rfl with h | ⟨x, h⟩ <;> simp [h]

/-- **C108 violated (finding).** `set_params(shapelet_lengths=l)` with a Python list, which the constructor accepts and converts:
without bounds no `fit` succeeds any more, and where the object constructed with this list is fitted without error, `AttributeError`
is raised. -/
theorem C108_violated_list_lengths (rsOf : Nat → R) {env : Env G R L} {w0 w1 : World R} {p : Params K R} {o : Rdst K R}
    (h : Rdst.init env w0 p = (w1, .ok o)) (hb : p.bounds = none) (l : LenArr K) :
    ∃ r, setParams RawRdst.setOne [.lens l true] (RawRdst.ofRdst o) = (r, .ok ()) ∧
      (∀ (f : FitCall G K L) (w : World R), (r.fit rsOf env f.gs f.order w f.X f.y).2.2 ≠ .ok ()) ∧
      ∀ (w2 w3 : World R) (o' : Rdst K R), Rdst.init env w2 (withArgs rsOf p [.lens l true]) = (w3, .ok o') →
        ∀ (f : FitCall G K L) (w : World R), (o'.fit env f.gs f.order w f.X f.y).2.2 = .ok () →
          (r.fit rsOf env f.gs f.order w f.X f.y).2.2 = .error .attributeError := by
  have hb' : (RawRdst.ofRdst o).bounds = none := by
    obtain ⟨-, -, -, -, -, -, -, h8, -⟩ := init_stores h
    exact h8.trans hb
  refine ⟨_, rfl, fun f w => (raw_list rsOf env f.gs f.order ?_ ?_ w f.X f.y).1, ?_⟩
  · exact hb'
  · rfl
  · intro w2 w3 o' h' f w hf
    refine (raw_list rsOf env f.gs f.order ?_ ?_ w f.X f.y).2 ?_
    · exact hb'
    · rfl
    · obtain ⟨r', k1, k2, -⟩ := same_setParams rsOf h (us := [.lens l false]) (by simp [AsStoredOrSeed, AsStored]) h'
      obtain ⟨r2, e1, -⟩ := same_fit env f.gs f.order k2 w f.X f.y
      simp only [setParams, RawRdst.setOne, Prod.mk.injEq, and_true] at k1
      rw [← k1] at e1
      rw [show (r2, (o'.fit env f.gs f.order w f.X f.y).2.1, (o'.fit env f.gs f.order w f.X f.y).2.2) =
        (r2, (o'.fit env f.gs f.order w f.X f.y).2.1, .ok ()) by rw [hf]] at e1
      exact congrArg (fun q => q.2.2) e1

/-- **C108 violated (finding).** `set_params(n_shapelets=n)` with a float, which the constructor accepts and
converts: no `fit` succeeds any more, and where the object constructed with this value is fitted without error,
`TypeError` is raised. -/
theorem C108_violated_float_count (rsOf : Nat → R) {env : Env G R L} {w0 w1 : World R} {p : Params K R} {o : Rdst K R}
    (h : Rdst.init env w0 p = (w1, .ok o)) (n : Nat) :
    ∃ r, setParams RawRdst.setOne [.nShp n true] (RawRdst.ofRdst o) = (r, .ok ()) ∧
      (∀ (f : FitCall G K L) (w : World R), (r.fit rsOf env f.gs f.order w f.X f.y).2.2 ≠ .ok ()) ∧
      ∀ (w2 w3 : World R) (o' : Rdst K R), Rdst.init env w2 (withArgs rsOf p [.nShp n true]) = (w3, .ok o') →
        ∀ (f : FitCall G K L) (w : World R), (o'.fit env f.gs f.order w f.X f.y).2.2 = .ok () →
          (r.fit rsOf env f.gs f.order w f.X f.y).2.2 = .error .typeError := by
  refine ⟨_, rfl, fun f w => (raw_float rsOf env f.gs f.order rfl w f.X f.y).1, ?_⟩
  intro w2 w3 o' h' f w hf
  refine (raw_float rsOf env f.gs f.order rfl w f.X f.y).2 ?_
  obtain ⟨r', k1, k2, -⟩ := same_setParams rsOf h (us := [.nShp n false]) (by simp [AsStoredOrSeed, AsStored]) h'
  obtain ⟨r2, e1, -⟩ := same_fit env f.gs f.order k2 w f.X f.y
  simp only [setParams, RawRdst.setOne, Prod.mk.injEq, and_true] at k1
  rw [← k1] at e1
  rw [show (r2, (o'.fit env f.gs f.order w f.X f.y).2.1, (o'.fit env f.gs f.order w f.X f.y).2.2) =
    (r2, (o'.fit env f.gs f.order w f.X f.y).2.1, .ok ()) by rw [hf]] at e1
  exact congrArg (fun q => q.2.2) e1

/-- **C108.** Fewer than two percentiles, which the constructor refuses: `set_params` accepts them and no `fit` succeeds any
more; `IndexError` is raised where the object could be fitted. -/
theorem C108_short_percentiles (rsOf : Nat → R) {env : Env G R L} {w0 w1 : World R} {p : Params K R} {o : Rdst K R}
    (h : Rdst.init env w0 p = (w1, .ok o)) {l : List K} (hl : l.length < 2) :
    (∀ w, ∃ e, (Rdst.init env w (withArgs rsOf p [.percentiles l])).2 = .error e) ∧
    ∃ r, setParams RawRdst.setOne [.percentiles l] (RawRdst.ofRdst o) = (r, .ok ()) ∧
      ∀ (f : FitCall G K L) (w : World R), (r.fit rsOf env f.gs f.order w f.X f.y).2.2 ≠ .ok () ∧
        ((o.fit env f.gs f.order w f.X f.y).2.2 = .ok () →
          (r.fit rsOf env f.gs f.order w f.X f.y).2.2 = .error .indexError) := by
  constructor
  · intro w
    cases hr : Rdst.init env w (withArgs rsOf p [.percentiles l]) with
    | mk w' res =>
      cases res with
      | error e => exact ⟨e, rfl⟩
      | ok o' =>
        obtain ⟨-, -, -, -, -, -, -, -, -, -, -, h12, -⟩ := init_stores hr
        have := congrArg List.length h12
        have hle : (List.take 2 (withArgs rsOf p [.percentiles l]).percentiles).length ≤ l.length := by
          show (List.take 2 l).length ≤ _
          simp
        rw [this] at hle
        simp at hle
        omega
  · refine ⟨_, rfl, fun f w => ?_⟩
    have hq := raw_percentiles rsOf env f.gs f.order (r := { RawRdst.ofRdst o with percentiles := l }) hl o.pMin o.pMax w f.X f.y
    refine ⟨hq.1, fun hf => hq.2 ?_⟩
    have hS : o.shapelets = none := by
      obtain ⟨-, -, -, -, -, -, -, -, -, -, -, -, -, -, -, h16, -⟩ := init_stores h
      exact h16
    obtain ⟨r2, e1, -⟩ := same_fit env f.gs f.order (same_new rsOf hS) w f.X f.y
    have : (({ ({ RawRdst.ofRdst o with percentiles := l } : RawRdst K R) with percentiles := [o.pMin, o.pMax] } : RawRdst K R)) =
      RawRdst.ofRdst o := rfl
    rw [this, e1]
    exact hf

/-- **C108 violated (finding).** Values that the constructor refuses are accepted by `set_params`, and used: decreasing
percentiles, a reduction of at least 1, more than two bounds (of which the first two are used), the type
`univariate_variable`.  The object then behaves like a constructed one with these attributes. -/
theorem C108_violated_no_validation (rsOf : Nat → R) {env : Env G R L} {w0 w1 : World R} {p : Params K R}
    {o : Rdst K R} (h : Rdst.init env w0 p = (w1, .ok o)) {u : Upd K R} {o' : Rdst K R}
    (hu : (∃ a b t, u = .percentiles (a :: b :: t) ∧ Scalar.leb a b = false ∧ o' = { o with pMin := a, pMax := b }) ∨
      (∃ x, u = .reduction x ∧ Scalar.leb 1 x = true ∧ o' = { o with reduction := x }) ∨
      (∃ b0 b1 b2 t, u = .bounds (some (b0 :: b1 :: b2 :: t)) ∧ o' = { o with bounds := some (b0, b1) }) ∨
      (u = .transformType "univariate_variable" ∧ o' = { o with transformType := .uniVar })) :
    (∀ w, ∃ e, (Rdst.init env w (withArgs rsOf p [u])).2 = .error e) ∧
    ∃ r, setParams RawRdst.setOne [u] (RawRdst.ofRdst o) = (r, .ok ()) ∧
      ∀ (uses : List (Use G K L)) (w : World R), watchRaw rsOf env uses r w = watchRdst env uses o' w := by
  have hS : o.shapelets = none := by
    obtain ⟨-, -, -, -, -, -, -, -, -, -, -, -, -, -, -, h16, -⟩ := init_stores h
    exact h16
  obtain ⟨hreg, hview, -⟩ := same_new rsOf (o := o) hS
  rcases hu with ⟨a, b, t, rfl, hab, rfl⟩ | ⟨x, rfl, hx, rfl⟩ | ⟨b0, b1, b2, t, rfl, rfl⟩ | ⟨rfl, rfl⟩
  · refine ⟨fun w => ?_, _, rfl, fun uses w => same_watch rsOf env uses
        (r := { RawRdst.ofRdst o with percentiles := a :: b :: t }) (o := { o with pMin := a, pMax := b })
        ⟨⟨hreg.1, hreg.2, hreg.3, by simp⟩, ?_, fun hn => absurd hS hn⟩ rfl w⟩
    · cases hr : Rdst.init env w (withArgs rsOf p [.percentiles (a :: b :: t)]) with
      | mk w' res =>
        cases res with
        | error e => exact ⟨e, rfl⟩
        | ok o' =>
          exfalso
          unfold Rdst.init at hr
          have : validatePercentiles (withArgs rsOf p [.percentiles (a :: b :: t)]).percentiles = .error .valueError := by
            show validatePercentiles (a :: b :: t) = _
            simp [validatePercentiles, hab]
          rw [this] at hr
          repeat' split at hr
          all_goals first | contradiction | simp at hr
    · have := congrArg (fun q : Rdst K R => ({ q with pMin := a, pMax := b } : Rdst K R)) hview
      exact this
  · refine ⟨fun w => ?_, _, rfl, fun uses w => same_watch rsOf env uses
        (r := { RawRdst.ofRdst o with obj := { o with reduction := x } }) (o := { o with reduction := x })
        ⟨⟨hreg.1, hreg.2, hreg.3, hreg.4⟩, ?_, fun hn => absurd hS hn⟩ rfl w⟩
    · cases hr : Rdst.init env w (withArgs rsOf p [.reduction x]) with
      | mk w' res =>
        cases res with
        | error e => exact ⟨e, rfl⟩
        | ok o' =>
          exfalso
          unfold Rdst.init at hr
          have : Scalar.leb 1 (withArgs rsOf p [.reduction x]).reduction = true := hx
          simp only [if_pos this] at hr
          repeat' split at hr
          all_goals first | contradiction | simp at hr
    · have := congrArg (fun q : Rdst K R => ({ q with reduction := x } : Rdst K R)) hview
      exact this
  · refine ⟨fun w => ?_, _, rfl, fun uses w => same_watch rsOf env uses
        (r := { RawRdst.ofRdst o with bounds := some (b0 :: b1 :: b2 :: t) }) (o := { o with bounds := some (b0, b1) })
        ⟨⟨fun hn => by simp at hn, ?_, hreg.3, hreg.4⟩, ?_, fun hn => absurd hS hn⟩ rfl w⟩
    · cases hr : Rdst.init env w (withArgs rsOf p [.bounds (some (b0 :: b1 :: b2 :: t))]) with
      | mk w' res =>
        cases res with
        | error e => exact ⟨e, rfl⟩
        | ok o' =>
          exfalso
          obtain ⟨-, -, -, -, -, -, -, h8, -⟩ := init_stores hr
          have h8 : o'.bounds.map (fun b => [b.1, b.2]) = some (b0 :: b1 :: b2 :: t) := h8
          cases hob : o'.bounds <;> simp [hob] at h8
    · intro b hb
      simp only [Option.some.injEq] at hb
      rw [← hb]; simp
    · have := congrArg (fun q : Rdst K R => ({ q with bounds := some (b0, b1) } : Rdst K R)) hview
      exact this
  · refine ⟨fun w => ?_, _, rfl, fun uses w => same_watch rsOf env uses
        (r := { RawRdst.ofRdst o with obj := { o with transformType := .uniVar } }) (o := { o with transformType := .uniVar })
        ⟨⟨hreg.1, hreg.2, hreg.3, hreg.4⟩, ?_, fun hn => absurd hS hn⟩ rfl w⟩
    · cases hr : Rdst.init env w (withArgs rsOf p [.transformType "univariate_variable"]) with
      | mk w' res =>
        cases res with
        | error e => exact ⟨e, rfl⟩
        | ok o' =>
          exfalso
          obtain ⟨h1, -⟩ := init_stores hr
          have h1 : validateTransformType "univariate_variable" = .ok o'.transformType := h1
          have h2 : validateTransformType "univariate_variable" = .error .valueError := by decide +kernel
          rw [h2] at h1
          cases h1
    · have := congrArg (fun q : Rdst K R => ({ q with transformType := .uniVar } : Rdst K R)) hview
      exact this

/-- **C108 violated (finding).** A `transform_type` not in lower case, which the constructor converts: after `set_params` every
`fit` raises `ValueError`. -/
theorem C108_violated_type_case (rsOf : Nat → R) {env : Env G R L} (r : RawRdst K R) {s : String}
    (hs : s.toLower ≠ s) :
    ∃ r', setParams RawRdst.setOne [.transformType s] r = (r', .ok ()) ∧
      ∀ (f : FitCall G K L) (w : World R), (r'.fit rsOf env f.gs f.order w f.X f.y).2 = (w, .error .valueError) := by
  have hst : storedType s = .null := by
    unfold storedType
    have h1 : s ≠ "auto" := by rintro rfl; exact hs (by decide +kernel)
    have h2 : s ≠ "univariate" := by rintro rfl; exact hs (by decide +kernel)
    have h3 : s ≠ "multivariate" := by rintro rfl; exact hs (by decide +kernel)
    have h4 : s ≠ "univariate_variable" := by rintro rfl; exact hs (by decide +kernel)
    have h5 : s ≠ "multivariate_variable" := by rintro rfl; exact hs (by decide +kernel)
    simp [h1, h2, h3, h4, h5]
  refine ⟨_, rfl, fun f w => ?_⟩
  unfold RawRdst.fit RawRdst.prepare
  simp [hst, setFitTransform]

/-! ### On a fitted object -/

/-- **C108.** On a fitted object, setting parameters other than `phase_invariance` and `transform_type` changes no result of
`transform`, also when `set_params` raises. -/
theorem C108_transform_unchanged (us : List (Upd K R)) (hus : ∀ u ∈ us, FitOnly u) (r : RawRdst K R) (Z : XIn K) :
    (setParams RawRdst.setOne us r).1.transform Z = r.transform Z := by
  induction us generalizing r with
  | nil => rfl
  | cons u us ih =>
    have h1 : ∀ r', r.setOne u = .ok r' → r'.transform Z = r.transform Z := by
      intro r' hr
      have hu := hus u (by simp)
      cases u with
      | phase b => exact hu.elim
      | transformType s => exact hu.elim
      | unknown n => simp [RawRdst.setOne] at hr
      | rs src => cases src <;> (simp only [RawRdst.setOne, Except.ok.injEq] at hr; subst hr; rfl)
      | nJobs v => cases v <;> (simp only [RawRdst.setOne, Except.ok.injEq] at hr; subst hr; rfl)
      | _ => simp only [RawRdst.setOne, Except.ok.injEq] at hr; subst hr; rfl
    rw [setParams]
    cases hr : r.setOne u with
    | error e => rfl
    | ok r' => rw [ih (fun v hv => hus v (by simp [hv])) r', h1 r' hr]

/-- An object after some calls of `fit`. -/
def afterRaw (rsOf : Nat → R) (env : Env G R L) : List (FitCall G K L) → RawRdst K R → World R → RawRdst K R × World R
  | [], r, w => (r, w)
  | f :: fs, r, w =>
    let s := r.fit rsOf env f.gs f.order w f.X f.y
    afterRaw rsOf env fs s.1 s.2.1

theorem same_after (rsOf : Nat → R) (env : Env G R L) (fs : List (FitCall G K L)) {r : RawRdst K R} {o : Rdst K R}
    (h : Same rsOf r o) (hs : r.seed = none) (w : World R) :
    Same rsOf (afterRaw rsOf env fs r w).1 (afterFits env o w fs).1 ∧ (afterRaw rsOf env fs r w).1.seed = none ∧
      (afterRaw rsOf env fs r w).2 = (afterFits env o w fs).2 := by
  induction fs generalizing r o w with
  | nil => exact ⟨h, hs, rfl⟩
  | cons f fs ih =>
    obtain ⟨r', h1, h2, h3, h4⟩ := same_fit env f.gs f.order h w f.X f.y
    rw [h4 hs] at h3
    show Same rsOf (afterRaw rsOf env fs _ _).1 (afterFits env _ _ fs).1 ∧ (afterRaw rsOf env fs _ _).1.seed = none ∧
      (afterRaw rsOf env fs _ _).2 = (afterFits env _ _ fs).2
    simp only [h1]
    exact ih h3 (h2.trans hs) _

/-- **C108.** `phase_invariance` set after `fit`: `transform` uses the new value with the shapelets of the old one. -/
theorem C108_phase_after_fit (rsOf : Nat → R) (env : Env G R L) {o : Rdst K R} (hS : o.shapelets = none)
    (fs : List (FitCall G K L)) (w : World R) (b : Bool) :
    ∃ r', setParams RawRdst.setOne [.phase b] (afterRaw rsOf env fs (RawRdst.ofRdst o) w).1 = (r', .ok ()) ∧
      ∀ Z, r'.transform Z = ({ (afterFits env o w fs).1 with phase := b } : Rdst K R).transform Z := by
  obtain ⟨h1, -, -⟩ := same_after rsOf env fs (same_new rsOf hS) rfl w
  generalize (afterRaw rsOf env fs (RawRdst.ofRdst o) w).1 = r at h1 ⊢
  generalize (afterFits env o w fs).1 = o' at h1 ⊢
  obtain ⟨⟨a1, a2, a3, a4⟩, hv, hf⟩ := h1
  refine ⟨_, rfl, fun Z => same_transform (rsOf := rsOf) (r := { r with obj := { r.obj with phase := b } })
    (o := { o' with phase := b }) ⟨⟨a1, a2, a3, a4⟩, ?_, hf⟩ Z⟩
  have := congrArg (fun q : Rdst K R => ({ q with phase := b } : Rdst K R)) hv
  exact this

/-- **C108.** `transform_type` set after a `fit`, to a type for series of equal lengths when the fitted one was (or to one
for series of several lengths when the fitted one was): no result of `transform` changes, the functions chosen by `fit` stay in use. -/
theorem C108_type_after_fit_same_family (r : RawRdst K R) (s : String)
    (hs : (storedType s).Var ↔ r.obj.transformType.Var) :
    ∃ r', setParams RawRdst.setOne [.transformType s] r = (r', .ok ()) ∧ ∀ Z, r'.transform Z = r.transform Z := by
  refine ⟨_, rfl, fun Z => ?_⟩
  unfold RawRdst.transform
  simp only
  have hs' : (storedType s = .multiVar ∨ storedType s = .uniVar) ↔
    (r.obj.transformType = .multiVar ∨ r.obj.transformType = .uniVar) := hs
  simp only [hs']

/-- **C108 (finding).** `transform_type` set after a successful `fit`, to a type of the other family: `transform`
raises for every input, until the next `fit`. -/
theorem C108_type_after_fit_other_family (rsOf : Nat → R) (env : Env G R L) {o : Rdst K R} (hS : o.shapelets = none)
    (fs : List (FitCall G K L)) (w : World R) {s : String}
    (hs : (storedType s).Var ↔ ¬ (afterFits env o w fs).1.transformType.Var) :
    ∃ r', setParams RawRdst.setOne [.transformType s] (afterRaw rsOf env fs (RawRdst.ofRdst o) w).1 = (r', .ok ()) ∧
      ∀ Z, ∃ e, r'.transform Z = .error e := by
  obtain ⟨h1, -, -⟩ := same_after rsOf env fs (same_new rsOf hS) rfl w
  obtain ⟨-, hv, hf⟩ := h1
  generalize (afterRaw rsOf env fs (RawRdst.ofRdst o) w).1 = r at hv hf ⊢
  generalize (afterFits env o w fs).1 = o' at hv hf hs
  have hS' : r.obj.shapelets = o'.shapelets := by rw [← hv]; rfl
  refine ⟨_, rfl, fun Z => ?_⟩
  unfold RawRdst.transform
  simp only [hS']
  cases hos : o'.shapelets with
  | none => exact ⟨_, rfl⟩
  | some S =>
    obtain ⟨-, hb⟩ := hf (by rw [hos]; simp)
    simp only [hb]
    have hs' : (storedType s = .multiVar ∨ storedType s = .uniVar) ↔
      ¬ (o'.transformType = .multiVar ∨ o'.transformType = .uniVar) := hs
    by_cases hvar : storedType s = .multiVar ∨ storedType s = .uniVar
    · rw [if_pos hvar]
      have hn := hs'.1 hvar
      push Not at hn
      cases formatUneven Z with
      | error e => exact ⟨e, rfl⟩
      | ok AX =>
        obtain ⟨A, x⟩ := AX
        simp only [bind, Except.bind]
        cases checkArray3D A.py with
        | error e => exact ⟨e, rfl⟩
        | ok Y =>
          refine ⟨.typeError, ?_⟩
          cases ht : o'.transformType <;> first | exact absurd ht hn.1 | exact absurd ht hn.2 | rfl
    · rw [if_neg hvar]
      have hn : o'.transformType = .multiVar ∨ o'.transformType = .uniVar := by
        by_contra hc
        exact hvar (hs'.2 hc)
      cases toArr3 Z with
      | error e => exact ⟨e, rfl⟩
      | ok A =>
        refine ⟨.typeError, ?_⟩
        rcases hn with ht | ht <;> simp only [ht, bind, Except.bind]

/-- `fit` up to the call neither reads nor changes `n_jobs` and the shapelets. -/
theorem prepare_extra (env : Env G R L) (o : Rdst K R) (n : Int) (S : Option (Shapelets K)) (w : World R) (X : XIn K) (y : List L) :
    ({ o with nJobs := n, shapelets := S } : Rdst K R).prepare env w X y =
      ({ (o.prepare env w X y).1 with nJobs := n, shapelets := S }, (o.prepare env w X y).2) := by
  have h1 : ∀ o : Rdst K R, setFitTransform { o with nJobs := n, shapelets := S } X =
      ({ (setFitTransform o X).1 with nJobs := n, shapelets := S }, (setFitTransform o X).2) := by
    intro o
    unfold setFitTransform
    rcases o with ⟨t, _, _, _, _, _, _, _, _, _, _, _, _, _, _, _, _, _⟩
    cases t <;> try rfl
    cases autoClass X with
    | error e => rfl
    | ok t' => cases t' <;> rfl
  have h2 : ∀ o : Rdst K R, loadTrain { o with nJobs := n, shapelets := S } X =
      ({ (loadTrain o X).1 with nJobs := n, shapelets := S }, (loadTrain o X).2) := by
    intro o
    unfold loadTrain
    simp only
    split
    · cases formatUneven X with
      | error e => rfl
      | ok AX =>
        simp only
        cases checkArray3D AX.1.py with
        | error e => rfl
        | ok _ =>
          rcases o with ⟨_, _, _, _, _, _, _, _, _, _, _, _, _, _, _, _, ml, _⟩
          cases ml with
          | some m => rfl
          | none =>
            simp only
            cases nmin AX.2 <;> rfl
    · cases toArr3 X <;> rfl
  unfold Rdst.prepare
  rw [h1 o]
  rcases hs : setFitTransform o X with ⟨o1, _ | u⟩
  · rfl
  simp only
  rw [h2 o1]
  rcases hl : loadTrain o1 X with ⟨o2, _ | AX⟩
  · rfl
  simp only
  rcases hb : subsample env o2.nSamples w AX.1 y with ⟨w1, _ | Ay⟩
  · rfl
  simp only
  cases checkParams (setLengths o2.lens o2.bounds o2.reduction (o2.minLen.getD 0)) (o2.minLen.getD 0) with
  | error e => rfl
  | ok sizes =>
    simp only [drawSeed]
    rcases o2 with ⟨t, _, _, _, _, _, _, _, _, _, _, _, _, rs, _, _, _, _⟩
    cases rs <;> cases t <;> rfl

theorem fit_extra (env : Env G R L) (gs : Nat → G) (order : Nat → List Nat) (o : Rdst K R) (n : Int)
    (S : Option (Shapelets K)) (w : World R) (X : XIn K) (y : List L) :
    ∃ S', ({ o with nJobs := n, shapelets := S } : Rdst K R).fit env gs order w X y =
        ({ (o.fit env gs order w X y).1 with nJobs := n, shapelets := S' }, (o.fit env gs order w X y).2) ∧
      (S = o.shapelets ∨ (o.fit env gs order w X y).2.2 = .ok () → S' = (o.fit env gs order w X y).1.shapelets) := by
  rcases hp : o.prepare env w X y with ⟨o1, w1, res⟩
  have he := prepare_extra env o n S w X y
  rw [hp] at he
  have hS1 : o1.shapelets = o.shapelets := by
    obtain ⟨t, ml, mc, ls, rs', h, -⟩ := prepare_cases hp
    rw [h]
  unfold Rdst.fit
  rw [he, hp]
  cases res with
  | error e => exact ⟨S, rfl, fun h => by rcases h with h | h; exact h.trans hS1.symm; simp at h⟩
  | ok cs =>
    obtain ⟨c, seed⟩ := cs
    simp only
    cases c.run (env.seedG seed) gs order with
    | error e => exact ⟨S, rfl, fun h => by rcases h with h | h; exact h.trans hS1.symm; simp at h⟩
    | ok S2 => exact ⟨some S2, rfl, fun _ => rfl⟩

theorem watch_jobs (env : Env G R L) (uses : List (Use G K L)) (o : Rdst K R) (n : Int) (w : World R) :
    watchRdst env uses { o with nJobs := n } w = watchRdst env uses o w := by
  induction uses generalizing o w with
  | nil => rfl
  | cons u uses ih =>
    cases u with
    | transform Z =>
      show _ :: watchRdst env uses _ w = _ :: watchRdst env uses _ w
      rw [ih]
      rfl
    | fit f =>
      obtain ⟨S', h1, h2⟩ := fit_extra env f.gs f.order o n o.shapelets w f.X f.y
      have h2 := h2 (.inl rfl)
      subst h2
      have he : ({ o with nJobs := n, shapelets := o.shapelets } : Rdst K R) = { o with nJobs := n } := rfl
      rw [he] at h1
      show Seen.fit _ _ :: watchRdst env uses _ _ = Seen.fit _ _ :: watchRdst env uses _ _
      simp only [h1]
      congr 1
      exact ih _ _

/-- **C108 (finding).** `set_params(n_jobs=v)` changes no outcome of any later call, whatever the value; in
particular no `fit` sets the number of threads (the constructor does). -/
theorem C108_n_jobs (rsOf : Nat → R) (env : Env G R L) {o : Rdst K R} (hS : o.shapelets = none)
    (fs : List (FitCall G K L)) (w : World R) (v : PyVal K) :
    ∃ r', setParams RawRdst.setOne [.nJobs v] (afterRaw rsOf env fs (RawRdst.ofRdst o) w).1 = (r', .ok ()) ∧
      (∀ (uses : List (Use G K L)) (w' : World R),
        watchRaw rsOf env uses r' w' = watchRaw rsOf env uses (afterRaw rsOf env fs (RawRdst.ofRdst o) w).1 w') ∧
      ∀ (f : FitCall G K L) (w' : World R),
        (r'.fit rsOf env f.gs f.order w' f.X f.y).2.1.numThreads = w'.numThreads := by
  obtain ⟨h1, hs, -⟩ := same_after rsOf env fs (same_new rsOf hS) rfl w
  generalize (afterRaw rsOf env fs (RawRdst.ofRdst o) w).1 = r at h1 hs ⊢
  generalize (afterFits env o w fs).1 = o' at h1
  have thr : ∀ {r' : RawRdst K R} {q : Rdst K R}, Same rsOf r' q → ∀ (f : FitCall G K L) (w' : World R),
      (r'.fit rsOf env f.gs f.order w' f.X f.y).2.1.numThreads = w'.numThreads := by
    intro r' q hsame f w'
    obtain ⟨r2, e1, -⟩ := same_fit env f.gs f.order hsame w' f.X f.y
    rw [e1]
    rcases hq : q.fit env f.gs f.order w' f.X f.y with ⟨q1, w2, res⟩
    obtain ⟨q2, r3, hp, -⟩ := fit_cases hq
    obtain ⟨-, -, -, -, -, -, hw, -⟩ := prepare_cases hp
    exact hw
  have hint : ∀ n : Int, Same rsOf { r with obj := { r.obj with nJobs := n } } { o' with nJobs := n } := by
    intro n
    obtain ⟨⟨a1, a2, a3, a4⟩, hv, hf⟩ := h1
    refine ⟨⟨a1, a2, a3, a4⟩, ?_, hf⟩
    have := congrArg (fun q : Rdst K R => ({ q with nJobs := n } : Rdst K R)) hv
    exact this
  have hstay : (∀ (uses : List (Use G K L)) (w' : World R), watchRaw rsOf env uses r w' = watchRaw rsOf env uses r w') ∧
      ∀ (f : FitCall G K L) (w' : World R), (r.fit rsOf env f.gs f.order w' f.X f.y).2.1.numThreads = w'.numThreads :=
    ⟨fun _ _ => rfl, fun f w' => thr h1 f w'⟩
  cases v with
  | int n =>
    refine ⟨_, rfl, fun uses w' => ?_, fun f w' => thr (hint n) f w'⟩
    rw [same_watch rsOf env uses h1 hs w', ← watch_jobs env uses o' n w']
    exact same_watch rsOf env uses (hint n) hs w'
  | _ => exact ⟨r, rfl, hstay⟩

/-- `fit` of an object with stored values, that may hold shapelets of an earlier `fit`. -/
theorem reg_fit {rsOf : Nat → R} (env : Env G R L) (gs : Nat → G) (order : Nat → List Nat) {r : RawRdst K R}
    {o : Rdst K R} (hreg : Regular r) (hview : viewOf rsOf r = o) (w : World R) (X : XIn K) (y : List L) :
    ∃ r', r.fit rsOf env gs order w X y = (r', (o.fit env gs order w X y).2.1, (o.fit env gs order w X y).2.2) ∧
      r'.seed = r.seed ∧
      ((o.fit env gs order w X y).2.2 = .ok () → Same rsOf r' { (o.fit env gs order w X y).1 with rs := rsView rsOf r' }) ∧
      (r.seed = none → rsView rsOf r' = (o.fit env gs order w X y).1.rs) := by
  obtain ⟨r1, h1, h2, h3, h4, h5, h6⟩ := raw_prepare rsOf env hreg w X y
  rw [hview] at h1 h4 h5
  rcases hp : o.prepare env w X y with ⟨o1, w1, res⟩
  rw [hp] at h1 h4 h5
  simp only at h1 h4 h5
  have htt : r1.obj.transformType = o1.transformType := by
    have := congrArg Rdst.transformType h4
    exact this
  obtain ⟨t, ml, mc, ls, rs', ho1, -, ht1, -, -, -, -, hok⟩ := prepare_cases hp
  unfold RawRdst.fit Rdst.fit
  rw [h1, hp]
  cases res with
  | error e => exact ⟨r1, rfl, h3, fun h => by simp at h, h5⟩
  | ok cs =>
    obtain ⟨c, seed⟩ := cs
    simp only
    cases hrun : c.run (env.seedG seed) gs order with
    | error e => exact ⟨r1, rfl, h3, fun h => by simp at h, h5⟩
    | ok S =>
      have hcon : o1.transformType.Concrete := by rw [ho1]; exact (hok c seed rfl).1
      have hb : r1.built = o1.transformType := by
        rcases h6 with ⟨-, h⟩ | ⟨h, -⟩
        · rw [htt] at h; exact absurd hcon h
        · rw [h, htt]
      refine ⟨_, rfl, h3, fun _ => ⟨⟨h2.1, h2.2, h2.3, h2.4⟩, ?_, fun _ => ⟨hcon, hb⟩⟩, h5⟩
      have : viewOf rsOf { r1 with obj := { r1.obj with shapelets := some S } } =
        { viewOf rsOf r1 with shapelets := some S } := rfl
      rw [this, h4]
      rfl

/-- **C108.** A `fit` changes the parameters of the object.  Setting the five that it changes back to what the
constructor was given makes the next `fit` that of a new object, whatever was fitted before. -/
theorem C108_reset (rsOf : Nat → R) {env : Env G R L} {w0 w1 : World R} {p : Params K R} {o : Rdst K R}
    (h : Rdst.init env w0 p = (w1, .ok o)) (fs : List (FitCall G K L)) (w : World R) :
    ∃ r', setParams RawRdst.setOne
        [.transformType p.transformType.toLower, .lens p.lens false, .minLen p.minLen, .maxChannels p.maxChannels,
          .rs (match p.rs with | .glob => .none | .own g => .inst g)]
        (afterRaw rsOf env fs (RawRdst.ofRdst o) w).1 = (r', .ok ()) ∧
      ∀ (f : FitCall G K L) (w' : World R),
        (r'.fit rsOf env f.gs f.order w' f.X f.y).2 = (o.fit env f.gs f.order w' f.X f.y).2 ∧
        ((o.fit env f.gs f.order w' f.X f.y).2.2 = .ok () →
          ∀ (uses : List (Use G K L)) (w2 : World R),
            watchRaw rsOf env uses (r'.fit rsOf env f.gs f.order w' f.X f.y).1 w2 =
              watchRdst env uses (o.fit env f.gs f.order w' f.X f.y).1 w2) := by
  obtain ⟨b1, -, -, -, -, -, b7, -, -, -, -, -, b13, b14, b15, b16, -⟩ := init_stores h
  obtain ⟨h1, hs, -⟩ := same_after rsOf env fs (same_new rsOf b16) rfl w
  obtain ⟨t, ml, mc, ls, rs', S, ho', -⟩ := afterFits_spec env o w fs
  rw [ho'] at h1
  generalize (afterRaw rsOf env fs (RawRdst.ofRdst o) w).1 = r at h1 hs ⊢
  obtain ⟨⟨a1, a2, a3, a4⟩, hv, hf⟩ := h1
  obtain ⟨q, hq⟩ : ∃ q : RawRdst K R, q = { r with obj := { r.obj with transformType := o.transformType, lens := o.lens, minLen := o.minLen, maxChannels := o.maxChannels, rs := o.rs }, lensIsList := false, seed := none } := ⟨_, rfl⟩
  have hset : setParams RawRdst.setOne
        [.transformType p.transformType.toLower, .lens p.lens false, .minLen p.minLen, .maxChannels p.maxChannels,
          .rs (match p.rs with | .glob => .none | .own g => .inst g)] r = (q, .ok ()) := by
    subst hq
    have e1 := (validate_stored b1).1
    rw [← b7, ← b14, ← b15, ← b13]
    cases hrs : o.rs with
    | glob => simp only [setParams, RawRdst.setOne, e1]
    | own g => simp only [setParams, RawRdst.setOne, e1]
  refine ⟨q, hset, fun f w' => ?_⟩
  have hqv : viewOf rsOf q = { o with shapelets := S } := by
    have := congrArg (fun z : Rdst K R => ({ z with transformType := o.transformType, lens := o.lens, minLen := o.minLen, maxChannels := o.maxChannels, rs := o.rs } : Rdst K R)) hv
    subst hq
    exact this
  have hreg : Regular q := by subst hq; exact ⟨fun _ => rfl, a2, a3, a4⟩
  have hqs : q.seed = none := by rw [hq]
  obtain ⟨r2, e1, e2, e3, e4⟩ := reg_fit env f.gs f.order hreg hqv w' f.X f.y
  obtain ⟨S', g1, g2⟩ := fit_extra env f.gs f.order o o.nJobs S w' f.X f.y
  have he : ({ o with nJobs := o.nJobs, shapelets := S } : Rdst K R) = { o with shapelets := S } := rfl
  rw [he] at g1
  rw [g1] at e1 e3 e4
  refine ⟨by rw [e1], fun hok uses w2 => ?_⟩
  have hS' := g2 (.inr hok)
  have hnj : (o.fit env f.gs f.order w' f.X f.y).1.nJobs = o.nJobs := by
    rcases hf : o.fit env f.gs f.order w' f.X f.y with ⟨o1, w1, res⟩
    obtain ⟨oa, r1, hp, S3, rfl, -⟩ := fit_cases hf
    obtain ⟨_, _, _, _, _, rfl, -⟩ := prepare_cases hp
    rfl
  have hsame := e3 hok
  rw [e4 hqs, hS', ← hnj] at hsame
  rw [e1]
  exact same_watch rsOf env uses hsame (e2.trans hqs) w2

end
end Convst.Props
