import Verif.Spec.SetParams
import Verif.Props.Cloning
import Verif.Proofs.ObjectRows

/-!
# Lemmas about `set_params`
-/

set_option autoImplicit false
set_option linter.unusedSectionVars false

namespace Convst.Props
open Convst Spec

section
variable {G K R L : Type} [Scalar K]

/-- The two values read from a stored list of bounds. -/
def twoBounds : Option (List (Bound K)) → Option (Bound K × Bound K)
  | some (b0 :: b1 :: _) => some (b0, b1)
  | _ => none

/-- The generator used by the next `fit`. -/
def rsView (rsOf : Nat → R) (r : RawRdst K R) : RState R :=
  match r.seed with
  | some s => .own (rsOf s)
  | none => r.obj.rs

/-- The object of the constructor with the same attributes. -/
def viewOf (rsOf : Nat → R) (r : RawRdst K R) : Rdst K R :=
  { r.obj with bounds := twoBounds r.bounds, pMin := r.percentiles.getD 0 0, pMax := r.percentiles.getD 1 0,
               rs := rsView rsOf r }

/-- Stored values that do not make `fit` raise. -/
structure Regular (r : RawRdst K R) : Prop where
  list : r.bounds = none → r.lensIsList = false
  bounds : ∀ b, r.bounds = some b → 2 ≤ b.length
  shp : r.shpIsFloat = false
  perc : 2 ≤ r.percentiles.length

theorem setFitTransform_obj (o : Rdst K R) (b : Option (Bound K × Bound K)) (x z : K) (s : RState R) (X : XIn K) :
    setFitTransform { o with bounds := b, pMin := x, pMax := z, rs := s } X =
      ({ (setFitTransform o X).1 with bounds := b, pMin := x, pMax := z, rs := s }, (setFitTransform o X).2) := by
  unfold setFitTransform
  rcases o with ⟨t, _, _, _, _, _, _, _, _, _, _, _, _, _, _, _, _, _⟩
  cases t <;> try rfl
  cases autoClass X with
  | error e => rfl
  | ok t' => cases t' <;> rfl

theorem loadTrain_obj (o : Rdst K R) (b : Option (Bound K × Bound K)) (x z : K) (s : RState R) (X : XIn K) :
    loadTrain { o with bounds := b, pMin := x, pMax := z, rs := s } X =
      ({ (loadTrain o X).1 with bounds := b, pMin := x, pMax := z, rs := s }, (loadTrain o X).2) := by
  unfold loadTrain
  rcases o with ⟨t, _, _, _, _, _, _, _, _, _, _, _, _, _, _, _, ml, _⟩
  simp only
  split
  · cases formatUneven X with
    | error e => rfl
    | ok AX =>
      simp only
      cases checkArray3D AX.1.py with
      | error e => rfl
      | ok _ =>
        cases ml with
        | some m => rfl
        | none =>
          simp only
          cases nmin AX.2 <;> rfl
  · cases toArr3 X <;> rfl

theorem lengths_regular {r : RawRdst K R} (h : Regular r) (m : Nat) :
    r.lengths m = .ok (setLengths r.obj.lens (twoBounds r.bounds) r.obj.reduction m) := by
  unfold RawRdst.lengths twoBounds
  cases hb : r.bounds with
  | none => simp [h.list hb]
  | some b =>
    have := h.bounds b hb
    match b, this with
    | b0 :: b1 :: t, _ => rfl
    | [], h => simp at h
    | [_], h => simp at h

/-- `fit` up to the call on regular stored values. -/
theorem raw_prepare (rsOf : Nat → R) (env : Env G R L) {r : RawRdst K R} (h : Regular r) (w : World R) (X : XIn K)
    (y : List L) :
    ∃ r', r.prepare rsOf env w X y =
        (r', ((viewOf rsOf r).prepare env w X y).2.1, ((viewOf rsOf r).prepare env w X y).2.2) ∧
      Regular r' ∧ r'.seed = r.seed ∧
      viewOf rsOf r' = { ((viewOf rsOf r).prepare env w X y).1 with rs := rsView rsOf r' } ∧
      (r.seed = none → rsView rsOf r' = ((viewOf rsOf r).prepare env w X y).1.rs) ∧
      (r'.built = r.built ∧ ¬ r'.obj.transformType.Concrete ∨
        r'.built = r'.obj.transformType ∧ r'.obj.transformType.Concrete) := by
  have hp : ∃ a b t, r.percentiles = a :: b :: t := by
    have := h.perc
    match hl : r.percentiles, this with
    | a :: b :: t, _ => exact ⟨a, b, t, rfl⟩
    | [], h => simp at h
    | [_], h => simp at h
  obtain ⟨pa, pb, pt, hpe⟩ := hp
  have hview : ∀ (o : Rdst K R) (w' : World R) (res : Res (Call K L × Nat)) (r' : RawRdst K R),
      (viewOf rsOf r).prepare env w X y = (o, w', res) → r.prepare rsOf env w X y = (r', w', res) →
      (Regular r' ∧ r'.seed = r.seed ∧ viewOf rsOf r' = { o with rs := rsView rsOf r' } ∧
        (r.seed = none → rsView rsOf r' = o.rs) ∧
        (r'.built = r.built ∧ ¬ r'.obj.transformType.Concrete ∨
          r'.built = r'.obj.transformType ∧ r'.obj.transformType.Concrete)) →
      ∃ r', r.prepare rsOf env w X y =
        (r', ((viewOf rsOf r).prepare env w X y).2.1, ((viewOf rsOf r).prepare env w X y).2.2) ∧
      Regular r' ∧ r'.seed = r.seed ∧
      viewOf rsOf r' = { ((viewOf rsOf r).prepare env w X y).1 with rs := rsView rsOf r' } ∧
      (r.seed = none → rsView rsOf r' = ((viewOf rsOf r).prepare env w X y).1.rs) ∧
      (r'.built = r.built ∧ ¬ r'.obj.transformType.Concrete ∨
        r'.built = r'.obj.transformType ∧ r'.obj.transformType.Concrete) := by
    intro o w' res r' hV hR hrest
    rw [hV, hR]
    exact ⟨r', rfl, hrest⟩
  rcases h1 : setFitTransform r.obj X with ⟨o1, r1⟩
  obtain ⟨t, rfl, -, ht2, -, ht4⟩ := setFitTransform_cases h1
  have h1' : setFitTransform (viewOf rsOf r) X = ({ viewOf rsOf r with transformType := t }, r1) := by
    rw [viewOf, setFitTransform_obj, h1]
  cases r1 with
  | error e =>
    refine hview { viewOf rsOf r with transformType := t } w (.error e)
      { r with obj := { r.obj with transformType := t } } ?_ ?_ ?_
    · unfold Rdst.prepare; rw [h1']
    · unfold RawRdst.prepare; rw [h1]
    · refine ⟨⟨h.1, h.2, h.3, h.4⟩, rfl, rfl, ?_, .inl ⟨rfl, ht4 e rfl⟩⟩
      intro hs
      simp [rsView, viewOf, hs]
  | ok u =>
  have hc := ht2 rfl
  rcases h2 : loadTrain { r.obj with transformType := t } X with ⟨o2, r2⟩
  obtain ⟨ml, rfl, -⟩ := loadTrain_cases h2
  have h2' : loadTrain { viewOf rsOf r with transformType := t } X =
      ({ viewOf rsOf r with transformType := t, minLen := ml }, r2) := by
    have := loadTrain_obj { r.obj with transformType := t } (twoBounds r.bounds) (r.percentiles.getD 0 0)
      (r.percentiles.getD 1 0) (rsView rsOf r) X
    rw [h2] at this
    exact this
  cases r2 with
  | error e =>
    refine hview { viewOf rsOf r with transformType := t, minLen := ml } w (.error e)
      { r with obj := { r.obj with transformType := t, minLen := ml }, built := t } ?_ ?_ ?_
    · unfold Rdst.prepare; rw [h1']; simp only; rw [h2']
    · unfold RawRdst.prepare; rw [h1]; simp only; rw [h2]
    · refine ⟨⟨h.1, h.2, h.3, h.4⟩, rfl, rfl, ?_, .inr ⟨rfl, hc⟩⟩
      intro hs
      simp [rsView, viewOf, hs]
  | ok AX =>
  obtain ⟨A0, xLen⟩ := AX
  cases h3 : subsample env r.obj.nSamples w A0 y with
  | mk w0 r3 =>
  have h3' : subsample env (viewOf rsOf r).nSamples w A0 y = (w0, r3) := h3
  cases r3 with
  | error e =>
    refine hview { viewOf rsOf r with transformType := t, minLen := ml } w0 (.error e)
      { r with obj := { r.obj with transformType := t, minLen := ml }, built := t } ?_ ?_ ?_
    · unfold Rdst.prepare; rw [h1']; simp only; rw [h2']; simp only; rw [h3']
    · unfold RawRdst.prepare; rw [h1]; simp only; rw [h2]; simp only; rw [h3]
    · refine ⟨⟨h.1, h.2, h.3, h.4⟩, rfl, rfl, ?_, .inr ⟨rfl, hc⟩⟩
      intro hs
      simp [rsView, viewOf, hs]
  | ok Ay =>
  obtain ⟨A, y'⟩ := Ay
  have hl := lengths_regular (r := { r with
    obj := { r.obj with transformType := t, minLen := ml, maxChannels := some (r.obj.maxChannels.getD A.nf) }, built := t })
    ⟨h.1, h.2, h.3, h.4⟩ (ml.getD 0)
  simp only at hl
  obtain ⟨ls, hls⟩ : ∃ ls, setLengths r.obj.lens (twoBounds r.bounds) r.obj.reduction (ml.getD 0) = ls := ⟨_, rfl⟩
  have hls' : setLengths (viewOf rsOf r).lens (viewOf rsOf r).bounds (viewOf rsOf r).reduction (ml.getD 0) = ls := hls
  rw [hls] at hl
  obtain ⟨mc, hmc⟩ : ∃ mc, r.obj.maxChannels.getD A.nf = mc := ⟨_, rfl⟩
  have hmc' : (viewOf rsOf r).maxChannels.getD A.nf = mc := hmc
  rw [hmc] at hl
  cases h4 : checkParams ls (ml.getD 0) with
  | error e =>
    refine hview { viewOf rsOf r with transformType := t, minLen := ml, maxChannels := some mc, lens := ls } w0 (.error e)
      { r with obj := { r.obj with transformType := t, minLen := ml, maxChannels := some mc, lens := ls }, built := t, lensIsList := false } ?_ ?_ ?_
    · unfold Rdst.prepare; rw [h1']; simp only; rw [h2']; simp only; rw [h3']; simp only; rw [hls', hmc', h4]
    · unfold RawRdst.prepare; rw [h1]; simp only; rw [h2]; simp only; rw [h3]; simp only; rw [hmc, hl]
      simp only [h.shp, Bool.false_eq_true, if_false]
      rw [h4]
    · refine ⟨⟨fun _ => rfl, h.2, h.3, h.4⟩, rfl, rfl, ?_, .inr ⟨rfl, hc⟩⟩
      intro hs
      simp [rsView, viewOf, hs]
  | ok sizes =>
  have hv0 : (viewOf rsOf r).pMin = pa := by simp [viewOf, hpe]
  have hv1 : (viewOf rsOf r).pMax = pb := by simp [viewOf, hpe]
  have main : ∀ (rs1 rs2 : RState R) (w1 : World R) (seed : Nat),
      drawSeed env { viewOf rsOf r with transformType := t, minLen := ml, maxChannels := some mc, lens := ls } w0 =
        ({ viewOf rsOf r with transformType := t, minLen := ml, maxChannels := some mc, lens := ls, rs := rs1 }, w1, seed) →
      RawRdst.draw rsOf env { r with obj := { r.obj with transformType := t, minLen := ml, maxChannels := some mc, lens := ls }, built := t, lensIsList := false } w0 =
        ({ r with obj := { r.obj with transformType := t, minLen := ml, maxChannels := some mc, lens := ls, rs := rs2 }, built := t, lensIsList := false }, w1, seed) →
      (r.seed = none → rs2 = rs1) →
      ∃ r', r.prepare rsOf env w X y =
        (r', ((viewOf rsOf r).prepare env w X y).2.1, ((viewOf rsOf r).prepare env w X y).2.2) ∧
      Regular r' ∧ r'.seed = r.seed ∧
      viewOf rsOf r' = { ((viewOf rsOf r).prepare env w X y).1 with rs := rsView rsOf r' } ∧
      (r.seed = none → rsView rsOf r' = ((viewOf rsOf r).prepare env w X y).1.rs) ∧
      (r'.built = r.built ∧ ¬ r'.obj.transformType.Concrete ∨
        r'.built = r'.obj.transformType ∧ r'.obj.transformType.Concrete) := by
    intro rs1 rs2 w1 seed hd1 hd2 hnone
    refine hview { viewOf rsOf r with transformType := t, minLen := ml, maxChannels := some mc, lens := ls, rs := rs1 } w1
      (.ok (callOf t ⟨A.data, A.nf, A.nt, y', r.obj.nShp, sizes, r.obj.pNorm, pa, pb, r.obj.alpha, r.obj.phase,
        r.obj.prime⟩ mc (ml.getD 0) xLen, seed))
      { r with obj := { r.obj with transformType := t, minLen := ml, maxChannels := some mc, lens := ls, rs := rs2 }, built := t, lensIsList := false } ?_ ?_ ?_
    · unfold Rdst.prepare; rw [h1']; simp only; rw [h2']; simp only; rw [h3']; simp only
      rw [hls', hmc', h4]
      simp only
      rw [hd1]
      simp only [hv0, hv1]
      rcases hc with rfl | rfl | rfl | rfl <;> rfl
    · unfold RawRdst.prepare; rw [h1]; simp only; rw [h2]; simp only; rw [h3]; simp only; rw [hmc, hl]
      simp only [Bool.false_eq_true, if_false]
      rw [if_neg (by simp [h.shp]), h4]
      simp only
      rw [hd2]
      rcases hc with rfl | rfl | rfl | rfl <;> (simp only; rw [hpe]; rfl)
    · refine ⟨⟨fun _ => rfl, h.2, h.3, h.4⟩, rfl, rfl, ?_, .inr ⟨rfl, hc⟩⟩
      intro hs
      simp only [rsView, hs]
      exact hnone hs
  have hso : (∃ s, r.seed = some s) ∨ r.seed = none := by cases r.seed <;> simp
  rcases hso with ⟨s, hseed⟩ | hseed
  · exact main (.own (env.nextSeed (rsOf s)).2) r.obj.rs w0 (env.nextSeed (rsOf s)).1
      (by simp [drawSeed, viewOf, rsView, hseed]) (by simp [RawRdst.draw, hseed]) (by simp [hseed])
  · have hro : (∃ g, r.obj.rs = .own g) ∨ r.obj.rs = .glob := by cases r.obj.rs <;> simp
    rcases hro with ⟨g, hrs⟩ | hrs
    · exact main (.own (env.nextSeed g).2) (.own (env.nextSeed g).2) w0 (env.nextSeed g).1
        (by simp [drawSeed, viewOf, rsView, hseed, hrs]) (by simp [RawRdst.draw, drawSeed, hseed, hrs]) (fun _ => rfl)
    · exact main .glob .glob { w0 with glob := (env.nextSeed w0.glob).2 } (env.nextSeed w0.glob).1
        (by simp [drawSeed, viewOf, rsView, hseed, hrs]) (by simp [RawRdst.draw, drawSeed, hseed, hrs]) (fun _ => rfl)

/-- A regular object that behaves like the constructed object `o`. -/
structure Same (rsOf : Nat → R) (r : RawRdst K R) (o : Rdst K R) : Prop where
  reg : Regular r
  view : viewOf rsOf r = o
  fitted : o.shapelets ≠ none → o.transformType.Concrete ∧ r.built = o.transformType

theorem same_transform {rsOf : Nat → R} {r : RawRdst K R} {o : Rdst K R} (h : Same rsOf r o) (Z : XIn K) :
    r.transform Z = o.transform Z := by
  obtain ⟨-, rfl, hf⟩ := h
  unfold RawRdst.transform Rdst.transform
  show (match r.obj.shapelets with | none => _ | some S => _) = match r.obj.shapelets with | none => _ | some S => _
  cases hS : r.obj.shapelets with
  | none => rfl
  | some S =>
    have hb : r.built = r.obj.transformType := (hf (by show r.obj.shapelets ≠ none; rw [hS]; simp)).2
    simp only [hb]
    rfl

variable [Gen G K] [DecidableEq L]

/-- `fit` of an object that behaves like `o`. -/
theorem same_fit {rsOf : Nat → R} (env : Env G R L) (gs : Nat → G) (order : Nat → List Nat) {r : RawRdst K R}
    {o : Rdst K R} (h : Same rsOf r o) (w : World R) (X : XIn K) (y : List L) :
    ∃ r', r.fit rsOf env gs order w X y = (r', (o.fit env gs order w X y).2.1, (o.fit env gs order w X y).2.2) ∧
      r'.seed = r.seed ∧ Same rsOf r' { (o.fit env gs order w X y).1 with rs := rsView rsOf r' } ∧
      (r.seed = none → rsView rsOf r' = (o.fit env gs order w X y).1.rs) := by
  obtain ⟨hreg, hview, hf⟩ := h
  obtain ⟨r1, h1, h2, h3, h4, h5, h6⟩ := raw_prepare rsOf env hreg w X y
  rw [hview] at h1 h4 h5
  rcases hp : o.prepare env w X y with ⟨o1, w1, res⟩
  rw [hp] at h1 h4 h5
  simp only at h1 h4 h5
  have htt : r1.obj.transformType = o1.transformType := by
    have := congrArg Rdst.transformType h4
    exact this
  have hc : o1.transformType.Concrete → r1.built = o1.transformType := by
    rw [← htt]
    intro hc
    rcases h6 with ⟨-, h⟩ | ⟨h, -⟩
    · exact absurd hc h
    · exact h
  obtain ⟨t, ml, mc, ls, rs', ho1, -, ht1, -, -, -, -, hok⟩ := prepare_cases hp
  have hold : o1.shapelets ≠ none → o1.transformType.Concrete := by
    intro hS
    rw [ho1] at hS
    obtain ⟨c1, -⟩ := hf hS
    have : t = o.transformType := ht1 (by rintro h; rw [h] at c1; simp [TType.Concrete] at c1)
    rw [ho1, this]
    exact c1
  unfold RawRdst.fit Rdst.fit
  rw [h1, hp]
  cases res with
  | error e =>
    refine ⟨r1, rfl, h3, ⟨h2, h4, ?_⟩, h5⟩
    exact fun hS => ⟨hold hS, hc (hold hS)⟩
  | ok cs =>
    obtain ⟨c, seed⟩ := cs
    simp only
    cases hrun : c.run (env.seedG seed) gs order with
    | error e =>
      refine ⟨r1, rfl, h3, ⟨h2, h4, ?_⟩, h5⟩
      exact fun hS => ⟨hold hS, hc (hold hS)⟩
    | ok S =>
      have hcon : o1.transformType.Concrete := by rw [ho1]; exact (hok c seed rfl).1
      refine ⟨_, rfl, h3, ⟨⟨h2.1, h2.2, h2.3, h2.4⟩, ?_, fun _ => ⟨hcon, hc hcon⟩⟩, h5⟩
      have : viewOf rsOf { r1 with obj := { r1.obj with shapelets := some S } } =
        { viewOf rsOf r1 with shapelets := some S } := rfl
      rw [this, h4]
      rfl

/-- A sequence of uses. -/
theorem same_watch (rsOf : Nat → R) (env : Env G R L) (us : List (Use G K L)) {r : RawRdst K R} {o : Rdst K R}
    (h : Same rsOf r o) (hs : r.seed = none) (w : World R) : watchRaw rsOf env us r w = watchRdst env us o w := by
  induction us generalizing r o w with
  | nil => rfl
  | cons u us ih =>
    cases u with
    | transform Z =>
      show _ :: watchRaw rsOf env us r w = _ :: watchRdst env us o w
      rw [ih h hs w]
      exact congrArg (· :: _) (congrArg Seen.transform (same_transform h Z))
    | fit f =>
      obtain ⟨r', h1, h2, h3, h4⟩ := same_fit env f.gs f.order h w f.X f.y
      rw [h4 hs] at h3
      show Seen.fit _ _ :: watchRaw rsOf env us _ _ = Seen.fit _ _ :: watchRdst env us _ _
      simp only [h1]
      rw [ih h3 (h2.trans hs) _]

end

section
variable {G K R L : Type} [Scalar K]

theorem validate_stored {s : String} {t : TType} (h : validateTransformType s = .ok t) :
    storedType s.toLower = t ∧ s.toLower.toLower = s.toLower := by
  have hs : s.toLower = "auto" ∨ s.toLower = "univariate" ∨ s.toLower = "multivariate" ∨
      s.toLower = "multivariate_variable" := by
    unfold validateTransformType at h
    by_contra hn
    push Not at hn
    obtain ⟨h1, h2, h3, h4⟩ := hn
    have e1 : (s.toLower == "auto") = false := by simpa using h1
    have e2 : (s.toLower == "univariate") = false := by simpa using h2
    have e3 : (s.toLower == "multivariate") = false := by simpa using h3
    have e4 : (s.toLower == "multivariate_variable") = false := by simpa using h4
    simp [List.lookup_cons, e1, e2, e3, e4] at h
  unfold validateTransformType at h
  rcases hs with e | e | e | e <;> rw [e] at h ⊢ <;>
    (simp [List.lookup_cons] at h; subst h; exact ⟨by simp [storedType], by decide +kernel⟩)

/-- The stored attributes are those of constructor arguments, before the checks. -/
structure Holds (r : RawRdst K R) (p : Params K R) : Prop where
  tt : r.obj.transformType = storedType p.transformType.toLower
  phase : r.obj.phase = p.phase
  alpha : r.obj.alpha = p.alpha
  normalizeOutput : r.obj.normalizeOutput = p.normalizeOutput
  nSamples : r.obj.nSamples = p.nSamples
  nShp : r.obj.nShp = p.nShp
  lens : r.obj.lens = p.lens
  bounds : r.bounds = p.bounds
  reduction : r.obj.reduction = p.reduction
  prime : r.obj.prime = p.prime
  pNorm : r.obj.pNorm = p.pNorm
  percentiles : r.percentiles.take 2 = p.percentiles.take 2
  maxChannels : r.obj.maxChannels = p.maxChannels
  minLen : r.obj.minLen = p.minLen
  list : r.lensIsList = false
  shp : r.shpIsFloat = false

/-- What the constructor checks and stores. -/
theorem init_stores {env : Env G R L} {w w1 : World R} {p : Params K R} {o : Rdst K R}
    (h : Rdst.init env w p = (w1, .ok o)) :
    validateTransformType p.transformType = .ok o.transformType ∧ o.phase = p.phase ∧ o.alpha = p.alpha ∧
    o.normalizeOutput = p.normalizeOutput ∧ o.nSamples = p.nSamples ∧ o.nShp = p.nShp ∧ o.lens = p.lens ∧
    o.bounds.map (fun b => [b.1, b.2]) = p.bounds ∧ o.reduction = p.reduction ∧ o.prime = p.prime ∧
    o.pNorm = p.pNorm ∧ p.percentiles.take 2 = [o.pMin, o.pMax] ∧ o.rs = p.rs ∧ o.maxChannels = p.maxChannels ∧
    o.minLen = p.minLen ∧ o.shapelets = none ∧ 0 < p.lens.length ∧
    (p.nJobs = .bool true ∧ o.nJobs = 1 ∨ p.nJobs = .bool false ∧ o.nJobs = 0 ∨
      (∀ b, p.nJobs ≠ .bool b) ∧ checkNJobs env.cpu p.nJobs = .ok o.nJobs) := by
  unfold Rdst.init at h
  cases hv : validateTransformType p.transformType with
  | error e => simp [hv] at h
  | ok t =>
  simp only [hv] at h
  by_cases hl : p.lens.length = 0
  · simp [hl] at h
  · rw [if_neg hl] at h
    have hb : p.bounds = none ∨ ∃ b0 b1, p.bounds = some [b0, b1] := by
      cases hpb : p.bounds with
      | none => exact .inl rfl
      | some bl =>
        match bl with
        | [b0, b1] => exact .inr ⟨b0, b1, rfl⟩
        | [] => simp [hpb] at h
        | [_] => simp [hpb] at h
        | _ :: _ :: _ :: _ => simp [hpb] at h
    rcases hb with hb | ⟨b0, b1, hb⟩ <;>
    simp only [hb] at h <;>
    · split at h
      · simp at h
      · cases hpc : validatePercentiles p.percentiles with
        | error e => simp [hpc] at h
        | ok q =>
          obtain ⟨a1, a2⟩ := q
          have hpt : p.percentiles.take 2 = [a1, a2] := by
            unfold validatePercentiles at hpc
            match hpl : p.percentiles, hpc with
            | [], hpc => simp at hpc
            | [_], hpc => simp at hpc
            | x :: z :: l, hpc =>
              simp only at hpc
              split at hpc
              · simp only [Except.ok.injEq, Prod.mk.injEq] at hpc
                obtain ⟨rfl, rfl⟩ := hpc
                rfl
              · simp at hpc
          simp only [hpc] at h
          split at h
          · rename_i bb hnj
            simp only [Prod.mk.injEq, Except.ok.injEq] at h
            obtain ⟨-, rfl⟩ := h
            refine ⟨rfl, rfl, rfl, rfl, rfl, rfl, rfl, (by rw [hb]; rfl), rfl, rfl, rfl, hpt, rfl, rfl, rfl, rfl, by omega, ?_⟩
            cases bb
            · exact .inr (.inl ⟨hnj, rfl⟩)
            · exact .inl ⟨hnj, rfl⟩
          · rename_i hnj
            split at h
            · simp at h
            · rename_i n hn
              split at h
              · simp at h
              · simp only [Prod.mk.injEq, Except.ok.injEq] at h
                obtain ⟨-, rfl⟩ := h
                exact ⟨rfl, rfl, rfl, rfl, rfl, rfl, rfl, (by rw [hb]; rfl), rfl, rfl, rfl, hpt, rfl, rfl, rfl, rfl, by omega,
                  .inr (.inr ⟨hnj, hn⟩)⟩

theorem holds_init {env : Env G R L} {w w1 : World R} {p : Params K R} {o : Rdst K R}
    (h : Rdst.init env w p = (w1, .ok o)) : Holds (RawRdst.ofRdst o) p := by
  obtain ⟨a1, a2, a3, a4, a5, a6, a7, a8, a9, a10, a11, a12, a13, a14, a15, -, -⟩ := init_stores h
  exact ⟨(validate_stored a1).1.symm, a2, a3, a4, a5, a6, a7, a8, a9, a10, a11, by rw [a12]; rfl, a14, a15, rfl, rfl⟩

/-- Storing one argument as the constructor would. -/
theorem holds_setOne (rsOf : Nat → R) {r : RawRdst K R} {p : Params K R} (h : Holds r p) (hr : rsView rsOf r = p.rs)
    {u : Upd K R} (hu : AsStoredOrSeed u) :
    ∃ r', r.setOne u = .ok r' ∧ Holds r' (p.upd rsOf u) ∧ rsView rsOf r' = (p.upd rsOf u).rs ∧
      r'.obj.nJobs = r.obj.nJobs ∧ (p.upd rsOf u).nJobs = p.nJobs ∧ r'.obj.shapelets = r.obj.shapelets ∧
      r'.built = r.built ∧ (AsStored u → r.seed = none → r'.seed = none) := by
  obtain ⟨a1, a2, a3, a4, a5, a6, a7, a8, a9, a10, a11, a12, a13, a14, a15, a16⟩ := h
  cases u with
  | transformType s =>
    have hs : s.toLower = s := hu
    exact ⟨_, rfl, ⟨by show storedType s = storedType s.toLower; rw [hs], a2, a3, a4, a5, a6, a7, a8, a9, a10, a11, a12, a13, a14, a15, a16⟩,
      hr, rfl, rfl, rfl, rfl, fun _ h => h⟩
  | phase b => exact ⟨_, rfl, ⟨a1, rfl, a3, a4, a5, a6, a7, a8, a9, a10, a11, a12, a13, a14, a15, a16⟩, hr, rfl, rfl, rfl, rfl, fun _ h => h⟩
  | alpha x => exact ⟨_, rfl, ⟨a1, a2, rfl, a4, a5, a6, a7, a8, a9, a10, a11, a12, a13, a14, a15, a16⟩, hr, rfl, rfl, rfl, rfl, fun _ h => h⟩
  | normalizeOutput b => exact ⟨_, rfl, ⟨a1, a2, a3, rfl, a5, a6, a7, a8, a9, a10, a11, a12, a13, a14, a15, a16⟩, hr, rfl, rfl, rfl, rfl, fun _ h => h⟩
  | nSamples x => exact ⟨_, rfl, ⟨a1, a2, a3, a4, rfl, a6, a7, a8, a9, a10, a11, a12, a13, a14, a15, a16⟩, hr, rfl, rfl, rfl, rfl, fun _ h => h⟩
  | nShp n f => exact ⟨_, rfl, ⟨a1, a2, a3, a4, a5, rfl, a7, a8, a9, a10, a11, a12, a13, a14, a15, hu⟩, hr, rfl, rfl, rfl, rfl, fun _ h => h⟩
  | lens l f => exact ⟨_, rfl, ⟨a1, a2, a3, a4, a5, a6, rfl, a8, a9, a10, a11, a12, a13, a14, hu, a16⟩, hr, rfl, rfl, rfl, rfl, fun _ h => h⟩
  | bounds b => exact ⟨_, rfl, ⟨a1, a2, a3, a4, a5, a6, a7, rfl, a9, a10, a11, a12, a13, a14, a15, a16⟩, hr, rfl, rfl, rfl, rfl, fun _ h => h⟩
  | reduction x => exact ⟨_, rfl, ⟨a1, a2, a3, a4, a5, a6, a7, a8, rfl, a10, a11, a12, a13, a14, a15, a16⟩, hr, rfl, rfl, rfl, rfl, fun _ h => h⟩
  | prime b => exact ⟨_, rfl, ⟨a1, a2, a3, a4, a5, a6, a7, a8, a9, rfl, a11, a12, a13, a14, a15, a16⟩, hr, rfl, rfl, rfl, rfl, fun _ h => h⟩
  | pNorm x => exact ⟨_, rfl, ⟨a1, a2, a3, a4, a5, a6, a7, a8, a9, a10, rfl, a12, a13, a14, a15, a16⟩, hr, rfl, rfl, rfl, rfl, fun _ h => h⟩
  | percentiles l => exact ⟨_, rfl, ⟨a1, a2, a3, a4, a5, a6, a7, a8, a9, a10, a11, rfl, a13, a14, a15, a16⟩, hr, rfl, rfl, rfl, rfl, fun _ h => h⟩
  | rs src =>
    cases src with
    | none => exact ⟨_, rfl, ⟨a1, a2, a3, a4, a5, a6, a7, a8, a9, a10, a11, a12, a13, a14, a15, a16⟩, rfl, rfl, rfl, rfl, rfl, fun _ _ => rfl⟩
    | seed s => exact ⟨_, rfl, ⟨a1, a2, a3, a4, a5, a6, a7, a8, a9, a10, a11, a12, a13, a14, a15, a16⟩, rfl, rfl, rfl, rfl, rfl, fun h => h.elim⟩
    | inst g => exact ⟨_, rfl, ⟨a1, a2, a3, a4, a5, a6, a7, a8, a9, a10, a11, a12, a13, a14, a15, a16⟩, rfl, rfl, rfl, rfl, rfl, fun _ _ => rfl⟩
  | maxChannels n => exact ⟨_, rfl, ⟨a1, a2, a3, a4, a5, a6, a7, a8, a9, a10, a11, a12, rfl, a14, a15, a16⟩, hr, rfl, rfl, rfl, rfl, fun _ h => h⟩
  | minLen n => exact ⟨_, rfl, ⟨a1, a2, a3, a4, a5, a6, a7, a8, a9, a10, a11, a12, a13, rfl, a15, a16⟩, hr, rfl, rfl, rfl, rfl, fun _ h => h⟩
  | nJobs v => exact hu.elim
  | unknown n => exact hu.elim

theorem holds_setParams (rsOf : Nat → R) {us : List (Upd K R)} (hus : ∀ u ∈ us, AsStoredOrSeed u) {r : RawRdst K R}
    {p : Params K R} (h : Holds r p) (hr : rsView rsOf r = p.rs) :
    ∃ r', setParams RawRdst.setOne us r = (r', .ok ()) ∧ Holds r' (withArgs rsOf p us) ∧
      rsView rsOf r' = (withArgs rsOf p us).rs ∧ r'.obj.nJobs = r.obj.nJobs ∧ (withArgs rsOf p us).nJobs = p.nJobs ∧
      r'.obj.shapelets = r.obj.shapelets ∧ r'.built = r.built ∧
      ((∀ u ∈ us, AsStored u) → r.seed = none → r'.seed = none) := by
  induction us generalizing r p with
  | nil => exact ⟨r, rfl, h, hr, rfl, rfl, rfl, rfl, fun _ h => h⟩
  | cons u us ih =>
    obtain ⟨r1, h1, h2, h3, h4, h5, h6, h7, h8⟩ := holds_setOne rsOf h hr (hus u (by simp))
    obtain ⟨r2, k1, k2, k3, k4, k5, k6, k7, k8⟩ := ih (fun v hv => hus v (by simp [hv])) h2 h3
    refine ⟨r2, ?_, k2, k3, k4.trans h4, k5.trans h5, k6.trans h6, k7.trans h7, fun ha hn => ?_⟩
    · rw [setParams, h1]
      exact k1
    · exact k8 (fun v hv => ha v (by simp [hv])) (h8 (ha u (by simp)) hn)

/-- Attributes that pass the checks of the constructor are those of a constructed object. -/
theorem same_of_holds (rsOf : Nat → R) {env : Env G R L} {w w1 : World R} {p : Params K R} {o : Rdst K R}
    (hi : Rdst.init env w p = (w1, .ok o)) {r : RawRdst K R} (h : Holds r p) (hr : rsView rsOf r = p.rs)
    (hj : r.obj.nJobs = o.nJobs) (hS : r.obj.shapelets = none) : Same rsOf r o := by
  obtain ⟨a1, a2, a3, a4, a5, a6, a7, a8, a9, a10, a11, a12, a13, a14, a15, a16⟩ := h
  obtain ⟨b1, b2, b3, b4, b5, b6, b7, b8, b9, b10, b11, b12, b13, b14, b15, b16, -⟩ := init_stores hi
  have hp : ∃ t, r.percentiles = o.pMin :: o.pMax :: t := by
    rw [b12] at a12
    match hl : r.percentiles, a12 with
    | [], h => simp at h
    | [_], h => simp at h
    | x :: z :: t, h =>
      simp only [List.take_succ_cons, List.take_zero, List.cons.injEq, and_true] at h
      exact ⟨t, by rw [h.1, h.2]⟩
  obtain ⟨pt, hp⟩ := hp
  have hb : twoBounds r.bounds = o.bounds := by
    rw [a8, ← b8]
    cases o.bounds <;> rfl
  refine ⟨⟨fun _ => a15, ?_, a16, by rw [hp]; simp⟩, ?_, fun h => absurd b16 h⟩
  · intro b hbb
    rw [a8, ← b8] at hbb
    cases ho : o.bounds with
    | none => rw [ho] at hbb; cases hbb
    | some q => rw [ho] at hbb; cases hbb; simp
  · have : viewOf rsOf r =
        { o with bounds := twoBounds r.bounds, pMin := r.percentiles.getD 0 0, pMax := r.percentiles.getD 1 0, rs := rsView rsOf r } := by
      have ht : r.obj.transformType = o.transformType := a1.trans (validate_stored b1).1
      simp only [viewOf, ht, a2, a3, a4, a5, a6, a7, a9, a10, a11, hj, a13, a14, hS, b2, b3, b4, b5, b6, b7, b9, b10,
        b11, b14, b15, b16]
    rw [this, hb, hp, hr, ← b13]
    rfl

theorem init_jobs {env : Env G R L} {w w1 w2 w3 : World R} {p q : Params K R} {o o' : Rdst K R}
    (h : Rdst.init env w p = (w1, .ok o)) (h' : Rdst.init env w2 q = (w3, .ok o')) (hj : q.nJobs = p.nJobs) :
    o.nJobs = o'.nJobs := by
  obtain ⟨-, -, -, -, -, -, -, -, -, -, -, -, -, -, -, -, -, a⟩ := init_stores h
  obtain ⟨-, -, -, -, -, -, -, -, -, -, -, -, -, -, -, -, -, b⟩ := init_stores h'
  rw [hj] at b
  rcases a with ⟨a1, a2⟩ | ⟨a1, a2⟩ | ⟨a1, a2⟩ <;> rcases b with ⟨b1, b2⟩ | ⟨b1, b2⟩ | ⟨b1, b2⟩
  · rw [a2, b2]
  · rw [a1] at b1; cases b1
  · exact absurd a1 (b1 _)
  · rw [a1] at b1; cases b1
  · rw [a2, b2]
  · exact absurd a1 (b1 _)
  · exact absurd b1 (a1 _)
  · exact absurd b1 (a1 _)
  · rw [a2] at b2
    exact Except.ok.inj b2

/-- `set_params` on a constructed object, as the constructor with the new arguments. -/
theorem same_setParams (rsOf : Nat → R) {env : Env G R L} {w w1 w2 w3 : World R} {p : Params K R} {o o' : Rdst K R}
    (h : Rdst.init env w p = (w1, .ok o)) {us : List (Upd K R)} (hus : ∀ u ∈ us, AsStoredOrSeed u)
    (h' : Rdst.init env w2 (withArgs rsOf p us) = (w3, .ok o')) :
    ∃ r, setParams RawRdst.setOne us (RawRdst.ofRdst o) = (r, .ok ()) ∧ Same rsOf r o' ∧
      ((∀ u ∈ us, AsStored u) → r.seed = none) := by
  have hrs : rsView rsOf (RawRdst.ofRdst o) = p.rs := by
    obtain ⟨-, -, -, -, -, -, -, -, -, -, -, -, h13, -⟩ := init_stores h
    exact h13
  have hS : o.shapelets = none := by
    obtain ⟨-, -, -, -, -, -, -, -, -, -, -, -, -, -, -, h16, -⟩ := init_stores h
    exact h16
  obtain ⟨r, k1, k2, k3, k4, k5, k6, k7, k8⟩ := holds_setParams rsOf hus (holds_init h) hrs
  refine ⟨r, k1, same_of_holds rsOf h' k2 k3 ?_ ?_, fun ha => k8 ha rfl⟩
  · rw [k4]
    exact init_jobs h h' k5
  · rw [k6]; exact hS

end
end Convst.Props
