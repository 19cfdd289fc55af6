import Verif.Proofs.Classifiers
import Verif.Props.EndToEnd

/-!
# `R_DST_Ridge` (C06 on objects, C53, C67, C68)

`RidgeLaw` says what is assumed of scikit-learn's `RidgeClassifierCV.fit`: that a returned model has one
coefficient per feature, one intercept per coefficient row, and two classes for one row or one class per
row otherwise.  Nothing else is assumed: the theorems hold for every such learner.
-/

set_option autoImplicit false
set_option linter.unusedSectionVars false

namespace Convst.Props

open Convst Spec

/-! ## C06 on objects -/

/-- **C06.** The feature rows `transform` returns are computed series by series: there is one function
from series to rows such that every successful `transform`, of any kind and of any container, returns
the rows of its series in order.  In particular the row of a series does not depend on the other series
of the batch, nor on the container it is passed in. -/
theorem C06_object {K R : Type} [Scalar K] {o : Rdst K R} {S : Shapelets K} (hS : o.shapelets = some S)
    {nf : Nat} (hwf : ShpWF S nf) :
    ∃ row : Mat K → List K, ∀ X : XIn K, X.WF → ∀ xs, samples X = .ok xs →
      (∀ x ∈ xs, x.rows.length = nf) → ∀ M, o.transform X = .ok M → M = xs.map row :=
  ⟨objRow o.phase S, fun _ hX _ hxs hnf _ h => (transform_rows hS hwf hX hxs hnf h).1⟩

theorem objRow_length {K : Type} [Scalar K] (phase : Bool) (S : Shapelets K) (x : Mat K) :
    (objRow phase S x).length = 3 * Shapelets.count S := by
  have key : ∀ (f : Nat → Feat K) n, ((List.range n).flatMap fun k => cells (f k)).length = 3 * n := by
    intro f n
    rw [← cells_flatMap]; simp
  cases S with
  | u S => exact key _ _
  | m S => exact key _ _

section
variable {G R L : Type} [Gen G ℝ] [LawfulGen G] [DecidableEq L]

/-- **C06.** Instance: an object fitted on equal-length series. -/
example (g : G) (w : World Nat) (gs : Nat → G) :
    ∃ o' w' S, ∃ row : Mat ℝ → List ℝ, (exObj .auto).fit (exEnv g) gs List.range w (.array .float64 exArr) [0, 1] =
        (o', w', .ok ()) ∧ o'.shapelets = some S ∧ ShpWF S 1 ∧
      o'.transform (.array .float64 exArr) = .ok [row ⟨[[0, 1, 2, 3, 4]], 5⟩, row ⟨[[1, 1, 0, 0, 2]], 5⟩] := by
  have hwf : (XIn.array .float64 exArr).WF := by simp [XIn.WF, exArr]
  obtain ⟨o', w', S, h1, h2, hwfS, -, -, h3⟩ := C43_object_same_length (exEnv g) (exObj .auto) w .float64 exArr
    [0, 1] (Or.inr (Or.inr ⟨rfl, by simp⟩)) hwf (by simp [exArr]) (by simp [exArr]) (by simp [exArr])
    (by simp [exArr]) (exObj_good _ _) (by simp [exObj]) gs (order := List.range) (fun _ => List.Perm.refl _)
  obtain ⟨M, hM, -⟩ := h3 .float64 exArr hwf (by simp [exArr]) rfl le_rfl
  obtain ⟨row, hrow⟩ := C06_object h2 hwfS
  refine ⟨o', w', S, row, h1, h2, hwfS, ?_⟩
  rw [hM, hrow _ hwf _ rfl (by simp [exArr]) M hM]
  rfl

/-! ## C53: prediction -/

/-- A ridge classifier after a successful `fit` on series of `nf` channels. -/
structure RidgeFitted (c : RidgeClf ℝ R L) (nf : Nat) (o : Rdst ℝ R) (S : Shapelets ℝ) (sc : Scaler ℝ)
    (m : Linear ℝ L) : Prop where
  transformer : c.transformer = some o
  shapelets : o.shapelets = some S
  wf : ShpWF S nf
  classifier : c.classifier = some (some (sc, m))
  scaler : ScalerWF sc (3 * Shapelets.count S)
  linear : LinWF m sc.atts.length

/-- **C53.** `predict` fails exactly when `transform` does and with the same exception; otherwise it
returns one label per series, the class chosen by the linear decision function on the standardised
selected features of that series: the second class iff the score is positive for two classes, the first
class of greatest score otherwise. -/
theorem C53_predict {c : RidgeClf ℝ R L} {nf : Nat} {o : Rdst ℝ R} {S : Shapelets ℝ} {sc : Scaler ℝ}
    {m : Linear ℝ L} (hc : RidgeFitted c nf o S sc m) {X : XIn ℝ} (hX : X.WF) {xs : List (Mat ℝ)}
    (hxs : samples X = .ok xs) (hnf : ∀ x ∈ xs, x.rows.length = nf) :
    (∀ e, o.transform X = .error e → c.predict X = .error e) ∧
    (∀ M, o.transform X = .ok M → ∃ P, c.predict X = .ok P ∧
      List.Forall₂ (fun x p => ∃ k,
        Chosen (decision m (standardised sc (objRow o.phase S x))) k ∧ m.classes[k]? = some p) xs P) := by
  constructor
  · intro e he
    unfold RidgeClf.predict
    rw [hc.classifier, hc.transformer]
    simp only [he]
    rfl
  · intro M hM
    obtain ⟨rfl, hne⟩ := transform_rows hc.shapelets hc.wf hX hxs hnf hM
    unfold RidgeClf.predict
    rw [hc.classifier, hc.transformer]
    simp only [hM, Res.bind_ok]
    unfold predictPipeline
    rw [transformStandard_ok hc.scaler (by
      intro r hr
      obtain ⟨x, -, rfl⟩ := List.mem_map.1 hr
      exact objRow_length _ _ _), Res.bind_ok]
    obtain ⟨P, hP, hf⟩ := linear_predict_ok hc.linear (Z := (xs.map (objRow o.phase S)).map (standardised sc))
      (by simpa using hne) (by
        intro z hz
        obtain ⟨r, -, rfl⟩ := List.mem_map.1 hz
        exact standardised_length _ _)
    refine ⟨P, hP, ?_⟩
    rw [List.map_map, List.forall₂_map_left_iff] at hf
    exact hf

/-- The choice is determined by the scores. -/
theorem chosen_unique {s : List ℝ} {i j : Nat} (hi : Chosen s i) (hj : Chosen s j) : i = j := by
  unfold Chosen at hi hj
  split at hi
  · rename_i h
    rw [if_pos h] at hj
    rw [hi, hj]
  · rename_i h
    rw [if_neg h] at hj
    exact FirstMax.unique hi hj

/-- **C53.** The label predicted for a series does not depend on the other series passed in the same
call: one function from series to labels describes every call. -/
theorem C53_batch_independent {c : RidgeClf ℝ R L} {nf : Nat} {o : Rdst ℝ R} {S : Shapelets ℝ}
    {sc : Scaler ℝ} {m : Linear ℝ L} (hc : RidgeFitted c nf o S sc m) :
    ∃ label : Mat ℝ → Option L, ∀ X : XIn ℝ, X.WF → ∀ xs, samples X = .ok xs →
      (∀ x ∈ xs, x.rows.length = nf) → ∀ P, c.predict X = .ok P → P.map some = xs.map label := by
  refine ⟨fun x => m.classes[classIdx (decision m (standardised sc (objRow o.phase S x)))]?, ?_⟩
  intro X hX xs hxs hnf P hP
  obtain ⟨h1, h2⟩ := C53_predict hc hX hxs hnf
  cases hM : o.transform X with
  | error e => rw [h1 e hM] at hP; cases hP
  | ok M =>
    obtain ⟨P', hP', hf⟩ := h2 M hM
    rw [hP', Except.ok.injEq] at hP
    subst hP
    clear hP' h1 h2 hM hnf hxs
    induction hf with
    | nil => rfl
    | cons hab _ ih =>
      obtain ⟨k, hk, hkp⟩ := hab
      rw [List.map_cons, List.map_cons, ih, ← hkp]
      rw [chosen_unique hk (classIdx_spec (by
        simp only [decision, ne_eq, List.map_eq_nil_iff, List.range_eq_nil]
        intro h0
        exact hc.linear.ne (List.length_eq_zero_iff.1 h0)))]

/-- **C53.** `score` is the fraction of correctly predicted labels, a number in `[0, 1]`; labels of
another number are rejected. -/
theorem C53_score (c : RidgeClf ℝ R L) (X : XIn ℝ) (y : List L) :
    (∀ e, c.predict X = .error e → c.score X y = .error e) ∧
    (∀ P, c.predict X = .ok P → y.length = P.length → ∃ v, c.score X y = .ok v ∧
      v * y.length = agree y P ∧ 0 ≤ v ∧ v ≤ 1 ∧ (P = y → y ≠ [] → v = 1)) ∧
    (∀ P, c.predict X = .ok P → y.length ≠ P.length → c.score X y = .error .valueError) := by
  refine ⟨?_, ?_, ?_⟩
  · intro e he
    unfold RidgeClf.score
    rw [he]; rfl
  · intro P hP hl
    have ha := accuracy_eq (L := L) hl
    obtain ⟨h0, h1⟩ := accuracy_range ha
    refine ⟨_, by unfold RidgeClf.score; rw [hP, Res.bind_ok]; exact ha, ?_, h0, h1, ?_⟩
    · cases y with
      | nil => simp [agree]
      | cons a y => field_simp
    · rintro rfl hne
      have : agree P P = P.length := by
        unfold agree
        rw [List.filter_eq_self.2]
        · simp
        · intro p hp
          obtain ⟨i, hi, rfl⟩ := List.getElem_of_mem hp
          simp
      rw [this]
      apply div_self
      have := List.length_pos_of_ne_nil hne
      positivity
  · intro P hP hl
    unfold RidgeClf.score
    rw [hP, Res.bind_ok]
    unfold accuracyScore
    rw [if_neg hl]

theorem labels_mem {m : Linear ℝ L} {Q : Mat ℝ → Nat → Prop} {xs : List (Mat ℝ)} {P : List L}
    (hf : List.Forall₂ (fun x p => ∃ k, Q x k ∧ m.classes[k]? = some p) xs P) : ∀ p ∈ P, p ∈ m.classes := by
  induction hf with
  | nil => simp
  | cons hab _ ih =>
    intro p hp
    rcases List.mem_cons.1 hp with rfl | hp
    · obtain ⟨k, -, hk⟩ := hab
      exact List.mem_of_getElem? hk
    · exact ih p hp

/-! ## `fit` -/

/-- The steps of a successful `fit`. -/
theorem ridge_fit_ok {K : Type} [Scalar K] [Gen G K] {env : ClfEnv G K R L} {gs : Nat → G}
    {order : Nat → List Nat} {c c' : RidgeClf K R L} {w w' : World R} {X : XIn K} {y : List L}
    (h : c.fit env gs order w X y = (c', w', .ok ())) :
    ∃ w1 o0 o F sm, Rdst.init env.toEnv w (c.args env) = (w1, .ok o0) ∧
      o0.fit env.toEnv gs order w1 X y = (o, w', .ok ()) ∧ o.transform X = .ok F ∧
      fitPipeline env F y = .ok sm ∧ c'.transformer = some o ∧ c'.classifier = some (some sm) := by
  unfold RidgeClf.fit at h
  simp only at h
  split at h
  · simp at h
  · rename_i w1 o0 hinit
    split at h
    · simp at h
    · rename_i o w2 hfit
      split at h
      · simp at h
      · rename_i sm hsm
        rw [Res.bind_eq_ok] at hsm
        obtain ⟨F, hF, hp⟩ := hsm
        simp only [Prod.mk.injEq, and_true] at h
        obtain ⟨rfl, rfl⟩ := h
        exact ⟨w1, o0, o, F, sm, hinit, hfit, hF, hp, rfl, rfl⟩

/-- **C53.** After a successful `fit` on equal-length series with usable parameters, `predict` returns a
label for each series of every array with as many channels and at least as many time points. -/
theorem C53_fit_predict_same_length {env : ClfEnv G ℝ R L} (hr : RidgeLaw env.ridge) {gs : Nat → G}
    {order : Nat → List Nat} (ho : IsSchedule order) {c c' : RidgeClf ℝ R L} {w w' : World R} {dt : DType}
    {A : Arr3 ℝ} {y : List L} (hty : ∀ w1 o, Rdst.init env.toEnv w (c.args env) = (w1, .ok o) →
      (o.transformType = .uni ∨ o.transformType = .multi ∨ o.transformType = .auto ∧ dt ≠ .otherDtype) ∧
      GoodParams o A.nt)
    (hWF : (XIn.array dt A).WF) (hne : A.data ≠ []) (hnf : 1 ≤ A.nf) (hnt : 4 ≤ A.nt)
    (hy : y.length = A.data.length)
    (h : c.fit env gs order w (.array dt A) y = (c', w', .ok ())) :
    ∃ o S sc m, RidgeFitted c' A.nf o S sc m ∧
      ∀ (dt' : DType) (B : Arr3 ℝ), (XIn.array dt' B).WF → B.data ≠ [] → B.nf = A.nf → A.nt ≤ B.nt →
        ∃ P, c'.predict (.array dt' B) = .ok P ∧ P.length = B.data.length ∧ ∀ p ∈ P, p ∈ m.classes := by
  obtain ⟨w1, o0, o, F, sm, hinit, hfit, hF, hp, ht, hcl⟩ := ridge_fit_ok h
  obtain ⟨hty, hgp⟩ := hty w1 o0 hinit
  have hmc : o0.maxChannels = none := by
    unfold Rdst.init at hinit
    repeat' split at hinit
    all_goals (try (simp at hinit; done))
    all_goals (
      simp only [Prod.mk.injEq, Except.ok.injEq] at hinit
      obtain ⟨-, rfl⟩ := hinit
      rfl)
  obtain ⟨o', w2, S, hfit', hS, hwfS, hph, -, htr⟩ := C43_object_same_length env.toEnv o0 w1 dt A y hty hWF hne
    hnf hnt hy hgp (by simp [hmc]) gs ho
  rw [hfit, Prod.mk.injEq] at hfit'
  obtain ⟨rfl, -⟩ := hfit'
  have hsamp : samples (.array dt A) = .ok (A.data.map fun s => (⟨s, A.nt⟩ : Mat ℝ)) := rfl
  obtain ⟨rfl, hxne⟩ := transform_rows hS hwfS hWF hsamp (by
    intro x hx
    obtain ⟨s, hs, rfl⟩ := List.mem_map.1 hx
    exact (hWF s hs).1) hF
  obtain ⟨hsc, hlin⟩ := fitPipeline_ok (n := 3 * Shapelets.count S) hr (by simpa using hxne) (by
    intro r hr
    obtain ⟨x, -, rfl⟩ := List.mem_map.1 hr
    exact objRow_length _ _ _) hp
  have hfd : RidgeFitted c' A.nf o S sm.1 sm.2 := ⟨ht, hS, hwfS, hcl, hsc, hlin⟩
  refine ⟨o, S, sm.1, sm.2, hfd, ?_⟩
  intro dt' B hB hBne hBf hBt
  obtain ⟨M, hM, -⟩ := htr dt' B hB hBne hBf hBt
  obtain ⟨P, hP, hf⟩ := (C53_predict hfd hB (xs := B.data.map fun s => (⟨s, B.nt⟩ : Mat ℝ)) rfl (by
    intro x hx
    obtain ⟨s, hs, rfl⟩ := List.mem_map.1 hx
    rw [← hBf]
    exact (hB s hs).1)).2 M hM
  refine ⟨P, hP, by rw [← hf.length_eq]; simp, ?_⟩
  exact labels_mem hf

/-- **C53.** The same for lists of series of different lengths, all of at least `m` points. -/
theorem C53_fit_predict_variable_length {env : ClfEnv G ℝ R L} (hr : RidgeLaw env.ridge) {gs : Nat → G}
    {order : Nat → List Nat} (ho : IsSchedule order) {c c' : RidgeClf ℝ R L} {w w' : World R}
    {xs : List (Mat ℝ)} {y : List L} {mn nf : Nat}
    (hty : ∀ w1 o, Rdst.init env.toEnv w (c.args env) = (w1, .ok o) →
      (o.transformType.Var ∨ o.transformType = .auto) ∧ GoodParams o mn ∧
        (o.minLen = some mn ∨ o.minLen = none ∧ ∃ x ∈ xs, x.len = mn))
    (hwf : ∀ x ∈ xs, x.WF) (hne : xs ≠ []) (hnf1 : 1 ≤ nf)
    (hnf : ∀ x ∈ xs, x.rows.length = nf) (hm4 : 4 ≤ mn) (hlen : ∀ x ∈ xs, mn ≤ x.len)
    (hy : y.length = xs.length) (h : c.fit env gs order w (.list xs) y = (c', w', .ok ())) :
    ∃ o S sc m, RidgeFitted c' nf o S sc m ∧
      ∀ zs : List (Mat ℝ), (∀ z ∈ zs, z.WF) → zs ≠ [] → (∀ z ∈ zs, z.rows.length = nf) →
        (∀ z ∈ zs, mn ≤ z.len) →
        ∃ P, c'.predict (.list zs) = .ok P ∧ P.length = zs.length ∧ ∀ p ∈ P, p ∈ m.classes := by
  obtain ⟨w1, o0, o, F, sm, hinit, hfit, hF, hp, ht, hcl⟩ := ridge_fit_ok h
  obtain ⟨hty, hgp, hmin⟩ := hty w1 o0 hinit
  have hmc : o0.maxChannels = none := by
    unfold Rdst.init at hinit
    repeat' split at hinit
    all_goals (try (simp at hinit; done))
    all_goals (
      simp only [Prod.mk.injEq, Except.ok.injEq] at hinit
      obtain ⟨-, rfl⟩ := hinit
      rfl)
  obtain ⟨o', w2, S, hfit', hS, hwfS, hph, htr⟩ := C43_object_variable_length env.toEnv o0 w1 xs y hty hwf hne
    nf hnf1 hnf mn hm4 hlen hmin hy hgp (by simp [hmc]) gs ho
  rw [hfit, Prod.mk.injEq] at hfit'
  obtain ⟨rfl, -⟩ := hfit'
  obtain ⟨rfl, hxne⟩ := transform_rows (X := .list xs) hS hwfS hwf rfl hnf hF
  obtain ⟨hsc, hlin⟩ := fitPipeline_ok (n := 3 * Shapelets.count S) hr (by simpa using hxne) (by
    intro r hr
    obtain ⟨x, -, rfl⟩ := List.mem_map.1 hr
    exact objRow_length _ _ _) hp
  have hfd : RidgeFitted c' nf o S sm.1 sm.2 := ⟨ht, hS, hwfS, hcl, hsc, hlin⟩
  refine ⟨o, S, sm.1, sm.2, hfd, ?_⟩
  intro zs h1 h2 h3 h4
  obtain ⟨M, hM, -⟩ := htr zs h1 h2 h3 h4
  obtain ⟨P, hP, hf⟩ := (C53_predict (X := .list zs) hfd h1 rfl h3).2 M hM
  refine ⟨P, hP, hf.length_eq.symm, ?_⟩
  exact labels_mem hf

end
end Convst.Props
