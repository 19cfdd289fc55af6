import Verif.Props.Units
import Verif.Props.RidgeFit
import Verif.Props.InputTransformers

/-!
# C85: predictions of `R_DST_Ridge` do not depend on the units
-/

set_option autoImplicit false
set_option linter.unusedSectionVars false

namespace Convst.Props
open Convst Spec

variable {c b : ℝ}

/-- Factor of column `j`. -/
noncomputable def colFactor (c : ℝ) (j : Nat) : ℝ := if j % 3 = 0 then |c| else 1

theorem colFactor_pos (hc : c ≠ 0) (j : Nat) : 0 < colFactor c j := by
  unfold colFactor
  split
  · exact abs_pos.2 hc
  · exact one_pos

theorem rowUnits_length (row : List ℝ) : (rowUnits c row).length = row.length := by simp [rowUnits]

theorem rowUnits_getD (row : List ℝ) (j : Nat) :
    (rowUnits c row).getD j 0 = colFactor c j * row.getD j 0 := by
  rw [List.getD_eq_getElem?_getD, List.getD_eq_getElem?_getD]
  unfold rowUnits colFactor
  rw [List.getElem?_mapIdx]
  cases row[j]? with
  | none => simp
  | some v => simp only [Option.map_some, Option.getD_some]; split <;> simp

theorem colOf_units (X : List (List ℝ)) (j : Nat) :
    colOf (X.map (rowUnits c)) j = (colOf X j).map fun v => colFactor c j * v := by
  unfold colOf
  rw [List.map_map, List.map_map]
  apply List.map_congr_left
  intro r _
  exact rowUnits_getD r j

theorem std_colOf_units (hc : c ≠ 0) (X : List (List ℝ)) (j : Nat) :
    std (colOf (X.map (rowUnits c)) j) = colFactor c j * std (colOf X j) := by
  rw [colOf_units, std_mul_const, abs_of_pos (colFactor_pos hc j)]

theorem mean_colOf_units (X : List (List ℝ)) (j : Nat) :
    mean (colOf (X.map (rowUnits c)) j) = colFactor c j * mean (colOf X j) := by
  rw [colOf_units, mean_mul_const]

theorem rect_units {X : List (List ℝ)} {nc : Nat} (h : ∀ r ∈ X, r.length = nc) :
    ∀ r ∈ X.map (rowUnits c), r.length = nc := by
  intro r hr
  obtain ⟨r', hr', rfl⟩ := List.mem_map.1 hr
  rw [rowUnits_length, h r' hr']

/-- The standard scaler does not see the units. -/
theorem scaler_units (hc : c ≠ 0) {X : List (List ℝ)} {nc : Nat} (h : ∀ r ∈ X, r.length = nc) :
    (∀ e, Scaler.fitStandard X nc = .error e → Scaler.fitStandard (X.map (rowUnits c)) nc = .error e) ∧
    (∀ s, Scaler.fitStandard X nc = .ok s → ∃ s', Scaler.fitStandard (X.map (rowUnits c)) nc = .ok s' ∧
      ∀ Z : List (List ℝ), (∀ r ∈ Z, r.length = nc) →
        s'.transformStandard (Z.map (rowUnits c)) = s.transformStandard Z) := by
  have hatts : (whereIdx nc fun j => !(Scalar.eqb (std (colOf (X.map (rowUnits c)) j)) 0)) =
      whereIdx nc fun j => !(Scalar.eqb (std (colOf X j)) 0) := by
    unfold whereIdx
    apply List.filter_congr
    intro j _
    rw [std_colOf_units hc]
    have := (colFactor_pos hc j).ne'
    rw [Bool.eq_iff_iff]
    simp [this]
  have e1 := fitStandard_eq h
  have e2 := fitStandard_eq (rect_units (c := c) h)
  simp only at e1 e2
  rw [hatts] at e2
  have hnil : X.map (rowUnits c) = [] ↔ X = [] := List.map_eq_nil_iff
  constructor
  · intro e he
    rw [e1] at he
    rw [e2]
    split at he
    · rename_i h0
      rw [if_pos (by rw [hnil]; exact h0)]
      exact he
    · cases he
  · intro s hs
    have hok : ∃ s', Scaler.fitStandard (X.map (rowUnits c)) nc = .ok s' := by
      rw [e1] at hs
      rw [e2]
      split at hs
      · cases hs
      · rename_i h0
        rw [if_neg (by rw [hnil]; exact h0)]
        exact ⟨_, rfl⟩
    obtain ⟨s', hs'⟩ := hok
    refine ⟨s', hs', fun Z hZ => ?_⟩
    rw [C47_predict_time h hs Z (fun r hr => (hZ r hr).ge),
      C47_predict_time (rect_units h) hs' _ (fun r hr => (rect_units hZ r hr).ge)]
    have ha : s'.atts = s.atts := by
      rw [(fitStandard_ok h hs).2.1, (fitStandard_ok (rect_units h) hs').2.1, hatts]
    rw [List.map_map, ha]
    congr 1
    apply List.map_congr_left
    intro r _
    simp only [Function.comp_apply]
    apply List.map_congr_left
    intro j _
    rw [rowUnits_getD, mean_colOf_units, std_colOf_units hc, ← mul_sub]
    exact mul_div_mul_left _ _ (colFactor_pos hc j).ne'

variable {G R L : Type} [Gen G ℝ] [LawfulGen G] [DecidableEq L]

/-- The pipeline of `R_DST_Ridge` does not see the units. -/
theorem pipeline_units (env : ClfEnv G ℝ R L) (hc : c ≠ 0) {F : List (List ℝ)} {nc : Nat} (hne : F ≠ [])
    (h : ∀ r ∈ F, r.length = nc) (y : List L) :
    (∀ e, fitPipeline env F y = .error e → fitPipeline env (F.map (rowUnits c)) y = .error e) ∧
    (∀ sm, fitPipeline env F y = .ok sm → ∃ sm', fitPipeline env (F.map (rowUnits c)) y = .ok sm' ∧
      ∀ Z : List (List ℝ), (∀ r ∈ Z, r.length = nc) →
        predictPipeline sm' (Z.map (rowUnits c)) = predictPipeline sm Z) := by
  have hn : nCols F = nc := by
    obtain ⟨r, F', rfl⟩ := List.exists_cons_of_ne_nil hne
    exact h r (by simp)
  have hn' : nCols (F.map (rowUnits c)) = nc := by
    obtain ⟨r, F', rfl⟩ := List.exists_cons_of_ne_nil hne
    exact rect_units (c := c) h _ (by simp)
  obtain ⟨h1, h2⟩ := scaler_units hc h
  unfold fitPipeline
  rw [hn, hn']
  cases hs : Scaler.fitStandard F nc with
  | error e =>
    rw [h1 e hs]
    exact ⟨fun e' he' => he', fun sm hsm => by cases hsm⟩
  | ok s =>
    obtain ⟨s', hs', hZ⟩ := h2 s hs
    rw [hs', Res.bind_ok, Res.bind_ok, hZ F h]
    cases hF : s.transformStandard F with
    | error e => exact ⟨fun e' he' => he', fun sm hsm => by cases hsm⟩
    | ok Fs =>
      rw [Res.bind_ok, Res.bind_ok]
      cases hm : env.ridge Fs y with
      | error e => exact ⟨fun e' he' => he', fun sm hsm => by cases hsm⟩
      | ok m =>
        refine ⟨fun e' he' => (by cases he'), fun sm hsm => ?_⟩
        obtain rfl := Except.ok.inj hsm
        refine ⟨(s', m), rfl, fun Z hZr => ?_⟩
        unfold predictPipeline
        simp only
        rw [hZ Z hZr]

/-- The rows of a transform of an array have three cells per shapelet. -/
theorem ridge_fit_units {env : ClfEnv G ℝ R L} {gs : Nat → G} {order : Nat → List Nat} {cl : RidgeClf ℝ R L}
    {w w1 w' : World R} {o o₁ o₂ : Rdst ℝ R} {X X' : XIn ℝ} {y : List L} (hc : c ≠ 0) {nc : Nat}
    (hinit : Rdst.init env.toEnv w (cl.args env) = (w1, .ok o))
    (h1 : o.fit env.toEnv gs order w1 X y = (o₁, w', .ok ()))
    (h2 : o.fit env.toEnv gs order w1 X' y = (o₂, w', .ok ())) (hrs : o₂.rs = o₁.rs)
    {F : List (List ℝ)} (hF : o₁.transform X = .ok F) (hF' : o₂.transform X' = .ok (F.map (rowUnits c)))
    (hne : F ≠ []) (hrect : ∀ r ∈ F, r.length = nc) :
    ∃ c₁ c₂ r, cl.fit env gs order w X y = (c₁, w', r) ∧ cl.fit env gs order w X' y = (c₂, w', r) ∧
      c₂.rs = c₁.rs ∧
      (r = .ok () → ∀ (B B' : XIn ℝ) (M : List (List ℝ)), (∀ r ∈ M, r.length = nc) →
        o₁.transform B = .ok M → o₂.transform B' = .ok (M.map (rowUnits c)) → c₂.predict B' = c₁.predict B) := by
  obtain ⟨p1, p2⟩ := pipeline_units env hc hne hrect y
  have hafter : cl.rs.after o₂ = cl.rs.after o₁ := by unfold RSrc.after; rw [hrs]
  unfold RidgeClf.fit
  simp only [hinit, h1, h2, hF, hF', Res.bind_ok]
  cases hp : fitPipeline env F y with
  | error e =>
    rw [p1 e hp]
    exact ⟨_, _, _, rfl, rfl, hafter, fun h => by cases h⟩
  | ok sm =>
    obtain ⟨sm', hsm', hZ⟩ := p2 sm hp
    rw [hsm']
    refine ⟨_, _, _, rfl, rfl, hafter, fun _ B B' M hM hB hB' => ?_⟩
    simp only [RidgeClf.predict, hB, hB', Res.bind_ok]
    exact hZ M hM

theorem init_maxChannels {env : ClfEnv G ℝ R L} {cl : RidgeClf ℝ R L} {w w1 : World R} {o : Rdst ℝ R}
    (hinit : Rdst.init env.toEnv w (cl.args env) = (w1, .ok o)) : o.maxChannels = none := by
  unfold Rdst.init at hinit
  repeat' split at hinit
  all_goals (try (simp at hinit; done))
  all_goals (
    simp only [Prod.mk.injEq, Except.ok.injEq] at hinit
    obtain ⟨-, rfl⟩ := hinit
    rfl)

/-- **C85.** `R_DST_Ridge` on 3D arrays: with all measurements in new units `v ↦ c v + b`, under the
conditions of C84, `fit` ends in the same way (the same success or the same exception of the ridge
classifier, the same process-wide state), and after a success `predict` gives the same labels and
`score` the same number for every array with as many channels and at least as many points. -/
theorem C85_ridge_same_length (env : ClfEnv G ℝ R L) (cl : RidgeClf ℝ R L) (w : World R) (dt dt₂ : DType)
    (A : Arr3 ℝ) (y : List L) {w1 : World R} {o : Rdst ℝ R}
    (hinit : Rdst.init env.toEnv w (cl.args env) = (w1, .ok o))
    (hty : o.transformType = .uni ∨ o.transformType = .multi ∨
      o.transformType = .auto ∧ dt ≠ .otherDtype ∧ dt₂ ≠ .otherDtype)
    (hWF : (XIn.array dt A).WF) (hne : A.data ≠ []) (hnf : 1 ≤ A.nf) (hnt : 4 ≤ A.nt)
    (hy : y.length = A.data.length) (hp : GoodParams o A.nt)
    (hc : c ≠ 0) (hs : |c| = 1 ∨ o.pNorm ≤ 0)
    (hb : b = 0 ∨ 1 ≤ o.pNorm ∨ o.transformType = .multi ∨ o.transformType = .auto ∧ 1 < A.nf)
    (gs : Nat → G) {order : Nat → List Nat} (ho : IsSchedule order) :
    ∃ c₁ c₂ w' r, cl.fit env gs order w (.array dt A) y = (c₁, w', r) ∧
      cl.fit env gs order w (.array dt₂ (Arr3.units c b A)) y = (c₂, w', r) ∧ c₂.rs = c₁.rs ∧
      (r = .ok () → ∀ (dt' dt₂' : DType) (B : Arr3 ℝ), (XIn.array dt' B).WF → B.data ≠ [] → B.nf = A.nf →
        A.nt ≤ B.nt →
        c₂.predict (.array dt₂' (Arr3.units c b B)) = c₁.predict (.array dt' B) ∧
        ∀ yB, c₂.score (.array dt₂' (Arr3.units c b B)) yB = c₁.score (.array dt' B) yB) := by
  obtain ⟨o₁, o₂, w', S₁, S₂, f1, f2, hS, ho₂, -, ht⟩ := C84_object_same_length (c := c) (b := b) env.toEnv o w1
    dt dt₂ A y hty hWF hne hnf hnt hy hp (by simp [init_maxChannels hinit]) hc hs hb gs ho
  obtain ⟨o₁', w'', S', f1', hS', hwfS, -, -, hg⟩ := C43_object_same_length env.toEnv o w1 dt A y
    (hty.imp_right (Or.imp_right fun h => ⟨h.1, h.2.1⟩)) hWF hne
    hnf hnt hy hp (by simp [init_maxChannels hinit]) gs ho
  rw [f1, Prod.mk.injEq] at f1'
  obtain ⟨rfl, -⟩ := f1'
  have hgood : ∀ {dt' : DType} {B : Arr3 ℝ} {M : List (List ℝ)}, (XIn.array dt' B).WF → B.data ≠ [] →
      B.nf = A.nf → A.nt ≤ B.nt → o₁.transform (.array dt' B) = .ok M →
      GoodMatrix M B.data.length (Shapelets.count S') := by
    intro dt' B M h1 h2 h3 h4 hM
    obtain ⟨M', hM', hg'⟩ := hg dt' B h1 h2 h3 h4
    rw [hM] at hM'
    obtain rfl := Except.ok.inj hM'
    exact hg'
  obtain ⟨F, hF, hF'⟩ := ht dt dt₂ A hWF hne rfl le_rfl
  have hgF := hgood hWF hne rfl le_rfl hF
  obtain ⟨c₁, c₂, r, r1, r2, r3, r4⟩ := ridge_fit_units (nc := 3 * Shapelets.count S') hc hinit f1 f2
    (by rw [ho₂]) hF hF'
    (by
      intro h0
      have := hgF.1
      rw [h0] at this
      exact hne (List.length_eq_zero_iff.1 this.symm))
    (fun row hr => (hgF.2 row hr).1)
  refine ⟨c₁, c₂, w', r, r1, r2, r3, fun hr dt' dt₂' B hB hBne hBf hBt => ?_⟩
  obtain ⟨M, hM, hM'⟩ := ht dt' dt₂' B hB hBne hBf hBt
  have hpred := r4 hr (.array dt' B) (.array dt₂' (Arr3.units c b B)) M
    (fun row hrow => ((hgood hB hBne hBf hBt hM).2 row hrow).1) hM hM'
  refine ⟨hpred, fun yB => ?_⟩
  unfold RidgeClf.score
  rw [hpred]

/-- **C85.** The same for lists of series of different lengths. -/
theorem C85_ridge_variable_length (env : ClfEnv G ℝ R L) (cl : RidgeClf ℝ R L) (w : World R)
    (xs : List (Mat ℝ)) (y : List L) {w1 : World R} {o : Rdst ℝ R}
    (hinit : Rdst.init env.toEnv w (cl.args env) = (w1, .ok o))
    (hty : o.transformType.Var ∨ o.transformType = .auto)
    (hwf : ∀ x ∈ xs, x.WF) (hne : xs ≠ []) (nf : Nat) (hnf1 : 1 ≤ nf)
    (hnf : ∀ x ∈ xs, x.rows.length = nf) (m : Nat) (hm4 : 4 ≤ m) (hlen : ∀ x ∈ xs, m ≤ x.len)
    (hm : o.minLen = some m ∨ o.minLen = none ∧ ∃ x ∈ xs, x.len = m)
    (hy : y.length = xs.length) (hp : GoodParams o m)
    (hc : c ≠ 0) (hs : |c| = 1 ∨ o.pNorm ≤ 0)
    (hb : b = 0 ∨ 1 ≤ o.pNorm ∨ o.transformType = .multiVar ∨ o.transformType = .auto ∧ 1 < nf)
    (gs : Nat → G) {order : Nat → List Nat} (ho : IsSchedule order) :
    ∃ c₁ c₂ w' r, cl.fit env gs order w (.list xs) y = (c₁, w', r) ∧
      cl.fit env gs order w (.list (xs.map (Mat.units c b))) y = (c₂, w', r) ∧ c₂.rs = c₁.rs ∧
      (r = .ok () → ∀ zs : List (Mat ℝ), (∀ z ∈ zs, z.WF) → zs ≠ [] → (∀ z ∈ zs, z.rows.length = nf) →
        (∀ z ∈ zs, m ≤ z.len) →
        c₂.predict (.list (zs.map (Mat.units c b))) = c₁.predict (.list zs) ∧
        ∀ yB, c₂.score (.list (zs.map (Mat.units c b))) yB = c₁.score (.list zs) yB) := by
  obtain ⟨o₁, o₂, w', S₁, S₂, f1, f2, hS, ho₂, -, ht⟩ := C84_object_variable_length (c := c) (b := b) env.toEnv o w1
    xs y hty hwf hne nf hnf1 hnf m hm4 hlen hm hy hp (by simp [init_maxChannels hinit]) hc hs hb gs ho
  obtain ⟨o₁', w'', S', f1', hS', hwfS, -, hg⟩ := C43_object_variable_length env.toEnv o w1 xs y
    hty hwf hne nf hnf1 hnf m hm4 hlen hm hy hp (by simp [init_maxChannels hinit]) gs ho
  rw [f1, Prod.mk.injEq] at f1'
  obtain ⟨rfl, -⟩ := f1'
  have hgood : ∀ {zs : List (Mat ℝ)} {M : List (List ℝ)}, (∀ z ∈ zs, z.WF) → zs ≠ [] →
      (∀ z ∈ zs, z.rows.length = nf) → (∀ z ∈ zs, m ≤ z.len) → o₁.transform (.list zs) = .ok M →
      GoodMatrix M zs.length (Shapelets.count S') := by
    intro zs M h1 h2 h3 h4 hM
    obtain ⟨M', hM', hg'⟩ := hg zs h1 h2 h3 h4
    rw [hM] at hM'
    obtain rfl := Except.ok.inj hM'
    exact hg'
  obtain ⟨F, hF, hF'⟩ := ht xs hwf hne hnf hlen
  have hgF := hgood hwf hne hnf hlen hF
  obtain ⟨c₁, c₂, r, r1, r2, r3, r4⟩ := ridge_fit_units (nc := 3 * Shapelets.count S') hc hinit f1 f2
    (by rw [ho₂]) hF hF'
    (by
      intro h0
      have := hgF.1
      rw [h0] at this
      exact hne (List.length_eq_zero_iff.1 this.symm))
    (fun row hr => (hgF.2 row hr).1)
  refine ⟨c₁, c₂, w', r, r1, r2, r3, fun hr zs h1 h2 h3 h4 => ?_⟩
  obtain ⟨M, hM, hM'⟩ := ht zs h1 h2 h3 h4
  have hpred := r4 hr (.list zs) (.list (zs.map (Mat.units c b))) M
    (fun row hrow => ((hgood h1 h2 h3 h4 hM).2 row hrow).1) hM hM'
  refine ⟨hpred, fun yB => ?_⟩
  unfold RidgeClf.score
  rw [hpred]

/-- The concrete classifier of `Props/RidgeFit.lean`: metres or decimetres, the same labels and score. -/
example (g : G) (w : World Nat) (gs : Nat → G) :
    ∃ c₁ c₂ w' P v, exRidge.fit (exClfEnv g) gs List.range w (.array .float64 exSepArr) [0, 1] = (c₁, w', .ok ()) ∧
      exRidge.fit (exClfEnv g) gs List.range w (.array .float64 (Arr3.units 10 0 exSepArr)) [0, 1] =
        (c₂, w', .ok ()) ∧
      c₁.predict (.array .float64 exSepArr) = .ok P ∧
      c₂.predict (.array .float64 (Arr3.units 10 0 exSepArr)) = .ok P ∧
      c₁.score (.array .float64 exSepArr) [0, 1] = .ok v ∧
      c₂.score (.array .float64 (Arr3.units 10 0 exSepArr)) [0, 1] = .ok v := by
  have hwf : (XIn.array .float64 exSepArr).WF := by simp [XIn.WF, exSepArr]
  obtain ⟨c', w', P, h, hP, -, v, hv, -⟩ := exRidge_predict g w gs
  obtain ⟨c₁, c₂, w'', r, h1, h2, -, h3⟩ := C85_ridge_same_length (c := 10) (b := 0) (exClfEnv g) exRidge w
    .float64 .float64 exSepArr [0, 1] (exRidge_init g w) (Or.inl rfl) hwf (by simp [exSepArr]) (by simp [exSepArr])
    (by simp [exSepArr]) (by simp [exSepArr])
    ⟨by simp [exSepObj, exObj], by norm_num [exSepObj, exObj], rfl,
        by norm_num [exSepObj, exObj], fun _ => Or.inl ⟨[2, 3], rfl, by simp, by simp⟩⟩
    (by norm_num) (Or.inr (le_refl _)) (Or.inl rfl) gs (order := List.range) (fun _ => List.Perm.refl _)
  rw [h, Prod.mk.injEq, Prod.mk.injEq] at h1
  obtain ⟨rfl, rfl, rfl⟩ := h1
  obtain ⟨p1, p2⟩ := h3 rfl .float64 .float64 exSepArr hwf (by simp [exSepArr]) rfl le_rfl
  exact ⟨c', c₂, w', P, v, h, h2, hP, p1.trans hP, hv, (p2 _).trans hv⟩

end Convst.Props
