import Verif.Proofs.Interpreter
import Verif.Props.Invariance
import Verif.Props.RidgeFit

/-!
# The interpreters (C48, C49, C63, C64, C71)
-/

set_option autoImplicit false
set_option linter.unusedSectionVars false

namespace Convst.Props

open Convst Spec

/-! ## C48: importance of the features -/

section
variable {R L : Type}

theorem nLengths_count (S : Shapelets ℝ) : nLengths S = Shapelets.count S := by
  cases S <;> rfl

/-- The rows of coefficients, one per class. -/
theorem coef_rows {m : Linear ℝ L} {n : Nat} (hm : LinWF m n) {q : Nat} (hq : q < m.classes.length) :
    ∃ r : List ℝ, npGet (if m.coef.length = 1 then m.coef.map (fun r => r.map fun v => -v) ++ m.coef else m.coef)
        (q : Int) = .ok r ∧ r.length = n ∧ ∀ j, j < n → r.getD j 0 = classCoef m q j := by
  have hc := hm.classes
  split
  · rename_i h1
    rw [if_pos h1] at hc
    obtain ⟨a, ha⟩ := List.length_eq_one_iff.1 h1
    have hal : a.length = n := hm.cols a (by rw [ha]; simp)
    rw [ha]
    match q, (by omega : q < 2) with
    | 0, _ =>
      refine ⟨a.map fun v => -v, by rw [npGet_nat (by simp)]; rfl, by simpa using hal, ?_⟩
      intro j hj
      simp [classCoef, ha, List.getD_eq_getElem?_getD, hal, hj]
    | 1, _ =>
      refine ⟨a, by rw [npGet_nat (by simp)]; rfl, hal, ?_⟩
      intro j hj
      simp [classCoef, ha]
  · rename_i h1
    rw [if_neg h1] at hc
    have hq' : q < m.coef.length := by omega
    refine ⟨m.coef[q], npGet_nat hq', hm.cols _ (List.getElem_mem _), ?_⟩
    intro j hj
    unfold classCoef
    rw [if_neg h1, getD_lt [] hq']

/-- **C48.** For a fitted classifier and class number `q`, the importance vector has one entry per
feature: the coefficient of the class for the features kept by the scaler, zero for the others. -/
theorem C48_importance {c : RidgeClf ℝ R L} {nf : Nat} {o : Rdst ℝ R} {S : Shapelets ℝ} {sc : Scaler ℝ}
    {m : Linear ℝ L} (hc : RidgeFitted c nf o S sc m) {q : Nat} (hq : q < m.classes.length) :
    ∃ v, shpImportance c (q : Int) = .ok v ∧ v.length = 3 * Shapelets.count S ∧
      (∀ j, j < sc.atts.length → v.getD (sc.atts.getD j 0) 0 = classCoef m q j) ∧
      ∀ i, i ∉ sc.atts → v.getD i 0 = 0 := by
  obtain ⟨r, hr, hl, hj⟩ := coef_rows hc.linear hq
  obtain ⟨v, hv, hlen, h1, h2⟩ := assignAt_ok (ids := sc.atts) (vals := r)
    (c := List.replicate (nLengths S * 3) (0 : ℝ)) hl.symm hc.scaler.nodup (by
      intro i hi
      have := hc.scaler.atts i hi
      rw [List.length_replicate, nLengths_count]
      omega)
  refine ⟨v, ?_, ?_, ?_, ?_⟩
  · unfold shpImportance
    rw [hc.classifier, hc.transformer]
    simp only [Option.bind_some, hc.shapelets, hr, Res.bind_ok]
    exact hv
  · rw [hlen, List.length_replicate, nLengths_count]
    omega
  · intro j hjl
    rw [h1 j 0 hjl, hj j hjl]
  · intro i hi
    rw [h2 i 0 hi]
    simp [List.getD_eq_getElem?_getD, List.getElem?_replicate]
    split <;> rfl

/-- **C48.** A class number outside `-n .. n-1` raises `IndexError`, and a negative one counts from the
last class. -/
theorem C48_class_range {c : RidgeClf ℝ R L} {nf : Nat} {o : Rdst ℝ R} {S : Shapelets ℝ} {sc : Scaler ℝ}
    {m : Linear ℝ L} (hc : RidgeFitted c nf o S sc m) :
    (∀ q : Int, (m.classes.length : Int) ≤ q ∨ q < -(m.classes.length : Int) →
      shpImportance c q = .error .indexError) ∧
    ∀ q : Nat, 1 ≤ q → q ≤ m.classes.length →
      shpImportance c (-(q : Int)) = shpImportance c ((m.classes.length - q : Nat) : Int) := by
  have hlen : (if m.coef.length = 1 then m.coef.map (fun r => r.map fun v => -v) ++ m.coef
      else m.coef).length = m.classes.length := by
    rw [hc.linear.classes]
    split
    · rename_i h
      simp [h]
    · rfl
  have hun : ∀ q : Int, shpImportance c q = (npGet (if m.coef.length = 1 then
      m.coef.map (fun r => r.map fun v => -v) ++ m.coef else m.coef) q).bind
        (assignAt (List.replicate (nLengths S * 3) (0 : ℝ)) sc.atts) := by
    intro q
    unfold shpImportance
    rw [hc.classifier, hc.transformer]
    simp only [Option.bind_some, hc.shapelets]
    rfl
  constructor
  · intro q hq
    rw [hun, npGet_error (by rw [hlen]; exact hq)]
    rfl
  · intro q h1 h2
    rw [hun, hun, npGet_neg h1 (by rw [hlen]; exact h2), hlen]

theorem total_sum (n : Nat) (f : Nat → ℝ) : total n f = ∑ j ∈ Finset.range n, f j := by
  unfold total
  rw [← List.sum_toFinset _ (List.nodup_range (n := n)), List.toFinset_range]

/-- **C48.** The importance vector explains the score: if `z` gives each kept feature its standardised
value, whatever it gives the others, then its product with the importance vector of class `q`, plus the
intercept, is the score of class `q`. -/
theorem C48_explains_score {c : RidgeClf ℝ R L} {nf : Nat} {o : Rdst ℝ R} {S : Shapelets ℝ} {sc : Scaler ℝ}
    {m : Linear ℝ L} (hc : RidgeFitted c nf o S sc m) {q : Nat} (hq : q < m.classes.length) (row : List ℝ)
    (z : Nat → ℝ) (hz : ∀ j, j < sc.atts.length → z (sc.atts.getD j 0) =
      (row.getD (sc.atts.getD j 0) 0 - sc.offset.getD j 0) / sc.scale.getD j 0) :
    ∃ v, shpImportance c (q : Int) = .ok v ∧
      total v.length (fun i => z i * v.getD i 0) + classIntercept m q =
        (classScores m (standardised sc row)).getD q 0 := by
  obtain ⟨v, hv, hl, hk, h0⟩ := C48_importance hc hq
  refine ⟨v, hv, ?_⟩
  have hsum : total v.length (fun i => z i * v.getD i 0) =
      total sc.atts.length fun j => (standardised sc row).getD j 0 * classCoef m q j := by
    rw [total_sum, total_sum, ← Finset.sum_filter_of_ne (p := fun i => i ∈ sc.atts) (by
      intro i _ hi
      by_contra hna
      exact hi (by rw [h0 i hna, mul_zero]))]
    symm
    apply Finset.sum_bij (fun j _ => sc.atts.getD j 0)
    · intro j hj
      rw [Finset.mem_range] at hj
      rw [Finset.mem_filter, Finset.mem_range, getD_lt _ hj, hl]
      exact ⟨hc.scaler.atts _ (List.getElem_mem _), List.getElem_mem _⟩
    · intro a ha b hb hab
      rw [Finset.mem_range] at ha hb
      rw [getD_lt _ ha, getD_lt _ hb] at hab
      exact (List.Nodup.getElem_inj_iff hc.scaler.nodup).1 hab
    · intro b hb
      rw [Finset.mem_filter] at hb
      obtain ⟨j, hj, rfl⟩ := List.getElem_of_mem hb.2
      exact ⟨j, Finset.mem_range.2 hj, getD_lt _ hj⟩
    · intro j hj
      rw [Finset.mem_range] at hj
      rw [hk j hj, hz j hj]
      unfold standardised
      rw [getD_range_map _ hj]
  rw [hsum]
  have hstd : (standardised sc row).length = sc.atts.length := standardised_length _ _
  have hcl := hc.linear.classes
  have hdec : ∀ p, p < m.coef.length → (decision m (standardised sc row)).getD p 0 =
      total sc.atts.length (fun j => (standardised sc row).getD j 0 * (m.coef.getD p []).getD j 0) +
        m.intercept.getD p 0 := by
    intro p hp
    unfold decision
    rw [getD_range_map _ hp, hstd]
  by_cases h1 : m.coef.length = 1
  · rw [if_pos h1] at hcl
    match q, (by omega : q < 2) with
    | 0, _ =>
      simp only [classScores, h1, if_true, List.getD_cons_zero, hdec 0 (by omega), classIntercept, classCoef]
      rw [total_sum, total_sum]
      simp only [mul_neg, Finset.sum_neg_distrib]
      ring
    | 1, _ =>
      have : (classScores m (standardised sc row)).getD 1 0 = (decision m (standardised sc row)).getD 0 0 := by
        unfold classScores
        rw [if_pos h1]
        rfl
      rw [this, hdec 0 (by omega)]
      simp only [classIntercept, classCoef, h1, if_true, Nat.one_ne_zero, if_false]
  · rw [if_neg h1] at hcl
    simp only [classScores, h1, if_false, hdec q (by omega), classIntercept, classCoef]

/-- **C48.** With two classes the importance vectors are opposite. -/
theorem C48_two_classes {c : RidgeClf ℝ R L} {nf : Nat} {o : Rdst ℝ R} {S : Shapelets ℝ} {sc : Scaler ℝ}
    {m : Linear ℝ L} (hc : RidgeFitted c nf o S sc m) (h1 : m.coef.length = 1) :
    ∃ a b, shpImportance c 0 = .ok a ∧ shpImportance c 1 = .ok b ∧ a.length = b.length ∧
      ∀ i, a.getD i 0 = -b.getD i 0 := by
  have h2 : m.classes.length = 2 := by rw [hc.linear.classes, if_pos h1]
  obtain ⟨a, ha, hal, hak, ha0⟩ := C48_importance hc (q := 0) (by omega)
  obtain ⟨b, hb, hbl, hbk, hb0⟩ := C48_importance hc (q := 1) (by omega)
  refine ⟨a, b, ha, hb, by omega, fun i => ?_⟩
  by_cases hi : i ∈ sc.atts
  · obtain ⟨j, hj, rfl⟩ := List.getElem_of_mem hi
    have e1 := hak j hj
    have e2 := hbk j hj
    rw [getD_lt _ hj] at e1 e2
    rw [e1, e2]
    simp [classCoef, h1]
  · rw [ha0 i hi, hb0 i hi, neg_zero]

end

/-! ## C49: selection of the shapelets shown -/

/-- **C49.** For every importance vector of `n` shapelets and every order `argsort` may return, the
shapelets shown are distinct, there are `min(n_shp, n)` of them (none for a negative `n_shp`), they come
by descending best coefficient, and no shapelet left out has a feature with a larger coefficient than the
best one of a shapelet shown. -/
theorem C49_best_shapelets {coefs : List ℝ} {n : Nat} (hn : coefs.length = 3 * n) {order : List Nat}
    (ho : IsArgsort coefs order) (k : Int) :
    (bestShapelets order k).Nodup ∧ (∀ s ∈ bestShapelets order k, s < n) ∧
    (bestShapelets order k).length = min k.toNat n ∧
    (bestShapelets order k).Pairwise (fun s t => bestCoef coefs t ≤ bestCoef coefs s) ∧
    ∀ s ∈ bestShapelets order k, ∀ u, u < n → u ∉ bestShapelets order k → ∀ r, r < 3 →
      coefs.getD (3 * u + r) 0 ≤ bestCoef coefs s := by
  have heq : bestShapelets order k = (pickAll (order.reverse.map (· / 3)) []).take k.toNat := by
    unfold bestShapelets
    rw [← List.map_reverse]
    exact pickLoop_eq k _ [] (by
      rcases lt_or_ge k 0 with h | h
      · exact Or.inr ⟨rfl, h⟩
      · exact Or.inl (by simpa using h))
  have hmem : ∀ e, e ∈ order.reverse ↔ e < 3 * n := by
    intro e
    rw [List.mem_reverse, ho.1.mem_iff, List.mem_range, hn]
  set R := pickAll (order.reverse.map (· / 3)) [] with hR
  have hRm : ∀ s, s ∈ R ↔ s < n := by
    intro s
    rw [hR, pickAll_mem, List.mem_map]
    constructor
    · rintro (h | ⟨e, he, rfl⟩)
      · simp at h
      · have := (hmem e).1 he
        omega
    · intro h
      exact Or.inr ⟨3 * s, (hmem _).2 (by omega), by omega⟩
  have hnd : R.Nodup := pickAll_nodup _ _ List.nodup_nil
  have hlen : R.length = n := by
    have : R.Perm (List.range n) := (List.perm_ext_iff_of_nodup hnd List.nodup_range).2 (by simpa using hRm)
    rw [this.length_eq, List.length_range]
  have hs : R.Pairwise fun s t => bestCoef coefs t ≤ bestCoef coefs s := by
    apply pickAll_sorted coefs n
    · rw [List.pairwise_reverse]
      exact ho.2
    · intro e he
      have := (hmem e).1 he
      omega
    · exact List.Pairwise.nil
    · intro s hs
      simp at hs
    · intro s hsn _ r hr
      exact (hmem _).2 (by omega)
  rw [heq]
  refine ⟨hnd.sublist (List.take_sublist _ _), fun s h => (hRm s).1 (List.mem_of_mem_take h),
    by rw [List.length_take, hlen], hs.sublist (List.take_sublist _ _), ?_⟩
  intro s hsm u hu hnu
  rw [← bestCoef_le]
  have huR : u ∈ R.take k.toNat ++ R.drop k.toNat := by
    rw [List.take_append_drop]
    exact (hRm u).2 hu
  rw [← List.take_append_drop k.toNat R, List.pairwise_append] at hs
  rcases List.mem_append.1 huR with h | h
  · exact absurd h hnu
  · exact hs.2.2 s hsm u h

/-- Two shapelets; the best features are 4 (second shapelet), then 5, then 0. -/
example : bestShapelets [1, 2, 3, 0, 5, 4] 1 = [1] ∧ bestShapelets [1, 2, 3, 0, 5, 4] 5 = [1, 0] ∧
    IsArgsort [(3 : ℝ), 0, 0, 1, 5, 4] [1, 2, 3, 0, 5, 4] := by
  refine ⟨rfl, rfl, ?_, ?_⟩
  · decide
  · simp
    norm_num

/-! ## C63: what the interpreters accept -/

section
variable {K R L : Type} [Scalar K]

/-- **C63.** `RDST_interpreter` accepts exactly the fitted transformers. -/
theorem C63_rdst_accepts (est : Estimator K R L) (o : Rdst K R) :
    interpRdst est = .ok o ↔ est = .rdst o ∧ o.shapelets ≠ none := by
  cases est with
  | rdst o' =>
    unfold interpRdst Estimator.hasShapelets
    cases h : o'.shapelets with
    | none =>
      simp only [h, Option.isSome_none, Bool.false_eq_true, if_false, reduceCtorEq, false_iff, not_and]
      intro e
      cases e
      simp [h]
    | some S =>
      simp only [h, Option.isSome_some, if_true, Except.ok.injEq, Estimator.rdst.injEq]
      constructor
      · rintro rfl
        exact ⟨rfl, by simp [h]⟩
      · exact fun h => h.1
  | ridge c => simp [interpRdst, Estimator.hasShapelets]
  | ensemble e => simp [interpRdst, Estimator.hasShapelets]

/-- **C63 (violated).** For every fitted multivariate transformer the interpreter is built and then raises
`ValueError` for every shapelet number, instead of the announced `NotImplementedError`. -/
theorem C63_multivariate_value_error (o : Rdst K R) (S : MShp K) (h : o.shapelets = some (.m S)) :
    interpRdst (.rdst o : Estimator K R L) = .ok o ∧ ∀ id : Int, getParams o id = .error .valueError ∧
      interpPlot o id = .error .valueError ∧
      ∀ X, interpPlotOnX o id X = .error .valueError ∧ interpPlotDistanceVector o id X = .error .valueError := by
  refine ⟨(C63_rdst_accepts _ _).2 ⟨rfl, by simp [h]⟩, fun id => ?_⟩
  have hg : getParams o id = .error .valueError := by
    unfold getParams
    rw [h]
  refine ⟨hg, by unfold interpPlot; rw [hg]; rfl, fun X => ⟨?_, ?_⟩⟩
  · unfold interpPlotOnX; rw [hg]; rfl
  · unfold interpPlotDistanceVector; rw [hg]; rfl

/-- **C63.** For a fitted univariate transformer, shapelet number `k` of the interpreter is shapelet `k`
of the fitted model, for every `k`; numbers outside `-n .. n-1` raise `IndexError`. -/
theorem C63_univariate {o : Rdst K R} {S : UShp K} (h : o.shapelets = some (.u S)) (hS : UWF S)
    (ht : o.transformType = .uni ∨ o.transformType = .uniVar) :
    (∀ k : Nat, k < S.lengths.length → getParams o k = .ok ⟨uValues S k, S.lengths.getD k 0,
      S.dilations.getD k 0, S.normalize.getD k false, S.threshold.getD k 0, o.phase⟩) ∧
    ∀ id : Int, (S.lengths.length : Int) ≤ id ∨ id < -(S.lengths.length : Int) →
      getParams o id = .error .indexError := by
  have hn : ¬ (o.transformType = .multi ∨ o.transformType = .multiVar) := by
    rcases ht with h | h <;> simp [h]
  have hun : ∀ id : Int, getParams o id = (do
      let length ← npGet S.lengths id
      let row ← npGet S.values id
      let dilation ← npGet S.dilations id
      let norm ← npGet S.normalize id
      let threshold ← npGet S.threshold id
      pure ⟨row.take length, length, dilation, norm, threshold, o.phase⟩) := by
    intro id
    unfold getParams
    rw [h]
    simp only
    rw [if_neg hn]
  constructor
  · intro k hk
    rw [hun, npGet_nat hk, Res.bind_ok, npGet_nat (by rw [hS.values]; exact hk), Res.bind_ok,
      npGet_nat (by rw [hS.dilations]; exact hk), Res.bind_ok, npGet_nat (by rw [hS.normalize]; exact hk),
      Res.bind_ok, npGet_nat (by rw [hS.threshold]; exact hk), Res.bind_ok]
    unfold uValues
    rw [getD_lt 0 hk, getD_lt [] (by rw [hS.values]; exact hk), getD_lt 0 (by rw [hS.dilations]; exact hk),
      getD_lt false (by rw [hS.normalize]; exact hk), getD_lt 0 (by rw [hS.threshold]; exact hk)]
    rfl
  · intro id hid
    rw [hun, npGet_error hid]
    rfl

/-- **C63.** `RDST_Ridge_interpreter` accepts exactly the ridge classifiers whose `fit` was called and
whose transformer is fitted. -/
theorem C63_ridge_accepts (est : Estimator K R L) (c : RidgeClf K R L) (o : Rdst K R) :
    interpRidge est = .ok (c, o) ↔
      est = .ridge c ∧ c.classifier ≠ none ∧ c.transformer = some o ∧ o.shapelets ≠ none := by
  cases est with
  | rdst o' => simp [interpRidge, Estimator.hasClassifier]
  | ensemble e => simp [interpRidge, Estimator.hasClassifier]
  | ridge c' =>
    unfold interpRidge Estimator.hasClassifier
    cases hcl : c'.classifier with
    | none =>
      simp only [hcl, Option.isSome_none, Bool.false_eq_true, if_false, reduceCtorEq, false_iff, not_and]
      intro e
      cases e
      simp [hcl]
    | some s =>
      simp only [hcl, Option.isSome_some, if_true]
      cases htr : c'.transformer with
      | none =>
        simp only [reduceCtorEq, false_iff, not_and]
        intro e
        cases e
        simp [htr]
      | some o' =>
        simp only
        cases hi : interpRdst (.rdst o' : Estimator K R L) with
        | error e =>
          simp only [Except.map, reduceCtorEq, false_iff, not_and]
          intro e1 _ e2 e3
          cases e1
          rw [htr, Option.some.injEq] at e2
          subst e2
          rw [(C63_rdst_accepts _ _).2 ⟨rfl, e3⟩] at hi
          cases hi
        | ok o2 =>
          obtain ⟨e1, e2⟩ := (C63_rdst_accepts _ _).1 hi
          simp only [Estimator.rdst.injEq] at e1
          subst e1
          simp only [Except.map, Except.ok.injEq, Prod.mk.injEq, Estimator.ridge.injEq]
          constructor
          · rintro ⟨rfl, rfl⟩
            exact ⟨rfl, by simp [hcl], htr, e2⟩
          · rintro ⟨rfl, -, h3, -⟩
            rw [htr, Option.some.injEq] at h3
            exact ⟨rfl, h3⟩

/-- **C63.** `NotFittedError` for a transformer or a ridge classifier whose `fit` was not called. -/
theorem C63_not_fitted :
    (∀ o : Rdst K R, o.shapelets = none → interpRdst (.rdst o : Estimator K R L) = .error .notFitted) ∧
    ∀ c : RidgeClf K R L, c.classifier = none → interpRidge (.ridge c) = .error .notFitted := by
  constructor
  · intro o h
    simp [interpRdst, Estimator.hasShapelets, h]
  · intro c h
    simp [interpRidge, Estimator.hasClassifier, h]

/-- **C63 (violated).** No estimator is accepted by `RDST_Ensemble_interpreter`: every ensemble, fitted or
not, raises `NotFittedError`. -/
theorem C63_ensemble_never (e : Ensemble K R) :
    interpEnsemble (.ensemble e : Estimator K R L) = .error .notFitted ∧
      ∀ est : Estimator K R L, ∃ err, interpEnsemble est = .error err := by
  refine ⟨rfl, fun est => ?_⟩
  cases est with
  | rdst o => exact ⟨_, rfl⟩
  | ensemble e => exact ⟨_, rfl⟩
  | ridge c =>
    unfold interpEnsemble
    split
    · exact ⟨_, rfl⟩
    · exact ⟨_, rfl⟩

end
end Convst.Props
