import Verif.Proofs.Fitted

/-! # Small changes of a series: effect on windows, distances and features -/

set_option autoImplicit false
set_option linter.unusedSectionVars false

namespace Convst
open Spec

/-! ## Features of two lists of distances -/

theorem features_close {D D' : List ℝ} {thr δ : ℝ} (hlen : D'.length = D.length) (hne : D ≠ [])
    (hD : ∀ x ∈ D, 0 ≤ x) (hD' : ∀ x ∈ D', 0 ≤ x)
    (h : ∀ (i : Nat) (a b : ℝ), D[i]? = some a → D'[i]? = some b → |a - b| ≤ δ) :
    |(features D thr).1 - (features D' thr).1| ≤ δ ∧
    ((∀ (q : Nat) (a : ℝ), D[q]? = some a → (q : ℝ) ≠ (features D thr).2.1 → (features D thr).1 + 2 * δ < a) →
      (features D' thr).2.1 = (features D thr).2.1) ∧
    ((∀ a ∈ D, δ < |a - thr|) → (features D' thr).2.2 = (features D thr).2.2) := by
  have hne' : D' ≠ [] := by
    intro e; rw [e] at hlen; exact hne (List.length_eq_zero_iff.1 hlen.symm)
  obtain ⟨⟨m1, m2⟩, ⟨p, p1, p2, p3⟩, c1⟩ := features_isFeatures (thr := thr) hne hD
  obtain ⟨⟨m1', m2'⟩, ⟨p', p1', p2', p3'⟩, c1'⟩ := features_isFeatures (thr := thr) hne' hD'
  have hp : p < D.length := (List.getElem?_eq_some_iff.1 p2).1
  have hp' : p' < D'.length := (List.getElem?_eq_some_iff.1 p2').1
  have hpD' : D'[p]? = some (D'[p]'(by omega)) := List.getElem?_eq_getElem (by omega)
  have hpD : D[p']? = some (D[p']'(by omega)) := List.getElem?_eq_getElem (by omega)
  have e1 := abs_le.1 (h p _ _ p2 hpD')
  have e2 := abs_le.1 (h p' _ _ hpD p2')
  have f1 := m2' _ (List.mem_of_getElem? hpD')
  have f2 := m2 _ (List.mem_of_getElem? hpD)
  refine ⟨abs_le.2 ⟨by linarith [e1.1, e1.2, e2.1, e2.2], by linarith [e1.1, e1.2, e2.1, e2.2]⟩, ?_, ?_⟩
  · intro hm
    rw [p1, p1']
    by_contra hc
    have := hm p' _ hpD (by rw [p1]; exact hc)
    linarith [e1.1, e1.2, e2.1, e2.2]
  · intro hm
    rw [c1, c1']
    congr 1
    have key : ∀ (D D' : List ℝ), D'.length = D.length →
        (∀ (i : Nat) (a b : ℝ), D[i]? = some a → D'[i]? = some b → |a - b| ≤ δ) →
        (∀ a ∈ D, δ < |a - thr|) →
        (D'.countP fun x => decide (x ≤ thr)) = D.countP fun x => decide (x ≤ thr) := by
      intro D
      induction D with
      | nil => intro D' hl _ _; rw [List.length_eq_zero_iff.1 hl]
      | cons a D ih =>
        intro D' hl hc hm
        cases D' with
        | nil => simp at hl
        | cons b D' =>
          have h0 := abs_le.1 (hc 0 a b rfl rfl)
          have h1 := hm a (by simp)
          have hiff : (b ≤ thr) ↔ (a ≤ thr) := by
            rcases le_or_gt a thr with ha | ha
            · rw [abs_of_nonpos (by linarith)] at h1
              exact ⟨fun _ => ha, fun _ => by linarith [h0.1]⟩
            · rw [abs_of_pos (by linarith)] at h1
              exact ⟨fun hb => by linarith [h0.2], fun hb => absurd hb (not_le.2 ha)⟩
          rw [List.countP_cons, List.countP_cons, ih D' (by simpa using hl)
            (fun i x z hx hz => hc (i + 1) x z (by simpa using hx) (by simpa using hz))
            (fun x hx => hm x (by simp [hx]))]
          simp only [decide_eq_true_eq, hiff]
    exact key D D' hlen h hm

/-! ## Distances -/

theorem l1_close (w w' v : List ℝ) (hl : w'.length = w.length) :
    |l1 w v - l1 w' v| ≤ ∑ j ∈ Finset.range w.length, |w.getD j 0 - w'.getD j 0| := by
  rw [l1_eq_sum, l1_eq_sum, hl, ← Finset.sum_sub_distrib]
  refine (Finset.abs_sum_le_sum_abs _ _).trans (Finset.sum_le_sum fun j _ => ?_)
  refine (abs_abs_sub_abs_le_abs_sub _ _).trans ?_
  rw [sub_sub_sub_cancel_right]

theorem sum_close {w w' : List ℝ} {ε : ℝ} (h : ∀ j, j < w.length → |w.getD j 0 - w'.getD j 0| ≤ ε) :
    ∑ j ∈ Finset.range w.length, |w.getD j 0 - w'.getD j 0| ≤ w.length * ε := by
  refine (Finset.sum_le_sum (g := fun _ => ε) fun j hj => h j (Finset.mem_range.1 hj)).trans ?_
  simp

/-! ## z-normalisation -/

theorem sum_getD (w : List ℝ) (f : ℝ → ℝ) : (w.map f).sum = ∑ j : Fin w.length, f (w.getD j 0) := by
  rw [← List.sum_ofFn]
  congr 1
  apply List.ext_getElem
  · simp
  · intro i h1 h2
    simp [List.getD]

theorem mean_getD (w : List ℝ) : mean w = (∑ j : Fin w.length, w.getD j 0) / w.length := by
  rw [mean_eq]
  congr 1
  simpa using sum_getD w id

theorem var_getD (w : List ℝ) :
    var w = (∑ j : Fin w.length, (w.getD j 0 - mean w) * (w.getD j 0 - mean w)) / w.length := by
  unfold var
  rw [sum_getD w fun v => (v - mean w) * (v - mean w)]

/-- Deviations from the mean, as a vector. -/
noncomputable def devs (w : List ℝ) (n : Nat) : EuclideanSpace ℝ (Fin n) :=
  WithLp.toLp 2 fun j : Fin n => w.getD j 0 - mean w

theorem norm_devs (w : List ℝ) : ‖devs w w.length‖ = Real.sqrt w.length * std w := by
  rw [std_eq, EuclideanSpace.norm_eq, ← Real.sqrt_mul (by positivity)]
  congr 1
  rw [var_getD]
  rcases Nat.eq_zero_or_pos w.length with h | h
  · have : (w.length : ℝ) = 0 := by exact_mod_cast h
    rw [this]
    have : IsEmpty (Fin w.length) := by rw [h]; infer_instance
    simp
  · have : (w.length : ℝ) ≠ 0 := by positivity
    rw [mul_div_cancel₀ _ this]
    apply Finset.sum_congr rfl
    intro j _
    simp [devs, sq]

theorem mean_close {w w' : List ℝ} {ε : ℝ} (hl : w'.length = w.length) (hn : 0 < w.length)
    (h : ∀ j, j < w.length → |w.getD j 0 - w'.getD j 0| ≤ ε) : |mean w - mean w'| ≤ ε := by
  have hpos : (0 : ℝ) < w.length := by exact_mod_cast hn
  have e : mean w' = (∑ j : Fin w.length, w'.getD j 0) / w.length := by
    rw [mean_getD, hl]
  rw [mean_getD w, e, ← sub_div, ← Finset.sum_sub_distrib, abs_div, abs_of_pos hpos, div_le_iff₀ hpos]
  refine (Finset.abs_sum_le_sum_abs _ _).trans ?_
  refine (Finset.sum_le_sum (g := fun _ => ε) fun (j : Fin w.length) _ => h j.1 j.2).trans ?_
  simp [mul_comm]

theorem std_close {w w' : List ℝ} {ε : ℝ} (hl : w'.length = w.length) (hn : 0 < w.length)
    (h : ∀ j, j < w.length → |w.getD j 0 - w'.getD j 0| ≤ ε) : |std w - std w'| ≤ ε := by
  have hpos : (0 : ℝ) < w.length := by exact_mod_cast hn
  have hε : 0 ≤ ε := (abs_nonneg _).trans (h 0 hn)
  have hsq : 0 < Real.sqrt w.length := Real.sqrt_pos.2 hpos
  have e2 : ‖devs w' w.length‖ = Real.sqrt w.length * std w' := by
    have := norm_devs w'
    rw [hl] at this
    exact this
  have e1 := norm_devs w
  -- the difference of the deviations
  have e3 : ‖devs w w.length - devs w' w.length‖ ≤ Real.sqrt w.length * ε := by
    rw [EuclideanSpace.norm_eq]
    rw [← Real.sqrt_sq hε, ← Real.sqrt_mul hpos.le]
    apply Real.sqrt_le_sqrt
    set u : Fin w.length → ℝ := fun j => w.getD j 0 - w'.getD j 0 with hu
    have hmean : mean w - mean w' = (∑ j, u j) / w.length := by
      have e : mean w' = (∑ j : Fin w.length, w'.getD j 0) / w.length := by
        rw [mean_getD, hl]
      rw [mean_getD w, e, ← sub_div, ← Finset.sum_sub_distrib]
    set μ := mean w - mean w' with hμ
    have hs : ∑ j, u j = w.length * μ := by rw [hmean]; field_simp
    have : ∑ j : Fin w.length, ‖(devs w w.length - devs w' w.length) j‖ ^ 2 = ∑ j, (u j - μ) ^ 2 := by
      apply Finset.sum_congr rfl
      intro j _
      rw [Real.norm_eq_abs, sq_abs]
      simp only [devs, PiLp.sub_apply, hu, hμ]
      ring
    rw [this]
    have hexp : ∑ j, (u j - μ) ^ 2 = ∑ j, u j ^ 2 - w.length * μ ^ 2 := by
      have : ∀ j, (u j - μ) ^ 2 = u j ^ 2 - 2 * μ * u j + μ ^ 2 := fun j => by ring
      rw [Finset.sum_congr rfl fun j _ => this j, Finset.sum_add_distrib, Finset.sum_sub_distrib,
        ← Finset.mul_sum, hs]
      simp
      ring
    rw [hexp]
    have hle : ∑ j, u j ^ 2 ≤ w.length * ε ^ 2 := by
      refine (Finset.sum_le_sum (g := fun _ => ε ^ 2) fun j _ => ?_).trans (by simp)
      rw [← sq_abs]
      exact pow_le_pow_left₀ (abs_nonneg _) (h j j.2) 2
    have : 0 ≤ (w.length : ℝ) * μ ^ 2 := by positivity
    linarith
  have e4 := (abs_norm_sub_norm_le (devs w w.length) (devs w' w.length)).trans e3
  rw [e1, e2, ← mul_sub, abs_mul, abs_of_pos hsq] at e4
  exact le_of_mul_le_mul_left e4 hsq

theorem znorm_close {w w' : List ℝ} {ε : ℝ} (hl : w'.length = w.length) (hn : 0 < w.length)
    (h : ∀ j, j < w.length → |w.getD j 0 - w'.getD j 0| ≤ ε) :
    ∑ j ∈ Finset.range w.length, |(znorm w).getD j 0 - (znorm w').getD j 0| ≤
      3 * w.length * ε / (std w + Scalar.eps) := by
  have hε : 0 ≤ ε := (abs_nonneg _).trans (h 0 hn)
  have p1 := std_add_eps_pos w
  have p2 := std_add_eps_pos w'
  have hm := mean_close hl hn h
  have hs := std_close hl hn h
  have hdev : ∑ j ∈ Finset.range w.length, |w'.getD j 0 - mean w'| ≤ w.length * std w' := by
    have := sum_abs_dev_le w'
    rw [sum_getD w' fun t => |t - mean w'|, ← Finset.sum_range fun j => |w'.getD j 0 - mean w'|, hl] at this
    exact this
  have step : ∀ j ∈ Finset.range w.length, |(znorm w).getD j 0 - (znorm w').getD j 0| ≤
      2 * ε / (std w + Scalar.eps) +
        |w'.getD j 0 - mean w'| * (ε / ((std w + Scalar.eps) * (std w' + Scalar.eps))) := by
    intro j hj
    rw [Finset.mem_range] at hj
    have hj' : j < w'.length := by omega
    rw [znorm_eq, znorm_eq, getD_lt _ (by simpa using hj), getD_lt _ (by simpa using hj'),
      List.getElem_map, List.getElem_map]
    have hd := h j hj
    rw [getD_lt _ hj, getD_lt _ hj'] at hd
    rw [getD_lt (a := w') _ hj']
    have e : (w[j] - mean w) / (std w + Scalar.eps) - (w'[j] - mean w') / (std w' + Scalar.eps) =
        ((w[j] - w'[j]) - (mean w - mean w')) / (std w + Scalar.eps) +
          (w'[j] - mean w') * ((std w' - std w) / ((std w + Scalar.eps) * (std w' + Scalar.eps))) := by
      field_simp
      ring
    rw [e]
    refine (abs_add_le _ _).trans (add_le_add ?_ ?_)
    · rw [abs_div, abs_of_pos p1]
      apply div_le_div_of_nonneg_right _ p1.le
      refine (abs_sub _ _).trans ?_
      linarith
    · rw [abs_mul, abs_div, abs_of_pos (mul_pos p1 p2)]
      apply mul_le_mul_of_nonneg_left _ (abs_nonneg _)
      apply div_le_div_of_nonneg_right _ (mul_pos p1 p2).le
      rw [abs_sub_comm]
      exact hs
  refine (Finset.sum_le_sum step).trans ?_
  rw [Finset.sum_add_distrib, ← Finset.sum_mul, Finset.sum_const, Finset.card_range, nsmul_eq_mul]
  have h3 : (∑ j ∈ Finset.range w.length, |w'.getD j 0 - mean w'|) *
      (ε / ((std w + Scalar.eps) * (std w' + Scalar.eps))) ≤ w.length * ε / (std w + Scalar.eps) := by
    have hle : (w.length : ℝ) * std w' ≤ w.length * (std w' + Scalar.eps) :=
      mul_le_mul_of_nonneg_left (by linarith [real_eps_pos]) (by positivity)
    calc _ ≤ (w.length * (std w' + Scalar.eps)) * (ε / ((std w + Scalar.eps) * (std w' + Scalar.eps))) :=
          mul_le_mul_of_nonneg_right (hdev.trans hle) (by positivity)
      _ = _ := by field_simp
  calc _ ≤ (w.length : ℝ) * (2 * ε / (std w + Scalar.eps)) + w.length * ε / (std w + Scalar.eps) :=
        add_le_add le_rfl h3
    _ = _ := by ring

end Convst
