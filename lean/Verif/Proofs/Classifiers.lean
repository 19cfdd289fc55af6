import Verif.Spec.Classifiers
import Verif.Proofs.Scaler
import Verif.Proofs.Rows

/-! # Lemmas about the classifiers -/

set_option autoImplicit false
set_option linter.unusedSectionVars false

namespace Convst
open Spec

theorem getD_append_left {α : Type} {a b : List α} {i : Nat} {d : α} (h : i < a.length) :
    (a ++ b).getD i d = a.getD i d := by
  simp [List.getD_eq_getElem?_getD, List.getElem?_append_left h]

theorem argmaxFrom_spec (l pre : List ℝ) (bi : Nat) (h : FirstMax pre bi) :
    FirstMax (pre ++ l) (argmaxFrom (pre.getD bi 0) bi pre.length l) := by
  induction l generalizing pre bi with
  | nil => simpa [argmaxFrom] using h
  | cons a l ih =>
    have hlast : (pre ++ [a]).getD pre.length 0 = a := by simp
    have hlen : (pre ++ [a]).length = pre.length + 1 := by simp
    have happ : pre ++ a :: l = (pre ++ [a]) ++ l := by simp
    obtain ⟨h1, h2⟩ := h
    unfold argmaxFrom
    by_cases hlt : pre.getD bi 0 < a
    · rw [if_pos (by rw [real_ltb]; simpa using hlt), happ, ← hlen]
      have : FirstMax (pre ++ [a]) pre.length := by
        refine ⟨by simp, fun j hj => ?_⟩
        rw [hlast]
        by_cases hjp : j < pre.length
        · rw [getD_append_left hjp]
          have := (h2 j hjp).1.trans_lt hlt
          exact ⟨this.le, fun _ => this⟩
        · have : j = pre.length := by omega
          subst this
          rw [hlast]
          exact ⟨le_refl _, fun h => absurd h (lt_irrefl _)⟩
      have key := ih (pre ++ [a]) pre.length this
      rw [hlast] at key
      exact key
    · rw [if_neg (by rw [real_ltb]; simpa using hlt), happ, ← hlen]
      have : FirstMax (pre ++ [a]) bi := by
        refine ⟨by omega, fun j hj => ?_⟩
        rw [getD_append_left h1]
        by_cases hjp : j < pre.length
        · rw [getD_append_left hjp]
          exact h2 j hjp
        · have : j = pre.length := by omega
          subst this
          rw [hlast]
          exact ⟨not_lt.1 hlt, fun h => absurd h (by omega)⟩
      have key := ih (pre ++ [a]) bi this
      rw [getD_append_left h1] at key
      exact key

theorem argmax_spec {l : List ℝ} (h : l ≠ []) : FirstMax l (argmax l) := by
  cases l with
  | nil => exact absurd rfl h
  | cons a l =>
    have := argmaxFrom_spec l [a] 0 ⟨by simp, fun j hj => by
      have : j = 0 := by simpa using hj
      subst this
      exact ⟨le_refl _, fun h => absurd h (lt_irrefl _)⟩⟩
    simpa [argmax] using this

theorem FirstMax.unique {s : List ℝ} {i j : Nat} (hi : FirstMax s i) (hj : FirstMax s j) : i = j := by
  rcases lt_trichotomy i j with h | h | h
  · have := (hj.2 i hi.1).2 h
    have := (hi.2 j hj.1).1
    linarith
  · exact h
  · have := (hi.2 j hj.1).2 h
    have := (hj.2 i hi.1).1
    linarith

theorem classIdx_spec {s : List ℝ} (h : s ≠ []) : Chosen s (classIdx s) := by
  unfold Chosen
  match s with
  | [] => exact absurd rfl h
  | [v] =>
    simp only [List.length_singleton, if_true, List.getD_cons_zero, classIdx]
    by_cases hv : 0 < v
    · rw [if_pos (by rw [real_ltb]; simpa using hv), if_pos hv]
    · rw [if_neg (by rw [real_ltb]; simpa using hv), if_neg hv]
  | a :: b :: l =>
    rw [if_neg (by simp)]
    exact argmax_spec (by simp)

theorem ssum_real (l : List ℝ) : ssum l = l.sum := ssum_eq_sum l

theorem zipWith_eq_range {α β γ : Type} (f : α → β → γ) (a : List α) (b : List β) (da : α) (db : β)
    {n : Nat} (ha : a.length = n) (hb : b.length = n) :
    List.zipWith f a b = (List.range n).map fun i => f (a.getD i da) (b.getD i db) := by
  apply List.ext_getElem (by simp [ha, hb])
  intro i h1 h2
  have hi : i < n := by simpa using h2
  rw [List.getElem_zipWith, List.getElem_map, List.getElem_range, getD_lt _ (by omega),
    getD_lt _ (by omega)]

theorem scores_ok {L : Type} {m : Linear ℝ L} {n : Nat} (h : LinWF m n) {z : List ℝ} (hz : z.length = n) :
    m.scores z = .ok (decision m z) := by
  unfold Linear.scores
  rw [if_pos (by
    rw [List.all_eq_true]
    intro c hc
    simp [h.cols c hc, hz])]
  congr 1
  rw [zipWith_eq_range _ _ _ [] 0 rfl h.intercept]
  apply List.map_congr_left
  intro q hq
  have hq' : q < m.coef.length := List.mem_range.1 hq
  have hc : (m.coef.getD q []).length = n := by
    rw [getD_lt _ hq']; exact h.cols _ (List.getElem_mem hq')
  show dot z _ + _ = _
  unfold dot total
  rw [ssum_real, zipWith_eq_range _ _ _ 0 0 hz hc, hz]

theorem standardised_length (sc : Scaler ℝ) (row : List ℝ) :
    (standardised sc row).length = sc.atts.length := by simp [standardised]

/-- Shape of a fitted scaler for rows of `n` features. -/
structure ScalerWF {K : Type} (sc : Scaler K) (n : Nat) : Prop where
  offset : sc.offset.length = sc.atts.length
  scale : sc.scale.length = sc.atts.length
  atts : ∀ j ∈ sc.atts, j < n
  nodup : sc.atts.Nodup

theorem transformStandard_ok {sc : Scaler ℝ} {n : Nat} (h : ScalerWF sc n) {F : List (List ℝ)}
    (hF : ∀ r ∈ F, r.length = n) :
    sc.transformStandard F = .ok (F.map (standardised sc)) := by
  unfold Scaler.transformStandard
  rw [selectCols_ok (fun r hr j hj => by rw [hF r hr]; exact h.atts j hj), Res.bind_ok, Res.pure_eq,
    List.map_map]
  congr 1
  apply List.map_congr_left
  intro r hr
  simp only [Function.comp_apply]
  unfold standardRow standardised
  rw [zipWith_eq_range _ _ _ 0 (0, 0) (n := sc.atts.length) (by simp)
    (by simp [h.offset, h.scale])]
  apply List.map_congr_left
  intro j hj
  have hj' : j < sc.atts.length := List.mem_range.1 hj
  have e1 : (sc.atts.map fun j => r.getD j 0).getD j 0 = r.getD (sc.atts.getD j 0) 0 := by
    rw [getD_lt _ (by simpa using hj'), List.getElem_map, getD_lt 0 hj']
  have e2 : (sc.offset.zip sc.scale).getD j (0, 0) = (sc.offset.getD j 0, sc.scale.getD j 0) := by
    rw [getD_lt _ (by simp [h.offset, h.scale, hj']), List.getElem_zip, getD_lt, getD_lt]
  rw [e1, e2]

theorem chosen_lt {L : Type} {m : Linear ℝ L} {n : Nat} (h : LinWF m n) {z : List ℝ} {k : Nat}
    (hk : Chosen (decision m z) k) : k < m.classes.length := by
  unfold Chosen at hk
  have hl : (decision m z).length = m.coef.length := by simp [decision]
  rw [h.classes]
  rw [hl] at hk
  split at hk
  · rename_i h1
    rw [if_pos h1, hk]
    split <;> omega
  · rename_i h1
    rw [if_neg h1, ← hl]
    exact hk.1

theorem linear_predict_ok {L : Type} {m : Linear ℝ L} {n : Nat} (h : LinWF m n) {Z : List (List ℝ)}
    (hne : Z ≠ []) (hZ : ∀ z ∈ Z, z.length = n) :
    ∃ P, m.predict Z = .ok P ∧
      List.Forall₂ (fun z p => ∃ k, Chosen (decision m z) k ∧ m.classes[k]? = some p) Z P := by
  unfold Linear.predict
  rw [if_neg (by simpa using hne)]
  have key : ∀ z ∈ Z, ∃ p, (do let s ← m.scores z; pyGet m.classes (classIdx s)) = .ok p ∧
      ∃ k, Chosen (decision m z) k ∧ m.classes[k]? = some p := by
    intro z hz
    have hc := classIdx_spec (s := decision m z) (by
      simp only [decision, ne_eq, List.map_eq_nil_iff, List.range_eq_nil]
      intro h0
      exact h.ne (List.length_eq_zero_iff.1 h0))
    have hlt := chosen_lt h hc
    refine ⟨m.classes[classIdx (decision m z)], ?_, classIdx (decision m z), hc, ?_⟩
    · rw [scores_ok h (hZ z hz), Res.bind_ok, pyGet_ok hlt]
    · rw [List.getElem?_eq_getElem hlt]
  clear hne hZ
  induction Z with
  | nil => exact ⟨[], rfl, List.Forall₂.nil⟩
  | cons z Z ih =>
    obtain ⟨p, hp, hk⟩ := key z (by simp)
    obtain ⟨P, hP, hf⟩ := ih (fun z' hz' => key z' (by simp [hz']))
    refine ⟨p :: P, ?_, List.Forall₂.cons hk hf⟩
    rw [List.mapM_cons, hp, Res.bind_ok, hP]
    rfl

/-- Batch form of a composition of row-wise steps. -/
theorem mapM_toOption {α β : Type} {f : α → Res β} {l : List α} {r : List β} (h : l.mapM f = .ok r) :
    r.map some = l.map fun a => (f a).toOption := by
  replace h := mapM_eq_ok.1 h
  induction h with
  | nil => rfl
  | cons hab _ ih => rw [List.map_cons, List.map_cons, ih, hab]; rfl

theorem accuracy_eq {L : Type} [DecidableEq L] {a b : List L} (h : a.length = b.length) :
    accuracyScore (K := ℝ) a b = .ok ((agree a b : ℝ) / a.length) := by
  unfold accuracyScore agree
  rw [if_pos h]
  simp only [real_ofNat, Except.ok.injEq, List.countP_eq_length_filter]
  congr 4

theorem agree_le {L : Type} [DecidableEq L] (a b : List L) : agree a b ≤ a.length := by
  unfold agree
  refine (List.length_filter_le _ _).trans ?_
  simp

theorem accuracy_range {L : Type} [DecidableEq L] {a b : List L} {v : ℝ}
    (h : accuracyScore (K := ℝ) a b = .ok v) : 0 ≤ v ∧ v ≤ 1 := by
  unfold accuracyScore at h
  split at h
  · rename_i hl
    have h2 := accuracy_eq hl
    unfold accuracyScore at h2
    rw [if_pos hl] at h2
    rw [h2, Except.ok.injEq] at h
    rw [← h]
    refine ⟨by positivity, ?_⟩
    apply div_le_one_of_le₀ _ (by positivity)
    exact_mod_cast agree_le a b
  · cases h

/-- What the model assumes of scikit-learn's `RidgeClassifierCV`: shapes. -/
def RidgeLaw {L : Type} (ridge : List (List ℝ) → List L → Res (Linear ℝ L)) : Prop :=
  ∀ F y m, ridge F y = .ok m → LinWF m (nCols F)

theorem fitPipeline_ok {G R L : Type} {env : ClfEnv G ℝ R L} (hl : RidgeLaw env.ridge) {F : List (List ℝ)}
    {y : List L} {n : Nat} (hne : F ≠ []) (hF : ∀ r ∈ F, r.length = n) {sm : Scaler ℝ × Linear ℝ L}
    (h : fitPipeline env F y = .ok sm) : ScalerWF sm.1 n ∧ LinWF sm.2 sm.1.atts.length := by
  have hn : nCols F = n := by
    cases F with
    | nil => exact absurd rfl hne
    | cons r F => exact hF r (by simp)
  unfold fitPipeline at h
  rw [hn, Res.bind_eq_ok] at h
  obtain ⟨sc, hsc, h⟩ := h
  rw [fitStandard_eq hF] at hsc
  split at hsc
  · cases hsc
  · have hw : ScalerWF sc n := by
      cases hsc
      exact ⟨by simp, by simp, fun j hj => (mem_whereIdx.1 hj).1, List.nodup_range.filter _⟩
    rw [transformStandard_ok hw hF, Res.bind_ok, Res.bind_eq_ok] at h
    obtain ⟨m, hm, h⟩ := h
    cases h
    refine ⟨hw, ?_⟩
    have := hl _ _ _ hm
    cases F with
    | nil => exact absurd rfl hne
    | cons r F =>
      have e : nCols (List.map (standardised sc) (r :: F)) = sc.atts.length := by
        simp [nCols, standardised]
      rw [e] at this
      exact this

end Convst
