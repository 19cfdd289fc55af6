import Verif.Proofs.Classifiers

/-! # Lemmas about the ensemble -/

set_option autoImplicit false
set_option linter.unusedSectionVars false

namespace Convst
open Spec

/-! ## Softmax -/

theorem softmaxRow_eq (l : List ℝ) :
    softmaxRow l = l.map fun v => Real.exp (v - maxOf l) / (l.map fun v => Real.exp (v - maxOf l)).sum := by
  unfold softmaxRow
  simp only [ssum_real, List.map_map]
  rfl

theorem exp_sum_pos {l : List ℝ} (h : l ≠ []) (c : ℝ) : 0 < (l.map fun v => Real.exp (v - c)).sum := by
  apply List.sum_pos
  · intro x hx
    obtain ⟨v, -, rfl⟩ := List.mem_map.1 hx
    exact Real.exp_pos _
  · simpa using h

theorem softmaxRow_length (l : List ℝ) : (softmaxRow l).length = l.length := by
  rw [softmaxRow_eq]; simp

theorem softmaxRow_getD {l : List ℝ} {k : Nat} (hk : k < l.length) :
    (softmaxRow l).getD k 0 =
      Real.exp (l.getD k 0 - maxOf l) / (l.map fun v => Real.exp (v - maxOf l)).sum := by
  rw [softmaxRow_eq, getD_lt _ (by simpa using hk), List.getElem_map, getD_lt _ hk]

theorem softmaxRow_pos {l : List ℝ} {k : Nat} (hk : k < l.length) : 0 < (softmaxRow l).getD k 0 := by
  rw [softmaxRow_getD hk]
  exact div_pos (Real.exp_pos _) (exp_sum_pos (List.ne_nil_of_length_pos (by omega)) _)

theorem sum_map_div (l : List ℝ) (f : ℝ → ℝ) (c : ℝ) :
    (l.map fun v => f v / c).sum = (l.map f).sum / c := by
  induction l with
  | nil => simp
  | cons a l ih => simp only [List.map_cons, List.sum_cons, ih, add_div]

theorem softmaxRow_sum {l : List ℝ} (h : l ≠ []) : (softmaxRow l).sum = 1 := by
  rw [softmaxRow_eq, sum_map_div l (fun v => Real.exp (v - maxOf l))]
  exact div_self (exp_sum_pos h _).ne'

theorem softmaxRow_lt {l : List ℝ} {j k : Nat} (hj : j < l.length) (hk : k < l.length) :
    (softmaxRow l).getD j 0 < (softmaxRow l).getD k 0 ↔ l.getD j 0 < l.getD k 0 := by
  rw [softmaxRow_getD hj, softmaxRow_getD hk,
    div_lt_div_iff_of_pos_right (exp_sum_pos (List.ne_nil_of_length_pos (by omega)) _), Real.exp_lt_exp]
  constructor <;> intro h <;> linarith

/-- Subtracting the greatest score first does not change the probabilities. -/
theorem softmaxRow_spec (l : List ℝ) : softmaxRow l = (List.range l.length).map (softmax l) := by
  apply List.ext_getElem (by simp [softmaxRow_length])
  intro k h1 h2
  have hk : k < l.length := by simpa using h2
  have := softmaxRow_getD hk
  rw [getD_lt _ h1] at this
  rw [this, List.getElem_map, List.getElem_range]
  unfold softmax total
  have hs : ((List.range l.length).map fun j => Real.exp (l.getD j 0)) = l.map Real.exp := by
    apply List.ext_getElem (by simp)
    intro i h1 h2
    have hi : i < l.length := by simpa using h2
    rw [List.getElem_map, List.getElem_map, List.getElem_range, getD_lt _ hi]
  rw [hs]
  have : (l.map fun v => Real.exp (v - maxOf l)).sum = (l.map Real.exp).sum / Real.exp (maxOf l) := by
    rw [← sum_map_div]
    congr 1
    apply List.map_congr_left
    intro v _
    rw [Real.exp_sub]
  rw [this, Real.exp_sub]
  exact div_div_div_cancel_right₀ (Real.exp_pos _).ne' _ _

theorem twoScores_spec {L : Type} {m : Linear ℝ L} (z : List ℝ) :
    twoScores (decision m z) = classScores m z := by
  have hl : (decision m z).length = m.coef.length := by simp [decision]
  unfold classScores twoScores
  match hd : decision m z with
  | [] =>
    rw [if_neg]
    intro h1
    rw [hd, h1] at hl
    cases hl
  | [v] =>
    rw [hd] at hl
    rw [if_pos (by simpa using hl.symm)]
    rfl
  | a :: b :: l =>
    rw [hd] at hl
    rw [if_neg (by rw [← hl]; simp)]

theorem classScores_length {L : Type} {m : Linear ℝ L} {n : Nat} (h : LinWF m n) (z : List ℝ) :
    (classScores m z).length = m.classes.length := by
  unfold classScores
  rw [h.classes]
  split
  · rfl
  · simp [decision]

/-! ## Sums of matrices -/

/-- Entry of a matrix. -/
def cell (M : List (List ℝ)) (i k : Nat) : ℝ := (M.getD i []).getD k 0

/-- Same number of rows, rows of the same lengths. -/
def SameShape (A B : List (List ℝ)) : Prop :=
  A.length = B.length ∧ ∀ i, (A.getD i []).length = (B.getD i []).length

theorem SameShape.trans {A B C : List (List ℝ)} (h1 : SameShape A B) (h2 : SameShape B C) :
    SameShape A C := ⟨h1.1.trans h2.1, fun i => (h1.2 i).trans (h2.2 i)⟩

theorem SameShape.symm {A B : List (List ℝ)} (h1 : SameShape A B) :
    SameShape B A := ⟨h1.1.symm, fun i => (h1.2 i).symm⟩

theorem getD_ge {α : Type} {a : List α} {i : Nat} (d : α) (h : a.length ≤ i) : a.getD i d = d := by
  rw [List.getD_eq_getElem?_getD, List.getElem?_eq_none h]; rfl

theorem addMat_spec {A B C : List (List ℝ)} (h : addMat A B = .ok C) :
    SameShape C A ∧ SameShape B A ∧ ∀ i k, cell C i k = cell A i k + cell B i k := by
  unfold addMat at h
  split at h
  · rename_i hs
    obtain ⟨hl, hall⟩ := hs
    rw [Except.ok.injEq] at h
    have hrow : ∀ i, (A.getD i []).length = (B.getD i []).length := by
      intro i
      by_cases hi : i < A.length
      · have hi' : i < B.length := by omega
        rw [List.all_eq_true] at hall
        have := hall ((List.zipWith (fun r s => r.length == s.length) A B)[i]'(by simp; omega)) (List.getElem_mem _)
        rw [List.getElem_zipWith] at this
        rw [getD_lt _ hi, getD_lt _ hi']
        simpa using this
      · rw [getD_ge _ (by omega), getD_ge _ (by omega)]
    have hC : ∀ i, C.getD i [] = List.zipWith (· + ·) (A.getD i []) (B.getD i []) := by
      intro i
      rw [← h]
      by_cases hi : i < A.length
      · have hi' : i < B.length := by omega
        rw [getD_lt _ (by simp; omega), List.getElem_zipWith, getD_lt _ hi, getD_lt _ hi']
      · rw [getD_ge _ (by simp; omega), getD_ge _ (by omega), getD_ge _ (by omega)]
        rfl
    refine ⟨⟨by rw [← h]; simp [hl], fun i => by rw [hC, List.length_zipWith, ← hrow, Nat.min_self]⟩, ⟨hl.symm, fun i => (hrow i).symm⟩, ?_⟩
    intro i k
    unfold cell
    rw [hC]
    have := hrow i
    by_cases hk : k < (A.getD i []).length
    · rw [getD_lt _ (by rw [List.length_zipWith]; omega), List.getElem_zipWith, getD_lt _ hk,
        getD_lt (a := B.getD i []) _ (by omega)]
    · rw [getD_ge _ (by rw [List.length_zipWith]; omega), getD_ge (a := A.getD i []) _ (by omega),
        getD_ge (a := B.getD i []) _ (by omega)]
      simp
  · cases h

theorem foldl_addMat {l : List (List (List ℝ))} {A C : List (List ℝ)} (h : l.foldlM addMat A = .ok C) :
    SameShape C A ∧ (∀ B ∈ l, SameShape B A) ∧
      ∀ i k, cell C i k = cell A i k + (l.map fun B => cell B i k).sum := by
  induction l generalizing A with
  | nil =>
    cases h
    exact ⟨⟨rfl, fun _ => rfl⟩, by simp, by simp⟩
  | cons B l ih =>
    rw [List.foldlM_cons, Res.bind_eq_ok] at h
    obtain ⟨D, hD, h⟩ := h
    obtain ⟨d1, d2, d3⟩ := addMat_spec hD
    obtain ⟨c1, c2, c3⟩ := ih h
    refine ⟨c1.trans d1, ?_, ?_⟩
    · intro B' hB'
      rcases List.mem_cons.1 hB' with rfl | hB'
      · exact d2
      · exact (c2 B' hB').trans d1
    · intro i k
      rw [c3, d3, List.map_cons, List.sum_cons, add_assoc]

theorem sumMats_spec {Ps : List (List (List ℝ))} {C : List (List ℝ)} (h : sumMats Ps = .ok C) :
    Ps ≠ [] ∧ (∀ B ∈ Ps, SameShape B C) ∧ ∀ i k, cell C i k = (Ps.map fun B => cell B i k).sum := by
  cases Ps with
  | nil => cases h
  | cons A l =>
    obtain ⟨h1, h2, h3⟩ := foldl_addMat h
    refine ⟨by simp, ?_, ?_⟩
    · intro B hB
      rcases List.mem_cons.1 hB with rfl | hB
      · exact h1.symm
      · exact (h2 B hB).trans h1.symm
    · intro i k
      rw [h3, List.map_cons, List.sum_cons]

/-! ## Members -/

variable {G R : Type}

theorem plainTransform_ok {sc : List ℝ × List ℝ} {n : Nat} (h1 : sc.1.length = n) (h2 : sc.2.length = n)
    {F : List (List ℝ)} (hF : ∀ r ∈ F, r.length = n) : plainTransform sc F = .ok (F.map (plainStd sc)) := by
  unfold plainTransform
  apply mapM_ok
  intro r hr
  have hl := hF r hr
  rw [if_pos (by omega)]
  congr 1
  unfold standardRow plainStd
  rw [zipWith_eq_range _ r (sc.1.zip sc.2) 0 (0, 0) hl (by simp [h1, h2]), hl]
  apply List.map_congr_left
  intro j hj
  have hj : j < n := by simpa using hj
  have : (sc.1.zip sc.2).getD j (0, 0) = (sc.1.getD j 0, sc.2.getD j 0) := by
    rw [getD_lt _ (by simp; omega), List.getElem_zip, getD_lt _ (by omega), getD_lt _ (by omega)]
  rw [this]

theorem plainStd_length (sc : List ℝ × List ℝ) (r : List ℝ) : (plainStd sc r).length = r.length := by
  simp [plainStd]

theorem predictProba_ok {sc : List ℝ × List ℝ} {m : Linear ℝ Int} {n : Nat} (h1 : sc.1.length = n)
    (h2 : sc.2.length = n) (hm : LinWF m n) {F : List (List ℝ)} (hF : ∀ r ∈ F, r.length = n) :
    predictProba sc m F = .ok (F.map fun r =>
      (List.range m.classes.length).map (softmax (classScores m (plainStd sc r)))) := by
  unfold predictProba
  rw [plainTransform_ok h1 h2 hF, Res.bind_ok, List.mapM_map]
  apply mapM_ok
  intro r hr
  show (m.scores (plainStd sc r) >>= _) = _
  rw [scores_ok hm (by rw [plainStd_length, hF r hr]), Res.bind_ok, Res.pure_eq, twoScores_spec,
    softmaxRow_spec, classScores_length hm]

/-- The class probabilities given by one member. -/
def Member.proba {K : Type} [Scalar K] (m : Member K R) (X : XIn K) : Res (List (List K)) := do
  let Xi ← m.rep X
  let F ← m.rdst.transform Xi
  predictProba m.scaler m.lin F

theorem weighted_eq {K : Type} [Scalar K] (m : Member K R) (wt : K) (X : XIn K) :
    m.weighted wt X = (m.proba X).map fun P => P.map fun r => r.map fun v => v * wt := by
  unfold Member.weighted Member.proba
  cases m.rep X with
  | error e => rfl
  | ok Xi =>
    simp only [Res.bind_ok]
    cases m.rdst.transform Xi with
    | error e => rfl
    | ok F =>
      simp only [Res.bind_ok]
      cases predictProba m.scaler m.lin F <;> rfl

end Convst
