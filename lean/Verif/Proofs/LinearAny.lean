import Verif.Proofs.Classifiers

/-!
# The linear classifier in any arithmetic
-/

set_option autoImplicit false
set_option linter.unusedSectionVars false

namespace Convst
open Spec

section
variable {K L : Type} [Scalar K]

theorem argmaxFrom_lt (l : List K) : ∀ (best : K) (bi i : Nat), bi < i → argmaxFrom best bi i l < i + l.length := by
  induction l with
  | nil => intro best bi i h; simpa [argmaxFrom] using h
  | cons a l ih =>
    intro best bi i h
    rw [argmaxFrom, List.length_cons]
    split
    · have := ih a i (i + 1) (by omega); omega
    · have := ih best bi (i + 1) (by omega); omega

theorem argmax_lt {l : List K} (h : l ≠ []) : argmax l < l.length := by
  cases l with
  | nil => exact absurd rfl h
  | cons a l =>
    have := argmaxFrom_lt l a 0 1 (by omega)
    rw [List.length_cons, argmax]; omega

theorem classIdx_lt {s : List K} (h : s ≠ []) : classIdx s < if s.length = 1 then 2 else s.length := by
  match s with
  | [] => exact absurd rfl h
  | [v] =>
    simp only [classIdx, List.length_singleton, if_true]
    split <;> omega
  | a :: b :: l =>
    have := argmax_lt (l := a :: b :: l) (by simp)
    rw [if_neg (by simp)]
    exact this

/-- With one coefficient per feature and enough classes, `predict` returns a class for each row. -/
theorem linear_predict_any {m : Linear K L} {n : Nat} (h : LinWF m n) {Z : List (List K)} (hne : Z ≠ [])
    (hZ : ∀ z ∈ Z, z.length = n) :
    ∃ P, m.predict Z = .ok P ∧ P.length = Z.length ∧ ∀ p ∈ P, p ∈ m.classes := by
  unfold Linear.predict
  rw [if_neg (by simpa using hne)]
  have key : ∀ z ∈ Z, ∃ p, (do let s ← m.scores z; pyGet m.classes (classIdx s)) = .ok p ∧ p ∈ m.classes := by
    intro z hz
    have hs : m.scores z = .ok (List.zipWith (fun c b => dot z c + b) m.coef m.intercept) := by
      unfold Linear.scores
      rw [if_pos]
      rw [List.all_eq_true]
      intro c hc
      rw [h.cols c hc, hZ z hz]
      exact beq_self_eq_true _
    have hl : (List.zipWith (fun c b => dot z c + b) m.coef m.intercept).length = m.coef.length := by
      rw [List.length_zipWith, h.intercept, Nat.min_self]
    have hlt : classIdx (List.zipWith (fun c b => dot z c + b) m.coef m.intercept) < m.classes.length := by
      have := classIdx_lt (s := List.zipWith (fun c b => dot z c + b) m.coef m.intercept) (by
        intro h0
        rw [h0] at hl
        exact h.ne (List.length_eq_zero_iff.1 hl.symm))
      rw [h.classes, ← hl]
      exact this
    exact ⟨_, by rw [hs, Res.bind_ok, pyGet_ok hlt], List.getElem_mem hlt⟩
  clear hne hZ
  induction Z with
  | nil => exact ⟨[], rfl, rfl, by simp⟩
  | cons z Z ih =>
    obtain ⟨p, hp, hk⟩ := key z (by simp)
    obtain ⟨P, hP, hl, hc⟩ := ih (fun z' hz' => key z' (by simp [hz']))
    refine ⟨p :: P, ?_, by simp [hl], ?_⟩
    · rw [List.mapM_cons, hp, Res.bind_ok, hP]
      rfl
    · intro q hq
      rcases List.mem_cons.1 hq with rfl | hq
      · exact hk
      · exact hc q hq

end

end Convst
