import Verif.Spec.RoundedRidge
import Verif.Proofs.Rounded
import Verif.Proofs.Classifiers
import Verif.Proofs.LinearAny
import Verif.Proofs.ScalerAny

/-!
# Rounding errors of the standardised features and of the scores
-/

set_option autoImplicit false
set_option linter.unusedSectionVars false

namespace Convst

open Spec

variable {r : Rounding} {R L : Type}

/-- `a'` is `a` after `k` roundings and an initial error of `E`. -/
def NearBy (u : ℝ) (k : Nat) (E a' a : ℝ) : Prop := |a' - a| ≤ ((1 + u) ^ k - 1) * |a| + (1 + u) ^ k * E

theorem NearBy.rnd {k : Nat} {E a' a : ℝ} (h : NearBy r.u k E a' a) : NearBy r.u (k + 1) E (r.rnd a') a := by
  unfold NearBy at *
  have hu := r.u_nonneg
  have h1 := r.err a'
  have h2 : |a'| ≤ |a' - a| + |a| := by
    calc |a'| = |(a' - a) + a| := by ring_nf
      _ ≤ _ := abs_add_le _ _
  have h3 : |r.rnd a' - a| ≤ |r.rnd a' - a'| + |a' - a| := by
    calc |r.rnd a' - a| = |(r.rnd a' - a') + (a' - a)| := by ring_nf
      _ ≤ _ := abs_add_le _ _
  have h4 : r.u * |a'| ≤ r.u * (((1 + r.u) ^ k - 1) * |a| + (1 + r.u) ^ k * E + |a|) :=
    mul_le_mul_of_nonneg_left (by linarith) hu
  rw [pow_succ]
  nlinarith

theorem NearBy.mul {u : ℝ} {k : Nat} {E a' a : ℝ} (h : NearBy u k E a' a) (c : ℝ) :
    NearBy u k (E * |c|) (a' * c) (a * c) := by
  unfold NearBy at *
  rw [← sub_mul, abs_mul, abs_mul]
  have := mul_le_mul_of_nonneg_right h (abs_nonneg c)
  nlinarith

theorem NearBy.div {u : ℝ} {k : Nat} {E a' a : ℝ} (h : NearBy u k E a' a) (c : ℝ) :
    NearBy u k (E / |c|) (a' / c) (a / c) := by
  have := h.mul c⁻¹
  rwa [abs_inv, ← div_eq_mul_inv, ← div_eq_mul_inv, ← div_eq_mul_inv] at this

/-- `a'` is `a` after `k` roundings of numbers of total size `A`. -/
def NearBy' (r : Rounding) (k : Nat) (A a' a : ℝ) : Prop := |a' - a| ≤ ((1 + r.u) ^ k - 1) * A ∧ |a| ≤ A

theorem NearBy'.rnd {k : Nat} {A a' a : ℝ} (h : NearBy' r k A a' a) :
    |r.rnd a' - a| ≤ ((1 + r.u) ^ (k + 1) - 1) * A := by
  obtain ⟨h, hA⟩ := h
  have hu := r.u_nonneg
  have h1 := r.err a'
  have h2 : |a'| ≤ |a' - a| + |a| := by
    calc |a'| = |(a' - a) + a| := by ring_nf
      _ ≤ _ := abs_add_le _ _
  have h3 : |r.rnd a' - a| ≤ |r.rnd a' - a'| + |a' - a| := by
    calc |r.rnd a' - a| = |(r.rnd a' - a') + (a' - a)| := by ring_nf
      _ ≤ _ := abs_add_le _ _
  have h4 : r.u * |a'| ≤ r.u * (((1 + r.u) ^ k - 1) * A + A) := mul_le_mul_of_nonneg_left (by linarith) hu
  rw [pow_succ]
  nlinarith

theorem abs_listSum_le (l : List ℝ) : |l.sum| ≤ (l.map abs).sum := by
  induction l with
  | nil => simp
  | cons a l ih =>
    rw [List.sum_cons, List.map_cons, List.sum_cons]
    exact (abs_add_le _ _).trans (by linarith)

theorem sumsTo_signed {h : Nat} {ts : List ℝ} {v : ℝ} (hs : SumsTo r h ts v) :
    |v - ts.sum| ≤ ((1 + r.u) ^ h - 1) * (ts.map abs).sum := by
  have hu := r.u_nonneg
  induction hs with
  | zero => simp
  | one t => simp
  | @add h k ts us v w hv hw ihv ihw =>
    rw [List.sum_append, List.map_append, List.sum_append]
    have p1 : (1 + r.u) ^ h ≤ (1 + r.u) ^ max h k := pow_le_pow_right₀ (by linarith) (le_max_left _ _)
    have p2 : (1 + r.u) ^ k ≤ (1 + r.u) ^ max h k := pow_le_pow_right₀ (by linarith) (le_max_right _ _)
    have s1 : |ts.sum| ≤ (ts.map abs).sum := abs_listSum_le _
    have s2 : |us.sum| ≤ (us.map abs).sum := abs_listSum_le _
    generalize (ts.map abs).sum = A at *
    generalize (us.map abs).sum = B at *
    have hA : 0 ≤ A := (abs_nonneg _).trans s1
    have hB : 0 ≤ B := (abs_nonneg _).trans s2
    have q1 := mul_le_mul_of_nonneg_right p1 hA
    have q2 := mul_le_mul_of_nonneg_right p2 hB
    have key : NearBy' r (max h k) (A + B) (v + w) (ts.sum + us.sum) := by
      refine ⟨?_, ?_⟩
      · have : |v + w - (ts.sum + us.sum)| ≤ |v - ts.sum| + |w - us.sum| := by
          calc |v + w - (ts.sum + us.sum)| = |(v - ts.sum) + (w - us.sum)| := by ring_nf
            _ ≤ _ := abs_add_le _ _
        nlinarith
      · exact (abs_add_le _ _).trans (by linarith)
    exact key.rnd
  | perm hv hp ih => rwa [← hp.sum_eq, ← (hp.map abs).sum_eq]
  | @weaken h k ts v hv hk ih =>
    have p1 : (1 + r.u) ^ h ≤ (1 + r.u) ^ k := pow_le_pow_right₀ (by linarith) hk
    have hA : 0 ≤ (ts.map abs).sum := (abs_nonneg _).trans (abs_listSum_le _)
    exact ih.trans (mul_le_mul_of_nonneg_right (by linarith) hA)

theorem total_succ (n : Nat) (f : Nat → ℝ) : total (n + 1) f = total n f + f n := by
  unfold total
  rw [List.range_succ, List.map_append, List.sum_append, List.map_singleton, List.sum_singleton]

/-- Sums of terms known up to `k` roundings and an error. -/
theorem total_near {u : ℝ} {k : Nat} {E t x : Nat → ℝ} : ∀ n, (∀ j, j < n → NearBy u k (E j) (t j) (x j)) →
    |total n t - total n x| ≤ ((1 + u) ^ k - 1) * total n (fun j => |x j|) + (1 + u) ^ k * total n E ∧
    total n (fun j => |t j|) ≤ (1 + u) ^ k * (total n (fun j => |x j|) + total n E) := by
  intro n
  induction n with
  | zero => intro _; simp [total]
  | succ n ih =>
    intro h
    obtain ⟨h1, h2⟩ := ih fun j hj => h j (by omega)
    have h3 : |t n - x n| ≤ ((1 + u) ^ k - 1) * |x n| + (1 + u) ^ k * E n := h n (by omega)
    simp only [total_succ]
    have h4 : |total n t + t n - (total n x + x n)| ≤ |total n t - total n x| + |t n - x n| := by
      calc |total n t + t n - (total n x + x n)| = |(total n t - total n x) + (t n - x n)| := by ring_nf
        _ ≤ _ := abs_add_le _ _
    have h5 : |t n| ≤ |t n - x n| + |x n| := by
      calc |t n| = |(t n - x n) + x n| := by ring_nf
        _ ≤ _ := abs_add_le _ _
    constructor <;> nlinarith

theorem score_error {sc : Scaler ℝ} {m : Linear ℝ L} {row row' : List ℝ} {η : Nat → ℝ} {q h : Nat} {v : ℝ}
    (hη : ∀ a ∈ sc.atts, |row'.getD a 0 - row.getD a 0| ≤ η a) (hq : q < m.coef.length)
    (hv : SumsTo r h ((List.range sc.atts.length).map (roundedTerm r.rnd sc m row' q) ++ [m.intercept.getD q 0]) v) :
    |v - (decision m (standardised sc row)).getD q 0| ≤ scoreError r.u (h + 3) sc m η row q := by
  have hu := r.u_nonneg
  set n := sc.atts.length with hn
  have hz : ∀ j, j < n → (standardised sc row).getD j 0 =
      (row.getD (sc.atts.getD j 0) 0 - sc.offset.getD j 0) / sc.scale.getD j 0 := by
    intro j hj
    unfold standardised
    rw [getD_lt _ (by simpa using hj), List.getElem_map, List.getElem_range]
  have hzl : (standardised sc row).length = n := by simp [standardised, hn]
  set x : Nat → ℝ := fun j => (row.getD (sc.atts.getD j 0) 0 - sc.offset.getD j 0) / sc.scale.getD j 0 *
    (m.coef.getD q []).getD j 0 with hx
  have htot : ∀ g : ℝ → ℝ, total n (fun j => g ((standardised sc row).getD j 0 * (m.coef.getD q []).getD j 0)) =
      total n fun j => g (x j) := by
    intro g
    unfold total
    congr 1
    apply List.map_congr_left
    intro j hj
    rw [hz j (List.mem_range.1 hj)]
  have hdec : (decision m (standardised sc row)).getD q 0 = total n x + m.intercept.getD q 0 := by
    unfold decision
    rw [getD_lt _ (by simpa using hq), List.getElem_map, List.getElem_range, hzl]
    exact congrArg (· + _) (htot id)
  have hsize : termSize m (standardised sc row) q = total n (fun j => |x j|) + |m.intercept.getD q 0| := by
    unfold termSize
    rw [hzl, htot abs]
  obtain ⟨h1, h2⟩ := total_near (u := r.u) (k := 3)
    (E := fun j => η (sc.atts.getD j 0) / |sc.scale.getD j 0| * |(m.coef.getD q []).getD j 0|)
    (t := roundedTerm r.rnd sc m row' q) (x := x) n (by
      intro j hj
      have h0 : NearBy r.u 0 (η (sc.atts.getD j 0)) (row'.getD (sc.atts.getD j 0) 0 - sc.offset.getD j 0)
          (row.getD (sc.atts.getD j 0) 0 - sc.offset.getD j 0) := by
        unfold NearBy
        rw [pow_zero, sub_self, zero_mul, zero_add, one_mul, sub_sub_sub_cancel_right]
        apply hη
        rw [getD_lt _ hj]
        exact List.getElem_mem _
      exact ((h0.rnd.div _).rnd.mul _).rnd)
  have h3 := sumsTo_signed hv
  rw [List.sum_append, List.sum_singleton, List.map_append, List.sum_append, List.map_singleton, List.sum_singleton,
    List.map_map] at h3
  change |v - (total n (roundedTerm r.rnd sc m row' q) + m.intercept.getD q 0)| ≤
    ((1 + r.u) ^ h - 1) * (total n (fun j => |roundedTerm r.rnd sc m row' q j|) + |m.intercept.getD q 0|) at h3
  unfold scoreError drift
  rw [hdec, hsize, ← hn]
  set E := total n fun j => η (sc.atts.getD j 0) / |sc.scale.getD j 0| * |(m.coef.getD q []).getD j 0|
  set A := total n fun j => |x j|
  set T := total n fun j => |roundedTerm r.rnd sc m row' q j|
  set b := m.intercept.getD q 0
  have h4 : |v - (total n x + b)| ≤ |v - (total n (roundedTerm r.rnd sc m row' q) + b)| +
      |total n (roundedTerm r.rnd sc m row' q) - total n x| := by
    calc |v - (total n x + b)| = |(v - (total n (roundedTerm r.rnd sc m row' q) + b)) +
          (total n (roundedTerm r.rnd sc m row' q) - total n x)| := by ring_nf
      _ ≤ _ := abs_add_le _ _
  have p1 : 1 ≤ (1 + r.u) ^ h := one_le_pow₀ (by linarith)
  have p3 : 1 ≤ (1 + r.u) ^ 3 := one_le_pow₀ (by linarith)
  have h5 : ((1 + r.u) ^ h - 1) * (T + |b|) ≤ ((1 + r.u) ^ h - 1) * ((1 + r.u) ^ 3 * (A + E) + |b|) :=
    mul_le_mul_of_nonneg_left (by linarith) (by linarith)
  have h6 : ((1 + r.u) ^ h - 1) * |b| ≤ ((1 + r.u) ^ h * (1 + r.u) ^ 3 - 1) * |b| := by
    apply mul_le_mul_of_nonneg_right _ (abs_nonneg _)
    nlinarith
  rw [pow_add]
  nlinarith

/-- Clear choices survive the errors. -/
theorem chosen_of_clear {s s' : List ℝ} {B : Nat → ℝ} (hl : s'.length = s.length)
    (hB : ∀ q, q < s.length → |s'.getD q 0 - s.getD q 0| ≤ B q) (hc : Clear s B) {k : Nat}
    (hk : Chosen s' k) : Chosen s k := by
  unfold Chosen Clear at *
  rw [hl] at hk
  split at hc
  · rename_i h1
    rw [if_pos h1] at hk ⊢
    have := abs_le.1 (hB 0 (by omega))
    rw [hk]
    rcases le_or_gt (s.getD 0 0) 0 with h | h
    · rw [abs_of_nonpos h] at hc
      rw [if_neg (by linarith), if_neg (by linarith)]
    · rw [abs_of_pos h] at hc
      rw [if_pos (by linarith), if_pos (by linarith)]
  · rename_i h1
    rw [if_neg h1] at hk ⊢
    obtain ⟨c, hc1, hc2⟩ := hc
    have hkc : k = c := by
      by_contra hne
      obtain ⟨k1, k2⟩ := hk
      rw [hl] at k1 k2
      have g1 := (k2 c hc1).1
      have g2 := hc2 k k1 hne
      have g3 := abs_le.1 (hB k k1)
      have g4 := abs_le.1 (hB c hc1)
      linarith
    subst hkc
    refine ⟨hc1, ?_⟩
    intro j hj
    have hB0 : 0 ≤ B j := (abs_nonneg _).trans (hB j hj)
    have hB1 : 0 ≤ B k := (abs_nonneg _).trans (hB k hc1)
    by_cases hjk : j = k
    · subst hjk
      exact ⟨le_rfl, fun h => absurd h (lt_irrefl _)⟩
    · have := hc2 j hj hjk
      exact ⟨by linarith, fun _ => by linarith⟩

theorem flatMap_singletons {α β : Type} (f : α → β) (l : List α) : (l.flatMap fun a => [f a]) = l.map f := by
  induction l with
  | nil => rfl
  | cons a l ih => rw [List.flatMap_cons, ih]; rfl

theorem fl_ltb_real (a b : Fl r) : Scalar.ltb a b = Scalar.ltb (K := ℝ) a b := by
  rw [Bool.eq_iff_iff, fl_ltb]
  exact (real_ltb a.val b.val).symm

/-- The class is chosen by comparisons only. -/
theorem fl_classIdx (s : List (Fl r)) : classIdx s = classIdx (K := ℝ) s := by
  have key : ∀ (l : List (Fl r)) (b : Fl r) (bi i : Nat), argmaxFrom b bi i l = argmaxFrom (K := ℝ) b bi i l := by
    intro l
    induction l with
    | nil => intro b bi i; rfl
    | cons a l ih =>
      intro b bi i
      rw [argmaxFrom, ih, ih, fl_ltb_real]
      rfl
  match s with
  | [] => rfl
  | [v] =>
    show (if Scalar.ltb 0 v then 1 else 0) = _
    rw [fl_ltb_real]
    rfl
  | a :: b :: l => exact key (b :: l) a 0 1

/-- The scores of the model in rounded arithmetic are sums of the rounded products and the intercept. -/
theorem fl_score_sumsTo {sc : Scaler (Fl r)} {m : Linear (Fl r) L} (ho : sc.offset.length = sc.atts.length)
    (hs : sc.scale.length = sc.atts.length) (row : List (Fl r)) {q : Nat}
    (hc : (m.coef.getD q []).length = sc.atts.length) :
    SumsTo r (sc.atts.length + 1)
      ((List.range sc.atts.length).map (roundedTerm r.rnd sc.exact m.exact row q) ++ [(m.exact.intercept).getD q 0])
      (dot (standardRow sc.offset sc.scale (sc.atts.map fun j => row.getD j 0)) (m.coef.getD q []) +
        m.intercept.getD q 0).val := by
  have hterms : List.zipWith (· * ·) (standardRow sc.offset sc.scale (sc.atts.map fun j => row.getD j 0)) (m.coef.getD q []) =
      (List.range sc.atts.length).map fun j => (Fl.mk (roundedTerm r.rnd sc.exact m.exact row q j) : Fl r) := by
    apply List.ext_getElem
    · rw [List.length_zipWith, hc]
      simp [standardRow, ho, hs]
    · intro j h1 h2
      have hj : j < sc.atts.length := by simpa using h2
      simp only [standardRow, List.getElem_zipWith, List.getElem_map, List.getElem_zip, List.getElem_range]
      unfold roundedTerm
      rw [getD_lt _ (show j < sc.exact.atts.length from hj), getD_lt _ (show j < sc.exact.offset.length by show j < sc.offset.length; omega),
        getD_lt _ (show j < sc.exact.scale.length by show j < sc.scale.length; omega),
        getD_lt _ (show j < (m.exact.coef.getD q []).length by show j < (m.coef.getD q []).length; omega)]
      rfl
  have h1 := foldl_sumsTo (r := r) (List.range sc.atts.length)
    (fun j => (Fl.mk (roundedTerm r.rnd sc.exact m.exact row q j) : Fl r))
    (fun j => [roundedTerm r.rnd sc.exact m.exact row q j]) 0 (fun j _ => SumsTo.one _) 0 [] 0 le_rfl SumsTo.zero
  rw [List.nil_append, List.length_range, Nat.zero_add, flatMap_singletons] at h1
  have h2 := SumsTo.add h1 (SumsTo.one (m.exact.intercept.getD q 0))
  unfold dot ssum
  rw [hterms, List.foldl_map]
  rw [Nat.max_zero] at h2
  exact h2

end Convst
