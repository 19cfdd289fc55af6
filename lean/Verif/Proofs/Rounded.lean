import Verif.Spec.Rounded
import Verif.Proofs.Stability

/-! # Rounded arithmetic: sums, distances, features -/

set_option autoImplicit false
set_option linter.unusedSectionVars false

namespace Convst
open Spec

variable {r : Rounding}

/-! ## Sums -/

theorem one_sub_pow_nonneg (r : Rounding) (n : Nat) : 0 ≤ (1 - r.u) ^ n := pow_nonneg (by linarith [r.u_lt]) _

theorem sumsTo_bounds {h : Nat} {ts : List ℝ} {v : ℝ} (hs : SumsTo r h ts v) (hp : ∀ t ∈ ts, 0 ≤ t) :
    (1 - r.u) ^ h * ts.sum ≤ v ∧ v ≤ (1 + r.u) ^ h * ts.sum := by
  have hu := r.u_nonneg
  have hu1 := r.u_lt
  induction hs with
  | zero => simp
  | one t => simp
  | perm hv hperm ih =>
    rw [← hperm.sum_eq]
    exact ih fun t ht => hp t (hperm.mem_iff.1 ht)
  | @weaken h k ts v hv hk ih =>
    obtain ⟨h1, h2⟩ := ih hp
    have s1 : 0 ≤ ts.sum := List.sum_nonneg hp
    exact ⟨(mul_le_mul_of_nonneg_right (pow_le_pow_of_le_one (by linarith) (by linarith) hk) s1).trans h1,
      h2.trans (mul_le_mul_of_nonneg_right (pow_le_pow_right₀ (by linarith) hk) s1)⟩
  | @add h k ts us v w hv hw ih1 ih2 =>
    obtain ⟨a1, a2⟩ := ih1 fun t ht => hp t (by simp [ht])
    obtain ⟨b1, b2⟩ := ih2 fun t ht => hp t (by simp [ht])
    have s1 : 0 ≤ ts.sum := List.sum_nonneg fun t ht => hp t (by simp [ht])
    have s2 : 0 ≤ us.sum := List.sum_nonneg fun t ht => hp t (by simp [ht])
    have v0 : 0 ≤ v := (mul_nonneg (one_sub_pow_nonneg r h) s1).trans a1
    have w0 : 0 ≤ w := (mul_nonneg (one_sub_pow_nonneg r k) s2).trans b1
    have up : ∀ {a b : Nat}, a ≤ b → (1 + r.u) ^ a ≤ (1 + r.u) ^ b :=
      fun h => pow_le_pow_right₀ (by linarith) h
    have dn : ∀ {a b : Nat}, a ≤ b → (1 - r.u) ^ b ≤ (1 - r.u) ^ a :=
      fun h => pow_le_pow_of_le_one (by linarith) (by linarith) h
    rw [List.sum_append, pow_succ, pow_succ]
    constructor
    · refine le_trans ?_ (r.ge_of (add_nonneg v0 w0))
      have c1 := (mul_le_mul_of_nonneg_right (dn (le_max_left h k)) s1).trans a1
      have c2 := (mul_le_mul_of_nonneg_right (dn (le_max_right h k)) s2).trans b1
      have : (1 - r.u) ^ max h k * (1 - r.u) * (ts.sum + us.sum) =
          (1 - r.u) * ((1 - r.u) ^ max h k * ts.sum + (1 - r.u) ^ max h k * us.sum) := by ring
      rw [this]
      exact mul_le_mul_of_nonneg_left (by linarith) (by linarith)
    · refine (r.le_of (add_nonneg v0 w0)).trans ?_
      have c1 := a2.trans (mul_le_mul_of_nonneg_right (up (le_max_left h k)) s1)
      have c2 := b2.trans (mul_le_mul_of_nonneg_right (up (le_max_right h k)) s2)
      have : (1 + r.u) ^ max h k * (1 + r.u) * (ts.sum + us.sum) =
          (1 + r.u) * ((1 + r.u) ^ max h k * ts.sum + (1 + r.u) ^ max h k * us.sum) := by ring
      rw [this]
      exact mul_le_mul_of_nonneg_left (by linarith) (by linarith)

/-- Left-to-right accumulation of sums. -/
theorem foldl_sumsTo {α : Type} (l : List α) (f : α → Fl r) (ts : α → List ℝ) (h : Nat)
    (hf : ∀ a ∈ l, SumsTo r h (ts a) (f a).val) :
    ∀ (h0 : Nat) (ts0 : List ℝ) (s : Fl r), h ≤ h0 → SumsTo r h0 ts0 s.val →
      SumsTo r (h0 + l.length) (ts0 ++ l.flatMap ts) (l.foldl (fun s a => s + f a) s).val := by
  induction l with
  | nil => intro h0 ts0 s _ hs; simpa using hs
  | cons a l ih =>
    intro h0 ts0 s hh hs
    have h1 := SumsTo.add hs (hf a (by simp))
    rw [max_eq_left hh] at h1
    have := ih (fun b hb => hf b (by simp [hb])) (h0 + 1) (ts0 ++ ts a) (s + f a) (by omega) h1
    simp only [List.foldl_cons, List.flatMap_cons, List.length_cons]
    rw [← List.append_assoc, show h0 + (l.length + 1) = h0 + 1 + l.length by omega]
    exact this

theorem l1_sumsTo (w v : List (Fl r)) :
    SumsTo r w.length ((List.range w.length).map fun j => |r.rnd ((w.getD j 0).val - (v.getD j 0).val)|)
      (l1 w v).val := by
  have := foldl_sumsTo (r := r) (List.range w.length) (fun j => Scalar.abs (w.getD j 0 - v.getD j 0))
    (fun j => [|r.rnd ((w.getD j 0).val - (v.getD j 0).val)|]) 0 (fun j _ => SumsTo.one _) 0 [] 0 le_rfl
    SumsTo.zero
  rw [List.nil_append, Nat.zero_add, List.length_range] at this
  rw [List.map_eq_flatMap]
  exact this

/-! ## Relative error of a distance -/

/-- The absolute differences themselves have relative error `u`. -/
theorem terms_bounds (r : Rounding) (l : List ℝ) :
    (1 - r.u) * (l.map fun t => |t|).sum ≤ (l.map fun t => |r.rnd t|).sum ∧
    (l.map fun t => |r.rnd t|).sum ≤ (1 + r.u) * (l.map fun t => |t|).sum := by
  induction l with
  | nil => simp
  | cons t l ih =>
    simp only [List.map_cons, List.sum_cons, mul_add]
    exact ⟨add_le_add (r.abs_ge_of t) ih.1, add_le_add (r.abs_le_of t) ih.2⟩

theorem one_sub_le_pow (r : Rounding) (n : Nat) : 1 - ((1 + r.u) ^ n - 1) ≤ (1 - r.u) ^ n := by
  have h1 := one_add_mul_le_pow (a := -r.u) (by linarith [r.u_lt]) n
  have h2 := one_add_mul_le_pow (a := r.u) (by linarith [r.u_nonneg]) n
  have e : (1 + -r.u) = 1 - r.u := by ring
  rw [e] at h1
  linarith

/-- A distance computed with `h` roundings, after the rounded differences. -/
theorem dist_bounds {h : Nat} {l : List ℝ} {v : ℝ} (hs : SumsTo r h (l.map fun t => |r.rnd t|) v) :
    (1 - r.u) ^ (h + 1) * (l.map fun t => |t|).sum ≤ v ∧
    v ≤ (1 + r.u) ^ (h + 1) * (l.map fun t => |t|).sum := by
  obtain ⟨h1, h2⟩ := sumsTo_bounds hs (by
    intro t ht; obtain ⟨s, _, rfl⟩ := List.mem_map.1 ht; exact abs_nonneg _)
  obtain ⟨b1, b2⟩ := terms_bounds r l
  rw [pow_succ, pow_succ, mul_assoc, mul_assoc]
  exact ⟨(mul_le_mul_of_nonneg_left b1 (one_sub_pow_nonneg r h)).trans h1,
    h2.trans (mul_le_mul_of_nonneg_left b2 (pow_nonneg (by linarith [r.u_nonneg]) _))⟩

/-! ## Features -/

/-- In rounded arithmetic the features of a list of numbers are the exact features of that list, the position
and the number of occurrences being rounded when they are converted to numbers. -/
theorem scanMin_fl (D : List (Fl r)) (i : Nat) (m : Fl r) (a : Nat) :
    scanMin D i m a = scanMin (K := ℝ) D i m a := by
  induction D generalizing i m a with
  | nil => rfl
  | cons x D ih =>
    unfold scanMin
    rw [ih, ih]
    rfl

theorem features_fl (D : List (Fl r)) (thr : Fl r) :
    ((features D thr).1.val = (features (K := ℝ) D thr).1) ∧
    (∃ p : Nat, (features D thr).2.1.val = r.rnd p ∧ (features (K := ℝ) D thr).2.1 = p) ∧
    (∃ n : Nat, (features D thr).2.2.val = r.rnd n ∧ (features (K := ℝ) D thr).2.2 = n) := by
  refine ⟨?_, ⟨_, rfl, ?_⟩, ⟨_, rfl, rfl⟩⟩
  · unfold features
    simp only
    rw [scanMin_fl]
    rfl
  · unfold features
    simp only
    rw [scanMin_fl]
    rfl

/-- Features of two lists of distances with a relative error. -/
theorem features_rounded {D D' : List ℝ} {thr : ℝ} {lo hi γ : ℝ} (hlo : 0 < lo) (hγ : 0 ≤ γ)
    (hl : 1 - γ ≤ lo) (hh : hi ≤ 1 + γ) (hlen : D'.length = D.length) (hne : D ≠ [])
    (hD : ∀ x ∈ D, 0 ≤ x)
    (h : ∀ (i : Nat) (a b : ℝ), D[i]? = some a → D'[i]? = some b → lo * a ≤ b ∧ b ≤ hi * a) :
    ∃ (a a' : ℝ) (p n p' n' : Nat), features D thr = (a, (p : ℝ), (n : ℝ)) ∧
      features D' thr = (a', (p' : ℝ), (n' : ℝ)) ∧ RoundedFeatures γ D thr a p n a' p' n' := by
  have hD' : ∀ x ∈ D', 0 ≤ x := by
    intro x hx
    obtain ⟨i, hi⟩ := List.mem_iff_getElem?.1 hx
    have hil : i < D.length := by rw [← hlen]; exact (List.getElem?_eq_some_iff.1 hi).1
    have := (h i _ x (List.getElem?_eq_getElem hil) hi).1
    exact (mul_nonneg hlo.le (hD _ (List.getElem_mem hil))).trans this
  have hne' : D' ≠ [] := by
    intro e; rw [e] at hlen; exact hne (List.length_eq_zero_iff.1 hlen.symm)
  have h' : ∀ (i : Nat) (a b : ℝ), D[i]? = some a → D'[i]? = some b →
      (1 - γ) * a ≤ b ∧ b ≤ (1 + γ) * a := by
    intro i a b ha hb
    obtain ⟨q1, q2⟩ := h i a b ha hb
    have ha0 := hD _ (List.mem_of_getElem? ha)
    exact ⟨(mul_le_mul_of_nonneg_right hl ha0).trans q1, q2.trans (mul_le_mul_of_nonneg_right hh ha0)⟩
  obtain ⟨⟨m1, m2⟩, ⟨p, p1, p2, p3⟩, c1⟩ := features_isFeatures (thr := thr) hne hD
  obtain ⟨⟨m1', m2'⟩, ⟨p', p1', p2', p3'⟩, c1'⟩ := features_isFeatures (thr := thr) hne' hD'
  refine ⟨(features D thr).1, (features D' thr).1, p, _, p', _, Prod.ext rfl (Prod.ext p1 c1),
    Prod.ext rfl (Prod.ext p1' c1'), ?_⟩
  generalize (features D thr).1 = a at *
  generalize (features D' thr).1 = a' at *
  have hp : p < D.length := (List.getElem?_eq_some_iff.1 p2).1
  have hp' : p' < D'.length := (List.getElem?_eq_some_iff.1 p2').1
  have hpD' : D'[p]? = some (D'[p]'(by omega)) := List.getElem?_eq_getElem (by omega)
  have hpD : D[p']? = some (D[p']'(by omega)) := List.getElem?_eq_getElem (by omega)
  obtain ⟨e1, e2⟩ := h' p _ _ p2 hpD'
  obtain ⟨g1, g2⟩ := h' p' _ _ hpD p2'
  have f1 := m2' _ (List.mem_of_getElem? hpD')
  have f2 := m2 _ (List.mem_of_getElem? hpD)
  have a0 : 0 ≤ a := hD _ m1
  have a0' : 0 ≤ a' := hD' _ m1'
  have low : (1 - γ) * a ≤ a' := by
    rcases le_or_gt γ 1 with hg | hg
    · exact (mul_le_mul_of_nonneg_left f2 (by linarith)).trans g1
    · nlinarith
  have high : a' ≤ (1 + γ) * a := f1.trans e2
  refine ⟨abs_le.2 ⟨by linarith, by linarith⟩, ⟨?_, ?_⟩, ⟨_, hpD, g1.trans high⟩, ?_, ?_, ?_, ?_⟩
  · intro h0
    obtain ⟨l1, -⟩ := h p' _ _ hpD p2'
    rw [h0] at l1
    have hx := hD _ (List.mem_of_getElem? hpD)
    have : D[p']'(by omega) = 0 := by nlinarith
    linarith
  · intro h0; rw [h0] at high; linarith
  · intro hm
    by_contra hc
    have := hm p' _ hpD hc
    linarith
  all_goals
    have key : ∀ (D D' : List ℝ), D'.length = D.length →
        (∀ (i : Nat) (a b : ℝ), D[i]? = some a → D'[i]? = some b → (1 - γ) * a ≤ b ∧ b ≤ (1 + γ) * a) →
        ((D.countP fun v => decide ((1 + γ) * v ≤ thr)) ≤ D'.countP fun v => decide (v ≤ thr)) ∧
        ((D'.countP fun v => decide (v ≤ thr)) ≤ D.countP fun v => decide ((1 - γ) * v ≤ thr)) ∧
        ((∀ v ∈ D, γ * v < |v - thr|) →
          (D'.countP fun v => decide (v ≤ thr)) = D.countP fun v => decide (v ≤ thr)) := by
      intro D
      induction D with
      | nil => intro D' hl _; rw [List.length_eq_zero_iff.1 hl]; simp
      | cons a D ih =>
        intro D' hl hc
        cases D' with
        | nil => simp at hl
        | cons b D' =>
          obtain ⟨q1, q2⟩ := hc 0 a b rfl rfl
          obtain ⟨i1, i2, i3⟩ := ih D' (by simpa using hl)
            (fun i x z hx hz => hc (i + 1) x z (by simpa using hx) (by simpa using hz))
          simp only [List.countP_cons, decide_eq_true_eq]
          refine ⟨add_le_add i1 ?_, add_le_add i2 ?_, fun hm => ?_⟩
          · split
            · rw [if_pos (by linarith)]
            · exact Nat.zero_le _
          · split
            · rw [if_pos (by linarith)]
            · exact Nat.zero_le _
          · rw [i3 fun v hv => hm v (by simp [hv])]
            congr 1
            have h1 := hm a (by simp)
            have hiff : (b ≤ thr) ↔ (a ≤ thr) := by
              rcases le_or_gt a thr with ha | ha
              · rw [abs_of_nonpos (by linarith)] at h1
                exact ⟨fun _ => ha, fun _ => by linarith⟩
              · rw [abs_of_pos (by linarith)] at h1
                exact ⟨fun hb => by linarith, fun hb => absurd hb (not_le.2 ha)⟩
            simp only [hiff]
    obtain ⟨k1, k2, k3⟩ := key D D' hlen h'
    first | exact k1 | exact k2 | exact k3

end Convst
