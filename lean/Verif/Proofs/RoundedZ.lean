import Verif.Spec.RoundedZ
import Verif.Proofs.Rounded

/-! # Rounded arithmetic: z-normalisation -/

set_option autoImplicit false
set_option linter.unusedSectionVars false

namespace Convst
open Spec

variable {r : Rounding}

/-! ## Numbers that differ by `k` roundings -/

/-- `y` is `x` times a factor that `k` roundings can make. -/
def Rel (r : Rounding) (k : Nat) (x y : ℝ) : Prop :=
  ∃ θ : ℝ, (1 - r.u) ^ k ≤ θ ∧ θ ≤ (1 - r.u)⁻¹ ^ k ∧ y = θ * x

theorem lo_pos (r : Rounding) (k : Nat) : 0 < (1 - r.u) ^ k := pow_pos (by linarith [r.u_lt]) _

theorem lo_le_one (r : Rounding) (k : Nat) : (1 - r.u) ^ k ≤ 1 :=
  pow_le_one₀ (by linarith [r.u_lt]) (by linarith [r.u_nonneg])

theorem one_le_inv (r : Rounding) : 1 ≤ (1 - r.u)⁻¹ :=
  (one_le_inv₀ (by linarith [r.u_lt])).2 (by linarith [r.u_nonneg])

theorem one_le_hi (r : Rounding) (k : Nat) : 1 ≤ (1 - r.u)⁻¹ ^ k := one_le_pow₀ (one_le_inv r)

theorem hi_mono (r : Rounding) {j k : Nat} (h : j ≤ k) : (1 - r.u)⁻¹ ^ j ≤ (1 - r.u)⁻¹ ^ k :=
  pow_le_pow_right₀ (one_le_inv r) h

theorem one_add_le_inv (r : Rounding) : 1 + r.u ≤ (1 - r.u)⁻¹ := by
  have := r.u_lt
  have := r.u_nonneg
  rw [le_inv_comm₀ (by linarith) (by linarith), inv_eq_one_div, le_div_iff₀ (by linarith)]
  nlinarith

theorem one_sub_lo (r : Rounding) (k : Nat) : 1 - (1 - r.u) ^ k ≤ (1 - r.u)⁻¹ ^ k - 1 := by
  have h1 := lo_pos r k
  rw [inv_pow]
  set x := (1 - r.u) ^ k
  have : x * x⁻¹ = 1 := mul_inv_cancel₀ h1.ne'
  nlinarith [sq_nonneg (x - 1), inv_pos.2 h1, mul_nonneg (inv_pos.2 h1).le (sq_nonneg (x - 1))]

namespace Rel

theorem refl (r : Rounding) (k : Nat) (x : ℝ) : Rel r k x x :=
  ⟨1, lo_le_one r k, one_le_hi r k, (one_mul x).symm⟩

theorem of_bounds {k : Nat} {x y : ℝ} (hx : 0 ≤ x) (h1 : (1 - r.u) ^ k * x ≤ y)
    (h2 : y ≤ (1 - r.u)⁻¹ ^ k * x) : Rel r k x y := by
  rcases eq_or_lt_of_le hx with h | h
  · subst h
    rw [mul_zero] at h1 h2
    rw [le_antisymm h2 h1]
    exact refl r k 0
  · exact ⟨y / x, (le_div_iff₀ h).2 h1, (div_le_iff₀ h).2 h2, by field_simp⟩

theorem bounds {k : Nat} {x y : ℝ} (hx : 0 ≤ x) (h : Rel r k x y) :
    (1 - r.u) ^ k * x ≤ y ∧ y ≤ (1 - r.u)⁻¹ ^ k * x := by
  obtain ⟨θ, h1, h2, rfl⟩ := h
  exact ⟨mul_le_mul_of_nonneg_right h1 hx, mul_le_mul_of_nonneg_right h2 hx⟩

theorem nonneg {k : Nat} {x y : ℝ} (hx : 0 ≤ x) (h : Rel r k x y) : 0 ≤ y :=
  (mul_nonneg (lo_pos r k).le hx).trans (h.bounds hx).1

theorem pos {k : Nat} {x y : ℝ} (hx : 0 < x) (h : Rel r k x y) : 0 < y :=
  (mul_pos (lo_pos r k) hx).trans_le (h.bounds hx.le).1

theorem rnd (r : Rounding) (x : ℝ) : Rel r 1 x (r.rnd x) := by
  have hu := r.u_lt
  have key : ∀ x : ℝ, 0 ≤ x → ∀ y, |y - x| ≤ r.u * |x| → Rel r 1 x y := by
    intro x hx y h
    rw [abs_of_nonneg hx] at h
    obtain ⟨h1, h2⟩ := abs_le.1 h
    refine of_bounds hx ?_ ?_
    · rw [pow_one]; linarith
    · rw [pow_one]
      exact (show y ≤ (1 + r.u) * x by linarith).trans (mul_le_mul_of_nonneg_right (one_add_le_inv r) hx)
  rcases le_total 0 x with h | h
  · exact key x h _ (r.err x)
  · obtain ⟨θ, t1, t2, t3⟩ := key (-x) (by linarith) (-r.rnd x) (by
      rw [← abs_neg, abs_neg x]
      simpa [sub_eq_add_neg, add_comm] using r.err x)
    exact ⟨θ, t1, t2, by linarith⟩

theorem trans {j k : Nat} {x y z : ℝ} (h1 : Rel r j x y) (h2 : Rel r k y z) : Rel r (j + k) x z := by
  obtain ⟨θ, a1, a2, rfl⟩ := h1
  obtain ⟨η, b1, b2, rfl⟩ := h2
  refine ⟨η * θ, ?_, ?_, by ring⟩
  · rw [pow_add, mul_comm]
    exact mul_le_mul b1 a1 (lo_pos r j).le ((lo_pos r k).le.trans b1)
  · rw [pow_add, mul_comm η]
    exact mul_le_mul a2 b2 ((lo_pos r k).le.trans b1) (by linarith [one_le_hi r j])

theorem mono {j k : Nat} (h : j ≤ k) {x y : ℝ} (h1 : Rel r j x y) : Rel r k x y := by
  have := h1.trans (refl r (k - j) y)
  rwa [show j + (k - j) = k by omega] at this

theorem mul {j k : Nat} {a a' b b' : ℝ} (h1 : Rel r j a a') (h2 : Rel r k b b') :
    Rel r (j + k) (a * b) (a' * b') := by
  obtain ⟨θ, a1, a2, rfl⟩ := h1
  obtain ⟨η, b1, b2, rfl⟩ := h2
  refine ⟨θ * η, ?_, ?_, by ring⟩
  · rw [pow_add]
    exact mul_le_mul a1 b1 (lo_pos r k).le ((lo_pos r j).le.trans a1)
  · rw [pow_add]
    exact mul_le_mul a2 b2 ((lo_pos r k).le.trans b1) (by linarith [one_le_hi r j])

theorem inv {k : Nat} {x y : ℝ} (h : Rel r k x y) : Rel r k x⁻¹ y⁻¹ := by
  obtain ⟨θ, a1, a2, rfl⟩ := h
  have h0 := lo_pos r k
  refine ⟨θ⁻¹, ?_, ?_, by rw [mul_inv]⟩
  · rw [le_inv_comm₀ h0 (h0.trans_le a1), ← inv_pow]; exact a2
  · rw [inv_pow]
    exact inv_anti₀ h0 a1

theorem div {j k : Nat} {a a' b b' : ℝ} (h1 : Rel r j a a') (h2 : Rel r k b b') :
    Rel r (j + k) (a / b) (a' / b') := by
  rw [div_eq_mul_inv, div_eq_mul_inv]
  exact h1.mul h2.inv

theorem sqrt {k : Nat} {x y : ℝ} (hx : 0 ≤ x) (h : Rel r k x y) : Rel r k (Real.sqrt x) (Real.sqrt y) := by
  obtain ⟨θ, a1, a2, rfl⟩ := h
  have h0 := lo_pos r k
  have ht : 0 ≤ θ := h0.le.trans a1
  refine ⟨Real.sqrt θ, ?_, ?_, Real.sqrt_mul ht x⟩
  · apply Real.le_sqrt_of_sq_le
    have := lo_le_one r k
    nlinarith
  · rw [Real.sqrt_le_left (by linarith [one_le_hi r k])]
    have := one_le_hi r k
    nlinarith

theorem add {k : Nat} {a a' b b' : ℝ} (ha : 0 ≤ a) (hb : 0 ≤ b) (h1 : Rel r k a a') (h2 : Rel r k b b') :
    Rel r k (a + b) (a' + b') := by
  obtain ⟨a1, a2⟩ := h1.bounds ha
  obtain ⟨b1, b2⟩ := h2.bounds hb
  exact of_bounds (add_nonneg ha hb) (by rw [mul_add]; linarith) (by rw [mul_add]; linarith)

theorem sum {α : Type} {k : Nat} (l : List α) (f g : α → ℝ) (hf : ∀ a ∈ l, 0 ≤ f a)
    (h : ∀ a ∈ l, Rel r k (f a) (g a)) : Rel r k (l.map f).sum (l.map g).sum := by
  induction l with
  | nil => exact refl r k _
  | cons a l ih =>
    simp only [List.map_cons, List.sum_cons]
    refine add (hf a (by simp)) (List.sum_nonneg ?_) (h a (by simp))
      (ih (fun b hb => hf b (by simp [hb])) (fun b hb => h b (by simp [hb])))
    intro x hx
    obtain ⟨b, hb, rfl⟩ := List.mem_map.1 hx
    exact hf b (by simp [hb])

theorem sumsTo {h : Nat} {ts : List ℝ} {v : ℝ} (hs : SumsTo r h ts v) (hp : ∀ t ∈ ts, 0 ≤ t) :
    Rel r h ts.sum v := by
  obtain ⟨h1, h2⟩ := sumsTo_bounds hs hp
  have s0 : 0 ≤ ts.sum := List.sum_nonneg hp
  exact of_bounds s0 h1 (h2.trans (mul_le_mul_of_nonneg_right
    (pow_le_pow_left₀ (by linarith [r.u_nonneg]) (one_add_le_inv r) h) s0))

theorem abs_sub {k : Nat} {x y : ℝ} (h : Rel r k x y) : |y - x| ≤ ((1 - r.u)⁻¹ ^ k - 1) * |x| := by
  obtain ⟨θ, a1, a2, rfl⟩ := h
  have e : θ * x - x = (θ - 1) * x := by ring
  rw [e, abs_mul]
  refine mul_le_mul_of_nonneg_right ?_ (abs_nonneg x)
  have := one_sub_lo r k
  exact abs_le.2 ⟨by linarith, by linarith⟩

theorem abs {k : Nat} {x y : ℝ} (h : Rel r k x y) : Rel r k |x| |y| := by
  obtain ⟨θ, a1, a2, rfl⟩ := h
  exact ⟨θ, a1, a2, by rw [abs_mul, abs_of_nonneg ((lo_pos r k).le.trans a1)]⟩

end Rel

/-! ## Sums of numbers of both signs -/

theorem sum_abs_le (ts : List ℝ) : |ts.sum| ≤ (ts.map fun t => |t|).sum := by
  induction ts with
  | nil => simp
  | cons t ts ih =>
    simp only [List.map_cons, List.sum_cons]
    exact (abs_add_le _ _).trans (by linarith)

theorem sum_abs_nonneg (ts : List ℝ) : 0 ≤ (ts.map fun t => |t|).sum :=
  (abs_nonneg _).trans (sum_abs_le ts)

theorem sumsTo_abs {h : Nat} {ts : List ℝ} {v : ℝ} (hs : SumsTo r h ts v) :
    |v - ts.sum| ≤ ((1 + r.u) ^ h - 1) * (ts.map fun t => |t|).sum := by
  have hu := r.u_nonneg
  have up : ∀ {a b : Nat}, a ≤ b → (1 + r.u) ^ a ≤ (1 + r.u) ^ b :=
    fun h => pow_le_pow_right₀ (by linarith) h
  induction hs with
  | zero => simp
  | one t => simp
  | perm hv hperm ih =>
    rw [← hperm.sum_eq, ← (hperm.map fun t => |t|).sum_eq]
    exact ih
  | @weaken h k ts v hv hk ih =>
    refine ih.trans (mul_le_mul_of_nonneg_right ?_ (sum_abs_nonneg ts))
    linarith [up hk]
  | @add h k ts us v w hv hw ih1 ih2 =>
    rw [List.sum_append, List.map_append, List.sum_append, pow_succ]
    have s1 := sum_abs_nonneg ts
    have s2 := sum_abs_nonneg us
    have t1 := sum_abs_le ts
    have t2 := sum_abs_le us
    set P := (1 + r.u) ^ max h k
    have c1 := ih1.trans (mul_le_mul_of_nonneg_right
      (show (1 + r.u) ^ h - 1 ≤ P - 1 by linarith [up (le_max_left h k)]) s1)
    have c2 := ih2.trans (mul_le_mul_of_nonneg_right
      (show (1 + r.u) ^ k - 1 ≤ P - 1 by linarith [up (le_max_right h k)]) s2)
    have e := r.err (v + w)
    have d1 : |v + w - (ts.sum + us.sum)| ≤ |v - ts.sum| + |w - us.sum| := by
      rw [add_sub_add_comm]; exact abs_add_le _ _
    have d2 : |v + w| ≤ |v + w - (ts.sum + us.sum)| + (|ts.sum| + |us.sum|) := by
      have q1 := abs_add_le (v + w - (ts.sum + us.sum)) (ts.sum + us.sum)
      have q2 := abs_add_le ts.sum us.sum
      rw [sub_add_cancel] at q1
      linarith
    have d3 : |r.rnd (v + w) - (ts.sum + us.sum)| ≤ |r.rnd (v + w) - (v + w)| + |v + w - (ts.sum + us.sum)| := by
      have := abs_add_le (r.rnd (v + w) - (v + w)) (v + w - (ts.sum + us.sum))
      rwa [sub_add_sub_cancel] at this
    set A := (ts.map fun t => |t|).sum
    set B := (us.map fun t => |t|).sum
    have d4 : |v + w| ≤ P * (A + B) := by linarith
    have d5 := mul_le_mul_of_nonneg_left d4 hu
    linarith

/-! ## z-normalisation -/

/-- The mean of absolute values is at most the root of the mean of squares. -/
theorem sum_abs_sq (l : List ℝ) : (l.map fun v => |v|).sum ^ 2 ≤ l.length * (l.map fun v => v * v).sum := by
  have h := sq_sum_le_card_mul_sum_sq (s := Finset.univ) (f := fun i : Fin l.length => |l[i]|)
  simp only [Finset.card_univ, Fintype.card_fin, sq_abs] at h
  have e1 : ∑ i : Fin l.length, |l[i]| = (l.map fun v => |v|).sum := by
    rw [← List.sum_ofFn]
    congr 1
    apply List.ext_getElem <;> simp
  have e2 : ∑ i : Fin l.length, l[i] ^ 2 = (l.map fun v => v * v).sum := by
    rw [← List.sum_ofFn]
    congr 1
    apply List.ext_getElem <;> simp [sq]
  rw [e1, e2] at h
  exact h

theorem sum_sq_shift (l : List ℝ) (m c : ℝ) : (l.map fun v => (v - c) * (v - c)).sum =
    (l.map fun v => (v - m) * (v - m)).sum - 2 * (c - m) * (l.map fun v => v - m).sum +
      l.length * ((c - m) * (c - m)) := by
  induction l with
  | nil => simp
  | cons a l ih =>
    simp only [List.map_cons, List.sum_cons, List.length_cons, Nat.cast_add, Nat.cast_one]
    rw [ih]; ring

/-- Root mean square of the deviations from `c`. -/
noncomputable def rms (w : List ℝ) (c : ℝ) : ℝ :=
  Real.sqrt ((w.map fun v => (v - c) * (v - c)).sum / w.length)

theorem rms_sq {w : List ℝ} (hw : w ≠ []) (c : ℝ) :
    (w.map fun v => (v - c) * (v - c)).sum / w.length = std w * std w + (c - mean w) * (c - mean w) := by
  have : (w.length : ℝ) ≠ 0 := by
    have := List.length_pos_iff.2 hw
    positivity
  rw [sum_sq_shift w (mean w) c, sum_sub_mean hw, std_sq]
  unfold var
  field_simp
  ring

theorem std_le_rms {w : List ℝ} (hw : w ≠ []) (c : ℝ) : std w ≤ rms w c := by
  unfold rms
  rw [rms_sq hw]
  apply Real.le_sqrt_of_sq_le
  nlinarith [mul_self_nonneg (c - mean w)]

theorem rms_le {w : List ℝ} (hw : w ≠ []) (c : ℝ) : rms w c ≤ std w + |c - mean w| := by
  unfold rms
  rw [rms_sq hw]
  have h1 := std_nonneg w
  have h2 := abs_nonneg (c - mean w)
  rw [Real.sqrt_le_left (by linarith), ← abs_mul_abs_self (c - mean w)]
  nlinarith

theorem sum_abs_le_rms {w : List ℝ} (hw : w ≠ []) (c : ℝ) :
    (w.map fun v => |v - c|).sum ≤ w.length * rms w c := by
  have hn : (0 : ℝ) < w.length := by exact_mod_cast List.length_pos_iff.2 hw
  have h := sum_abs_sq (w.map fun v => v - c)
  rw [List.map_map, List.map_map, List.length_map] at h
  have h0 : 0 ≤ (w.map fun v => (v - c) * (v - c)).sum / w.length := by
    rw [rms_sq hw]
    nlinarith [mul_self_nonneg (c - mean w), mul_self_nonneg (std w)]
  have h2 : (w.map ((fun v => |v|) ∘ fun v => v - c)).sum ^ 2 ≤ (w.length * rms w c) ^ 2 := by
    refine h.trans (le_of_eq ?_)
    rw [mul_pow]
    unfold rms
    rw [Real.sq_sqrt h0]
    field_simp
    rfl
  exact abs_le_of_sq_le_sq' h2 (mul_nonneg hn.le (Real.sqrt_nonneg _)) |>.2

theorem rel_ofNat (r : Rounding) (n : Nat) : Rel r 1 n (r.rnd n) := Rel.rnd r n

/-- Error of a mean computed with sums of height `h`. -/
theorem mean_rounded {w : List ℝ} (hw : w ≠ []) {B : ℝ} (hB : ∀ v ∈ w, |v| ≤ B) {h : Nat} {s : ℝ}
    (hs : SumsTo r h w s) :
    |r.rnd (s / r.rnd w.length) - mean w| ≤ ((1 - r.u)⁻¹ ^ (h + 2) - 1) * B := by
  have hn : (0 : ℝ) < w.length := by exact_mod_cast List.length_pos_iff.2 hw
  have hu := r.u_nonneg
  have hsum : (w.map fun t => |t|).sum ≤ w.length * B := by
    clear hs hn
    induction w with
    | nil => simp
    | cons a w ih =>
      simp only [List.map_cons, List.sum_cons, List.length_cons, Nat.cast_add, Nat.cast_one]
      have h1 := hB a (by simp)
      rcases eq_or_ne w [] with rfl | hne
      · simp; exact h1
      · have := ih hne fun v hv => hB v (by simp [hv])
        linarith
  have hB0 : 0 ≤ B := by
    obtain ⟨v, hv⟩ := List.exists_mem_of_ne_nil _ hw
    exact (abs_nonneg v).trans (hB v hv)
  have h1 := sumsTo_abs hs
  have hP : (1 + r.u) ^ h ≤ (1 - r.u)⁻¹ ^ h := pow_le_pow_left₀ (by linarith) (one_add_le_inv r) h
  have hP1 := one_le_pow₀ (n := h) (show 1 ≤ 1 + r.u by linarith)
  -- the quotient by `n`
  have q1 : |s / w.length - mean w| ≤ ((1 - r.u)⁻¹ ^ h - 1) * B := by
    rw [mean_eq, ← sub_div, abs_div, abs_of_pos hn, div_le_iff₀ hn]
    refine h1.trans ?_
    refine (mul_le_mul_of_nonneg_left hsum (by linarith)).trans ?_
    have : ((1 + r.u) ^ h - 1) * (w.length * B) ≤ ((1 - r.u)⁻¹ ^ h - 1) * (w.length * B) :=
      mul_le_mul_of_nonneg_right (by linarith) (by positivity)
    linarith
  have q2 : |mean w| ≤ B := by
    rw [mean_eq, abs_div, abs_of_pos hn, div_le_iff₀ hn]
    exact (sum_abs_le w).trans (by linarith)
  have q3 : |s / w.length| ≤ (1 - r.u)⁻¹ ^ h * B := by
    have := abs_add_le (s / w.length - mean w) (mean w)
    rw [sub_add_cancel] at this
    linarith
  have hr : Rel r 2 (s / w.length) (r.rnd (s / r.rnd w.length)) :=
    ((Rel.refl r 0 s).div (rel_ofNat r w.length)).trans (Rel.rnd r _)
  have q4 := hr.abs_sub
  have q5 : |r.rnd (s / r.rnd w.length) - mean w| ≤
      |r.rnd (s / r.rnd w.length) - s / w.length| + |s / w.length - mean w| := by
    have := abs_add_le (r.rnd (s / r.rnd w.length) - s / w.length) (s / w.length - mean w)
    rwa [sub_add_sub_cancel] at this
  have h2 := one_le_hi r 2
  have q6 := mul_le_mul_of_nonneg_left q3 (show 0 ≤ (1 - r.u)⁻¹ ^ 2 - 1 by linarith)
  rw [pow_add]
  linarith

/-- Error of a z-normalised window. -/
theorem znorm_rounded {w z : List ℝ} (hw : w ≠ []) {B : ℝ} (hB : ∀ v ∈ w, |v| ≤ B) {h : Nat}
    (hz : ZnormsTo r h w z) {g : ℝ} (hg : (1 - r.u)⁻¹ ^ (h + 9) ≤ 1 + g) :
    z.length = w.length ∧ ∑ j ∈ Finset.range w.length, |z.getD j 0 - (znorm w).getD j 0| ≤
      w.length * (g * (1 + 2 * B / (std w + Scalar.eps))) := by
  obtain ⟨s, q, hs, hq, rfl⟩ := hz
  have hB0 : 0 ≤ B := by
    obtain ⟨v, hv⟩ := List.exists_mem_of_ne_nil _ hw
    exact (abs_nonneg v).trans (hB v hv)
  have hmean := mean_rounded hw hB hs
  set m := r.rnd (s / r.rnd w.length) with hm
  set n := r.rnd w.length with hn
  have hn0 : (0 : ℝ) < w.length := by exact_mod_cast List.length_pos_iff.2 hw
  -- the sum of squares
  have sq0 : ∀ v : ℝ, 0 ≤ (v - m) * (v - m) := fun v => mul_self_nonneg _
  have rq1 : ∀ v : ℝ, Rel r 3 ((v - m) * (v - m)) (r.rnd (r.rnd (v - m) * r.rnd (v - m))) := fun v =>
    ((Rel.rnd r (v - m)).mul (Rel.rnd r (v - m))).trans (Rel.rnd r _)
  have rq2 : Rel r 3 (w.map fun v => (v - m) * (v - m)).sum
      (w.map fun v => r.rnd (r.rnd (v - m) * r.rnd (v - m))).sum :=
    Rel.sum w _ _ (fun v _ => sq0 v) fun v _ => rq1 v
  have rq3 : Rel r h (w.map fun v => r.rnd (r.rnd (v - m) * r.rnd (v - m))).sum q :=
    Rel.sumsTo hq (by
      intro t ht
      obtain ⟨v, _, rfl⟩ := List.mem_map.1 ht
      exact r.nonneg (mul_self_nonneg _))
  have hS0 : 0 ≤ (w.map fun v => (v - m) * (v - m)).sum := List.sum_nonneg (by
    intro t ht
    obtain ⟨v, _, rfl⟩ := List.mem_map.1 ht
    exact sq0 v)
  have rq4 : Rel r (3 + h + 1 + 1) ((w.map fun v => (v - m) * (v - m)).sum / w.length) (r.rnd (q / n)) :=
    ((rq2.trans rq3).div (rel_ofNat r w.length)).trans (Rel.rnd r _)
  have rq5 : Rel r (3 + h + 1 + 1 + 1) (rms w m) (r.rnd (Real.sqrt (r.rnd (q / n)))) :=
    (rq4.sqrt (div_nonneg hS0 hn0.le)).trans (Rel.rnd r _)
  have re : Rel r (3 + h + 1 + 1 + 1) Scalar.eps (r.rnd (1 / 10 ^ 8)) :=
    (Rel.rnd r (1 / 10 ^ 8)).mono (by omega)
  have hR0 : 0 ≤ rms w m := Real.sqrt_nonneg _
  have he := real_eps_pos
  have rd : Rel r (3 + h + 1 + 1 + 1 + 1) (rms w m + Scalar.eps)
      (r.rnd (r.rnd (Real.sqrt (r.rnd (q / n))) + r.rnd (1 / 10 ^ 8))) :=
    (rq5.add hR0 he.le re).trans (Rel.rnd r _)
  set d := r.rnd (r.rnd (Real.sqrt (r.rnd (q / n))) + r.rnd (1 / 10 ^ 8)) with hd
  have rz : ∀ v, Rel r (h + 9) ((v - m) / (rms w m + Scalar.eps)) (r.rnd (r.rnd (v - m) / d)) := fun v =>
    (((Rel.rnd r (v - m)).div rd).trans (Rel.rnd r _)).mono (by omega)
  refine ⟨List.length_map _, ?_⟩
  -- one value
  have h1g := one_le_hi r (h + 9)
  have hg0 : 0 ≤ g := by linarith
  have hR := std_le_rms hw m
  have hR2 := rms_le hw m
  have hs0 := std_nonneg w
  have hp := std_add_eps_pos w
  set σ := std w + Scalar.eps with hσ
  set ρ := rms w m + Scalar.eps with hρ
  have hρσ : σ ≤ ρ := by rw [hσ, hρ]; linarith
  have hρ0 : 0 < ρ := hp.trans_le hρσ
  set μ := |m - mean w| with hμ
  have hμ0 : 0 ≤ μ := abs_nonneg _
  have hμ2 : μ ≤ g * B := by
    refine hmean.trans (mul_le_mul_of_nonneg_right ?_ hB0)
    linarith [hi_mono r (show h + 2 ≤ h + 9 by omega)]
  have one : ∀ v : ℝ, |r.rnd (r.rnd (v - m) / d) - (v - mean w) / σ| ≤
      g / ρ * |v - m| + (μ / σ + μ / (σ * σ) * |v - mean w|) := by
    intro v
    have a1 := (rz v).abs_sub
    have a2 : |r.rnd (r.rnd (v - m) / d) - (v - m) / ρ| ≤ g / ρ * |v - m| := by
      refine a1.trans ?_
      rw [abs_div, abs_of_pos hρ0]
      have := mul_le_mul_of_nonneg_right (show (1 - r.u)⁻¹ ^ (h + 9) - 1 ≤ g by linarith)
        (div_nonneg (abs_nonneg (v - m)) hρ0.le)
      refine this.trans (le_of_eq ?_)
      ring
    have a3 : (v - m) / ρ - (v - mean w) / σ =
        -((m - mean w) / ρ) + (v - mean w) * ((σ - ρ) / (ρ * σ)) := by
      field_simp
      ring
    have a4 : |(v - m) / ρ - (v - mean w) / σ| ≤ μ / σ + μ / (σ * σ) * |v - mean w| := by
      rw [a3]
      refine (abs_add_le _ _).trans (add_le_add ?_ ?_)
      · rw [abs_neg, abs_div, abs_of_pos hρ0]
        exact div_le_div_of_nonneg_left hμ0 hp hρσ
      · rw [abs_mul, abs_div, abs_of_pos (mul_pos hρ0 hp), mul_comm]
        refine mul_le_mul_of_nonneg_right ?_ (abs_nonneg _)
        have : |σ - ρ| ≤ μ := by
          rw [abs_sub_comm, abs_of_nonneg (by linarith), hσ, hρ]
          linarith
        exact div_le_div₀ hμ0 this (mul_pos hp hp) (mul_le_mul_of_nonneg_right hρσ hp.le)
    have := abs_add_le (r.rnd (r.rnd (v - m) / d) - (v - m) / ρ) ((v - m) / ρ - (v - mean w) / σ)
    rw [sub_add_sub_cancel] at this
    linarith
  have e1 : ∑ j ∈ Finset.range w.length,
      |(w.map fun v => r.rnd (r.rnd (v - m) / d)).getD j 0 - (znorm w).getD j 0| =
      (w.map fun v => |r.rnd (r.rnd (v - m) / d) - (v - mean w) / σ|).sum := by
    rw [Finset.sum_range, ← List.sum_ofFn]
    congr 1
    apply List.ext_getElem (by simp)
    intro j h1 h2
    have hj : j < w.length := by simpa using h2
    simp only [List.getElem_ofFn, List.getElem_map, znorm]
    rw [getD_lt _ (by simpa using hj), getD_lt _ (by simpa using hj), List.getElem_map, List.getElem_map]
  rw [e1]
  have e2 : ∀ l : List ℝ, (l.map fun v => g / ρ * |v - m| + (μ / σ + μ / (σ * σ) * |v - mean w|)).sum =
      g / ρ * (l.map fun v => |v - m|).sum + (l.length * (μ / σ) + μ / (σ * σ) * (l.map fun v => |v - mean w|).sum) := by
    intro l
    induction l with
    | nil => simp
    | cons a l ih =>
      simp only [List.map_cons, List.sum_cons, List.length_cons, Nat.cast_add, Nat.cast_one]
      rw [ih]; ring
  have e3 : (w.map fun v => |r.rnd (r.rnd (v - m) / d) - (v - mean w) / σ|).sum ≤
      (w.map fun v => g / ρ * |v - m| + (μ / σ + μ / (σ * σ) * |v - mean w|)).sum :=
    List.sum_le_sum fun v _ => one v
  refine e3.trans ?_
  rw [e2]
  have s1 := sum_abs_le_rms hw m
  have s2 := sum_abs_dev_le w
  have t1 : g / ρ * (w.map fun v => |v - m|).sum ≤ w.length * g := by
    have : g / ρ * (w.map fun v => |v - m|).sum ≤ g / ρ * (w.length * ρ) :=
      mul_le_mul_of_nonneg_left (s1.trans (mul_le_mul_of_nonneg_left (by rw [hρ]; linarith) hn0.le))
        (div_nonneg hg0 hρ0.le)
    refine this.trans (le_of_eq ?_)
    field_simp
  have t2 : μ / (σ * σ) * (w.map fun v => |v - mean w|).sum ≤ w.length * (μ / σ) := by
    have : μ / (σ * σ) * (w.map fun v => |v - mean w|).sum ≤ μ / (σ * σ) * (w.length * σ) :=
      mul_le_mul_of_nonneg_left (s2.trans (mul_le_mul_of_nonneg_left (by rw [hσ]; linarith) hn0.le))
        (div_nonneg hμ0 (mul_pos hp hp).le)
    refine this.trans (le_of_eq ?_)
    field_simp
  have t3 : μ / σ ≤ g * B / σ := div_le_div_of_nonneg_right hμ2 hp.le
  have t4 : (w.length : ℝ) * (μ / σ) ≤ w.length * (g * B / σ) := mul_le_mul_of_nonneg_left t3 hn0.le
  have t5 : (w.length : ℝ) * (g * (1 + 2 * B / σ)) = w.length * g + (w.length * (g * B / σ) + w.length * (g * B / σ)) := by
    ring
  rw [t5]
  linarith

/-! ## Features -/

/-- Features of two lists of distances with a relative and an absolute error. -/
theorem features_near {D D' : List ℝ} {thr : ℝ} {γ δ : ℝ} (hγ : 0 ≤ γ) (hδ : 0 ≤ δ)
    (hlen : D'.length = D.length) (hne : D ≠ []) (hD : ∀ x ∈ D, 0 ≤ x) (hD' : ∀ x ∈ D', 0 ≤ x)
    (h : ∀ (i : Nat) (a b : ℝ), D[i]? = some a → D'[i]? = some b → |b - a| ≤ γ * a + δ) :
    ∃ (a a' : ℝ) (p n p' n' : Nat), features D thr = (a, (p : ℝ), (n : ℝ)) ∧
      features D' thr = (a', (p' : ℝ), (n' : ℝ)) ∧ NearFeatures γ δ D thr a p n a' p' n' := by
  have hne' : D' ≠ [] := by
    intro e; rw [e] at hlen; exact hne (List.length_eq_zero_iff.1 hlen.symm)
  have h' : ∀ (i : Nat) (a b : ℝ), D[i]? = some a → D'[i]? = some b →
      a - (γ * a + δ) ≤ b ∧ b ≤ a + (γ * a + δ) := by
    intro i a b ha hb
    obtain ⟨q1, q2⟩ := abs_le.1 (h i a b ha hb)
    exact ⟨by linarith, by linarith⟩
  obtain ⟨⟨m1, m2⟩, ⟨p, p1, p2, p3⟩, c1⟩ := features_isFeatures (thr := thr) hne hD
  obtain ⟨⟨m1', m2'⟩, ⟨p', p1', p2', p3'⟩, c1'⟩ := features_isFeatures (thr := thr) hne' hD'
  refine ⟨(features D thr).1, (features D' thr).1, p, _, p', _, Prod.ext rfl (Prod.ext p1 c1),
    Prod.ext rfl (Prod.ext p1' c1'), ?_⟩
  generalize (features D thr).1 = a at *
  generalize (features D' thr).1 = a' at *
  have hp : p < D.length := (List.getElem?_eq_some_iff.1 p2).1
  have hp' : p' < D'.length := (List.getElem?_eq_some_iff.1 p2').1
  have hpD' : D'[p]? = some (D'[p]'(by omega)) := List.getElem?_eq_getElem (by omega)
  have hpD : D[p']? = some (D[p']'(by omega)) := List.getElem?_eq_getElem (by omega)
  obtain ⟨e1, e2⟩ := h' p _ _ p2 hpD'
  obtain ⟨g1, g2⟩ := h' p' _ _ hpD p2'
  have f1 := m2' _ (List.mem_of_getElem? hpD')
  have f2 := m2 _ (List.mem_of_getElem? hpD)
  have a0 : 0 ≤ a := hD _ m1
  have a0' : 0 ≤ a' := hD' _ m1'
  have low : a - (γ * a + δ) ≤ a' := by
    rcases le_or_gt γ 1 with hg | hg
    · have := mul_le_mul_of_nonneg_left f2 (show 0 ≤ 1 - γ by linarith)
      linarith
    · nlinarith
  have high : a' ≤ a + (γ * a + δ) := f1.trans e2
  refine ⟨abs_le.2 ⟨by linarith, by linarith⟩, ⟨_, hpD, g1.trans high⟩, ?_, ?_, ?_, ?_⟩
  · intro hm
    by_contra hc
    have := hm p' _ hpD hc
    linarith
  all_goals
    have key : ∀ (D D' : List ℝ), D'.length = D.length →
        (∀ (i : Nat) (a b : ℝ), D[i]? = some a → D'[i]? = some b → a - (γ * a + δ) ≤ b ∧ b ≤ a + (γ * a + δ)) →
        ((D.countP fun v => decide (v + (γ * v + δ) ≤ thr)) ≤ D'.countP fun v => decide (v ≤ thr)) ∧
        ((D'.countP fun v => decide (v ≤ thr)) ≤ D.countP fun v => decide (v - (γ * v + δ) ≤ thr)) ∧
        ((∀ v ∈ D, γ * v + δ < |v - thr|) →
          (D'.countP fun v => decide (v ≤ thr)) = D.countP fun v => decide (v ≤ thr)) := by
      intro D
      induction D with
      | nil => intro D' hl _; rw [List.length_eq_zero_iff.1 hl]; simp
      | cons a D ih =>
        intro D' hl hc
        cases D' with
        | nil => simp at hl
        | cons b D' =>
          obtain ⟨q1, q2⟩ := hc 0 a b rfl rfl
          obtain ⟨i1, i2, i3⟩ := ih D' (by simpa using hl)
            (fun i x z hx hz => hc (i + 1) x z (by simpa using hx) (by simpa using hz))
          simp only [List.countP_cons, decide_eq_true_eq]
          refine ⟨add_le_add i1 ?_, add_le_add i2 ?_, fun hm => ?_⟩
          · split
            · rw [if_pos (by linarith)]
            · exact Nat.zero_le _
          · split
            · rw [if_pos (by linarith)]
            · exact Nat.zero_le _
          · rw [i3 fun v hv => hm v (by simp [hv])]
            congr 1
            have h1 := hm a (by simp)
            have hiff : (b ≤ thr) ↔ (a ≤ thr) := by
              rcases le_or_gt a thr with ha | ha
              · rw [abs_of_nonpos (by linarith)] at h1
                exact ⟨fun _ => ha, fun _ => by linarith⟩
              · rw [abs_of_pos (by linarith)] at h1
                exact ⟨fun hb => by linarith, fun hb => absurd hb (not_le.2 ha)⟩
            simp only [hiff]
    obtain ⟨k1, k2, k3⟩ := key D D' hlen h'
    first | exact k1 | exact k2 | exact k3

end Convst
