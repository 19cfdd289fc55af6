import Verif.Model.Rdst
import Mathlib.Data.Int.Log
import Mathlib.Algebra.Order.Round

/-!
# Rounded arithmetic

The kernels of convst run in `float64`.  `Fl r` is a third instance of `Scalar`, beside `Float` and `ℝ`: real
numbers on which every operation is followed by a rounding `r.rnd`, of which only the usual facts are assumed
(relative error at most `u`, monotone, fixing `0` and `1`).  IEEE doubles without overflow, underflow and NaN
are the case `u = 2⁻⁵³`; `Rounding.binary` below is a concrete rounding to the nearest number with a given
number of binary digits.

Simplifications: the exponent range is unbounded, so there are no infinities, NaNs and subnormal numbers; the
functions of the mathematical library are any functions (their accuracy is a hypothesis where it matters).
-/

set_option autoImplicit false

namespace Convst

/-- A rounding of the reals with relative error at most `u`, and the elementary functions of the library.
(`float64`, `rdst.py:205`, `:286`.) -/
structure Rounding where
  rnd : ℝ → ℝ
  u : ℝ
  u_nonneg : 0 ≤ u
  u_lt : u < 1
  err : ∀ x, |rnd x - x| ≤ u * |x|
  mono : Monotone rnd
  one : rnd 1 = 1
  exp : ℝ → ℝ
  log : ℝ → ℝ
  log2 : ℝ → ℝ
  pow2 : ℝ → ℝ
  rpow : ℝ → ℝ → ℝ

/-- Numbers of the rounded arithmetic `r`.  (`float64`, `rdst.py:205`, `:286`.) -/
def Fl (_r : Rounding) : Type := ℝ

variable {r : Rounding}

/-- The real number behind a number of the rounded arithmetic.  (`float64`, `rdst.py:205`, `:286`.) -/
def Fl.val (x : Fl r) : ℝ := x

/-- A real number as a number of the rounded arithmetic.  (`float64`, `rdst.py:205`, `:286`.) -/
def Fl.mk (x : ℝ) : Fl r := x

open Classical in
/-- Every operation is the exact one followed by the rounding; negation, absolute value, comparisons, `floor`
and `int64` are exact.  (What convst compiles to with `float64`, without overflow and underflow.) -/
noncomputable instance (r : Rounding) : Scalar (Fl r) where
  zero := Fl.mk 0
  one := Fl.mk 1
  add x y := Fl.mk (r.rnd (x.val + y.val))
  sub x y := Fl.mk (r.rnd (x.val - y.val))
  mul x y := Fl.mk (r.rnd (x.val * y.val))
  div x y := Fl.mk (r.rnd (x.val / y.val))
  neg x := Fl.mk (-x.val)
  ofNat n := Fl.mk (r.rnd n)
  eps := Fl.mk (r.rnd (1 / 10 ^ 8))
  abs x := Fl.mk |x.val|
  sqrt x := Fl.mk (r.rnd (Real.sqrt x.val))
  exp x := Fl.mk (r.exp x.val)
  log x := Fl.mk (r.log x.val)
  log2 x := Fl.mk (r.log2 x.val)
  pow2 x := Fl.mk (r.pow2 x.val)
  rpow x y := Fl.mk (r.rpow x.val y.val)
  floor x := ⌊x.val⌋
  trunc x := if 0 ≤ x.val then ⌊x.val⌋ else ⌈x.val⌉
  ltb x y := decide (x.val < y.val)
  leb x y := decide (x.val ≤ y.val)
  eqb x y := decide (x.val = y.val)

section FlLemmas
@[simp] theorem fl_add (x y : Fl r) : (x + y).val = r.rnd (x.val + y.val) := rfl
@[simp] theorem fl_sub (x y : Fl r) : (x - y).val = r.rnd (x.val - y.val) := rfl
@[simp] theorem fl_mul (x y : Fl r) : (x * y).val = r.rnd (x.val * y.val) := rfl
@[simp] theorem fl_div (x y : Fl r) : (x / y).val = r.rnd (x.val / y.val) := rfl
@[simp] theorem fl_neg (x : Fl r) : (-x).val = -x.val := rfl
@[simp] theorem fl_zero : (0 : Fl r).val = 0 := rfl
@[simp] theorem fl_one : (1 : Fl r).val = 1 := rfl
@[simp] theorem fl_abs (x : Fl r) : (Scalar.abs x).val = |x.val| := rfl
@[simp] theorem fl_sqrt (x : Fl r) : (Scalar.sqrt x).val = r.rnd (Real.sqrt x.val) := rfl
@[simp] theorem fl_ofNat (n : Nat) : (Scalar.ofNat n : Fl r).val = r.rnd n := rfl
@[simp] theorem fl_floor (x : Fl r) : Scalar.floor x = ⌊x.val⌋ := rfl
theorem fl_trunc (x : Fl r) : Scalar.trunc x = if 0 ≤ x.val then ⌊x.val⌋ else ⌈x.val⌉ := rfl
@[simp] theorem fl_pow2 (x : Fl r) : (Scalar.pow2 x).val = r.pow2 x.val := rfl
@[simp] theorem fl_log2 (x : Fl r) : (Scalar.log2 x).val = r.log2 x.val := rfl
theorem fl_eps : (Scalar.eps : Fl r).val = r.rnd (1 / 10 ^ 8) := rfl
@[simp] theorem fl_ltb (x y : Fl r) : (Scalar.ltb x y = true) ↔ x.val < y.val := decide_eq_true_iff
@[simp] theorem fl_leb (x y : Fl r) : (Scalar.leb x y = true) ↔ x.val ≤ y.val := decide_eq_true_iff
@[simp] theorem fl_eqb (x y : Fl r) : (Scalar.eqb x y = true) ↔ x.val = y.val := decide_eq_true_iff
end FlLemmas

/-! ## The same objects, read in exact arithmetic -/

/-- The same `R_DST` object (same attributes, same shapelets), computing exactly.  (`rdst.py:134-160`.) -/
def Rdst.exact {R : Type} (o : Rdst (Fl r) R) : Rdst ℝ R := o

/-- The same shapelets.  (`rdst.py:234-257`.) -/
def Shapelets.exact (S : Shapelets (Fl r)) : Shapelets ℝ := S

/-- The same input.  (`rdst.py:297-309`.) -/
def XIn.exact (X : XIn (Fl r)) : XIn ℝ := X

/-! ## Basic facts -/

namespace Rounding

theorem zero (r : Rounding) : r.rnd 0 = 0 := by
  have := r.err 0
  simpa using this

theorem nonneg (r : Rounding) {x : ℝ} (h : 0 ≤ x) : 0 ≤ r.rnd x := by
  rw [← r.zero]; exact r.mono h

theorem le_of (r : Rounding) {x : ℝ} (h : 0 ≤ x) : r.rnd x ≤ (1 + r.u) * x := by
  have := (abs_le.1 (r.err x)).2
  rw [abs_of_nonneg h] at this
  linarith

theorem ge_of (r : Rounding) {x : ℝ} (h : 0 ≤ x) : (1 - r.u) * x ≤ r.rnd x := by
  have := (abs_le.1 (r.err x)).1
  rw [abs_of_nonneg h] at this
  linarith

theorem abs_le_of (r : Rounding) (x : ℝ) : |r.rnd x| ≤ (1 + r.u) * |x| := by
  have h := r.err x
  have : |r.rnd x| ≤ |r.rnd x - x| + |x| := by
    have := abs_add_le (r.rnd x - x) x
    simpa using this
  linarith

theorem abs_ge_of (r : Rounding) (x : ℝ) : (1 - r.u) * |x| ≤ |r.rnd x| := by
  have h := r.err x
  have : |x| ≤ |r.rnd x - x| + |r.rnd x| := by
    have := abs_add_le (x - r.rnd x) (r.rnd x)
    rw [abs_sub_comm]
    simpa using this
  linarith

end Rounding

/-! ## Rounding to the nearest number with `p` binary digits -/

theorem round_le_round {x y : ℝ} (h : x ≤ y) : round x ≤ round y := by
  rw [round_eq, round_eq]; exact Int.floor_mono (by linarith)

/-- The position of the leading binary digit.  (`float64`, `rdst.py:205`, `:286`.) -/
noncomputable def binExp (x : ℝ) : Int := Int.log 2 |x|

/-- The nearest number with `p + 1` binary digits.  (`float64`, `rdst.py:205`, `:286`.) -/
noncomputable def rndBin (p : Nat) (x : ℝ) : ℝ :=
  (round (x * (2 : ℝ) ^ ((p : Int) - binExp x)) : ℝ) * (2 : ℝ) ^ (binExp x - (p : Int))

theorem binExp_bounds {x : ℝ} (hx : x ≠ 0) :
    (2 : ℝ) ^ binExp x ≤ |x| ∧ |x| < (2 : ℝ) ^ (binExp x + 1) := by
  have h1 := Int.zpow_log_le_self (R := ℝ) (b := 2) (by norm_num) (abs_pos.2 hx)
  have h2 := Int.lt_zpow_succ_log_self (R := ℝ) (b := 2) (by norm_num) |x|
  exact ⟨by simpa [binExp] using h1, by simpa [binExp] using h2⟩

theorem rndBin_err (p : Nat) (x : ℝ) : |rndBin p x - x| ≤ (1 / 2) ^ (p + 1) * |x| := by
  by_cases hx : x = 0
  · subst hx; simp [rndBin]
  obtain ⟨h1, -⟩ := binExp_bounds hx
  have e : x = x * (2 : ℝ) ^ ((p : Int) - binExp x) * (2 : ℝ) ^ (binExp x - (p : Int)) := by
    rw [mul_assoc, ← zpow_add₀ (by norm_num)]; simp
  have hpos : (0 : ℝ) < (2 : ℝ) ^ (binExp x - (p : Int)) := zpow_pos (by norm_num) _
  have hr := abs_sub_round (x * (2 : ℝ) ^ ((p : Int) - binExp x))
  have : rndBin p x - x = ((round (x * (2 : ℝ) ^ ((p : Int) - binExp x)) : ℝ) -
      x * (2 : ℝ) ^ ((p : Int) - binExp x)) * (2 : ℝ) ^ (binExp x - (p : Int)) := by
    rw [sub_mul, ← e]; rfl
  rw [this, abs_mul, abs_of_pos hpos, abs_sub_comm]
  calc _ ≤ 1 / 2 * (2 : ℝ) ^ (binExp x - (p : Int)) := mul_le_mul_of_nonneg_right hr hpos.le
    _ = (1 / 2) ^ (p + 1) * (2 : ℝ) ^ binExp x := by
      rw [zpow_sub₀ (by norm_num), zpow_natCast, pow_succ, one_div, inv_pow]; ring
    _ ≤ _ := mul_le_mul_of_nonneg_left h1 (by positivity)

theorem rndBin_scaled (p : Nat) (e : Int) (n : Int) :
    ((n * 2 ^ p : Int) : ℝ) * (2 : ℝ) ^ (e - (p : Int)) = n * (2 : ℝ) ^ e := by
  rw [zpow_sub₀ (by norm_num), zpow_natCast]; push_cast; field_simp

/-- Multiples of powers of two bound the rounding. -/
theorem rndBin_le {p : Nat} {x : ℝ} {n : Int} (h : x ≤ n * (2 : ℝ) ^ binExp x) :
    rndBin p x ≤ n * (2 : ℝ) ^ binExp x := by
  have hpos : (0 : ℝ) < (2 : ℝ) ^ (binExp x - (p : Int)) := zpow_pos (by norm_num) _
  have hpos' : (0 : ℝ) < (2 : ℝ) ^ ((p : Int) - binExp x) := zpow_pos (by norm_num) _
  have h1 : x * (2 : ℝ) ^ ((p : Int) - binExp x) ≤ ((n * 2 ^ p : Int) : ℝ) := by
    calc _ ≤ n * (2 : ℝ) ^ binExp x * (2 : ℝ) ^ ((p : Int) - binExp x) :=
          mul_le_mul_of_nonneg_right h hpos'.le
      _ = _ := by rw [mul_assoc, ← zpow_add₀ (by norm_num)]; simp
  rw [← rndBin_scaled p]
  apply mul_le_mul_of_nonneg_right _ hpos.le
  have h2 := round_le_round h1
  rw [round_intCast] at h2
  exact_mod_cast h2

theorem rndBin_ge {p : Nat} {x : ℝ} {n : Int} (h : n * (2 : ℝ) ^ binExp x ≤ x) :
    n * (2 : ℝ) ^ binExp x ≤ rndBin p x := by
  have hpos : (0 : ℝ) < (2 : ℝ) ^ (binExp x - (p : Int)) := zpow_pos (by norm_num) _
  have hpos' : (0 : ℝ) < (2 : ℝ) ^ ((p : Int) - binExp x) := zpow_pos (by norm_num) _
  have h1 : ((n * 2 ^ p : Int) : ℝ) ≤ x * (2 : ℝ) ^ ((p : Int) - binExp x) := by
    calc _ = n * (2 : ℝ) ^ binExp x * (2 : ℝ) ^ ((p : Int) - binExp x) := by
          rw [mul_assoc, ← zpow_add₀ (by norm_num)]; simp
      _ ≤ _ := mul_le_mul_of_nonneg_right h hpos'.le
  rw [← rndBin_scaled p]
  apply mul_le_mul_of_nonneg_right _ hpos.le
  have h2 := round_le_round h1
  rw [round_intCast] at h2
  exact_mod_cast h2

theorem rndBin_mono (p : Nat) : Monotone (rndBin p) := by
  intro x y hxy
  by_cases he : binExp x = binExp y
  · unfold rndBin
    rw [he]
    apply mul_le_mul_of_nonneg_right _ (zpow_pos (by norm_num) _).le
    have := round_le_round (mul_le_mul_of_nonneg_right hxy
      (zpow_pos (by norm_num : (0 : ℝ) < 2) ((p : Int) - binExp y)).le)
    exact_mod_cast this
  have nonneg : ∀ z : ℝ, 0 ≤ z → 0 ≤ rndBin p z := fun z hz => by
    simpa using rndBin_ge (p := p) (x := z) (n := 0) (by simpa using hz)
  have nonpos : ∀ z : ℝ, z ≤ 0 → rndBin p z ≤ 0 := fun z hz => by
    simpa using rndBin_le (p := p) (x := z) (n := 0) (by simpa using hz)
  rcases le_or_gt x 0 with hx | hx
  · rcases le_or_gt 0 y with hy | hy
    · exact (nonpos x hx).trans (nonneg y hy)
    · -- both negative
      have hx' : x < 0 := lt_of_le_of_lt hxy hy
      obtain ⟨a1, a2⟩ := binExp_bounds hx'.ne
      obtain ⟨b1, b2⟩ := binExp_bounds hy.ne
      rw [abs_of_neg hx'] at a1 a2
      rw [abs_of_neg hy] at b1 b2
      have hlt : binExp y < binExp x := by
        by_contra hc
        have h1 : (2 : ℝ) ^ (binExp x + 1) ≤ (2 : ℝ) ^ binExp y :=
          zpow_le_zpow_right₀ (by norm_num) (by omega)
        linarith
      have h1 : rndBin p x ≤ ((-1 : Int) : ℝ) * (2 : ℝ) ^ binExp x :=
        rndBin_le (by push_cast; linarith)
      have h2 : ((-2 : Int) : ℝ) * (2 : ℝ) ^ binExp y ≤ rndBin p y := by
        apply rndBin_ge
        rw [zpow_add_one₀ (by norm_num)] at b2
        push_cast; linarith
      have h3 : (2 : ℝ) ^ (binExp y + 1) ≤ (2 : ℝ) ^ binExp x :=
        zpow_le_zpow_right₀ (by norm_num) (by omega)
      rw [zpow_add_one₀ (by norm_num)] at h3
      push_cast at h1 h2
      linarith
  · have hy : 0 < y := lt_of_lt_of_le hx hxy
    obtain ⟨a1, a2⟩ := binExp_bounds hx.ne'
    obtain ⟨b1, b2⟩ := binExp_bounds hy.ne'
    rw [abs_of_pos hx] at a1 a2
    rw [abs_of_pos hy] at b1 b2
    have hlt : binExp x < binExp y := by
      by_contra hc
      have h1 : (2 : ℝ) ^ (binExp y + 1) ≤ (2 : ℝ) ^ binExp x :=
        zpow_le_zpow_right₀ (by norm_num) (by omega)
      linarith
    have h1 : rndBin p x ≤ ((2 : Int) : ℝ) * (2 : ℝ) ^ binExp x := by
      apply rndBin_le
      rw [zpow_add_one₀ (by norm_num)] at a2
      push_cast; linarith
    have h2 : ((1 : Int) : ℝ) * (2 : ℝ) ^ binExp y ≤ rndBin p y :=
      rndBin_ge (by push_cast; linarith)
    have h3 : (2 : ℝ) ^ (binExp x + 1) ≤ (2 : ℝ) ^ binExp y :=
      zpow_le_zpow_right₀ (by norm_num) (by omega)
    rw [zpow_add_one₀ (by norm_num)] at h3
    push_cast at h1 h2
    linarith

/-- Integers with at most `p + 1` binary digits are not changed. -/
theorem rndBin_natCast {p n : Nat} (h : n < 2 ^ (p + 1)) : rndBin p n = n := by
  by_cases h0 : n = 0
  · subst h0; simp [rndBin]
  have hn : (n : ℝ) ≠ 0 := by exact_mod_cast h0
  obtain ⟨h1, -⟩ := binExp_bounds hn
  have hle : binExp (n : ℝ) ≤ p := by
    by_contra hc
    have h2 : (2 : ℝ) ^ ((p : Int) + 1) ≤ (2 : ℝ) ^ binExp (n : ℝ) :=
      zpow_le_zpow_right₀ (by norm_num) (by omega)
    have h3 : (n : ℝ) < 2 ^ (p + 1) := by exact_mod_cast h
    rw [show ((p : Int) + 1) = ((p + 1 : Nat) : Int) by push_cast; rfl, zpow_natCast] at h2
    rw [abs_of_nonneg (by positivity)] at h1
    linarith
  obtain ⟨k, hk⟩ := Int.eq_ofNat_of_zero_le (show 0 ≤ (p : Int) - binExp (n : ℝ) by omega)
  unfold rndBin
  have e : binExp (n : ℝ) - (p : Int) = -(k : Int) := by omega
  rw [hk, e, zpow_natCast, zpow_neg, zpow_natCast]
  have : ((n : ℝ) * 2 ^ k) = ((n * 2 ^ k : Int) : ℝ) := by push_cast; rfl
  rw [this, round_intCast]
  push_cast
  field_simp

/-- Rounding to the nearest number with `p + 1` binary digits, elementary functions correctly rounded.
(`float64`, `rdst.py:205`, `:286`.) -/
noncomputable def Rounding.binary (p : Nat) : Rounding where
  rnd := rndBin p
  u := (1 / 2) ^ (p + 1)
  u_nonneg := by positivity
  u_lt := pow_lt_one₀ (by norm_num) (by norm_num) (by omega)
  err := rndBin_err p
  mono := rndBin_mono p
  one := by
    have := rndBin_natCast (p := p) (n := 1) (Nat.one_lt_two_pow (by omega))
    simpa using this
  exp x := rndBin p (Real.exp x)
  log x := rndBin p (Real.log x)
  log2 x := rndBin p (Real.logb 2 x)
  pow2 x := rndBin p ((2 : ℝ) ^ x)
  rpow x y := rndBin p (x ^ y)

/-- The format of `float64` (53 binary digits), with an unbounded exponent.  (`float64`, `rdst.py:205`,
`:286`.) -/
noncomputable def Rounding.double : Rounding := Rounding.binary 52

/-- Exact arithmetic is a special case.  Not what convst runs with: `rdst.py:205` converts to `float64`. -/
noncomputable def Rounding.exactArith : Rounding where
  rnd x := x
  u := 0
  u_nonneg := le_rfl
  u_lt := one_pos
  err x := by simp
  mono := monotone_id
  one := rfl
  exp := Real.exp
  log := Real.log
  log2 := Real.logb 2
  pow2 x := (2 : ℝ) ^ x
  rpow x y := x ^ y

end Convst
