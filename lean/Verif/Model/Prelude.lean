import Mathlib.Analysis.SpecialFunctions.Pow.Real
import Mathlib.Analysis.SpecialFunctions.Log.Base
import Mathlib.Analysis.Real.Sqrt

/-!
# Basic vocabulary of the model

Errors as values, scalars, and the NumPy / numba primitives used by convst.
-/

set_option autoImplicit false

namespace Convst

/-- How a modelled call can fail.  `oob` is not a Python exception: numba-compiled code performs
no bounds check, so an out-of-range access is undefined behaviour.  The model makes it a
distinguished outcome, and every theorem concluding `= .ok _` excludes it.  (The exceptions raised are
those of `rdst.py`, `checks_utils.py` and of the called libraries, e.g. `rdst.py:146`, `:259`.) -/
inductive Err
  /-- out-of-bounds array access in compiled code (undefined behaviour) -/
  | oob
  | valueError
  | typeError
  | indexError
  | keyError
  | attributeError
  | zeroDivision
  | notFitted
  | notImplemented
  | runtimeError
  | assertion
  deriving DecidableEq, Repr, Inhabited

/-- Result of a modelled call.  (For instance `rdst.py:187-261` returns or raises.) -/
abbrev Res (α : Type) := Except Err α

/-- The scalar operations used by the numeric kernels, *without any law*.  The code of convst runs
with `K = float64`; theorems stated for every `Scalar K` hold for IEEE doubles too, theorems stated
for `ℝ` are about exact arithmetic.  (`float64`, `rdst.py:205`, `:286`.) -/
class Scalar (K : Type) extends Zero K, One K, Add K, Sub K, Mul K, Div K, Neg K where
  /-- conversion of an integer count or index to a scalar -/
  ofNat : Nat → K
  /-- the constant `1e-8` added to standard deviations -/
  eps : K
  abs : K → K
  sqrt : K → K
  exp : K → K
  log : K → K
  log2 : K → K
  /-- `2 ** x` -/
  pow2 : K → K
  /-- `x ** y` -/
  rpow : K → K → K
  /-- `floor(x)` converted to an integer -/
  floor : K → Int
  /-- `int64(x)`: truncation towards zero -/
  trunc : K → Int
  /-- `x < y` -/
  ltb : K → K → Bool
  /-- `x <= y` -/
  leb : K → K → Bool
  /-- `x == y` -/
  eqb : K → K → Bool

/-- IEEE doubles: the instance the code actually runs with. -/
instance : Scalar Float where
  zero := 0.0
  one := 1.0
  ofNat n := Float.ofNat n
  eps := 1e-8
  abs := Float.abs
  sqrt := Float.sqrt
  exp := Float.exp
  log := Float.log
  log2 := Float.log2
  pow2 := Float.exp2
  rpow := Float.pow
  floor x := (Float.toInt64 (Float.floor x)).toInt
  trunc x := (Float.toInt64 x).toInt
  ltb x y := x < y
  leb x y := x ≤ y
  eqb x y := x == y

open Classical in
/-- Exact real arithmetic. -/
noncomputable instance : Scalar ℝ where
  ofNat n := (n : ℝ)
  eps := 1 / 10 ^ 8
  abs x := |x|
  sqrt := Real.sqrt
  exp := Real.exp
  log := Real.log
  log2 := Real.logb 2
  pow2 x := (2 : ℝ) ^ x
  rpow x y := x ^ y
  floor x := ⌊x⌋
  trunc x := if 0 ≤ x then ⌊x⌋ else ⌈x⌉
  ltb x y := decide (x < y)
  leb x y := decide (x ≤ y)
  eqb x y := decide (x = y)

section RealLemmas
@[simp] theorem real_ofNat (n : Nat) : (Scalar.ofNat n : ℝ) = n := rfl
theorem real_eps : (Scalar.eps : ℝ) = 1 / 10 ^ 8 := rfl
theorem real_eps_pos : (0 : ℝ) < Scalar.eps := by rw [real_eps]; positivity
@[simp] theorem real_abs (x : ℝ) : Scalar.abs x = |x| := rfl
@[simp] theorem real_sqrt (x : ℝ) : Scalar.sqrt x = Real.sqrt x := rfl
@[simp] theorem real_exp (x : ℝ) : Scalar.exp x = Real.exp x := rfl
@[simp] theorem real_log (x : ℝ) : Scalar.log x = Real.log x := rfl
@[simp] theorem real_log2 (x : ℝ) : Scalar.log2 x = Real.logb 2 x := rfl
@[simp] theorem real_pow2 (x : ℝ) : Scalar.pow2 x = (2 : ℝ) ^ x := rfl
@[simp] theorem real_rpow (x y : ℝ) : Scalar.rpow x y = x ^ y := rfl
@[simp] theorem real_floor (x : ℝ) : Scalar.floor x = ⌊x⌋ := rfl
theorem real_trunc (x : ℝ) : Scalar.trunc x = if 0 ≤ x then ⌊x⌋ else ⌈x⌉ := rfl
@[simp] theorem real_ltb (x y : ℝ) : (Scalar.ltb x y = true) ↔ x < y := decide_eq_true_iff
@[simp] theorem real_leb (x y : ℝ) : (Scalar.leb x y = true) ↔ x ≤ y := decide_eq_true_iff
@[simp] theorem real_eqb (x y : ℝ) : (Scalar.eqb x y = true) ↔ x = y := decide_eq_true_iff
@[simp] theorem real_ltb_f (x y : ℝ) : (Scalar.ltb x y = false) ↔ y ≤ x := by
  rw [← Bool.not_eq_true, real_ltb, not_lt]
@[simp] theorem real_leb_f (x y : ℝ) : (Scalar.leb x y = false) ↔ y < x := by
  rw [← Bool.not_eq_true, real_leb, not_le]
@[simp] theorem real_eqb_f (x y : ℝ) : (Scalar.eqb x y = false) ↔ x ≠ y := by
  rw [← Bool.not_eq_true, real_eqb]
example (a b c : ℝ) : (@HAdd.hAdd ℝ ℝ ℝ (@instHAdd ℝ (Scalar.toAdd)) a b) * c = a * c + b * c := by
  ring
end RealLemmas

variable {α : Type}

/-- `a[i]` in compiled code.  (`_commons.py:99`.) -/
def aget (a : List α) (i : Nat) : Res α :=
  match a[i]? with
  | some v => .ok v
  | none => .error .oob

/-- `a[i] = v` in compiled code.  (`_commons.py:99`.) -/
def aset (a : List α) (i : Nat) (v : α) : Res (List α) :=
  if i < a.length then .ok (a.set i v) else .error .oob

/-- `zeros(n)` where `n` is a computed (possibly negative) integer: a negative dimension raises
`ValueError`; otherwise the natural number is returned.  (`_commons.py:95-96`.) -/
def dim (n : Int) : Res Nat :=
  if n < 0 then .error .valueError else .ok n.toNat

/-- The stop position of the slice `a[:k]` for an array of length `len`: negative `k` counts from
the end, everything is clipped to `[0, len]`.  (`_univariate_same_length.py:171`.) -/
def sliceStop (len : Nat) (k : Int) : Nat :=
  if k < 0 then (len + k).toNat else min len k.toNat

/-- `numpy.where(p)[0]` on the index range `0..n-1`.  (`_commons.py:624`.) -/
def whereIdx (n : Nat) (p : Nat → Bool) : List Nat := (List.range n).filter p

section Stats
variable {K : Type} [Scalar K]

/-- `x.sum()`: left-to-right accumulation.  (`_commons.py:247`, `:644`.) -/
def ssum (x : List K) : K := x.foldl (· + ·) 0

/-- `x.mean()`.  (`_commons.py:247`.) -/
def mean (x : List K) : K := ssum x / Scalar.ofNat x.length

/-- `x.std()` (population standard deviation).  (`_commons.py:247`.) -/
def std (x : List K) : K :=
  let m := mean x
  Scalar.sqrt (mean (x.map fun v => (v - m) * (v - m)))

/-- The expression `(v - v.mean())/(v.std()+1e-8)` used for z-normalisation throughout
(convst/transformers/_commons.py:246-247, _univariate_same_length.py:320, ...). -/
def znorm (v : List K) : List K :=
  let m := mean v
  let s := std v
  v.map fun a => (a - m) / (s + Scalar.eps)

end Stats

end Convst
