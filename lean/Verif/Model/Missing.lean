import Verif.Model.Apply

/-!
# Missing values

Arrays given to `transform` are never checked for missing values (`checks_utils.py:49-94` looks at shapes only),
so the kernels of `_commons.py` meet `NaN`.  `Nf` is a fourth instance of `Scalar`: real numbers with a `NaN`
which every arithmetic operation passes on and which every comparison answers `False` for, as in IEEE 754.

Simplifications: arithmetic on numbers is exact; divisions by zero and roots of negative numbers give `NaN` (the
code takes no other quotient than by a length and by a deviation plus `1e-8`); integers converted from `NaN`
are 0 (undefined in the code, and not used by `transform`).  The kernels are compiled with `fastmath=True`
(`convst/__init__.py:8`), which allows the compiler to assume that no `NaN` occurs: what is proved with `Nf`
is the meaning of the source code, which the compiled code is only bound to follow without that option.
-/

set_option autoImplicit false

namespace Convst

/-- A real number or `NaN`.  (`float64`, `rdst.py:205`, `:286`.) -/
inductive Nf
  | nan
  | num (x : ℝ)

namespace Nf

/-- An operation with two arguments passes `NaN` on.  (`float64`, `rdst.py:205`, `:286`.) -/
def lift2 (f : ℝ → ℝ → Nf) : Nf → Nf → Nf
  | num x, num y => f x y
  | _, _ => nan

/-- An operation with one argument passes `NaN` on.  (`float64`, `rdst.py:205`, `:286`.) -/
def lift1 (f : ℝ → Nf) : Nf → Nf
  | num x => f x
  | nan => nan

/-- A comparison with `NaN` is false.  (`_commons.py:513`, `:517`.) -/
def cmp (p : ℝ → ℝ → Bool) : Nf → Nf → Bool
  | num x, num y => p x y
  | _, _ => false

end Nf

open Classical Nf in
/-- Arithmetic with `NaN`. -/
noncomputable instance : Scalar Nf where
  zero := num 0
  one := num 1
  add := lift2 fun x y => num (x + y)
  sub := lift2 fun x y => num (x - y)
  mul := lift2 fun x y => num (x * y)
  div := lift2 fun x y => if y = 0 then nan else num (x / y)
  neg := lift1 fun x => num (-x)
  ofNat n := num n
  eps := num (1 / 10 ^ 8)
  abs := lift1 fun x => num |x|
  sqrt := lift1 fun x => if x < 0 then nan else num (Real.sqrt x)
  exp := lift1 fun x => num (Real.exp x)
  log := lift1 fun x => num (Real.log x)
  log2 := lift1 fun x => num (Real.logb 2 x)
  pow2 := lift1 fun x => num ((2 : ℝ) ^ x)
  rpow := lift2 fun x y => num (x ^ y)
  floor x := match x with | num x => ⌊x⌋ | nan => 0
  trunc x := match x with | num x => (if 0 ≤ x then ⌊x⌋ else ⌈x⌉) | nan => 0
  ltb := cmp fun x y => decide (x < y)
  leb := cmp fun x y => decide (x ≤ y)
  eqb := cmp fun x y => decide (x = y)

/-- The same univariate shapelets, read as numbers which are not missing.
(`_univariate_same_length.py:267`.) -/
def UShp.nf (S : UShp ℝ) : UShp Nf where
  values := S.values.map fun v => v.map Nf.num
  lengths := S.lengths
  dilations := S.dilations
  threshold := S.threshold.map Nf.num
  normalize := S.normalize

/-- The same multivariate shapelets, read as numbers which are not missing.
(`_multivariate_same_length.py:329-330`.) -/
def MShp.nf (S : MShp ℝ) : MShp Nf where
  values := S.values.map Nf.num
  lengths := S.lengths
  dilations := S.dilations
  threshold := S.threshold.map Nf.num
  normalize := S.normalize
  nChannels := S.nChannels
  channelIds := S.channelIds

end Convst
