import Verif.Model.Rounded

/-!
# The bounded range of floating-point numbers: overflow, underflow and infinities

`Fl r` (Model/Rounded.lean) has numbers of every magnitude.  A `float64` has not: magnitudes from `2¹⁰²⁴` on become
infinite, and below `2⁻¹⁰²²` the spacing of the numbers stays `2⁻¹⁰⁷⁴`.  Arrays given to `transform` are not checked
for infinities either (`checks_utils.py:49-94` looks at shapes only).  `Ieee F` is a fifth instance of `Scalar`:
finite numbers, two infinities and `NaN`, following the tables of IEEE 754 for the operations of the kernels of
`_commons.py`.

Simplifications: there is one zero (a division by it gives the infinity with the sign of the numerator; the code
divides by lengths and by deviations plus `1e-8` only); powers of infinities are `NaN`, and integers converted from
infinities and `NaN` are 0 (not used by `transform`; in `fit`, C113 bounds the numbers that are converted, except
for ranks in arrays longer than the format can count).  As in Model/Missing.lean, the kernels are compiled with
`fastmath=True` (`convst/__init__.py:8`), which allows the compiler to assume that neither `NaN` nor infinities
occur: what is proved for series with such values is the meaning of the source code.
-/

set_option autoImplicit false

namespace Convst

/-- A format of floating-point numbers with a bounded range.
* `r` is the rounding with the same number of digits and an unbounded range.
* `rnd` is the rounding of the format below the overflow threshold, underflow included.
* `top` is the least magnitude which overflows.
* `grid` contains all numbers of the format; for `float64` it is the set of the multiples of `2⁻¹⁰⁷⁴`.
(`float64`, `rdst.py:205`, `:286`.) -/
structure FloatFormat where
  r : Rounding
  rnd : ℝ → ℝ
  top : ℝ
  top_gt : 1 < top
  grid : Set ℝ
  grid_zero : (0 : ℝ) ∈ grid
  grid_neg : ∀ x ∈ grid, -x ∈ grid
  rnd_grid : ∀ x, rnd x ∈ grid
  /-- Sums never underflow. -/
  rnd_add : ∀ x ∈ grid, ∀ y ∈ grid, rnd (x + y) = r.rnd (x + y)
  rnd_nat : ∀ n : Nat, rnd n = r.rnd n
  /-- A rounded number and its opposite are not changed by rounding. -/
  rnd_abs : ∀ x, r.rnd |r.rnd x| = |r.rnd x|

/-- A number of the format `F`: finite, infinite (`inf true` is `-∞`) or `NaN`.  (`float64`, `rdst.py:205`,
`:286`.) -/
inductive Ieee (F : FloatFormat)
  | nan
  | inf (neg : Bool)
  | fin (x : ℝ)

namespace Ieee

variable {F : FloatFormat}

open Classical in
/-- A rounded result, which becomes infinite when it is too large.  (`float64`, `rdst.py:205`, `:286`.) -/
noncomputable def over (x : ℝ) : Ieee F :=
  if F.top ≤ x then inf false else if x ≤ -F.top then inf true else fin x

/-- Addition.  (`_commons.py:43`.) -/
noncomputable def add : Ieee F → Ieee F → Ieee F
  | fin x, fin y => over (F.rnd (x + y))
  | inf s, fin _ => inf s
  | fin _, inf s => inf s
  | inf s, inf t => if s = t then inf s else nan
  | _, _ => nan

/-- Negation.  (`_commons.py:43`.) -/
def neg : Ieee F → Ieee F
  | fin x => fin (-x)
  | inf s => inf (!s)
  | nan => nan

open Classical in
/-- Multiplication.  (`_commons.py:34`.) -/
noncomputable def mul : Ieee F → Ieee F → Ieee F
  | fin x, fin y => over (F.rnd (x * y))
  | inf s, fin y => if y = 0 then nan else inf (s ^^ decide (y < 0))
  | fin x, inf s => if x = 0 then nan else inf (s ^^ decide (x < 0))
  | inf s, inf t => inf (s ^^ t)
  | _, _ => nan

open Classical in
/-- Division.  (`_commons.py:247`.) -/
noncomputable def div : Ieee F → Ieee F → Ieee F
  | fin x, fin y => if y = 0 then (if x = 0 then nan else inf (decide (x < 0))) else over (F.rnd (x / y))
  | inf s, fin y => inf (s ^^ decide (y < 0))
  | fin _, inf _ => fin 0
  | _, _ => nan

/-- Absolute value.  (`_commons.py:43`.) -/
noncomputable def abs : Ieee F → Ieee F
  | fin x => fin |x|
  | inf _ => inf false
  | nan => nan

open Classical in
/-- Square root.  (`_commons.py:247`.) -/
noncomputable def sqrt : Ieee F → Ieee F
  | fin x => if x < 0 then nan else over (F.rnd (Real.sqrt x))
  | inf s => if s then nan else inf false
  | nan => nan

/-- An increasing function of the library: its values at finite numbers, and its limit at `-∞`.
(`_univariate_same_length.py:75`.) -/
noncomputable def growing (f : ℝ → ℝ) : Ieee F → Ieee F
  | fin x => over (f x)
  | inf s => if s then fin 0 else inf false
  | nan => nan

open Classical in
/-- A logarithm of the library.  (`_univariate_same_length.py:62`.) -/
noncomputable def logarithm (f : ℝ → ℝ) : Ieee F → Ieee F
  | fin x => if x < 0 then nan else if x = 0 then inf true else over (f x)
  | inf s => if s then nan else inf false
  | nan => nan

open Classical in
/-- `<`.  (`_commons.py:513`.) -/
noncomputable def ltb : Ieee F → Ieee F → Bool
  | fin x, fin y => decide (x < y)
  | inf s, fin _ => s
  | fin _, inf t => !t
  | inf s, inf t => s && !t
  | _, _ => false

open Classical in
/-- `==`.  (`_commons.py:513`.) -/
noncomputable def eqb : Ieee F → Ieee F → Bool
  | fin x, fin y => decide (x = y)
  | inf s, inf t => s == t
  | _, _ => false

end Ieee

open Classical Ieee in
/-- Arithmetic of the format `F`. -/
noncomputable instance (F : FloatFormat) : Scalar (Ieee F) where
  zero := fin 0
  one := fin 1
  add := Ieee.add
  sub x y := Ieee.add x (Ieee.neg y)
  mul := Ieee.mul
  div := Ieee.div
  neg := Ieee.neg
  ofNat n := over (F.rnd n)
  eps := over (F.rnd (1 / 10 ^ 8))
  abs := Ieee.abs
  sqrt := Ieee.sqrt
  exp := growing F.r.exp
  log := logarithm F.r.log
  log2 := logarithm F.r.log2
  pow2 := growing F.r.pow2
  rpow x y := match x, y with | fin x, fin y => over (F.r.rpow x y) | _, _ => nan
  floor x := match x with | fin x => ⌊x⌋ | _ => 0
  trunc x := match x with | fin x => (if 0 ≤ x then ⌊x⌋ else ⌈x⌉) | _ => 0
  ltb := Ieee.ltb
  leb x y := Ieee.ltb x y || Ieee.eqb x y
  eqb := Ieee.eqb

/-- The finite number `x` in the bounded range.  (`rdst.py:205`.) -/
def Fl.ieee {F : FloatFormat} (x : Fl F.r) : Ieee F := .fin x

/-- The same univariate shapelets in the bounded range.  (`_univariate_same_length.py:267`.) -/
def UShp.ieee {F : FloatFormat} (S : UShp (Fl F.r)) : UShp (Ieee F) where
  values := S.values.map fun v => v.map Fl.ieee
  lengths := S.lengths
  dilations := S.dilations
  threshold := S.threshold.map Fl.ieee
  normalize := S.normalize

/-- The same multivariate shapelets in the bounded range.  (`_multivariate_same_length.py:329-330`.) -/
def MShp.ieee {F : FloatFormat} (S : MShp (Fl F.r)) : MShp (Ieee F) where
  values := S.values.map Fl.ieee
  lengths := S.lengths
  dilations := S.dilations
  threshold := S.threshold.map Fl.ieee
  normalize := S.normalize
  nChannels := S.nChannels
  channelIds := S.channelIds

end Convst
