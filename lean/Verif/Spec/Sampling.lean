import Verif.Model.Missing
import Verif.Spec.FitSafe
import Verif.Spec.RoundedFit

/-!
# Specification of the sampling of `fit` in any arithmetic

Which positions of the training series a shapelet may be read from, and when a requested shapelet is dropped.  The
description of `Spec/Fit.lean` for real numbers, with the two quantities that depend on the arithmetic left as
parameters: the number of time points two shapelets may share, and whether enough channels are free.  No mask, no
loop, no generator.
-/

set_option autoImplicit false

namespace Convst.Spec

/-- What the sampling depends on: the requested number of shapelets, the offered lengths, the number of points `n`
every series has at least, the training series (`ns` of them, `nf` channels, series `s` having `len s` points) and
their labels, the options, the thresholds that may be drawn and the numbers the generator draws. -/
structure Setting (K L : Type) where
  nShp : Nat
  sizes : List Nat
  n : Nat
  ns : Nat
  nf : Nat
  len : Nat → Nat
  series : Nat → Nat → List K
  y : List L
  alpha : K
  pNorm : K
  prime : Bool
  phase : Bool
  thr : List K → K → Prop
  draw : K → Prop

/-- A number in `[0, 1)`, in the arithmetic with missing values. -/
def UnitNum (u : Nf) : Prop := ∃ v : ℝ, u = .num v ∧ 0 ≤ v ∧ v < 1

section
variable {K L : Type} [Scalar K]

/-- The number of time points two shapelets may share as the program computes it: `int(max(1, (1-alpha)*m))`, with
the operations of the arithmetic. -/
def shareLimit (alpha : K) (m : Nat) : Int :=
  Scalar.trunc (if Scalar.ltb 1 ((1 - alpha) * Scalar.ofNat m) then (1 - alpha) * Scalar.ofNat m else (1 : K))

/-- `free` of the `n` channels of a shapelet are enough: `free >= n * alpha` as computed. -/
def enoughOf (alpha : K) (n free : Nat) : Bool := Scalar.leb (Scalar.ofNat n * alpha) (Scalar.ofNat free)

/-- Start position `t` is within `l - allow - 1` dilated steps of `index`, modulo the series length. -/
def NearBy (T l d : Nat) (allow : Int) (index t : Nat) : Prop :=
  ∃ j : Nat, (j : Int) < l - allow ∧
    ((t : Int) = ((index : Int) - j * d) % T ∨ (t : Int) = ((index : Int) + j * d) % T)

/-- Start position `t` in channel `c` of series `s` is too close to a shapelet sampled before shapelet `i`, with the
same dilation and normalisation. -/
def Taken (E : Setting K L) (P : Par) (rec : Nat → Option Src) (i s c t : Nat) : Prop :=
  ∃ j m r, j < i ∧ P.dilation j = P.dilation i ∧ P.normalize j = P.normalize i ∧ rec j = some r ∧
    r.sample = s ∧ c ∈ r.channels ∧ IsMinLength P i m ∧
    NearBy (E.len s) (P.length j) (P.dilation j) (shareLimit E.alpha m) r.index t

open Classical in
/-- Enough channels are free: the only channel of a univariate shapelet, the proportion `alpha` (as computed) of the
channels of a multivariate one. -/
def FreeEnough (multi : Bool) (alpha : K) (channels : List Nat) (taken : Nat → Prop) : Prop :=
  if multi then enoughOf alpha channels.length (channels.countP fun c => decide (¬ taken c)) = true
  else ¬ taken 0

/-- Start position `t` of series `s` may be used for shapelet `i` with these channels. -/
def Usable (E : Setting K L) (P : Par) (multi : Bool) (rec : Nat → Option Src) (i : Nat) (channels : List Nat)
    (s t : Nat) : Prop :=
  s < E.ns ∧ t < nWin E.phase (E.len s) (P.length i) (P.dilation i) ∧
    FreeEnough multi E.alpha channels fun c => Taken E P rec i s c t

/-- The values read at position `t` of channel `c` of series `s`. -/
def readAt (E : Setting K L) (P : Par) (i s c t : Nat) : List K :=
  seen (P.normalize i) (window E.phase (E.series s c) (P.length i) (P.dilation i) t)

/-- The distances of the shapelet read from `r` to the windows of its comparison series, in the order of the
program's additions. -/
def distAt (E : Setting K L) (P : Par) (multi : Bool) (i : Nat) (r : Src) : List K :=
  (List.range (nWin E.phase (E.len r.test) (P.length i) (P.dilation i))).map fun w =>
    if multi then
      r.channels.foldl (fun a c => a + l1 (readAt E P i r.test c w) (readAt E P i r.sample c r.index)) 0
    else l1 (readAt E P i r.test 0 w) (readAt E P i r.sample 0 r.index)

/-- What happens for requested shapelet `i`: either it is read from a usable position of its channels, or there is
no usable position and it is dropped. -/
def Traced (E : Setting K L) (P : Par) (multi : Bool) (nch : Nat → Nat) (rec : Nat → Option Src)
    (out : Nat → Option (Out K)) (i : Nat) : Prop :=
  ∃ channels, ChannelsOK multi E.nf (nch i) channels ∧
    ((rec i = none ∧ out i = none ∧ ∀ s t, ¬ Usable E P multi rec i channels s t) ∨
     ∃ r v, rec i = some r ∧ out i = some v ∧ r.channels = channels ∧ v.channels = channels ∧
       Usable E P multi rec i channels r.sample r.index ∧
       v.values = channels.flatMap (fun c => readAt E P i r.sample c r.index) ∧
       Compared E.y r.sample r.test ∧ E.thr (distAt E P multi i r) v.threshold)

/-- Parameters that may be drawn: an offered length, a dilation for which the shapelet fits, 1 or a prime when prime
dilations are asked for, and a flag which is the outcome of the comparison of a drawn number with `proba_norm`. -/
structure ParTraced (E : Setting K L) (P : Par) : Prop where
  count : P.n = E.nShp
  length : ∀ i, i < P.n → P.length i ∈ E.sizes
  dilation : ∀ i, i < P.n → 1 ≤ P.dilation i ∧ (P.length i - 1) * P.dilation i ≤ E.n - 1
  prime : E.prime = true → ∀ i, i < P.n → P.dilation i = 1 ∨ (P.dilation i).Prime
  flag : ∀ i, i < P.n → ∃ u, E.draw u ∧ P.normalize i = Scalar.ltb u E.pNorm

/-- `S` is a possible result of univariate `fit`. -/
structure UTraced (E : Setting K L) (P : Par) (rec : Nat → Option Src) (out : Nat → Option (Out K))
    (kept : List Nat) (S : UShp K) : Prop where
  drawn : ParTraced E P
  good : ∀ i, i < P.n → Traced E P false (fun _ => 1) rec out i
  from_ : UFrom P out kept S

/-- `S` is a possible result of multivariate `fit`, shapelet `i` using `nch i` channels. -/
structure MTraced (E : Setting K L) (mc : Nat) (P : Par) (nch : Nat → Nat) (rec : Nat → Option Src)
    (out : Nat → Option (Out K)) (kept : List Nat) (S : MShp K) : Prop where
  drawn : ParTraced E P
  channels : ∀ i, i < P.n → 1 ≤ nch i ∧ nch i ≤ mc
  good : ∀ i, i < P.n → Traced E P true nch rec out i
  from_ : MFrom P nch out kept S

/-- The shapelets of a fitted object are a possible result of the sampling. -/
def Sampling (E : Setting K L) (mc : Nat) : Shapelets K → Prop
  | .u S => ∃ P rec out kept, UTraced E P rec out kept S
  | .m S => ∃ P nch rec out kept, MTraced E mc P nch rec out kept S

/-- The setting of an object fitted on a 3D array, `sizes` being the offered lengths. -/
def arraySetting {R : Type} (draw : K → Prop) (o : Rdst K R) (A : Arr3 K) (y : List L) (sizes : List Nat) :
    Setting K L where
  nShp := o.nShp
  sizes := sizes
  n := A.nt
  ns := A.data.length
  nf := A.nf
  len := fun _ => A.nt
  series := fun s c => (A.data.getD s []).getD c []
  y := y
  alpha := o.alpha
  pNorm := o.pNorm
  prime := o.prime
  phase := o.phase
  thr := ThrFrom o.pMin o.pMax draw
  draw := draw

/-- The setting of an object fitted on a list of 2D arrays with `nf` channels and at least `m` points. -/
def listSetting {R : Type} (draw : K → Prop) (o : Rdst K R) (xs : List (Mat K)) (nf m : Nat) (y : List L)
    (sizes : List Nat) : Setting K L where
  nShp := o.nShp
  sizes := sizes
  n := m
  ns := xs.length
  nf := nf
  len := fun s => (xs.map Mat.len).getD s 0
  series := fun s c => ((xs.map Mat.rows).getD s []).getD c []
  y := y
  alpha := o.alpha
  pNorm := o.pNorm
  prime := o.prime
  phase := o.phase
  thr := ThrFrom o.pMin o.pMax draw
  draw := draw

/-- The shapelets of a univariate result lie apart: each is a window of a training series, and two of them read from
the same series with the same dilation and flag, the later one not longer than the earlier one, share at most the
computed limit of time points (twice as many when windows wrap around). -/
def UApart (E : Setting K L) (S : UShp K) : Prop :=
  ∃ src : Nat → Nat × Nat, (∀ k, k < S.lengths.length → (src k).1 < E.ns ∧
    (src k).2 < nWin E.phase (E.len (src k).1) (S.lengths.getD k 0) (S.dilations.getD k 0) ∧
    uValues S k = seen (S.normalize.getD k false)
      (window E.phase (E.series (src k).1 0) (S.lengths.getD k 0) (S.dilations.getD k 0) (src k).2)) ∧
    ∀ k k', k < k' → k' < S.lengths.length → (src k).1 = (src k').1 →
      S.dilations.getD k 0 = S.dilations.getD k' 0 →
      S.normalize.getD k false = S.normalize.getD k' false →
      S.lengths.getD k' 0 ≤ S.lengths.getD k 0 →
      ∃ m ∈ E.sizes, (∀ j, j < S.lengths.length → S.dilations.getD j 0 = S.dilations.getD k 0 →
          m ≤ S.lengths.getD j 0) ∧
        (timePoints E.phase (E.len (src k).1) (S.lengths.getD k 0) (S.dilations.getD k 0) (src k).2 ∩
          timePoints E.phase (E.len (src k).1) (S.lengths.getD k' 0) (S.dilations.getD k 0)
            (src k').2).card ≤ (if E.phase then 2 else 1) * (shareLimit E.alpha m).toNat

/-- The shapelets of a multivariate result lie apart: two of them as above that share more time points have few
channels in common: what remains of the channels of the later one is enough. -/
def MApart (E : Setting K L) (S : MShp K) : Prop :=
  ∃ src : Nat → Nat × Nat, (∀ k, k < S.lengths.length → (src k).1 < E.ns ∧
    (src k).2 < nWin E.phase (E.len (src k).1) (S.lengths.getD k 0) (S.dilations.getD k 0) ∧
    ∀ c, c < S.nChannels.getD k 0 → mValues S k c = seen (S.normalize.getD k false)
      (window E.phase (E.series (src k).1 ((mChannels S k).getD c 0)) (S.lengths.getD k 0)
        (S.dilations.getD k 0) (src k).2)) ∧
    ∀ k k', k < k' → k' < S.lengths.length → (src k).1 = (src k').1 →
      S.dilations.getD k 0 = S.dilations.getD k' 0 →
      S.normalize.getD k false = S.normalize.getD k' false →
      S.lengths.getD k' 0 ≤ S.lengths.getD k 0 →
      ∃ m ∈ E.sizes, (∀ j, j < S.lengths.length → S.dilations.getD j 0 = S.dilations.getD k 0 →
          m ≤ S.lengths.getD j 0) ∧
        ((if E.phase then 2 else 1) * (shareLimit E.alpha m).toNat <
          (timePoints E.phase (E.len (src k).1) (S.lengths.getD k 0) (S.dilations.getD k 0) (src k).2 ∩
            timePoints E.phase (E.len (src k).1) (S.lengths.getD k' 0) (S.dilations.getD k 0)
              (src k').2).card →
          ∃ free, free + ((mChannels S k').filter fun c => decide (c ∈ mChannels S k)).length ≤
              (mChannels S k').length ∧
            enoughOf E.alpha (mChannels S k').length free = true)

/-- The shapelets of a result lie apart. -/
def Apart (E : Setting K L) : Shapelets K → Prop
  | .u S => UApart E S
  | .m S => MApart E S

/-- The dilations of a result. -/
def dilationsOf : Shapelets K → List Nat
  | .u S => S.dilations
  | .m S => S.dilations

/-- The normalisation flags of a result. -/
def flagsOf : Shapelets K → List Bool
  | .u S => S.normalize
  | .m S => S.normalize

/-- The rules every result of `fit` follows: it is a possible result of the sampling, its shapelets lie apart, its
dilations are 1 or prime when that is asked for, and each flag is the outcome of a comparison of a drawn number with
`proba_norm`. -/
structure Rules (E : Setting K L) (mc : Nat) (S : Shapelets K) : Prop where
  sampling : Sampling E mc S
  apart : Apart E S
  prime : E.prime = true → ∀ d ∈ dilationsOf S, d = 1 ∨ d.Prime
  flag : ∀ f ∈ flagsOf S, ∃ u, E.draw u ∧ f = Scalar.ltb u E.pNorm

end

end Convst.Spec
