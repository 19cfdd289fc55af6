import Verif.Props.Object
import Verif.Props.Fit
import Verif.Proofs.Rows

/-!
# `fit` then `transform` on `R_DST` objects (C43), and concrete histories
-/

set_option autoImplicit false
set_option linter.unusedSectionVars false

namespace Convst.Props

open Convst Spec

/-- What `fit` does before calling the fitter, when nothing goes wrong. -/
theorem prepare_forward' {G K R L : Type} [Scalar K] (env : Env G R L) (o : Rdst K R) (w w0 : World R)
    {X : XIn K} {y y' : List L} {t : TType} (ht : t.Concrete) {m : Nat} {A A' : Arr3 K}
    {xLen : List Nat} {sizes : List Nat}
    (hset : setFitTransform o X = ({ o with transformType := t }, .ok ()))
    (hload : loadTrain { o with transformType := t } X =
      ({ o with transformType := t, minLen := some m }, .ok (A, xLen)))
    (hsub : subsample env o.nSamples w A y = (w0, .ok (A', y')))
    (hcp : checkParams (setLengths o.lens o.bounds o.reduction m) m = .ok sizes) :
    ∃ o' w' c seed, o.prepare env w X y = (o', w', .ok (c, seed)) ∧ o'.transformType = t ∧
      o'.phase = o.phase ∧ o'.minLen = some m ∧
      c.args = { X := A'.data, nf := A'.nf, nt := A'.nt, y := y', nShp := o.nShp, sizes := sizes,
                 pNorm := o.pNorm, pMin := o.pMin, pMax := o.pMax, alpha := o.alpha,
                 phase := o.phase, prime := o.prime } ∧
      (t = .uni → c = .usl c.args) ∧ (t = .multi → c = .msl c.args (o.maxChannels.getD A'.nf)) ∧
      (t = .uniVar → c = .uvl c.args m xLen) ∧
      (t = .multiVar → c = .mvl c.args (o.maxChannels.getD A'.nf) m xLen) := by
  unfold Rdst.prepare
  have hds : ∃ rs' w1 seed, drawSeed env { o with transformType := t, minLen := some m, maxChannels := some (o.maxChannels.getD A'.nf), lens := setLengths o.lens o.bounds o.reduction m } w0 =
      ({ o with transformType := t, minLen := some m, maxChannels := some (o.maxChannels.getD A'.nf),
                lens := setLengths o.lens o.bounds o.reduction m, rs := rs' }, w1, seed) := by
    unfold drawSeed
    cases hrs : o.rs with
    | own r => exact ⟨_, _, _, rfl⟩
    | glob => exact ⟨.glob, _, _, rfl⟩
  obtain ⟨rs', w1, seed, hd⟩ := hds
  rw [hset]
  simp only
  rw [hload]
  simp only [hsub, Option.getD_some, hcp, hd]
  rcases ht with rfl | rfl | rfl | rfl
  all_goals
    refine ⟨_, _, _, _, rfl, ?_⟩
    refine ⟨rfl, rfl, rfl, rfl, ?_, ?_, ?_, ?_⟩ <;> intro h <;> first | rfl | cases h

theorem prepare_forward {G K R L : Type} [Scalar K] (env : Env G R L) (o : Rdst K R) (w : World R)
    {X : XIn K} (y : List L) {t : TType} (ht : t.Concrete) {m : Nat} {A : Arr3 K} {xLen : List Nat}
    {sizes : List Nat}
    (hset : setFitTransform o X = ({ o with transformType := t }, .ok ()))
    (hload : loadTrain { o with transformType := t } X =
      ({ o with transformType := t, minLen := some m }, .ok (A, xLen)))
    (hns : o.nSamples = none)
    (hcp : checkParams (setLengths o.lens o.bounds o.reduction m) m = .ok sizes) :
    ∃ o' w' c seed, o.prepare env w X y = (o', w', .ok (c, seed)) ∧ o'.transformType = t ∧
      o'.phase = o.phase ∧ o'.minLen = some m ∧
      c.args = { X := A.data, nf := A.nf, nt := A.nt, y := y, nShp := o.nShp, sizes := sizes,
                 pNorm := o.pNorm, pMin := o.pMin, pMax := o.pMax, alpha := o.alpha,
                 phase := o.phase, prime := o.prime } ∧
      (t = .uni → c = .usl c.args) ∧ (t = .multi → c = .msl c.args (o.maxChannels.getD A.nf)) ∧
      (t = .uniVar → c = .uvl c.args m xLen) ∧
      (t = .multiVar → c = .mvl c.args (o.maxChannels.getD A.nf) m xLen) :=
  prepare_forward' env o w w ht hset hload (by rw [hns]; rfl) hcp

/-- Number of fitted shapelets. -/
def Shapelets.count {K : Type} : Shapelets K → Nat
  | .u S => S.lengths.length
  | .m S => S.lengths.length

section real
variable {G R L : Type} [Gen G ℝ] [LawfulGen G] [DecidableEq L]

/-- Usable parameters for series of `m` points: at least one shapelet, ordered percentiles, no
subsampling, and candidate lengths, if given explicitly, non-empty and all above 1. -/
structure GoodParams (o : Rdst ℝ R) (m : Nat) : Prop where
  nShp : 1 ≤ o.nShp
  perc : 0 ≤ o.pMin ∧ o.pMin ≤ o.pMax ∧ o.pMax ≤ 100
  nSamples : o.nSamples = none
  red : o.reduction < 1
  lens : o.bounds = none →
    (∃ l, o.lens = .ints l ∧ l ≠ [] ∧ ∀ z ∈ l, 1 < z) ∨
    (∃ l, o.lens = .floats l ∧ l ≠ [] ∧ ∀ x ∈ l, 2 ≤ (m : ℝ) * x)

theorem ofInt_real (z : Int) : (Convst.ofInt z : ℝ) = (z : ℝ) := by
  cases z with
  | ofNat n => simp [Convst.ofInt]
  | negSucc n =>
    simp only [Convst.ofInt, Int.cast_negSucc]
    simp

theorem GoodParams.sizes {o : Rdst ℝ R} {m : Nat} (h : GoodParams o m) (hm : 4 ≤ m) :
    ∃ sizes, checkParams (setLengths o.lens o.bounds o.reduction m) m = .ok sizes ∧ sizes ≠ [] ∧
      ∀ l ∈ sizes, 2 ≤ l ∧ l ≤ m := by
  have key : intLengths (setLengths o.lens o.bounds o.reduction m) ≠ [] ∧
      ∀ z ∈ intLengths (setLengths o.lens o.bounds o.reduction m), 1 < z := by
    cases hb : o.bounds with
    | some b =>
      obtain ⟨b0, b1⟩ := b
      obtain ⟨L, hL, hne, -, -, h3, -⟩ := C36_lengths_from_bounds o.lens b0 b1 o.reduction h.red m
      rw [hL]
      exact ⟨hne, fun z hz => by have := (h3 z hz).1; omega⟩
    | none =>
      rcases h.lens hb with ⟨l, hl, hne, hz⟩ | ⟨l, hl, hne, hx⟩
      · rw [hl]
        exact ⟨hne, hz⟩
      · rw [hl]
        simp only [setLengths, intLengths, List.map_map]
        refine ⟨by simp [hne], ?_⟩
        intro z hz
        obtain ⟨x, hxl, rfl⟩ := List.mem_map.1 hz
        have h2 : (2 : Int) ≤ ⌊(m : ℝ) * x⌋ := Int.le_floor.2 (by exact_mod_cast hx x hxl)
        simp only [Function.comp, ofInt_real, real_floor, real_ofNat]
        have h0 : (0 : ℝ) ≤ ((⌊(m : ℝ) * x⌋ : Int) : ℝ) := by
          have : (0 : Int) ≤ ⌊(m : ℝ) * x⌋ := by omega
          exact_mod_cast this
        rw [if_pos h0, Int.floor_intCast]
        omega
  rcases C37_validated_lengths_partial (setLengths o.lens o.bounds o.reduction m) hm with
    ⟨hbad, -⟩ | ⟨-, -, sizes, hok, hlen, hb, -⟩
  · rcases hbad with hbad | ⟨z, hz, hz1⟩
    · exact absurd hbad key.1
    · have := key.2 z hz
      omega
  · refine ⟨sizes, hok, ?_, hb⟩
    rintro rfl
    simp only [List.length_nil] at hlen
    exact key.1 (List.length_eq_zero_iff.1 hlen.symm)

theorem toArr3_array {K : Type} [Scalar K] {dt : DType} {A : Arr3 K} (hne : A.data ≠ []) (hnf : 1 ≤ A.nf) (hnt : 3 ≤ A.nt) :
    toArr3 (.array dt A) = .ok A := by
  have hl : 0 < A.data.length := List.length_pos_of_ne_nil hne
  rcases C62_check_array_3D (asArray (.array dt A)) false 2 with ⟨-, -, Y, hY, ⟨-, hd⟩, -⟩ | ⟨hn, -⟩
  · simp [toArr3, hY, Bind.bind, Except.bind, pure, Except.pure, hd]
    rfl
  · exact absurd ⟨Or.inr rfl, _, _, _, rfl, hl, by omega, by omega, by omega, by simp⟩ hn

/-- **C43.** Equal-length series given as a 3D array, for an object of type `'univariate'`,
`'multivariate'` or (integer and double arrays) `'auto'` that was not fitted before: with usable
parameters `fit` succeeds, for every generator and schedule, and then `transform` succeeds on every
array with the same number of channels and at least as many points, giving one row per series and
three columns per shapelet.  For type `'multivariate'` and `alpha ≤ 1` there are at least as many
shapelets as the smaller of `n_shapelets` and the number of series. -/
theorem C43_object_same_length (env : Env G R L) (o : Rdst ℝ R) (w : World R) (dt : DType)
    (A : Arr3 ℝ) (y : List L)
    (hty : o.transformType = .uni ∨ o.transformType = .multi ∨
      o.transformType = .auto ∧ dt ≠ .otherDtype)
    (hWF : (XIn.array dt A).WF) (hne : A.data ≠ []) (hnf : 1 ≤ A.nf) (hnt : 4 ≤ A.nt)
    (hy : y.length = A.data.length) (hp : GoodParams o A.nt)
    (hmc : ∀ m, o.maxChannels = some m → 1 ≤ m ∧ m ≤ A.nf)
    (gs : Nat → G) {order : Nat → List Nat} (ho : IsSchedule order) :
    ∃ o' w' S, o.fit env gs order w (.array dt A) y = (o', w', .ok ()) ∧ o'.shapelets = some S ∧
      ShpWF S A.nf ∧ o'.phase = o.phase ∧
      (o.transformType = .multi → o.alpha ≤ 1 → min o.nShp A.data.length ≤ Shapelets.count S) ∧
      ∀ (dt' : DType) (B : Arr3 ℝ), (XIn.array dt' B).WF → B.data ≠ [] → B.nf = A.nf → A.nt ≤ B.nt →
        ∃ M, o'.transform (.array dt' B) = .ok M ∧ GoodMatrix M B.data.length (Shapelets.count S) := by
  have harr : toArr3 (.array dt A) = .ok A := toArr3_array hne hnf (by omega)
  obtain ⟨t, htt, hset⟩ : ∃ t, (t = .uni ∨ t = .multi) ∧
      setFitTransform o (.array dt A) = ({ o with transformType := t }, .ok ()) := by
    rcases hty with h | h | ⟨h, hdt⟩
    · refine ⟨.uni, Or.inl rfl, ?_⟩
      rw [C34_fixed_type o (Or.inl h), ← h]
    · refine ⟨.multi, Or.inr rfl, ?_⟩
      rw [C34_fixed_type o (Or.inr (Or.inl h)), ← h]
    · have hc : autoClass (.array dt A) = .ok (if A.nf > 1 then .multi else .uni) := by
        simp [autoClass, hdt, harr, Bind.bind, Except.bind, pure, Except.pure]
      by_cases h1 : A.nf > 1
      · rw [if_pos h1] at hc
        exact ⟨.multi, Or.inr rfl, by simp [setFitTransform, h, hc]⟩
      · rw [if_neg h1] at hc
        exact ⟨.uni, Or.inl rfl, by simp [setFitTransform, h, hc]⟩
  have htc : t.Concrete := by rcases htt with rfl | rfl <;> simp [TType.Concrete]
  have htv : ¬ t.Var := by rcases htt with rfl | rfl <;> simp [TType.Var]
  obtain ⟨sizes, hcp, hsne, hsb⟩ := hp.sizes hnt
  obtain ⟨o1, w1, c, seed, hprep, e1, e2, -, ha, k1, k2, -, -⟩ := prepare_forward env o w y htc hset
    (loadTrain_same (o := { o with transformType := t }) htv harr) hp.nSamples hcp
  have hv : ValidSL c.args := by
    rw [ha]
    exact {
      data := ⟨hy, fun s hs => (hWF s hs).1, fun s hs => (hWF s hs).2⟩
      nf := hnf
      perc := ⟨hp.perc.1, hp.perc.2.1, hp.perc.2.2⟩
      nShp := hp.nShp
      sizes := hsne
      bounds := hsb }
  have hph : c.args.phase = o.phase := by rw [ha]
  have hnt' : c.args.nt = A.nt := by rw [ha]
  have hnf' : c.args.nf = A.nf := by rw [ha]
  rcases htt with rfl | rfl
  · obtain ⟨S, hS, hap⟩ := C43_fit_transform_univariate_same_length hv (env.seedG seed) gs ho
    have hwfS : ShpWF (.u S) A.nf := by
      obtain ⟨S', h1, h2, -⟩ := C19_fit_univariate_same_length hv (env.seedG seed) gs
      have := h1 order ho
      rw [hS, Except.ok.injEq] at this
      rw [this]
      exact h2
    refine ⟨{ o1 with shapelets := some (.u S) }, w1, .u S, ?_, rfl, hwfS, e2, ?_, ?_⟩
    · unfold Rdst.fit
      rw [hprep]
      simp only
      rw [k1 rfl]
      simp [Call.run, hS, Except.map]
    · intro hmu
      rw [C34_fixed_type o (Or.inr (Or.inl hmu)), Prod.mk.injEq] at hset
      have := congrArg Rdst.transformType hset.1
      rw [hmu] at this
      cases this
    · intro dt' B hB hBne hBf hBt
      obtain ⟨M, hM, hgood⟩ := hap B.data (by
        intro s hs
        obtain ⟨h1, h2⟩ := hB s hs
        have hs0 : 0 < s.length := by omega
        refine ⟨List.ne_nil_of_length_pos hs0, ?_⟩
        have hr : s.getD 0 [] ∈ s := by
          rw [List.getD_eq_getElem?_getD, List.getElem?_eq_getElem hs0]
          exact List.getElem_mem hs0
        rw [h2 _ hr]
        omega)
      refine ⟨M, ?_, hgood⟩
      unfold Rdst.transform
      simp only [e1, e2]
      rw [if_neg (by simp), toArr3_array hBne (by omega) (by omega)]
      rw [hph] at hM
      simpa [Bind.bind, Except.bind] using hM
  · have hmc1 : 1 ≤ o.maxChannels.getD A.nf := by
      cases hm : o.maxChannels with
      | none => exact hnf
      | some m => exact (hmc m hm).1
    have hmc2 : o.maxChannels.getD A.nf ≤ c.args.nf := by
      rw [hnf']
      cases hm : o.maxChannels with
      | none => exact le_refl _
      | some m => exact (hmc m hm).2
    obtain ⟨S, hS, hap⟩ := C43_fit_transform_multivariate_same_length hv hmc1 hmc2 (env.seedG seed) gs ho
    have hwfS : ShpWF (.m S) A.nf := by
      obtain ⟨S', h1, h2, -⟩ := C21_fit_multivariate_same_length hv hmc1 hmc2 (env.seedG seed) gs
      have := h1 order ho
      rw [hS, Except.ok.injEq] at this
      rw [this]
      exact hnf' ▸ h2
    refine ⟨{ o1 with shapelets := some (.m S) }, w1, .m S, ?_, rfl, hwfS, e2, ?_, ?_⟩
    · unfold Rdst.fit
      rw [hprep]
      simp only
      rw [k2 rfl]
      simp [Call.run, hS, Except.map]
    · intro _ hal
      have := C32_count_multivariate_same_length hv (by rw [ha]; exact hal) hmc1 hmc2 ho hS
      rw [ha] at this
      exact this
    · intro dt' B hB hBne hBf hBt
      obtain ⟨M, hM, hgood⟩ := hap B.data B.nt (by
        intro s hs
        rw [hnf', ← hBf]
        exact hB s hs) (by omega)
      refine ⟨M, ?_, hgood⟩
      unfold Rdst.transform
      simp only [e1, e2]
      rw [if_neg (by simp), toArr3_array hBne (by omega) (by omega)]
      rw [hph] at hM
      simpa [Bind.bind, Except.bind] using hM

theorem formatUneven_list {K : Type} [Scalar K] {xs : List (Mat K)} (hwf : ∀ x ∈ xs, x.WF) (hne : xs ≠ []) {nf : Nat}
    (hnf : ∀ x ∈ xs, x.rows.length = nf) (h0 : 1 ≤ nf) {m : Nat} (hm : 3 ≤ m)
    (hlen : ∀ x ∈ xs, m ≤ x.len) :
    ∃ A, formatUneven (.list xs) = .ok (A, xs.map Mat.len) ∧ A.nf = nf ∧ A.data.length = xs.length ∧
      (∀ n ∈ xs.map Mat.len, n ≤ A.nt) ∧ (∀ s ∈ A.data, s.length = nf ∧ ∀ r ∈ s, r.length = A.nt) ∧
      ∃ Y, checkArray3D A.py = .ok Y := by
  obtain ⟨A, h1, h2, h3, h4, h5, h6, -⟩ := C40_format_uneven (.list xs) hwf xs rfl hne nf hnf
  refine ⟨A, h1, h2, h3, ?_, h6, ?_⟩
  · intro n hn
    obtain ⟨x, hx, rfl⟩ := List.mem_map.1 hn
    exact h4 x hx
  · obtain ⟨x, hx, hxl⟩ := h5
    have := hlen x hx
    have hl := List.length_pos_of_ne_nil hne
    rcases C62_check_array_3D A.py false 2 with ⟨-, -, Y, hY, -⟩ | ⟨hn, -⟩
    · exact ⟨Y, hY⟩
    · exact absurd ⟨Or.inr rfl, A.data.length, A.nf, A.nt, rfl, by omega, by omega, by omega, by omega, by simp⟩ hn

/-- **C43.** Series of different lengths given as a list of 2D arrays, for a fresh object of type
`'multivariate_variable'` or `'auto'` (or univariate, of variable length): if all series have the same
number of channels and at least `m ≥ 4` points, where `m` is `min_len` or, if that is not given, the
least length, then with usable parameters `fit` succeeds, and then `transform` succeeds on every list
of series with as many channels and at least `m` points each. -/
theorem C43_object_variable_length (env : Env G R L) (o : Rdst ℝ R) (w : World R)
    (xs : List (Mat ℝ)) (y : List L)
    (hty : o.transformType.Var ∨ o.transformType = .auto)
    (hwf : ∀ x ∈ xs, x.WF) (hne : xs ≠ []) (nf : Nat) (hnf1 : 1 ≤ nf)
    (hnf : ∀ x ∈ xs, x.rows.length = nf) (m : Nat) (hm4 : 4 ≤ m) (hlen : ∀ x ∈ xs, m ≤ x.len)
    (hm : o.minLen = some m ∨ o.minLen = none ∧ ∃ x ∈ xs, x.len = m)
    (hy : y.length = xs.length) (hp : GoodParams o m)
    (hmc : ∀ k, o.maxChannels = some k → 1 ≤ k ∧ k ≤ nf)
    (gs : Nat → G) {order : Nat → List Nat} (ho : IsSchedule order) :
    ∃ o' w' S, o.fit env gs order w (.list xs) y = (o', w', .ok ()) ∧ o'.shapelets = some S ∧
      ShpWF S nf ∧ o'.phase = o.phase ∧
      ∀ zs : List (Mat ℝ), (∀ z ∈ zs, z.WF) → zs ≠ [] → (∀ z ∈ zs, z.rows.length = nf) →
        (∀ z ∈ zs, m ≤ z.len) →
        ∃ M, o'.transform (.list zs) = .ok M ∧ GoodMatrix M zs.length (Shapelets.count S) := by
  obtain ⟨A, hf, hAf, hAl, hAle, hAr, Y, hY⟩ := formatUneven_list hwf hne hnf hnf1 (by omega) hlen
  obtain ⟨t, htt, hset⟩ : ∃ t, (t = .uniVar ∨ t = .multiVar) ∧
      setFitTransform o (.list xs) = ({ o with transformType := t }, .ok ()) := by
    rcases hty with (h | h) | h
    · refine ⟨.multiVar, Or.inr rfl, ?_⟩
      rw [C34_fixed_type o (Or.inr (Or.inr (Or.inr h))), ← h]
    · refine ⟨.uniVar, Or.inl rfl, ?_⟩
      rw [C34_fixed_type o (Or.inr (Or.inr (Or.inl h))), ← h]
    · obtain ⟨x, xs', rfl⟩ := List.exists_cons_of_ne_nil hne
      have hc := (C34_auto_list x xs').1
      by_cases h1 : x.rows.length > 1
      · rw [if_pos h1] at hc
        exact ⟨.multiVar, Or.inr rfl, by simp [setFitTransform, h, hc]⟩
      · rw [if_neg h1] at hc
        exact ⟨.uniVar, Or.inl rfl, by simp [setFitTransform, h, hc]⟩
  have htc : t.Concrete := by rcases htt with rfl | rfl <;> simp [TType.Concrete]
  have htv : t.Var := by rcases htt with rfl | rfl <;> simp [TType.Var]
  have hload : loadTrain { o with transformType := t } (.list xs) =
      ({ o with transformType := t, minLen := some m }, .ok (A, xs.map Mat.len)) := by
    rcases hm with h | ⟨h, x, hx, hxm⟩
    · rw [loadTrain_var_some (o := { o with transformType := t }) htv hf hY h, ← h]
    · refine loadTrain_var_none (o := { o with transformType := t }) htv hf hY h ?_
      obtain ⟨m', hm'⟩ : ∃ m', nmin (xs.map Mat.len) = .ok m' := by
        cases xs with
        | nil => exact absurd rfl hne
        | cons x xs => exact ⟨_, rfl⟩
      obtain ⟨h1, h2⟩ := nmin_spec hm'
      rw [hm']
      congr 1
      obtain ⟨x', hx', hxm'⟩ := List.mem_map.1 h2
      have := hlen x' hx'
      have := h1 _ (List.mem_map.2 ⟨x, hx, rfl⟩)
      omega
  obtain ⟨sizes, hcp, hsne, hsb⟩ := hp.sizes hm4
  obtain ⟨o1, w1, c, seed, hprep, e1, e2, -, ha, -, -, k1, k2⟩ := prepare_forward env o w y htc hset
    hload hp.nSamples hcp
  have hv : ValidVL c.args m (xs.map Mat.len) := by
    rw [ha]
    exact {
      data := ⟨by rw [hy, hAl], by simp [hAl], fun s hs => by rw [(hAr s hs).1, hAf], fun s hs => (hAr s hs).2,
        hAle, by simpa using hlen⟩
      ne := by
        intro h
        simp only at h
        rw [h] at hAl
        exact hne (List.length_eq_zero_iff.1 hAl.symm)
      nf := by simpa only [hAf] using hnf1
      perc := ⟨hp.perc.1, hp.perc.2.1, hp.perc.2.2⟩
      nShp := hp.nShp
      sizes := hsne
      bounds := hsb }
  have hph : c.args.phase = o.phase := by rw [ha]
  have hnf' : c.args.nf = nf := by rw [ha]; exact hAf
  have hgetD : ∀ (zs : List (Mat ℝ)) (i : Nat), i < zs.length → (∀ z ∈ zs, m ≤ z.len) →
      m ≤ (zs.map Mat.len).getD i 0 ∧ (zs.map Mat.len).getD i 0 ∈ zs.map Mat.len := by
    intro zs i hi hz
    have hi' : i < (zs.map Mat.len).length := by simpa using hi
    rw [getD_lt 0 hi']
    refine ⟨?_, List.getElem_mem hi'⟩
    rw [List.getElem_map]
    exact hz _ (List.getElem_mem hi)
  rcases htt with rfl | rfl
  · obtain ⟨S, hS, hap⟩ := C43_fit_transform_univariate_variable_length hv (env.seedG seed) gs ho
    have hwfS : ShpWF (.u S) nf := by
      obtain ⟨S', h1, h2, -⟩ := C20_fit_univariate_variable_length hv (env.seedG seed) gs
      have := h1 order ho
      rw [hS, Except.ok.injEq] at this
      rw [this]
      exact h2
    refine ⟨{ o1 with shapelets := some (.u S) }, w1, .u S, ?_, rfl, hwfS, e2, ?_⟩
    · unfold Rdst.fit
      rw [hprep]
      simp only
      rw [k1 rfl]
      simp [Call.run, hS, Except.map]
    · intro zs hzwf hzne hznf hzlen
      obtain ⟨B, hBf', hBf, hBl, hBle, hBr, Z, hZ⟩ := formatUneven_list hzwf hzne hznf hnf1 (by omega) hzlen
      obtain ⟨M, hM, hgood⟩ := hap B.data (zs.map Mat.len) (by simp [hBl]) (by
        intro s hs
        have := (hBr s hs).1
        exact List.ne_nil_of_length_pos (by omega)) (by
        intro i hi
        obtain ⟨h1, h2⟩ := hgetD zs i (by omega) hzlen
        refine ⟨h1, ?_⟩
        have hs := getD_lt ([] : List (List ℝ)) hi
        have hsm : B.data.getD i [] ∈ B.data := by rw [hs]; exact List.getElem_mem hi
        have h3 := hBr _ hsm
        have h4 : 0 < (B.data.getD i []).length := by omega
        have h5 : (B.data.getD i []).getD 0 [] ∈ B.data.getD i [] := by
          rw [getD_lt [] h4]; exact List.getElem_mem h4
        rw [h3.2 _ h5]
        exact hBle _ h2)
      refine ⟨M, ?_, by rw [← hBl]; exact hgood⟩
      unfold Rdst.transform
      simp only [e1, e2]
      rw [if_pos (by simp), hBf']
      rw [hph] at hM
      simpa [Bind.bind, Except.bind, hZ] using hM
  · have hmc1 : 1 ≤ o.maxChannels.getD A.nf := by
      cases hm : o.maxChannels with
      | none => rw [Option.getD_none, hAf]; exact hnf1
      | some m => exact (hmc m hm).1
    have hmc2 : o.maxChannels.getD A.nf ≤ c.args.nf := by
      rw [hnf']
      cases hm : o.maxChannels with
      | none => rw [Option.getD_none, hAf]
      | some m => exact (hmc m hm).2
    obtain ⟨S, hS, hap⟩ := C43_fit_transform_multivariate_variable_length hv hmc1 hmc2 (env.seedG seed)
      gs ho
    have hwfS : ShpWF (.m S) nf := by
      obtain ⟨S', h1, h2, -⟩ := C22_fit_multivariate_variable_length hv hmc1 hmc2 (env.seedG seed) gs
      have := h1 order ho
      rw [hS, Except.ok.injEq] at this
      rw [this]
      exact hnf' ▸ h2
    refine ⟨{ o1 with shapelets := some (.m S) }, w1, .m S, ?_, rfl, hwfS, e2, ?_⟩
    · unfold Rdst.fit
      rw [hprep]
      simp only
      rw [k2 rfl]
      simp [Call.run, hS, Except.map]
    · intro zs hzwf hzne hznf hzlen
      obtain ⟨B, hBf', hBf, hBl, hBle, hBr, Z, hZ⟩ := formatUneven_list hzwf hzne hznf hnf1 (by omega) hzlen
      obtain ⟨M, hM, hgood⟩ := hap B.data B.nt (zs.map Mat.len) (by simp [hBl]) (by
        intro s hs
        rw [hnf']
        exact hBr s hs) (by
        intro i hi
        obtain ⟨h1, h2⟩ := hgetD zs i (by omega) hzlen
        exact ⟨h1, hBle _ h2⟩)
      refine ⟨M, ?_, by rw [← hBl]; exact hgood⟩
      unfold Rdst.transform
      simp only [e1, e2]
      rw [if_pos (by simp), hBf']
      rw [hph] at hM
      simpa [Bind.bind, Except.bind, hZ] using hM

/-! ## Concrete objects and data -/

/-- An environment: seeds and sample selections are simple functions of a natural-number state. -/
def exEnv (g : G) : Env G Nat Nat where
  seedG _ := g
  nextSeed r := (r, r + 1)
  resample r n _ k _ := .ok ((List.range k.toNat).map fun i => (i + r) % n, r + 1)
  cpu := 4
  maxThreads := 4

/-- A fresh object with lengths `[3]`, four shapelets and type `t`. -/
noncomputable def exObj (t : TType) : Rdst ℝ Nat where
  transformType := t
  phase := false
  alpha := 1 / 2
  normalizeOutput := false
  nSamples := none
  nShp := 4
  lens := .ints [3]
  bounds := none
  reduction := 1 / 2
  prime := true
  pNorm := 1 / 2
  pMin := 5
  pMax := 50
  rs := .own 7
  nJobs := 1
  maxChannels := none
  minLen := none
  shapelets := none

theorem exObj_good (t : TType) (m : Nat) : GoodParams (exObj t) m where
  nShp := by simp [exObj]
  perc := by norm_num [exObj]
  nSamples := rfl
  red := by norm_num [exObj]
  lens _ := Or.inl ⟨[3], rfl, by simp, by simp⟩

/-- Two series of five points. -/
noncomputable def exArr : Arr3 ℝ := ⟨[[[0, 1, 2, 3, 4]], [[1, 1, 0, 0, 2]]], 1, 5⟩

/-- Two series of five and four points. -/
noncomputable def exList : List (Mat ℝ) := [⟨[[0, 1, 2, 3, 4]], 5⟩, ⟨[[7, 8, 9, 8]], 4⟩]

/-- The hypotheses of `C43_object_same_length` are met. -/
example (g : G) (w : World Nat) (gs : Nat → G) :
    ∃ o' w' S, (exObj .auto).fit (exEnv g) gs List.range w (.array .float64 exArr) [0, 1] = (o', w', .ok ()) ∧
      o'.shapelets = some S ∧
      ∃ M, o'.transform (.array .float64 exArr) = .ok M ∧ GoodMatrix M 2 (Shapelets.count S) := by
  have hwf : (XIn.array .float64 exArr).WF := by simp [XIn.WF, exArr]
  obtain ⟨o', w', S, h1, h2, -, -, -, h3⟩ := C43_object_same_length (exEnv g) (exObj .auto) w .float64 exArr [0, 1]
    (Or.inr (Or.inr ⟨rfl, by simp⟩)) hwf (by simp [exArr]) (by simp [exArr]) (by simp [exArr])
    (by simp [exArr]) (exObj_good _ _) (by simp [exObj]) gs (order := List.range) (fun _ => List.Perm.refl _)
  exact ⟨o', w', S, h1, h2, h3 .float64 exArr hwf (by simp [exArr]) rfl le_rfl⟩

theorem exList_wf : ∀ x ∈ exList, x.WF := by simp [exList, Mat.WF]

/-- The hypotheses of `C43_object_variable_length` are met. -/
example (g : G) (w : World Nat) (gs : Nat → G) :
    ∃ o' w' S, (exObj .auto).fit (exEnv g) gs List.range w (.list exList) [0, 1] = (o', w', .ok ()) ∧
      o'.shapelets = some S ∧
      ∃ M, o'.transform (.list exList) = .ok M ∧ GoodMatrix M 2 (Shapelets.count S) := by
  obtain ⟨o', w', S, h1, h2, -, -, h3⟩ := C43_object_variable_length (exEnv g) (exObj .auto) w exList [0, 1]
    (Or.inr rfl) exList_wf (by simp [exList]) 1 le_rfl (by simp [exList]) 4 le_rfl (by simp [exList])
    (Or.inr ⟨rfl, by simp [exList]⟩)
    (by simp [exList]) (exObj_good _ _) (by simp [exObj]) gs (order := List.range) (fun _ => List.Perm.refl _)
  exact ⟨o', w', S, h1, h2, h3 exList exList_wf (by simp [exList]) (by simp [exList]) (by simp [exList])⟩

/-! ## C41, C42: subsampling of variable-length data, and its source of randomness -/

/-- `fit` of the subsampling object on the two series of five and four points, in a process whose
global generator is in state `r`: sample `r mod 2` is selected, and the true lengths passed on are
those of both series. -/
theorem exSub (g : G) (r : Nat) (n : Int) :
    ∃ o' w' a seed, ({ exObj .uniVar with nSamples := some (1 / 2) } : Rdst ℝ Nat).prepare (exEnv g) ⟨r, n⟩
        (.list exList) [0, 0] = (o', w', .ok (.uvl a 4 [5, 4], seed)) ∧
      a.X = [if r % 2 = 0 then [[0, 1, 2, 3, 4]] else [[7, 8, 9, 8, 0]]] := by
  have hset := C34_fixed_type ({ exObj .uniVar with nSamples := some (1 / 2) } : Rdst ℝ Nat)
    (Or.inr (Or.inr (Or.inl rfl))) (.list exList)
  have hf : formatUneven (.list exList) =
      .ok (⟨[[[0, 1, 2, 3, 4]], [[7, 8, 9, 8, 0]]], 1, 5⟩, [5, 4]) := by
    simp [formatUneven, exList, samples, Bind.bind, Except.bind, nmax, pure, Except.pure, padRow]
  have hload : loadTrain ({ exObj .uniVar with nSamples := some (1 / 2) } : Rdst ℝ Nat) (.list exList) =
      ({ exObj .uniVar with nSamples := some (1 / 2), minLen := some 4 },
        .ok (⟨[[[0, 1, 2, 3, 4]], [[7, 8, 9, 8, 0]]], 1, 5⟩, [5, 4])) := by
    rcases C62_check_array_3D (Arr3.py (K := ℝ) ⟨[[[0, 1, 2, 3, 4]], [[7, 8, 9, 8, 0]]], 1, 5⟩) false 2
      with ⟨-, -, Y, hY, -⟩ | ⟨hn, -⟩
    · exact loadTrain_var_none (Or.inr rfl) hf hY rfl rfl
    · exact absurd ⟨Or.inr rfl, 2, 1, 5, rfl, by omega, by omega, by omega, by omega, by simp⟩ hn
  have hsub : subsample (exEnv g) (some (1 / 2 : ℝ)) ⟨r, n⟩ ⟨[[[0, 1, 2, 3, 4]], [[7, 8, 9, 8, 0]]], 1, 5⟩
      [0, 0] = (⟨r + 1, n⟩, .ok (⟨[if r % 2 = 0 then [[0, 1, 2, 3, 4]] else [[7, 8, 9, 8, 0]]], 1, 5⟩, [0])) := by
    have h1 : Scalar.ltb (1 / 2 : ℝ) 1 = true := by rw [real_ltb]; norm_num
    have h2 : Scalar.trunc (Scalar.ofNat 2 * (1 / 2) : ℝ) = 1 := by
      rw [real_ofNat, real_trunc]; norm_num
    simp only [subsample, h1, if_true, resampleXY, List.length_cons, List.length_nil]
    norm_num only [h2]
    rcases Nat.mod_two_eq_zero_or_one r with h | h <;>
      simp [exEnv, h, takeIds, Bind.bind, Except.bind, pure, Except.pure]
  have hcp : checkParams (setLengths (exObj .uniVar).lens (exObj .uniVar).bounds (exObj .uniVar).reduction 4) 4
      = .ok [3] := by
    rw [checkParams_eq]; simp [exObj, setLengths, intLengths]
  obtain ⟨o', w', c, seed, hp, -, -, -, ha, -, -, k, -⟩ := prepare_forward' (exEnv g)
    ({ exObj .uniVar with nSamples := some (1 / 2) } : Rdst ℝ Nat) ⟨r, n⟩ ⟨r + 1, n⟩ (t := .uniVar)
    (Or.inr (Or.inr (Or.inl rfl))) hset hload hsub hcp
  refine ⟨o', w', c.args, seed, ?_, by rw [ha]⟩
  rw [← k rfl]
  exact hp

/-- **C41 (violated).** With `n_samples=0.5` on two series of five and four points the fitter can get
the four-point series alone, with the announced length 5, so that its padding counts as data. -/
theorem C41_wrong_length (g : G) : ∃ o' w' a seed,
    ({ exObj .uniVar with nSamples := some (1 / 2) } : Rdst ℝ Nat).prepare (exEnv g) ⟨1, 1⟩
      (.list exList) [0, 0] = (o', w', .ok (.uvl a 4 [5, 4], seed)) ∧ a.X = [[[7, 8, 9, 8, 0]]] := by
  simpa using exSub g 1 1

/-- **C42 (violated).** With `n_samples` set, the training set seen by the fitter depends on the state
of NumPy's global generator even though the object has a `random_state` of its own. -/
theorem C42_subsampling_uses_global_generator (g : G) : ∃ (o : Rdst ℝ Nat) (r : Nat), o.rs = .own r ∧
    ∃ (X : XIn ℝ) (y : List Nat) (w1 w2 : World Nat) (c1 c2 : Call ℝ Nat) (s1 s2 : Nat),
      (o.prepare (exEnv g) w1 X y).2.2 = .ok (c1, s1) ∧ (o.prepare (exEnv g) w2 X y).2.2 = .ok (c2, s2) ∧
      c1.args.X ≠ c2.args.X := by
  obtain ⟨o1, w1, a1, s1, h1, e1⟩ := exSub g 0 1
  obtain ⟨o2, w2, a2, s2, h2, e2⟩ := exSub g 1 1
  refine ⟨_, 7, rfl, .list exList, [0, 0], ⟨0, 1⟩, ⟨1, 1⟩, _, _, s1, s2, by rw [h1], by rw [h2], ?_⟩
  show a1.X ≠ a2.X
  rw [e1, e2]
  norm_num

end real

end Convst.Props
