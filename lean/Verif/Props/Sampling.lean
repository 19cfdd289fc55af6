import Verif.Proofs.SamplingRules
import Verif.Props.RoundedFit
import Verif.Props.MissingFit
import Verif.Props.IeeeFit

/-!
# C116: the sampling rules of `fit` in floating-point arithmetic

The rules stated for real numbers in `Props/Fit.lean`, for the numbers the program computes with: where shapelets are
read, how far they lie apart, when one is dropped, their dilations and their normalisation flags.
-/

set_option autoImplicit false
set_option linter.unusedSectionVars false

namespace Convst.Props
open Convst Spec

section
variable {K L R G : Type} [Scalar K] [Gen G K]

theorem rules_array {nf mc : Nat} {o : Rdst K R} {A : Arr3 K} {y : List L} {sizes : List Nat} {S : Shapelets K}
    {draw : K → Prop} (hd : ∀ u, Drawable G u → draw u) (hS : ShpWF S nf)
    (h : Sampling (arraySetting (Drawable G) o A y sizes) mc S) : Rules (arraySetting draw o A y sizes) mc S :=
  sampling_rules hS (sampling_mono (draw' := draw) (thr' := ThrFrom o.pMin o.pMax draw) hd
    (fun _ _ => ThrFrom.mono hd) h)

theorem rules_list {nf nf' m mc : Nat} {o : Rdst K R} {xs : List (Mat K)} {y : List L} {sizes : List Nat}
    {S : Shapelets K} {draw : K → Prop} (hd : ∀ u, Drawable G u → draw u) (hS : ShpWF S nf)
    (h : Sampling (listSetting (Drawable G) o xs nf' m y sizes) mc S) :
    Rules (listSetting draw o xs nf' m y sizes) mc S :=
  sampling_rules hS (sampling_mono (draw' := draw) (thr' := ThrFrom o.pMin o.pMax draw) hd
    (fun _ _ => ThrFrom.mono hd) h)

end

section rounded
variable {r : Rounding} {δ : ℝ} {N : Nat} {G R L : Type} [Gen G (Fl r)] [LawfulFl G] [DecidableEq L]

/-- **C116.** `fit` in floating-point arithmetic, equal-length series: the shapelets follow the sampling
rules.  Each is read at a usable position of a training series, or dropped when there is none; those read from the
same series with the same dilation and flag share few time points; prime dilations are prime or 1; each flag is the
outcome of a comparison of a number drawn in `[0, 1)` with `proba_norm`. -/
theorem C116_rounded_same_length (hacc : Accurate r δ N) (hN : 100 ≤ N) (env : Env G R L)
    (o : Rdst (Fl r) R) (w : World R) (dt : DType) (A : Arr3 (Fl r)) (y : List L)
    (hty : o.transformType = .uni ∨ o.transformType = .multi ∨ o.transformType = .auto ∧ dt ≠ .otherDtype)
    (hWF : (XIn.array dt A).WF) (hne : A.data ≠ []) (hnf : 1 ≤ A.nf) (hnt : 4 ≤ A.nt) (hntN : A.nt < N)
    (hy : y.length = A.data.length) (hp : FlParams o A.nt N)
    (hmc : ∀ m, o.maxChannels = some m → 1 ≤ m ∧ m ≤ A.nf) (gs : Nat → G) :
    ∃ o' w' S, ∃ sizes : List Nat,
      (∀ order, IsSchedule order → o.fit env gs order w (.array dt A) y = (o', w', .ok ())) ∧
      o'.shapelets = some S ∧ (∀ l ∈ sizes, 2 ≤ l ∧ l ≤ A.nt) ∧
      Rules (arraySetting (fun u => 0 ≤ u.val ∧ u.val < 1) o A y sizes) (o.maxChannels.getD A.nf) S := by
  obtain ⟨o', w', S, sizes, h1, h2, h3, -, h5, h6, -⟩ := object_same_length fl_eqb_zero env o w dt A y hty hWF hne hnf
    hnt hy (FlParams.any hacc hN hntN hp) (drawSafe_fl hacc (by omega)) hmc gs
  exact ⟨o', w', S, sizes, h1, h2, h3, rules_array drawable_fl (learned_wf h5) h6.1⟩

/-- **C116.** The same for series of different lengths given as a list of 2D arrays. -/
theorem C116_rounded_variable_length (hacc : Accurate r δ N) (hN : 100 ≤ N) (env : Env G R L)
    (o : Rdst (Fl r) R) (w : World R) (xs : List (Mat (Fl r))) (y : List L)
    (hty : o.transformType.Var ∨ o.transformType = .auto)
    (hwf : ∀ x ∈ xs, x.WF) (hne : xs ≠ []) (nf : Nat) (hnf1 : 1 ≤ nf)
    (hnf : ∀ x ∈ xs, x.rows.length = nf) (m : Nat) (hm4 : 4 ≤ m) (hmN : m < N) (hlen : ∀ x ∈ xs, m ≤ x.len)
    (hm : o.minLen = some m ∨ o.minLen = none ∧ ∃ x ∈ xs, x.len = m)
    (hy : y.length = xs.length) (hp : FlParams o m N)
    (hmc : ∀ k, o.maxChannels = some k → 1 ≤ k ∧ k ≤ nf) (gs : Nat → G) :
    ∃ o' w' S, ∃ sizes : List Nat,
      (∀ order, IsSchedule order → o.fit env gs order w (.list xs) y = (o', w', .ok ())) ∧
      o'.shapelets = some S ∧ (∀ l ∈ sizes, 2 ≤ l ∧ l ≤ m) ∧
      Rules (listSetting (fun u => 0 ≤ u.val ∧ u.val < 1) o xs nf m y sizes) (o.maxChannels.getD nf) S := by
  obtain ⟨o', w', S, sizes, h1, h2, h3, -, h5, h6, -⟩ := object_variable_length fl_eqb_zero env o w xs y hty hwf hne nf
    hnf1 hnf m hm4 hlen hm hy (FlParams.any hacc hN hmN hp) (drawSafe_fl hacc (by omega)) hmc gs
  exact ⟨o', w', S, sizes, h1, h2, h3, rules_list drawable_fl (learned_wf h5) h6⟩

end rounded

section
variable {G : Type} [Gen G Nf] [LawfulNf G]

theorem drawable_nf (u : Nf) (h : Drawable G u) : UnitNum u := by
  obtain ⟨g, rfl⟩ := h
  obtain ⟨v, h1, h2, h3⟩ := LawfulNf.unit_num g
  exact ⟨v, h1, h2, h3⟩

end

section missing
variable {G R L : Type} [Gen G Nf] [LawfulNf G] [DecidableEq L]

/-- **C116.** `fit` on series with missing values, equal-length series: the shapelets follow the sampling
rules.  Each is read at a usable position of a training series, or dropped when there is none; those read from the
same series with the same dilation and flag share few time points; prime dilations are prime or 1; each flag is the
outcome of a comparison of a number drawn in `[0, 1)` with `proba_norm`. -/
theorem C116_missing_same_length (env : Env G R L)
    (o : Rdst (Nf) R) (w : World R) (dt : DType) (A : Arr3 (Nf)) (y : List L)
    (hty : o.transformType = .uni ∨ o.transformType = .multi ∨ o.transformType = .auto ∧ dt ≠ .otherDtype)
    (hWF : (XIn.array dt A).WF) (hne : A.data ≠ []) (hnf : 1 ≤ A.nf) (hnt : 4 ≤ A.nt)
    (hy : y.length = A.data.length) {qMin qMax : ℝ} (hp : NfParams o A.nt qMin qMax)
    (hmc : ∀ m, o.maxChannels = some m → 1 ≤ m ∧ m ≤ A.nf) (gs : Nat → G) :
    ∃ o' w' S, ∃ sizes : List Nat,
      (∀ order, IsSchedule order → o.fit env gs order w (.array dt A) y = (o', w', .ok ())) ∧
      o'.shapelets = some S ∧ (∀ l ∈ sizes, 2 ≤ l ∧ l ≤ A.nt) ∧
      Rules (arraySetting (UnitNum) o A y sizes) (o.maxChannels.getD A.nf) S := by
  obtain ⟨o', w', S, sizes, h1, h2, h3, -, h5, h6, -⟩ := object_same_length nf_eqb_zero env o w dt A y hty hWF hne hnf
    hnt hy (NfParams.any hp) (drawSafe_nf _) hmc gs
  exact ⟨o', w', S, sizes, h1, h2, h3, rules_array drawable_nf (learned_wf h5) h6.1⟩

/-- **C116.** The same for series of different lengths given as a list of 2D arrays. -/
theorem C116_missing_variable_length (env : Env G R L)
    (o : Rdst (Nf) R) (w : World R) (xs : List (Mat (Nf))) (y : List L)
    (hty : o.transformType.Var ∨ o.transformType = .auto)
    (hwf : ∀ x ∈ xs, x.WF) (hne : xs ≠ []) (nf : Nat) (hnf1 : 1 ≤ nf)
    (hnf : ∀ x ∈ xs, x.rows.length = nf) (m : Nat) (hm4 : 4 ≤ m) (hlen : ∀ x ∈ xs, m ≤ x.len)
    (hm : o.minLen = some m ∨ o.minLen = none ∧ ∃ x ∈ xs, x.len = m)
    (hy : y.length = xs.length) {qMin qMax : ℝ} (hp : NfParams o m qMin qMax)
    (hmc : ∀ k, o.maxChannels = some k → 1 ≤ k ∧ k ≤ nf) (gs : Nat → G) :
    ∃ o' w' S, ∃ sizes : List Nat,
      (∀ order, IsSchedule order → o.fit env gs order w (.list xs) y = (o', w', .ok ())) ∧
      o'.shapelets = some S ∧ (∀ l ∈ sizes, 2 ≤ l ∧ l ≤ m) ∧
      Rules (listSetting (UnitNum) o xs nf m y sizes) (o.maxChannels.getD nf) S := by
  obtain ⟨o', w', S, sizes, h1, h2, h3, -, h5, h6, -⟩ := object_variable_length nf_eqb_zero env o w xs y hty hwf hne nf
    hnf1 hnf m hm4 hlen hm hy (NfParams.any hp) (drawSafe_nf _) hmc gs
  exact ⟨o', w', S, sizes, h1, h2, h3, rules_list drawable_nf (learned_wf h5) h6⟩

end missing

section ieee
variable {F : FloatFormat} {δ t big : ℝ} {N : Nat} {G R L : Type} [Gen G (Ieee F)] [LawfulIeee G (F := F)] [DecidableEq L]

/-- **C116.** `fit` on numbers of a bounded range, with infinite and missing values, equal-length series: the shapelets follow the sampling
rules.  Each is read at a usable position of a training series, or dropped when there is none; those read from the
same series with the same dilation and flag share few time points; prime dilations are prime or 1; each flag is the
outcome of a comparison of a number drawn in `[0, 1)` with `proba_norm`. -/
theorem C116_ieee_same_length (h : Ranged F δ t big N) (env : Env G R L)
    (o : Rdst (Ieee F) R) (w : World R) (dt : DType) (A : Arr3 (Ieee F)) (y : List L)
    (hty : o.transformType = .uni ∨ o.transformType = .multi ∨ o.transformType = .auto ∧ dt ≠ .otherDtype)
    (hWF : (XIn.array dt A).WF) (hne : A.data ≠ []) (hnf : 1 ≤ A.nf) (hnt : 4 ≤ A.nt) (hntN : A.nt < N)
    (hy : y.length = A.data.length) (hp : IeeeParams o A.nt N)
    (hmc : ∀ m, o.maxChannels = some m → 1 ≤ m ∧ m ≤ A.nf) (gs : Nat → G) :
    ∃ o' w' S, ∃ sizes : List Nat,
      (∀ order, IsSchedule order → o.fit env gs order w (.array dt A) y = (o', w', .ok ())) ∧
      o'.shapelets = some S ∧ (∀ l ∈ sizes, 2 ≤ l ∧ l ≤ A.nt) ∧
      Rules (arraySetting (UnitDraw) o A y sizes) (o.maxChannels.getD A.nf) S := by
  obtain ⟨o', w', S, sizes, h1, h2, h3, -, h5, h6, -⟩ := object_same_length ieee_eqb_zero env o w dt A y hty hWF hne hnf
    hnt hy (IeeeParams.any h hntN hp) (drawSafe_ieee h (by omega)) hmc gs
  exact ⟨o', w', S, sizes, h1, h2, h3, rules_array drawable_ieee (learned_wf h5) h6.1⟩

/-- **C116.** The same for series of different lengths given as a list of 2D arrays. -/
theorem C116_ieee_variable_length (h : Ranged F δ t big N) (env : Env G R L)
    (o : Rdst (Ieee F) R) (w : World R) (xs : List (Mat (Ieee F))) (y : List L)
    (hty : o.transformType.Var ∨ o.transformType = .auto)
    (hwf : ∀ x ∈ xs, x.WF) (hne : xs ≠ []) (nf : Nat) (hnf1 : 1 ≤ nf)
    (hnf : ∀ x ∈ xs, x.rows.length = nf) (m : Nat) (hm4 : 4 ≤ m) (hmN : m < N) (hlen : ∀ x ∈ xs, m ≤ x.len)
    (hm : o.minLen = some m ∨ o.minLen = none ∧ ∃ x ∈ xs, x.len = m)
    (hy : y.length = xs.length) (hp : IeeeParams o m N)
    (hmc : ∀ k, o.maxChannels = some k → 1 ≤ k ∧ k ≤ nf) (gs : Nat → G) :
    ∃ o' w' S, ∃ sizes : List Nat,
      (∀ order, IsSchedule order → o.fit env gs order w (.list xs) y = (o', w', .ok ())) ∧
      o'.shapelets = some S ∧ (∀ l ∈ sizes, 2 ≤ l ∧ l ≤ m) ∧
      Rules (listSetting (UnitDraw) o xs nf m y sizes) (o.maxChannels.getD nf) S := by
  obtain ⟨o', w', S, sizes, h1, h2, h3, -, h5, h6, -⟩ := object_variable_length ieee_eqb_zero env o w xs y hty hwf hne nf
    hnf1 hnf m hm4 hlen hm hy (IeeeParams.any h hmN hp) (drawSafe_ieee h (by omega)) hmc gs
  exact ⟨o', w', S, sizes, h1, h2, h3, rules_list drawable_ieee (learned_wf h5) h6⟩

end ieee

/-! ## The computed limits -/

section limits
variable {r : Rounding} {δ : ℝ} {N : Nat}

theorem limit_eq (alpha : Fl r) (m : Nat) :
    shareLimit alpha m = ⌊max 1 (r.rnd (r.rnd (1 - alpha.val) * r.rnd m))⌋ := by
  unfold shareLimit
  have hx : ((1 - alpha) * Scalar.ofNat m : Fl r).val = r.rnd (r.rnd (1 - alpha.val) * r.rnd m) := by
    rw [fl_mul, fl_sub, fl_one, fl_ofNat]
  by_cases h : Scalar.ltb 1 ((1 - alpha) * Scalar.ofNat m) = true
  · rw [if_pos h, fl_trunc]
    rw [fl_ltb, fl_one] at h
    rw [if_pos (by linarith), max_eq_right (by rw [← hx]; exact h.le), hx]
  · rw [if_neg h, fl_trunc]
    rw [fl_ltb, fl_one, hx] at h
    rw [fl_one, if_pos (by norm_num), max_eq_left (not_lt.1 h)]

/-- **C116.** The limit on the number of shared time points as computed in floating-point arithmetic: between 1 and
the length, and `max(1, (1-alpha)*m)` rounded down up to two rounding errors. -/
theorem C116_limit_rounded (hacc : Accurate r δ N) {alpha : Fl r} (h0 : 0 ≤ alpha.val) (h1 : alpha.val ≤ 1) {m : Nat}
    (hm : 1 ≤ m) (hmN : m ≤ N) :
    1 ≤ shareLimit alpha m ∧ shareLimit alpha m ≤ m ∧
      (shareLimit alpha m : ℝ) ≤ max 1 ((1 + r.u) ^ 2 * ((1 - alpha.val) * m)) ∧
      (1 - r.u) ^ 2 * ((1 - alpha.val) * m) < shareLimit alpha m + 1 := by
  have hm' : (1 : ℝ) ≤ m := by exact_mod_cast hm
  have e := hacc.nat m hmN
  have hu0 := r.u_nonneg
  have hu1 := r.u_lt
  have a0 : 0 ≤ 1 - alpha.val := by linarith
  have a1 : r.rnd (1 - alpha.val) ≤ 1 := by
    have := r.mono (show 1 - alpha.val ≤ 1 by linarith)
    rwa [r.one] at this
  have a2 := r.nonneg a0
  have a3 := r.le_of a0
  have a4 := r.ge_of a0
  have b0 : 0 ≤ r.rnd (1 - alpha.val) * m := by positivity
  have b1 : r.rnd (r.rnd (1 - alpha.val) * m) ≤ m := by
    have := r.mono (show r.rnd (1 - alpha.val) * m ≤ m by nlinarith)
    rwa [e] at this
  have b3 := r.le_of b0
  have b4 := r.ge_of b0
  rw [limit_eq, e]
  refine ⟨?_, ?_, ?_, ?_⟩
  · exact Int.le_floor.2 (by push_cast; exact le_max_left _ _)
  · have := Int.floor_mono (max_le hm' b1)
    rwa [Int.floor_natCast] at this
  · refine (Int.floor_le _).trans (max_le_max le_rfl (b3.trans ?_))
    calc (1 + r.u) * (r.rnd (1 - alpha.val) * m) ≤ (1 + r.u) * ((1 + r.u) * (1 - alpha.val) * m) := by
          refine mul_le_mul_of_nonneg_left (mul_le_mul_of_nonneg_right a3 (by positivity)) (by linarith)
      _ = _ := by ring
  · refine lt_of_le_of_lt ?_ (Int.lt_floor_add_one _)
    refine le_trans ?_ (le_max_right _ _)
    refine le_trans ?_ b4
    calc _ = (1 - r.u) * ((1 - r.u) * (1 - alpha.val) * m) := by ring
      _ ≤ _ := mul_le_mul_of_nonneg_left (mul_le_mul_of_nonneg_right a4 (by positivity)) (by linarith)

/-- **C116.** Two multivariate shapelets that share too many time points have few channels in common, in
floating-point arithmetic: at most `n - n*alpha` of the `n` channels of the later one, with `n*alpha` as computed. -/
theorem C116_channels_rounded (hacc : Accurate r δ N) {alpha : Fl r} (h0 : 0 ≤ alpha.val) {n common free : Nat}
    (hn : n ≤ N) (hc : free + common ≤ n) (h : enoughOf alpha n free = true) :
    (common : ℝ) ≤ n - r.rnd (n * alpha.val) ∧ (common : ℝ) ≤ n - (1 - r.u) * (n * alpha.val) := by
  unfold enoughOf at h
  rw [fl_leb, fl_mul, fl_ofNat, fl_ofNat, hacc.nat n hn, hacc.nat free (by omega)] at h
  have hc' : (free : ℝ) + common ≤ n := by exact_mod_cast hc
  have := r.ge_of (show 0 ≤ (n : ℝ) * alpha.val by positivity)
  exact ⟨by linarith, by linarith⟩

/-- **C116.** With missing values the limit is the one of real numbers. -/
theorem C116_limit_missing (a : ℝ) (m : Nat) :
    shareLimit (.num a : Nf) m = ⌊max 1 ((1 - a) * (m : ℝ))⌋ := by
  unfold shareLimit
  have hx : ((1 - .num a) * Scalar.ofNat m : Nf) = .num ((1 - a) * m) := rfl
  have ht : ∀ x : ℝ, 1 ≤ x → Scalar.trunc (.num x : Nf) = ⌊x⌋ := by
    intro x hx
    show (if 0 ≤ x then ⌊x⌋ else ⌈x⌉) = _
    rw [if_pos (by linarith)]
  rw [hx, show (1 : Nf) = .num 1 from rfl]
  by_cases h : Scalar.ltb (.num 1) (.num ((1 - a) * m) : Nf) = true
  · rw [if_pos h]
    rw [nf_ltb] at h
    rw [ht _ h.le, max_eq_right h.le]
  · rw [if_neg h]
    rw [nf_ltb] at h
    rw [ht _ le_rfl, max_eq_left (not_lt.1 h)]

/-- **C116.** With missing values, at most the proportion `1-alpha` of the channels is common. -/
theorem C116_channels_missing {a : ℝ} {n common free : Nat} (hc : free + common ≤ n)
    (h : enoughOf (.num a : Nf) n free = true) : (common : ℝ) ≤ (1 - a) * n := by
  unfold enoughOf at h
  rw [nf_ofNat, nf_ofNat, nf_mul, leb_num, decide_eq_true_iff] at h
  have hc' : (free : ℝ) + common ≤ n := by exact_mod_cast hc
  linarith

end limits

section ieeelimits
variable {F : FloatFormat} {δ t big : ℝ} {N : Nat}

/-- **C116.** On numbers of a bounded range the limit is between 1 and the length. -/
theorem C116_limit_ieee (h : Ranged F δ t big N) {a : ℝ} (h0 : 0 ≤ a) (h1 : a ≤ 1) {m : Nat} (hm : 1 ≤ m)
    (hmN : m ≤ N) : 1 ≤ shareLimit (.fin a : Ieee F) m ∧ shareLimit (.fin a : Ieee F) m ≤ m := by
  have b0 : 0 ≤ F.rnd (1 - a) := Ranged'.nonneg h (by linarith)
  have b1 : F.rnd (1 - a) ≤ 1 := by
    have e := h.mono _ _ (by linarith) (show 1 - a ≤ ((1 : Nat) : ℝ) by push_cast; linarith)
    have hl := h.large
    rw [Ranged'.nat h (by omega)] at e
    simpa using e
  have btop : F.rnd (1 - a) < F.top := by
    have := Ranged'.nat_lt_top h (q := 1) (by have := h.large; omega)
    push_cast at this
    linarith
  have hs : (1 - .fin a : Ieee F) = .fin (F.rnd (1 - a)) := by
    show (.fin 1 - .fin a : Ieee F) = _
    rw [ieee_fin_sub, over_nonneg b0 btop]
  obtain ⟨v, -, e, v0, v1⟩ := ieee_mul_unit h hmN b0 b1
  unfold shareLimit
  rw [hs, e]
  have hm' : (1 : ℝ) ≤ m := by exact_mod_cast hm
  by_cases hl : Scalar.ltb (1 : Ieee F) (.fin v) = true
  · rw [if_pos hl, ieee_trunc_nonneg v0]
    rw [show (1 : Ieee F) = .fin 1 from rfl, ieee_ltb_fin, decide_eq_true_iff] at hl
    refine ⟨Int.le_floor.2 (by push_cast; exact hl.le), ?_⟩
    have := Int.floor_mono v1
    rwa [Int.floor_natCast] at this
  · rw [if_neg hl, show (1 : Ieee F) = .fin 1 from rfl, ieee_trunc_nonneg (by norm_num)]
    simp only [Int.floor_one]
    omega

end ieeelimits

/-! ## Flags, and the first shapelet -/

section
variable {r : Rounding} {L : Type}

/-- **C116.** With `proba_norm <= 0` no shapelet is normalised, with `proba_norm >= 1` all are, in floating-point
arithmetic. -/
theorem C116_flags_rounded {E : Setting (Fl r) L} {mc : Nat} {S : Shapelets (Fl r)} (h : Rules E mc S)
    (hd : ∀ u, E.draw u → 0 ≤ u.val ∧ u.val < 1) :
    (E.pNorm.val ≤ 0 → ∀ f ∈ flagsOf S, f = false) ∧ (1 ≤ E.pNorm.val → ∀ f ∈ flagsOf S, f = true) := by
  refine ⟨fun hp f hf => ?_, fun hp f hf => ?_⟩
  · obtain ⟨u, hu, rfl⟩ := h.flag f hf
    have := (hd u hu).1
    rw [← Bool.not_eq_true, fl_ltb]
    linarith
  · obtain ⟨u, hu, rfl⟩ := h.flag f hf
    have := (hd u hu).2
    rw [fl_ltb]
    linarith

/-- **C116.** The first shapelet is never dropped by multivariate `fit` in floating-point arithmetic, with
`alpha <= 1`: at least one shapelet is returned. -/
theorem C116_some_shapelet_rounded {E : Setting (Fl r) L} {mc : Nat} {S : MShp (Fl r)} {δ : ℝ} {N : Nat}
    (hacc : Accurate r δ N) (hmc : mc ≤ N) (h : Rules E mc (.m S)) (h1 : E.alpha.val ≤ 1) (hn : 1 ≤ E.nShp) (hs : 1 ≤ E.ns) (hlen : E.n ≤ E.len 0)
    (hpos : 1 ≤ E.n) : 1 ≤ S.lengths.length := by
  obtain ⟨P, nch, rec, out, kept, ht⟩ := h.sampling
  refine mTraced_first ht hn hs hlen hpos fun n hn => ?_
  unfold enoughOf
  have e := hacc.nat n (by omega)
  rw [fl_leb, fl_mul, fl_ofNat, e]
  have := r.mono (show (n : ℝ) * E.alpha.val ≤ n by nlinarith [(Nat.cast_nonneg n : (0 : ℝ) ≤ n)])
  rwa [e] at this

end

section
variable {r : Rounding} {δ : ℝ} {N : Nat} {G R L : Type} [Gen G (Fl r)] [LawfulFl G] [DecidableEq L]

/-- **C116.** An object asked for the multivariate transform returns at least one shapelet, in floating-point
arithmetic, with `alpha <= 1`. -/
theorem C116_multivariate_not_empty (hacc : Accurate r δ N) (hN : 100 ≤ N) (env : Env G R L)
    (o : Rdst (Fl r) R) (w : World R) (dt : DType) (A : Arr3 (Fl r)) (y : List L) (hty : o.transformType = .multi)
    (hWF : (XIn.array dt A).WF) (hne : A.data ≠ []) (hnf : 1 ≤ A.nf) (hnfN : A.nf ≤ N) (hnt : 4 ≤ A.nt)
    (hntN : A.nt < N) (hy : y.length = A.data.length) (hp : FlParams o A.nt N) (ha : o.alpha.val ≤ 1)
    (hmc : ∀ m, o.maxChannels = some m → 1 ≤ m ∧ m ≤ A.nf) (gs : Nat → G) :
    ∃ o' w' S, (∀ order, IsSchedule order → o.fit env gs order w (.array dt A) y = (o', w', .ok ())) ∧
      o'.shapelets = some (.m S) ∧ 1 ≤ S.lengths.length ∧ S.lengths.length ≤ o.nShp := by
  obtain ⟨o', w', S, sizes, h1, h2, h3, -, h5, ⟨h6, h7⟩, -⟩ := object_same_length fl_eqb_zero env o w dt A y
    (Or.inr (Or.inl hty)) hWF hne hnf hnt hy (FlParams.any hacc hN hntN hp) (drawSafe_fl hacc (by omega)) hmc gs
  obtain ⟨M, rfl⟩ := h7 hty
  refine ⟨o', w', M, h1, h2, ?_, learned_count h5⟩
  have hR := rules_array drawable_fl (learned_wf h5) h6
  refine C116_some_shapelet_rounded hacc ?_ hR ha hp.nShp ?_ le_rfl (show 1 ≤ A.nt by omega)
  · cases hm : o.maxChannels with
    | none => exact hnfN
    | some m => exact (hmc m hm).2.trans hnfN
  · show 1 ≤ A.data.length
    have := List.length_pos_of_ne_nil hne
    omega

end

/-! ## Concrete cases -/

/-- The hypotheses of `C116_multivariate_not_empty` (and of `C116_some_shapelet_rounded`) are met. -/
example (env : Env HalfGen Nat Nat) (w : World Nat) (gs : Nat → HalfGen) :
    ∃ o' w' S, (∀ order, IsSchedule order →
        (dblObj .multi).fit env gs order w (.array .float64 dblArr) [0, 1] = (o', w', .ok ())) ∧
      o'.shapelets = some (.m S) ∧ 1 ≤ S.lengths.length ∧ S.lengths.length ≤ 4 :=
  C116_multivariate_not_empty C100_double_accurate (by norm_num) env (dblObj .multi) w .float64 dblArr [0, 1] rfl
    (by simp [XIn.WF, dblArr]) (by simp [dblArr]) (by simp [dblArr]) (by simp [dblArr]) (by simp [dblArr])
    (by simp [dblArr]) (by simp [dblArr]) (dblObj_ok _ _) (show (1 : ℝ) / 2 ≤ 1 by norm_num) (by simp [dblObj]) gs

/-- The hypotheses of `C116_rounded_same_length` are met in double precision, and what follows for the object: the
dilations are 1 or prime, and the limit for the offered lengths is between 1 and 5. -/
example (env : Env HalfGen Nat Nat) (w : World Nat) (gs : Nat → HalfGen) :
    ∃ o' w' S, (∀ order, IsSchedule order →
        (dblObj .auto).fit env gs order w (.array .float64 dblArr) [0, 1] = (o', w', .ok ())) ∧
      o'.shapelets = some S ∧ (∀ d ∈ dilationsOf S, d = 1 ∨ d.Prime) := by
  have hwf : (XIn.array .float64 dblArr).WF := by simp [XIn.WF, dblArr]
  obtain ⟨o', w', S, sizes, h1, h2, -, h3⟩ := C116_rounded_same_length C100_double_accurate (by norm_num) env
    (dblObj .auto) w .float64 dblArr [0, 1] (Or.inr (Or.inr ⟨rfl, by simp⟩)) hwf (by simp [dblArr]) (by simp [dblArr])
    (by simp [dblArr]) (by simp [dblArr]) (by simp [dblArr]) (dblObj_ok _ _) (by simp [dblObj]) gs
  exact ⟨o', w', S, h1, h2, h3.prime rfl⟩

/-- The hypotheses of `C116_rounded_variable_length` are met. -/
example (env : Env HalfGen Nat Nat) (w : World Nat) (gs : Nat → HalfGen) :
    ∃ o' w' S, (∀ order, IsSchedule order →
        (dblObj .auto).fit env gs order w (.list dblList) [0, 1] = (o', w', .ok ())) ∧
      o'.shapelets = some S ∧ (∀ d ∈ dilationsOf S, d = 1 ∨ d.Prime) := by
  have hwf : ∀ x ∈ dblList, x.WF := by simp [dblList, Mat.WF]
  obtain ⟨o', w', S, sizes, h1, h2, -, h3⟩ := C116_rounded_variable_length C100_double_accurate (by norm_num) env
    (dblObj .auto) w dblList [0, 1] (Or.inr rfl) hwf (by simp [dblList]) 1 le_rfl (by simp [dblList]) 4 le_rfl
    (by norm_num) (by simp [dblList]) (Or.inr ⟨rfl, by simp [dblList]⟩) (by simp [dblList]) (dblObj_ok _ _)
    (by simp [dblObj]) gs
  exact ⟨o', w', S, h1, h2, h3.prime rfl⟩

/-- The hypotheses of `C116_missing_same_length` are met. -/
example (env : Env NfGen Nat Nat) (w : World Nat) (gs : Nat → NfGen) :
    ∃ o' w' S, (∀ order, IsSchedule order →
        (nfObj .auto).fit env gs order w (.array .float64 nfArr) [0, 1] = (o', w', .ok ())) ∧
      o'.shapelets = some S ∧ (∀ d ∈ dilationsOf S, d = 1 ∨ d.Prime) := by
  have hwf : (XIn.array .float64 nfArr).WF := by simp [XIn.WF, nfArr]
  obtain ⟨o', w', S, sizes, h1, h2, -, h3⟩ := C116_missing_same_length env
    (nfObj .auto) w .float64 nfArr [0, 1] (Or.inr (Or.inr ⟨rfl, by simp⟩)) hwf (by simp [nfArr]) (by simp [nfArr])
    (by simp [nfArr]) (by simp [nfArr]) (nfObj_ok _ _) (by simp [nfObj]) gs
  exact ⟨o', w', S, h1, h2, h3.prime rfl⟩

/-- The hypotheses of `C116_missing_variable_length` are met. -/
example (env : Env NfGen Nat Nat) (w : World Nat) (gs : Nat → NfGen) :
    ∃ o' w' S, (∀ order, IsSchedule order →
        (nfObj .auto).fit env gs order w (.list nfList) [0, 1] = (o', w', .ok ())) ∧
      o'.shapelets = some S ∧ (∀ d ∈ dilationsOf S, d = 1 ∨ d.Prime) := by
  have hwf : ∀ x ∈ nfList, x.WF := by simp [nfList, Mat.WF]
  obtain ⟨o', w', S, sizes, h1, h2, -, h3⟩ := C116_missing_variable_length env
    (nfObj .auto) w nfList [0, 1] (Or.inr rfl) hwf (by simp [nfList]) 1 le_rfl (by simp [nfList]) 4 le_rfl
    (by simp [nfList]) (Or.inr ⟨rfl, by simp [nfList]⟩) (by simp [nfList]) (nfObj_ok _ _)
    (by simp [nfObj]) gs
  exact ⟨o', w', S, h1, h2, h3.prime rfl⟩

/-- The hypotheses of `C116_ieee_same_length` are met, on series with infinite and missing values. -/
example (env : Env IeeeGen Nat Nat) (w : World Nat) (gs : Nat → IeeeGen) :
    ∃ o' w' S, (∀ order, IsSchedule order →
        (ieeeObj .auto).fit env gs order w (.array .float64 ieeeArr) [0, 1] = (o', w', .ok ())) ∧
      o'.shapelets = some S ∧ (∀ d ∈ dilationsOf S, d = 1 ∨ d.Prime) := by
  have hwf : (XIn.array .float64 ieeeArr).WF := by simp [XIn.WF, ieeeArr]
  obtain ⟨o', w', S, sizes, h1, h2, -, h3⟩ := C116_ieee_same_length C113_float64 env
    (ieeeObj .auto) w .float64 ieeeArr [0, 1] (Or.inr (Or.inr ⟨rfl, by simp⟩)) hwf (by simp [ieeeArr])
    (by simp [ieeeArr]) (by simp [ieeeArr]) (by simp [ieeeArr]) (by simp [ieeeArr]) (ieeeObj_ok _ _)
    (by simp [ieeeObj]) gs
  exact ⟨o', w', S, h1, h2, h3.prime rfl⟩

/-- The hypotheses of `C116_ieee_variable_length` are met. -/
example (env : Env IeeeGen Nat Nat) (w : World Nat) (gs : Nat → IeeeGen) :
    ∃ o' w' S, (∀ order, IsSchedule order →
        (ieeeObj .auto).fit env gs order w (.list ieeeList) [0, 1] = (o', w', .ok ())) ∧
      o'.shapelets = some S ∧ (∀ d ∈ dilationsOf S, d = 1 ∨ d.Prime) := by
  have hwf : ∀ x ∈ ieeeList, x.WF := by simp [ieeeList, Mat.WF]
  obtain ⟨o', w', S, sizes, h1, h2, -, h3⟩ := C116_ieee_variable_length C113_float64 env
    (ieeeObj .auto) w ieeeList [0, 1] (Or.inr rfl) hwf (by simp [ieeeList]) 1 le_rfl (by simp [ieeeList]) 4 le_rfl
    (by norm_num) (by simp [ieeeList]) (Or.inr ⟨rfl, by simp [ieeeList]⟩) (by simp [ieeeList]) (ieeeObj_ok _ _)
    (by simp [ieeeObj]) gs
  exact ⟨o', w', S, h1, h2, h3.prime rfl⟩

/-- The hypotheses of `C116_limit_rounded` and `C116_channels_rounded` are met: `alpha = 1/2` with length 11, and
with 4 channels of which 2 are free. -/
example : 1 ≤ shareLimit (Fl.mk (1 / 2) : Fl Rounding.double) 11 ∧
    shareLimit (Fl.mk (1 / 2) : Fl Rounding.double) 11 ≤ 11 := by
  have h := C116_limit_rounded C100_double_accurate (alpha := (Fl.mk (1 / 2) : Fl Rounding.double))
    (show (0 : ℝ) ≤ 1 / 2 by norm_num) (show (1 : ℝ) / 2 ≤ 1 by norm_num) (m := 11) (by norm_num) (by norm_num)
  exact ⟨h.1, by exact_mod_cast h.2.1⟩

example : (2 : ℝ) ≤ 4 - (1 - Rounding.double.u) * (4 * (1 / 2)) := by
  have e : Rounding.double.rnd (4 * (1 / 2)) = 2 := by
    have := rndBin_natCast (p := 52) (n := 2) (by norm_num)
    rw [show (4 : ℝ) * (1 / 2) = ((2 : Nat) : ℝ) by norm_num]
    rw [show Rounding.double.rnd ((2 : Nat) : ℝ) = ((2 : Nat) : ℝ) from this]
    norm_num
  have h := (C116_channels_rounded C100_double_accurate (alpha := (Fl.mk (1 / 2) : Fl Rounding.double))
    (show (0 : ℝ) ≤ 1 / 2 by norm_num) (n := 4) (common := 2) (free := 2) (by norm_num) le_rfl (by
      unfold enoughOf
      rw [fl_leb, fl_mul, fl_ofNat, fl_ofNat, C100_double_accurate.nat 4 (by norm_num),
        C100_double_accurate.nat 2 (by norm_num)]
      show Rounding.double.rnd (((4 : Nat) : ℝ) * (1 / 2)) ≤ ((2 : Nat) : ℝ)
      push_cast
      rw [e])).2
  exact_mod_cast h

/-- `C116_limit_missing` on numbers: with `alpha = 1/2` and length 11 five shared time points are allowed. -/
example : shareLimit (.num (1 / 2) : Nf) 11 = 5 := by
  rw [C116_limit_missing, Int.floor_eq_iff]
  norm_num

/-- The hypotheses of `C116_channels_missing` are met. -/
example : ((2 : Nat) : ℝ) ≤ (1 - 1 / 2) * ((4 : Nat) : ℝ) :=
  C116_channels_missing (a := 1 / 2) (n := 4) (common := 2) (free := 2) le_rfl (by
    unfold enoughOf
    rw [nf_ofNat, nf_ofNat, nf_mul, leb_num, decide_eq_true_iff]
    norm_num)

/-- The hypotheses of `C116_limit_ieee` are met. -/
example : shareLimit (.fin (4 / 5) : Ieee .float64) 11 ≤ 11 := by
  have h := C116_limit_ieee C113_float64 (a := 4 / 5) (by norm_num) (by norm_num) (m := 11) (by norm_num)
    (by norm_num)
  exact_mod_cast h.2

/-- The hypotheses of `C116_flags_rounded` are met by a fitted object with `proba_norm = 0`. -/
example (env : Env HalfGen Nat Nat) (w : World Nat) (gs : Nat → HalfGen) :
    ∃ o' w' S, (∀ order, IsSchedule order →
        ({ dblObj .auto with pNorm := Fl.mk 0 } : Rdst (Fl Rounding.double) Nat).fit env gs order w
          (.array .float64 dblArr) [0, 1] = (o', w', .ok ())) ∧
      o'.shapelets = some S ∧ ∀ f ∈ flagsOf S, f = false := by
  have hwf : (XIn.array .float64 dblArr).WF := by simp [XIn.WF, dblArr]
  have hok := dblObj_ok .auto dblArr.nt
  obtain ⟨o', w', S, sizes, h1, h2, -, h3⟩ := C116_rounded_same_length C100_double_accurate (by norm_num) env
    { dblObj .auto with pNorm := Fl.mk 0 } w .float64 dblArr [0, 1] (Or.inr (Or.inr ⟨rfl, by simp⟩)) hwf
    (by simp [dblArr]) (by simp [dblArr])
    (by simp [dblArr]) (by simp [dblArr]) (by simp [dblArr])
    ⟨hok.nShp, hok.pMin, hok.pMax, hok.nSamples, hok.red, hok.bounds, hok.lens⟩ (by simp [dblObj]) gs
  exact ⟨o', w', S, h1, h2, (C116_flags_rounded h3 fun u hu => hu).1 le_rfl⟩

end Convst.Props
