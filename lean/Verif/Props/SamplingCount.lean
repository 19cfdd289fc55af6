import Verif.Proofs.SamplingCount
import Verif.Props.Sampling

/-!
# C116: how many shapelets `fit` returns in floating-point arithmetic

At least `min(n_shapelets, n_samples)`, for the multivariate methods with `alpha <= 1`, for the univariate ones also
with `proba_norm <= 0` and series without zeros; never more than `n_shapelets`.
-/

set_option autoImplicit false
set_option linter.unusedSectionVars false

namespace Convst.Props
open Convst Spec

section
variable {K L R G : Type} [Scalar K] [Gen G K]

theorem rules_count {E : Setting K L} {mc : Nat} {S : Shapelets K} (h : Rules E mc S) (hpos : 1 ≤ E.n)
    (hb : ∀ l ∈ E.sizes, 2 ≤ l ∧ l ≤ E.n) (hlen : ∀ s, s < E.ns → E.n ≤ E.len s)
    (he : ∀ n, n ≤ mc → enoughOf E.alpha n n = true)
    (hu : (∃ M, S = .m M) ∨ (∀ u, E.draw u → Scalar.ltb u E.pNorm = false) ∧
      ∀ s, s < E.ns → (E.series s 0).length = E.len s ∧ ∀ v ∈ E.series s 0, v ≠ 0) :
    min E.nShp E.ns ≤ Shapelets.count S := by
  cases S with
  | u S =>
    obtain ⟨P, rec, out, kept, ht⟩ := h.sampling
    rcases hu with ⟨M, hM⟩ | ⟨h1, h2⟩
    · cases hM
    · exact uTraced_count ht hpos (fun l hl => by have := hb l hl; omega) hlen (fun s hs => (h2 s hs).1) h1
        fun s hs => (h2 s hs).2
  | m S =>
    obtain ⟨P, nch, rec, out, kept, ht⟩ := h.sampling
    exact mTraced_count ht hpos hlen he

theorem array_series {dt : DType} {A : Arr3 K} (hWF : (XIn.array dt A).WF) (hnf : 1 ≤ A.nf)
    (hnz : ∀ x ∈ A.data, ∀ v ∈ x.getD 0 [], v ≠ 0) (s : Nat) (hs : s < A.data.length) :
    ((A.data.getD s []).getD 0 []).length = A.nt ∧ ∀ v ∈ (A.data.getD s []).getD 0 [], v ≠ 0 := by
  rw [getD_lt _ hs]
  refine ⟨?_, hnz _ (List.getElem_mem hs)⟩
  have h := hWF _ (List.getElem_mem hs)
  have h0 : 0 < A.data[s].length := by rw [h.1]; omega
  rw [getD_lt _ h0]
  exact h.2 _ (List.getElem_mem h0)

theorem list_series {xs : List (Mat K)} {nf : Nat} (hwf : ∀ x ∈ xs, x.WF) (hnf1 : 1 ≤ nf)
    (hnf : ∀ x ∈ xs, x.rows.length = nf) (hnz : ∀ x ∈ xs, ∀ v ∈ x.rows.getD 0 [], v ≠ 0) (s : Nat)
    (hs : s < xs.length) :
    (((xs.map Mat.rows).getD s []).getD 0 []).length = (xs.map Mat.len).getD s 0 ∧
      ∀ v ∈ ((xs.map Mat.rows).getD s []).getD 0 [], v ≠ 0 := by
  have e1 : (xs.map Mat.rows).getD s [] = xs[s].rows := by
    rw [getD_lt _ (by simpa using hs), List.getElem_map]
  have e2 : (xs.map Mat.len).getD s 0 = xs[s].len := by
    rw [getD_lt _ (by simpa using hs), List.getElem_map]
  rw [e1, e2]
  have hm := List.getElem_mem hs
  refine ⟨?_, hnz _ hm⟩
  have h0 : 0 < xs[s].rows.length := by rw [hnf _ hm]; omega
  rw [getD_lt _ h0]
  exact hwf _ hm _ (List.getElem_mem h0)

theorem list_len {xs : List (Mat K)} {m : Nat} (hlen : ∀ x ∈ xs, m ≤ x.len) (s : Nat) (hs : s < xs.length) :
    m ≤ (xs.map Mat.len).getD s 0 := by
  rw [getD_lt _ (by simpa using hs), List.getElem_map]
  exact hlen _ (List.getElem_mem hs)

theorem channels_le {o : Rdst K R} {nf N : Nat} (hnf : nf ≤ N) (hmc : ∀ m, o.maxChannels = some m → 1 ≤ m ∧ m ≤ nf) :
    o.maxChannels.getD nf ≤ N := by
  cases hm : o.maxChannels with
  | none => exact hnf
  | some m => exact (hmc m hm).2.trans hnf

end

section rounded
variable {r : Rounding} {δ : ℝ} {N : Nat} {G R L : Type} [Gen G (Fl r)] [LawfulFl G] [DecidableEq L]

theorem enough_rounded (hacc : Accurate r δ N) {alpha : Fl r} (h1 : alpha.val ≤ 1) {n : Nat} (hn : n ≤ N) :
    enoughOf alpha n n = true := by
  unfold enoughOf
  have e := hacc.nat n hn
  rw [fl_leb, fl_mul, fl_ofNat, e]
  have := r.mono (show (n : ℝ) * alpha.val ≤ n by nlinarith [(Nat.cast_nonneg n : (0 : ℝ) ≤ n)])
  rwa [e] at this

/-- **C116.** `fit` in floating-point arithmetic, equal-length series, with `alpha <= 1`: at least
`min(n_shapelets, n_samples)` shapelets are returned by the multivariate method, and by every method when
`proba_norm <= 0` and the first channel has no zeros. -/
theorem C116_count_rounded_same_length (hacc : Accurate r δ N) (hN : 100 ≤ N) (env : Env G R L)
    (o : Rdst (Fl r) R) (w : World R) (dt : DType) (A : Arr3 (Fl r)) (y : List L)
    (hty : o.transformType = .uni ∨ o.transformType = .multi ∨ o.transformType = .auto ∧ dt ≠ .otherDtype)
    (hWF : (XIn.array dt A).WF) (hne : A.data ≠ []) (hnf : 1 ≤ A.nf) (hnfN : A.nf ≤ N) (hnt : 4 ≤ A.nt) (hntN : A.nt < N)
    (hy : y.length = A.data.length) (hp : FlParams o A.nt N) (ha : o.alpha.val ≤ 1)
    (hmc : ∀ m, o.maxChannels = some m → 1 ≤ m ∧ m ≤ A.nf)
    (hu : o.transformType = .multi ∨ (o.pNorm.val ≤ 0) ∧ ∀ x ∈ A.data, ∀ v ∈ x.getD 0 [], v ≠ 0) (gs : Nat → G) :
    ∃ o' w' S, (∀ order, IsSchedule order → o.fit env gs order w (.array dt A) y = (o', w', .ok ())) ∧
      o'.shapelets = some S ∧ min o.nShp A.data.length ≤ Shapelets.count S ∧ Shapelets.count S ≤ o.nShp := by
  obtain ⟨o', w', S, sizes, h1, h2, h3, -, h5, ⟨h6, h7⟩, -⟩ := object_same_length fl_eqb_zero env o w dt A y hty hWF
    hne hnf hnt hy (FlParams.any hacc hN hntN hp) (drawSafe_fl hacc (by omega)) hmc gs
  refine ⟨o', w', S, h1, h2, ?_, learned_count h5⟩
  have hR := rules_array drawable_fl (learned_wf h5) h6
  refine rules_count hR (show 1 ≤ A.nt by omega) h3 (fun _ _ => le_rfl) (fun n hn => enough_rounded hacc ha (hn.trans (channels_le hnfN hmc))) ?_
  rcases hu with hm | ⟨hpn, hnz⟩
  · exact Or.inl (h7 hm)
  · exact Or.inr ⟨fun u hu => by
      have := hu.1
      change Scalar.ltb u o.pNorm = false
      rw [← Bool.not_eq_true, fl_ltb]
      linarith, array_series hWF hnf hnz⟩

/-- **C116.** The same for series of different lengths given as a list of 2D arrays, when `proba_norm <= 0` and the
first channel has no zeros. -/
theorem C116_count_rounded_variable_length (hacc : Accurate r δ N) (hN : 100 ≤ N) (env : Env G R L)
    (o : Rdst (Fl r) R) (w : World R) (xs : List (Mat (Fl r))) (y : List L)
    (hty : o.transformType.Var ∨ o.transformType = .auto)
    (hwf : ∀ x ∈ xs, x.WF) (hne : xs ≠ []) (nf : Nat) (hnf1 : 1 ≤ nf) (hnfN : nf ≤ N)
    (hnf : ∀ x ∈ xs, x.rows.length = nf) (m : Nat) (hm4 : 4 ≤ m) (hmN : m < N) (hlen : ∀ x ∈ xs, m ≤ x.len)
    (hm : o.minLen = some m ∨ o.minLen = none ∧ ∃ x ∈ xs, x.len = m)
    (hy : y.length = xs.length) (hp : FlParams o m N) (ha : o.alpha.val ≤ 1)
    (hmc : ∀ k, o.maxChannels = some k → 1 ≤ k ∧ k ≤ nf)
    (hpn : o.pNorm.val ≤ 0) (hnz : ∀ x ∈ xs, ∀ v ∈ x.rows.getD 0 [], v ≠ 0) (gs : Nat → G) :
    ∃ o' w' S, (∀ order, IsSchedule order → o.fit env gs order w (.list xs) y = (o', w', .ok ())) ∧
      o'.shapelets = some S ∧ min o.nShp xs.length ≤ Shapelets.count S ∧ Shapelets.count S ≤ o.nShp := by
  obtain ⟨o', w', S, sizes, h1, h2, h3, -, h5, h6, -⟩ := object_variable_length fl_eqb_zero env o w xs y hty hwf hne nf
    hnf1 hnf m hm4 hlen hm hy (FlParams.any hacc hN hmN hp) (drawSafe_fl hacc (by omega)) hmc gs
  refine ⟨o', w', S, h1, h2, ?_, learned_count h5⟩
  have hR := rules_list drawable_fl (learned_wf h5) h6
  refine rules_count hR (show 1 ≤ m by omega) h3 (list_len hlen) (fun n hn => enough_rounded hacc ha (hn.trans (channels_le hnfN hmc))) ?_
  exact Or.inr ⟨fun u hu => by
      have := hu.1
      change Scalar.ltb u o.pNorm = false
      rw [← Bool.not_eq_true, fl_ltb]
      linarith, list_series hwf hnf1 hnf hnz⟩

end rounded

section missing
variable {G R L : Type} [Gen G Nf] [LawfulNf G] [DecidableEq L]

theorem enough_missing {alpha : Nf} {a : ℝ} (hal : alpha = .num a) (h1 : a ≤ 1) (n : Nat) : enoughOf alpha n n = true := by
  subst hal
  unfold enoughOf
  rw [nf_ofNat, nf_mul, leb_num, decide_eq_true_iff]
  nlinarith [(Nat.cast_nonneg n : (0 : ℝ) ≤ n)]

/-- **C116.** `fit` on series with missing values, equal-length series, with `alpha <= 1`: at least
`min(n_shapelets, n_samples)` shapelets are returned by the multivariate method, and by every method when
`proba_norm <= 0` and the first channel has no zeros. -/
theorem C116_count_missing_same_length (env : Env G R L)
    (o : Rdst (Nf) R) (w : World R) (dt : DType) (A : Arr3 (Nf)) (y : List L)
    (hty : o.transformType = .uni ∨ o.transformType = .multi ∨ o.transformType = .auto ∧ dt ≠ .otherDtype)
    (hWF : (XIn.array dt A).WF) (hne : A.data ≠ []) (hnf : 1 ≤ A.nf) (hnt : 4 ≤ A.nt)
    (hy : y.length = A.data.length) {qMin qMax : ℝ} (hp : NfParams o A.nt qMin qMax) {a : ℝ} (hal : o.alpha = .num a) (ha : a ≤ 1)
    (hmc : ∀ m, o.maxChannels = some m → 1 ≤ m ∧ m ≤ A.nf)
    (hu : o.transformType = .multi ∨ (∃ p : ℝ, o.pNorm = .num p ∧ p ≤ 0) ∧ ∀ x ∈ A.data, ∀ v ∈ x.getD 0 [], v ≠ 0) (gs : Nat → G) :
    ∃ o' w' S, (∀ order, IsSchedule order → o.fit env gs order w (.array dt A) y = (o', w', .ok ())) ∧
      o'.shapelets = some S ∧ min o.nShp A.data.length ≤ Shapelets.count S ∧ Shapelets.count S ≤ o.nShp := by
  obtain ⟨o', w', S, sizes, h1, h2, h3, -, h5, ⟨h6, h7⟩, -⟩ := object_same_length nf_eqb_zero env o w dt A y hty hWF
    hne hnf hnt hy (NfParams.any hp) (drawSafe_nf _) hmc gs
  refine ⟨o', w', S, h1, h2, ?_, learned_count h5⟩
  have hR := rules_array drawable_nf (learned_wf h5) h6
  refine rules_count hR (show 1 ≤ A.nt by omega) h3 (fun _ _ => le_rfl) (fun n hn => enough_missing hal ha n) ?_
  rcases hu with hm | ⟨hpn, hnz⟩
  · exact Or.inl (h7 hm)
  · exact Or.inr ⟨fun u hu => by
      obtain ⟨p, hp1, hp2⟩ := hpn
      obtain ⟨v, rfl, h0, -⟩ := hu
      change Scalar.ltb (Nf.num v) o.pNorm = false
      rw [hp1, ← Bool.not_eq_true, nf_ltb]
      linarith, array_series hWF hnf hnz⟩

/-- **C116.** The same for series of different lengths given as a list of 2D arrays, when `proba_norm <= 0` and the
first channel has no zeros. -/
theorem C116_count_missing_variable_length (env : Env G R L)
    (o : Rdst (Nf) R) (w : World R) (xs : List (Mat (Nf))) (y : List L)
    (hty : o.transformType.Var ∨ o.transformType = .auto)
    (hwf : ∀ x ∈ xs, x.WF) (hne : xs ≠ []) (nf : Nat) (hnf1 : 1 ≤ nf)
    (hnf : ∀ x ∈ xs, x.rows.length = nf) (m : Nat) (hm4 : 4 ≤ m) (hlen : ∀ x ∈ xs, m ≤ x.len)
    (hm : o.minLen = some m ∨ o.minLen = none ∧ ∃ x ∈ xs, x.len = m)
    (hy : y.length = xs.length) {qMin qMax : ℝ} (hp : NfParams o m qMin qMax) {a : ℝ} (hal : o.alpha = .num a) (ha : a ≤ 1)
    (hmc : ∀ k, o.maxChannels = some k → 1 ≤ k ∧ k ≤ nf)
    (hpn : ∃ p : ℝ, o.pNorm = .num p ∧ p ≤ 0) (hnz : ∀ x ∈ xs, ∀ v ∈ x.rows.getD 0 [], v ≠ 0) (gs : Nat → G) :
    ∃ o' w' S, (∀ order, IsSchedule order → o.fit env gs order w (.list xs) y = (o', w', .ok ())) ∧
      o'.shapelets = some S ∧ min o.nShp xs.length ≤ Shapelets.count S ∧ Shapelets.count S ≤ o.nShp := by
  obtain ⟨o', w', S, sizes, h1, h2, h3, -, h5, h6, -⟩ := object_variable_length nf_eqb_zero env o w xs y hty hwf hne nf
    hnf1 hnf m hm4 hlen hm hy (NfParams.any hp) (drawSafe_nf _) hmc gs
  refine ⟨o', w', S, h1, h2, ?_, learned_count h5⟩
  have hR := rules_list drawable_nf (learned_wf h5) h6
  refine rules_count hR (show 1 ≤ m by omega) h3 (list_len hlen) (fun n hn => enough_missing hal ha n) ?_
  exact Or.inr ⟨fun u hu => by
      obtain ⟨p, hp1, hp2⟩ := hpn
      obtain ⟨v, rfl, h0, -⟩ := hu
      change Scalar.ltb (Nf.num v) o.pNorm = false
      rw [hp1, ← Bool.not_eq_true, nf_ltb]
      linarith, list_series hwf hnf1 hnf hnz⟩

end missing

section ieee
variable {F : FloatFormat} {δ t big : ℝ} {N : Nat} {G R L : Type} [Gen G (Ieee F)] [LawfulIeee G (F := F)] [DecidableEq L]

theorem finite_fin {p : ℝ → Prop} {x : Ieee F} (h : Finite p x) : ∃ v, x = .fin v ∧ p v := by
  cases x with
  | fin v => exact ⟨v, rfl, h⟩
  | inf s => exact h.elim
  | nan => exact h.elim

theorem enough_ieee (h : Ranged F δ t big N) {alpha : Ieee F} (ha : Finite (fun a => 0 ≤ a ∧ a ≤ 1) alpha) {n : Nat}
    (hn : n ≤ N) : enoughOf alpha n n = true := by
  obtain ⟨a, rfl, h0, h1⟩ := finite_fin ha
  unfold enoughOf
  obtain ⟨v, e, -, -, v1⟩ := ieee_mul_unit h hn h0 h1
  rw [e, Ranged'.ofNat h hn, ieee_leb_fin, decide_eq_true_iff]
  exact v1

/-- **C116.** `fit` on numbers of a bounded range, with infinite and missing values, equal-length series, with `alpha <= 1`: at least
`min(n_shapelets, n_samples)` shapelets are returned by the multivariate method, and by every method when
`proba_norm <= 0` and the first channel has no zeros. -/
theorem C116_count_ieee_same_length (h : Ranged F δ t big N) (env : Env G R L)
    (o : Rdst (Ieee F) R) (w : World R) (dt : DType) (A : Arr3 (Ieee F)) (y : List L)
    (hty : o.transformType = .uni ∨ o.transformType = .multi ∨ o.transformType = .auto ∧ dt ≠ .otherDtype)
    (hWF : (XIn.array dt A).WF) (hne : A.data ≠ []) (hnf : 1 ≤ A.nf) (hnfN : A.nf ≤ N) (hnt : 4 ≤ A.nt) (hntN : A.nt < N)
    (hy : y.length = A.data.length) (hp : IeeeParams o A.nt N) (ha : Finite (fun a => 0 ≤ a ∧ a ≤ 1) o.alpha)
    (hmc : ∀ m, o.maxChannels = some m → 1 ≤ m ∧ m ≤ A.nf)
    (hu : o.transformType = .multi ∨ (Finite (fun p => p ≤ 0) o.pNorm) ∧ ∀ x ∈ A.data, ∀ v ∈ x.getD 0 [], v ≠ 0) (gs : Nat → G) :
    ∃ o' w' S, (∀ order, IsSchedule order → o.fit env gs order w (.array dt A) y = (o', w', .ok ())) ∧
      o'.shapelets = some S ∧ min o.nShp A.data.length ≤ Shapelets.count S ∧ Shapelets.count S ≤ o.nShp := by
  obtain ⟨o', w', S, sizes, h1, h2, h3, -, h5, ⟨h6, h7⟩, -⟩ := object_same_length ieee_eqb_zero env o w dt A y hty hWF
    hne hnf hnt hy (IeeeParams.any h hntN hp) (drawSafe_ieee h (by omega)) hmc gs
  refine ⟨o', w', S, h1, h2, ?_, learned_count h5⟩
  have hR := rules_array drawable_ieee (learned_wf h5) h6
  refine rules_count hR (show 1 ≤ A.nt by omega) h3 (fun _ _ => le_rfl) (fun n hn => enough_ieee h ha (hn.trans (channels_le hnfN hmc))) ?_
  rcases hu with hm | ⟨hpn, hnz⟩
  · exact Or.inl (h7 hm)
  · exact Or.inr ⟨fun u hu => by
      obtain ⟨p, hp1, hp2⟩ := finite_fin hpn
      obtain ⟨v, rfl, h0, -⟩ := finite_fin hu
      change Scalar.ltb (Ieee.fin v) o.pNorm = false
      rw [hp1, ieee_ltb_fin, decide_eq_false_iff_not]
      linarith, array_series hWF hnf hnz⟩

/-- **C116.** The same for series of different lengths given as a list of 2D arrays, when `proba_norm <= 0` and the
first channel has no zeros. -/
theorem C116_count_ieee_variable_length (h : Ranged F δ t big N) (env : Env G R L)
    (o : Rdst (Ieee F) R) (w : World R) (xs : List (Mat (Ieee F))) (y : List L)
    (hty : o.transformType.Var ∨ o.transformType = .auto)
    (hwf : ∀ x ∈ xs, x.WF) (hne : xs ≠ []) (nf : Nat) (hnf1 : 1 ≤ nf) (hnfN : nf ≤ N)
    (hnf : ∀ x ∈ xs, x.rows.length = nf) (m : Nat) (hm4 : 4 ≤ m) (hmN : m < N) (hlen : ∀ x ∈ xs, m ≤ x.len)
    (hm : o.minLen = some m ∨ o.minLen = none ∧ ∃ x ∈ xs, x.len = m)
    (hy : y.length = xs.length) (hp : IeeeParams o m N) (ha : Finite (fun a => 0 ≤ a ∧ a ≤ 1) o.alpha)
    (hmc : ∀ k, o.maxChannels = some k → 1 ≤ k ∧ k ≤ nf)
    (hpn : Finite (fun p => p ≤ 0) o.pNorm) (hnz : ∀ x ∈ xs, ∀ v ∈ x.rows.getD 0 [], v ≠ 0) (gs : Nat → G) :
    ∃ o' w' S, (∀ order, IsSchedule order → o.fit env gs order w (.list xs) y = (o', w', .ok ())) ∧
      o'.shapelets = some S ∧ min o.nShp xs.length ≤ Shapelets.count S ∧ Shapelets.count S ≤ o.nShp := by
  obtain ⟨o', w', S, sizes, h1, h2, h3, -, h5, h6, -⟩ := object_variable_length ieee_eqb_zero env o w xs y hty hwf hne nf
    hnf1 hnf m hm4 hlen hm hy (IeeeParams.any h hmN hp) (drawSafe_ieee h (by omega)) hmc gs
  refine ⟨o', w', S, h1, h2, ?_, learned_count h5⟩
  have hR := rules_list drawable_ieee (learned_wf h5) h6
  refine rules_count hR (show 1 ≤ m by omega) h3 (list_len hlen) (fun n hn => enough_ieee h ha (hn.trans (channels_le hnfN hmc))) ?_
  exact Or.inr ⟨fun u hu => by
      obtain ⟨p, hp1, hp2⟩ := finite_fin hpn
      obtain ⟨v, rfl, h0, -⟩ := finite_fin hu
      change Scalar.ltb (Ieee.fin v) o.pNorm = false
      rw [hp1, ieee_ltb_fin, decide_eq_false_iff_not]
      linarith, list_series hwf hnf1 hnf hnz⟩

end ieee

/-! ## Flags -/

/-- **C116.** With missing values: `proba_norm <= 0` normalises no shapelet, `proba_norm >= 1` all of them. -/
theorem C116_flags_missing {L : Type} {E : Setting Nf L} {mc : Nat} {S : Shapelets Nf} (h : Rules E mc S)
    (hd : ∀ u, E.draw u → UnitNum u) {p : ℝ} (hp : E.pNorm = .num p) :
    (p ≤ 0 → ∀ f ∈ flagsOf S, f = false) ∧ (1 ≤ p → ∀ f ∈ flagsOf S, f = true) := by
  refine ⟨fun h0 f hf => ?_, fun h1 f hf => ?_⟩
  · obtain ⟨u, hu, rfl⟩ := h.flag f hf
    obtain ⟨v, rfl, v0, -⟩ := hd u hu
    rw [hp, ← Bool.not_eq_true, nf_ltb]
    linarith
  · obtain ⟨u, hu, rfl⟩ := h.flag f hf
    obtain ⟨v, rfl, -, v1⟩ := hd u hu
    rw [hp, nf_ltb]
    linarith

/-- **C116.** The same on numbers of a bounded range. -/
theorem C116_flags_ieee {F : FloatFormat} {L : Type} {E : Setting (Ieee F) L} {mc : Nat} {S : Shapelets (Ieee F)}
    (h : Rules E mc S) (hd : ∀ u, E.draw u → UnitDraw u) {p : ℝ} (hp : E.pNorm = .fin p) :
    (p ≤ 0 → ∀ f ∈ flagsOf S, f = false) ∧ (1 ≤ p → ∀ f ∈ flagsOf S, f = true) := by
  refine ⟨fun h0 f hf => ?_, fun h1 f hf => ?_⟩
  · obtain ⟨u, hu, rfl⟩ := h.flag f hf
    obtain ⟨v, rfl, v0, -⟩ := finite_fin (hd u hu)
    rw [hp, ieee_ltb_fin, decide_eq_false_iff_not]
    linarith
  · obtain ⟨u, hu, rfl⟩ := h.flag f hf
    obtain ⟨v, rfl, -, v1⟩ := finite_fin (hd u hu)
    rw [hp, ieee_ltb_fin, decide_eq_true_iff]
    linarith

/-! ## Concrete cases -/

/-- The object of `C100` that never normalises. -/
noncomputable def dblRaw (t : TType) : Rdst (Fl Rounding.double) Nat := { dblObj t with pNorm := Fl.mk 0 }

theorem dblRaw_ok (t : TType) (m : Nat) : FlParams (dblRaw t) m (2 ^ 40) := { dblObj_ok t m with }

/-- Two series without zeros, of five and four points. -/
noncomputable def dblPos : List (Mat (Fl Rounding.double)) :=
  [⟨[[Fl.mk 5, Fl.mk 1, Fl.mk 2, Fl.mk 3, Fl.mk 4]], 5⟩, ⟨[[Fl.mk 7, Fl.mk 8, Fl.mk 9, Fl.mk 8]], 4⟩]

/-- The hypotheses of `C116_count_rounded_same_length` are met: two shapelets at least. -/
example (env : Env HalfGen Nat Nat) (w : World Nat) (gs : Nat → HalfGen) :
    ∃ o' w' S, (∀ order, IsSchedule order →
        (dblObj .multi).fit env gs order w (.array .float64 dblArr) [0, 1] = (o', w', .ok ())) ∧
      o'.shapelets = some S ∧ 2 ≤ Shapelets.count S ∧ Shapelets.count S ≤ 4 :=
  C116_count_rounded_same_length C100_double_accurate (by norm_num) env (dblObj .multi) w .float64 dblArr [0, 1]
    (Or.inr (Or.inl rfl)) (by simp [XIn.WF, dblArr]) (by simp [dblArr]) (by simp [dblArr]) (by simp [dblArr])
    (by simp [dblArr]) (by simp [dblArr]) (by simp [dblArr]) (dblObj_ok _ _) (show (1 : ℝ) / 2 ≤ 1 by norm_num)
    (by simp [dblObj]) (Or.inl rfl) gs

theorem fl_ne_zero {r : Rounding} {x : ℝ} (h : x ≠ 0) : (Fl.mk x : Fl r) ≠ 0 := fun e => h (congrArg Fl.val e)

/-- The hypotheses of `C116_count_rounded_variable_length` are met. -/
example (env : Env HalfGen Nat Nat) (w : World Nat) (gs : Nat → HalfGen) :
    ∃ o' w' S, (∀ order, IsSchedule order →
        (dblRaw .auto).fit env gs order w (.list dblPos) [0, 1] = (o', w', .ok ())) ∧
      o'.shapelets = some S ∧ 2 ≤ Shapelets.count S ∧ Shapelets.count S ≤ 4 :=
  C116_count_rounded_variable_length C100_double_accurate (by norm_num) env (dblRaw .auto) w dblPos [0, 1]
    (Or.inr rfl) (by simp [dblPos, Mat.WF]) (by simp [dblPos]) 1 le_rfl (by norm_num) (by simp [dblPos]) 4 le_rfl
    (by norm_num) (by simp [dblPos]) (Or.inr ⟨rfl, by simp [dblPos]⟩) (by simp [dblPos]) (dblRaw_ok _ _)
    (show (1 : ℝ) / 2 ≤ 1 by norm_num) (by simp [dblRaw, dblObj]) (show (0 : ℝ) ≤ 0 from le_rfl)
    (by simp [dblPos, fl_ne_zero]) gs

/-- The hypotheses of `C116_count_missing_same_length` are met. -/
example (env : Env NfGen Nat Nat) (w : World Nat) (gs : Nat → NfGen) :
    ∃ o' w' S, (∀ order, IsSchedule order →
        (nfObj .multi).fit env gs order w (.array .float64 nfArr) [0, 1] = (o', w', .ok ())) ∧
      o'.shapelets = some S ∧ 2 ≤ Shapelets.count S ∧ Shapelets.count S ≤ 4 :=
  C116_count_missing_same_length env (nfObj .multi) w .float64 nfArr [0, 1]
    (Or.inr (Or.inl rfl)) (by simp [XIn.WF, nfArr]) (by simp [nfArr]) (by simp [nfArr]) (by simp [nfArr])
    (by simp [nfArr]) (nfObj_ok _ _) (a := 1 / 2) rfl (by norm_num) (by simp [nfObj]) (Or.inl rfl) gs

/-- Two series with missing values and no zeros. -/
noncomputable def nfPos : List (Mat Nf) :=
  [⟨[[.num 5, .num 1, .nan, .num 3, .num 4]], 5⟩, ⟨[[.num 7, .nan, .num 9, .num 8]], 4⟩]

noncomputable def nfRaw (t : TType) : Rdst Nf Nat := { nfObj t with pNorm := .num 0 }

theorem nfRaw_ok (t : TType) (m : Nat) : NfParams (nfRaw t) m 5 10 := { nfObj_ok t m with }

theorem nf_ne_zero {x : ℝ} (h : x ≠ 0) : (Nf.num x : Nf) ≠ 0 := fun e => h (by cases e; rfl)
theorem nf_nan_ne_zero : (Nf.nan : Nf) ≠ 0 := fun e => by cases e

/-- The hypotheses of `C116_count_missing_variable_length` are met. -/
example (env : Env NfGen Nat Nat) (w : World Nat) (gs : Nat → NfGen) :
    ∃ o' w' S, (∀ order, IsSchedule order →
        (nfRaw .auto).fit env gs order w (.list nfPos) [0, 1] = (o', w', .ok ())) ∧
      o'.shapelets = some S ∧ 2 ≤ Shapelets.count S ∧ Shapelets.count S ≤ 4 :=
  C116_count_missing_variable_length env (nfRaw .auto) w nfPos [0, 1]
    (Or.inr rfl) (by simp [nfPos, Mat.WF]) (by simp [nfPos]) 1 le_rfl (by simp [nfPos]) 4 le_rfl
    (by simp [nfPos]) (Or.inr ⟨rfl, by simp [nfPos]⟩) (by simp [nfPos]) (nfRaw_ok _ _)
    (a := 1 / 2) rfl (by norm_num) (by simp [nfRaw, nfObj]) ⟨0, rfl, le_rfl⟩
    (by simp [nfPos, nf_ne_zero, nf_nan_ne_zero]) gs

/-- The hypotheses of `C116_count_ieee_same_length` are met. -/
example (env : Env IeeeGen Nat Nat) (w : World Nat) (gs : Nat → IeeeGen) :
    ∃ o' w' S, (∀ order, IsSchedule order →
        (ieeeObj .multi).fit env gs order w (.array .float64 ieeeArr) [0, 1] = (o', w', .ok ())) ∧
      o'.shapelets = some S ∧ 2 ≤ Shapelets.count S ∧ Shapelets.count S ≤ 4 :=
  C116_count_ieee_same_length C113_float64 env (ieeeObj .multi) w .float64 ieeeArr [0, 1]
    (Or.inr (Or.inl rfl)) (by simp [XIn.WF, ieeeArr]) (by simp [ieeeArr]) (by simp [ieeeArr]) (by simp [ieeeArr])
    (by simp [ieeeArr]) (by simp [ieeeArr]) (by simp [ieeeArr]) (ieeeObj_ok _ _)
    (show (0 : ℝ) ≤ 1 / 2 ∧ (1 : ℝ) / 2 ≤ 1 by norm_num) (by simp [ieeeObj]) (Or.inl rfl) gs

noncomputable def ieeeRaw (t : TType) : Rdst (Ieee .float64) Nat := { ieeeObj t with pNorm := .fin 0 }

theorem ieeeRaw_ok (t : TType) (m : Nat) : IeeeParams (ieeeRaw t) m (2 ^ 40) := { ieeeObj_ok t m with }

/-- Two series with infinite and missing values and no zeros. -/
noncomputable def ieeePos : List (Mat (Ieee .float64)) :=
  [⟨[[.fin 5, .inf false, .fin 2, .fin 3, .fin 4]], 5⟩, ⟨[[.fin 7, .nan, .inf true, .fin 8]], 4⟩]

theorem ieee_ne_zero {F : FloatFormat} {x : ℝ} (h : x ≠ 0) : (Ieee.fin x : Ieee F) ≠ 0 := fun e => h (by cases e; rfl)
theorem ieee_inf_ne_zero {F : FloatFormat} (s : Bool) : (Ieee.inf s : Ieee F) ≠ 0 := fun e => by cases e
theorem ieee_nan_ne_zero {F : FloatFormat} : (Ieee.nan : Ieee F) ≠ 0 := fun e => by cases e

/-- The hypotheses of `C116_count_ieee_variable_length` are met. -/
example (env : Env IeeeGen Nat Nat) (w : World Nat) (gs : Nat → IeeeGen) :
    ∃ o' w' S, (∀ order, IsSchedule order →
        (ieeeRaw .auto).fit env gs order w (.list ieeePos) [0, 1] = (o', w', .ok ())) ∧
      o'.shapelets = some S ∧ 2 ≤ Shapelets.count S ∧ Shapelets.count S ≤ 4 :=
  C116_count_ieee_variable_length C113_float64 env (ieeeRaw .auto) w ieeePos [0, 1]
    (Or.inr rfl) (by simp [ieeePos, Mat.WF]) (by simp [ieeePos]) 1 le_rfl (by norm_num) (by simp [ieeePos]) 4 le_rfl
    (by norm_num) (by simp [ieeePos]) (Or.inr ⟨rfl, by simp [ieeePos]⟩) (by simp [ieeePos]) (ieeeRaw_ok _ _)
    (show (0 : ℝ) ≤ 1 / 2 ∧ (1 : ℝ) / 2 ≤ 1 by norm_num) (by simp [ieeeRaw, ieeeObj])
    (show (0 : ℝ) ≤ 0 from le_rfl) (by simp [ieeePos, ieee_ne_zero, ieee_inf_ne_zero, ieee_nan_ne_zero]) gs

/-- The hypotheses of `C116_flags_missing` and `C116_flags_ieee` are met: objects that never normalise. -/
example (env : Env NfGen Nat Nat) (w : World Nat) (gs : Nat → NfGen) :
    ∃ o' w' S, (∀ order, IsSchedule order →
        (nfRaw .auto).fit env gs order w (.list nfPos) [0, 1] = (o', w', .ok ())) ∧
      o'.shapelets = some S ∧ ∀ f ∈ flagsOf S, f = false := by
  obtain ⟨o', w', S, sizes, h1, h2, -, h3⟩ := C116_missing_variable_length env (nfRaw .auto) w nfPos [0, 1]
    (Or.inr rfl) (by simp [nfPos, Mat.WF]) (by simp [nfPos]) 1 le_rfl (by simp [nfPos]) 4 le_rfl
    (by simp [nfPos]) (Or.inr ⟨rfl, by simp [nfPos]⟩) (by simp [nfPos]) (nfRaw_ok _ _) (by simp [nfRaw, nfObj]) gs
  exact ⟨o', w', S, h1, h2, (C116_flags_missing h3 (fun _ h => h) (p := 0) rfl).1 le_rfl⟩

example (env : Env IeeeGen Nat Nat) (w : World Nat) (gs : Nat → IeeeGen) :
    ∃ o' w' S, (∀ order, IsSchedule order →
        (ieeeRaw .auto).fit env gs order w (.list ieeePos) [0, 1] = (o', w', .ok ())) ∧
      o'.shapelets = some S ∧ ∀ f ∈ flagsOf S, f = false := by
  obtain ⟨o', w', S, sizes, h1, h2, -, h3⟩ := C116_ieee_variable_length C113_float64 env (ieeeRaw .auto) w ieeePos
    [0, 1] (Or.inr rfl) (by simp [ieeePos, Mat.WF]) (by simp [ieeePos]) 1 le_rfl (by simp [ieeePos]) 4 le_rfl
    (by norm_num) (by simp [ieeePos]) (Or.inr ⟨rfl, by simp [ieeePos]⟩) (by simp [ieeePos]) (ieeeRaw_ok _ _)
    (by simp [ieeeRaw, ieeeObj]) gs
  exact ⟨o', w', S, h1, h2, (C116_flags_ieee h3 (fun _ h => h) (p := 0) rfl).1 le_rfl⟩

end Convst.Props
