import Verif.Proofs.IeeeFit
import Verif.Props.Ieee
import Verif.Props.MissingFit

/-!
# C113: `fit` on numbers of a bounded range: infinite and missing values, overflow, underflow

`Ieee F` (`Verif/Model/Ieee.lean`) is arithmetic of a bounded range, with infinities and `NaN`; `Ranged` and
`IeeeParams` (`Verif/Spec/IeeeFit.lean`) say what is asked of the format and of the parameters, `NotFinite` and
`Blind` what becomes of shapelets with values which are not finite.
-/

set_option autoImplicit false
set_option linter.unusedSectionVars false

namespace Convst.Props
open Convst Spec Ieee

section
variable {F : FloatFormat} {δ t big : ℝ} {N : Nat}

theorem ieee_trunc_nonneg {x : ℝ} (h : 0 ≤ x) : Scalar.trunc (fin x : Ieee F) = ⌊x⌋ := by
  show (if 0 ≤ x then ⌊x⌋ else ⌈x⌉) = _
  rw [if_pos h]

/-- A product of a number of at most `N` points and a fraction. -/
theorem ieee_mul_unit (h : Ranged F δ t big N) {n : Nat} (hn : n ≤ N) {x : ℝ} (h0 : 0 ≤ x) (h1 : x ≤ 1) :
    ∃ v, (Scalar.ofNat n * fin x : Ieee F) = fin v ∧ (fin x * Scalar.ofNat n : Ieee F) = fin v ∧ 0 ≤ v ∧ v ≤ n := by
  have hx : 0 ≤ (n : ℝ) * x := by positivity
  have a0 := Ranged'.nonneg h hx
  have a1 := h.mono _ _ hx (show (n : ℝ) * x ≤ n by nlinarith [(Nat.cast_nonneg n : (0 : ℝ) ≤ n)])
  rw [Ranged'.nat h hn] at a1
  have a2 := Ranged'.nat_lt_top h hn
  refine ⟨F.rnd (n * x), ?_, ?_, a0, a1⟩
  · rw [Ranged'.ofNat h hn]
    show (over (F.rnd (n * x)) : Ieee F) = _
    rw [over_nonneg a0 (by linarith)]
  · rw [Ranged'.ofNat h hn]
    show (over (F.rnd (x * n)) : Ieee F) = _
    rw [mul_comm, over_nonneg a0 (by linarith)]

theorem ieee_boundVal_lt (h : Ranged F δ t big N) {m : Nat} (hm : m < N) (b : Bound (Ieee F))
    (hb : BoundWithin N b) : boundVal m b < N := by
  cases b with
  | int z => exact hb
  | frac x =>
    cases x with
    | nan => exact hb.elim
    | inf s => exact hb.elim
    | fin x =>
      obtain ⟨h0, h1⟩ : 0 ≤ x ∧ x ≤ 1 := hb
      obtain ⟨v, -, e, v0, v1⟩ := ieee_mul_unit h hm.le h0 h1
      show Scalar.trunc (fin x * Scalar.ofNat m : Ieee F) < (N : Int)
      rw [e, ieee_trunc_nonneg v0]
      have := Int.floor_mono v1
      rw [Int.floor_natCast] at this
      omega

/-- Usable parameters are safe in a bounded range. -/
theorem IeeeParams.any {R : Type} (h : Ranged F δ t big N) {m : Nat} (hm : m < N) {o : Rdst (Ieee F) R}
    (hp : IeeeParams o m N) : AnyParams o m := by
  have key : (setLengths o.lens o.bounds o.reduction m).astypeInt ≠ [] ∧
      ∀ z ∈ (setLengths o.lens o.bounds o.reduction m).astypeInt, 1 < z := by
    cases hb : o.bounds with
    | some b =>
      obtain ⟨b0, b1⟩ := b
      obtain ⟨hb0, hb1⟩ := hp.bounds b0 b1 hb
      have e0 := ieee_boundVal_lt h hm b0 hb0
      have e1 := ieee_boundVal_lt h hm b1 hb1
      apply lengths_from_bounds
      intro _
      have hle : countBetween (boundVal m b0) (boundVal m b1) ≤ N := by unfold countBetween; omega
      generalize countBetween (boundVal m b0) (boundVal m b1) = n at *
      have hr := hp.red
      cases hro : o.reduction with
      | nan => rw [hro] at hr; exact hr.elim
      | inf s => rw [hro] at hr; exact hr.elim
      | fin x =>
        rw [hro] at hr
        obtain ⟨h0, h1⟩ : 0 ≤ x ∧ x < 1 := hr
        obtain ⟨v, e, -, v0, v1⟩ := ieee_mul_unit h hle h0 h1.le
        rw [e, ieee_trunc_nonneg v0]
        have := Int.floor_mono v1
        rwa [Int.floor_natCast] at this
    | none =>
      rcases hp.lens hb with ⟨l, hl, hne, hz⟩ | ⟨l, hl, hne, hx⟩
      · rw [hl]
        exact ⟨hne, hz⟩
      · rw [hl]
        simp only [setLengths, LenArr.astypeInt, List.map_map]
        refine ⟨by simp [hne], ?_⟩
        intro z hz
        obtain ⟨x, hxl, rfl⟩ := List.mem_map.1 hz
        have hx := hx x hxl
        cases x with
        | nan => exact hx.elim
        | inf s => exact hx.elim
        | fin x =>
          obtain ⟨h2, h3⟩ : 2 ≤ (m : ℝ) * x ∧ (m : ℝ) * x ≤ N := hx
          have hlarge := h.large
          have a2 := h.mono 2 _ (by norm_num) h2
          have a3 := h.mono _ _ (by linarith) h3
          rw [Ranged'.nat h le_rfl] at a3
          rw [show (2 : ℝ) = ((2 : Nat) : ℝ) by norm_num, Ranged'.nat h (by omega)] at a2
          have aT := Ranged'.nat_lt_top h (le_refl N)
          have h4 : (2 : Int) ≤ ⌊F.rnd ((m : ℝ) * x)⌋ := Int.le_floor.2 (by exact_mod_cast a2)
          have h5 : ⌊F.rnd ((m : ℝ) * x)⌋ ≤ N := by
            have := Int.floor_mono a3
            rwa [Int.floor_natCast] at this
          obtain ⟨n, hn⟩ := Int.eq_ofNat_of_zero_le (show 0 ≤ ⌊F.rnd ((m : ℝ) * x)⌋ by omega)
          simp only [Function.comp]
          rw [Ranged'.ofNat h hm.le]
          have e : (fin (m : ℝ) * fin x : Ieee F) = fin (F.rnd (m * x)) := by
            show (over (F.rnd (m * x)) : Ieee F) = _
            rw [over_nonneg (by push_cast at a2; linarith) (by linarith)]
          rw [e]
          show 1 < Scalar.trunc (ofInt ⌊F.rnd ((m : ℝ) * x)⌋ : Ieee F)
          rw [hn]
          show 1 < Scalar.trunc (Scalar.ofNat n : Ieee F)
          rw [Ranged'.ofNat h (by omega), ieee_trunc_nonneg (Nat.cast_nonneg n), Int.floor_natCast]
          omega
  exact ⟨hp.nShp, percSafe_ieee h hp.pMin, percSafe_ieee h hp.pMax, hp.nSamples, key.1, key.2⟩

variable {G R L : Type} [Gen G (Ieee F)] [LawfulIeee G (F := F)] [DecidableEq L]

theorem drawable_ieee (u : Ieee F) (h : Drawable G u) : UnitDraw u := by
  obtain ⟨g, rfl⟩ := h
  obtain ⟨v, hv, h0, h1⟩ := LawfulIeee.unit_fin (F := F) g
  rw [hv]
  exact ⟨h0, h1⟩

/-- **C113.** A window with an infinite or missing value gives a shapelet with such a value, normalised or not; a
shapelet which is not normalised has one only then. -/
theorem C113_window (norm phase : Bool) (x : List (Ieee F)) {l d i : Nat} :
    (HitAny phase x l d i → ∃ a ∈ seen norm (window phase x l d i), ∀ v, a ≠ .fin v) ∧
    ((∃ a ∈ seen false (window phase x l d i), ∀ v, a ≠ .fin v) → HitAny phase x l d i) := by
  constructor
  · intro h
    have hw := window_hitAny h
    cases norm with
    | false => exact hw
    | true =>
      obtain ⟨b, hb, -⟩ := id hw
      have hpos : 0 < (znorm (window phase x l d i)).length := by
        simpa [znorm] using List.length_pos_of_mem hb
      refine ⟨_, List.getElem_mem hpos, ?_⟩
      rw [znorm_notFin hw _ (List.getElem_mem hpos)]
      exact notFin_nan
  · rintro ⟨a, ha, hn⟩
    obtain ⟨j, hj, rfl⟩ := List.mem_map.1 (show a ∈ window phase x l d i from ha)
    rw [List.mem_range] at hj
    rw [List.getD_eq_getElem?_getD] at hn
    cases e : x[pos phase x.length d i j]? with
    | none => rw [e] at hn; exact absurd ieee_zero (hn 0)
    | some b =>
      rw [e] at hn
      rcases notFin_cases (show NotFin b from hn) with rfl | ⟨s, rfl⟩
      · exact Or.inr ⟨j, hj, e⟩
      · exact Or.inl ⟨j, s, hj, e⟩

/-- **C113.** A shapelet whose threshold is `NaN` is never counted as occurring, on any series. -/
theorem C113_nan_threshold (phase : Bool) (S : Shapelets (Ieee F)) {k : Nat} (hk : k < Shapelets.count S)
    (hth : thrAt S k = some .nan) (x : List (List (Ieee F))) (T : Nat) :
    (rowOf phase S x T)[3 * k + 2]? = some (.fin 0) := by
  cases S with
  | u S =>
    have e : S.threshold.getD k 0 = .nan := by
      rw [List.getD_eq_getElem?_getD, show S.threshold[k]? = some .nan from hth]; rfl
    have := row_cells (fun k => uFeatures phase S (x.getD 0 []) k) S.lengths.length k 2 hk (by omega)
    refine this.trans ?_
    show some (uFeatures phase S (x.getD 0 []) k).2.2 = _
    unfold uFeatures
    rw [e, ieee_features_nan]
  | m S =>
    have e : S.threshold.getD k 0 = .nan := by
      rw [List.getD_eq_getElem?_getD, show S.threshold[k]? = some .nan from hth]; rfl
    have := row_cells (fun k => mFeatures phase S x T k) S.lengths.length k 2 hk (by omega)
    refine this.trans ?_
    show some (mFeatures phase S x T k).2.2 = _
    unfold mFeatures
    rw [e, ieee_features_nan]

theorem ieee_leb_inf {a : Ieee F} (h : a ≠ nan) : Scalar.leb a (inf false) = true := by
  cases a with
  | nan => exact absurd rfl h
  | inf s => cases s <;> rfl
  | fin x => rfl

theorem ieee_features_inf {D : List (Ieee F)} (h : nan ∉ D) :
    (features D (inf false)).2.2 = Scalar.ofNat D.length := by
  show Scalar.ofNat (D.countP fun x => Scalar.leb x (inf false)) = _
  rw [List.countP_eq_length.2 fun a ha => ieee_leb_inf (by rintro rfl; exact h ha)]

/-- **C113.** A univariate shapelet whose threshold is infinite is counted at every window of every series for which no
distance is `NaN`, however far it is. -/
theorem C113_infinite_threshold_univariate (phase : Bool) (S : UShp (Ieee F)) {k : Nat} (hk : k < S.lengths.length)
    (hth : thrAt (.u S) k = some (.inf false)) (x : List (List (Ieee F))) (T : Nat)
    (hD : Ieee.nan ∉ uDistances phase S (x.getD 0 []) k) :
    (rowOf phase (.u S) x T)[3 * k + 2]? =
      some (Scalar.ofNat (nWin phase (x.getD 0 []).length (S.lengths.getD k 0) (S.dilations.getD k 0))) := by
  have e : S.threshold.getD k 0 = .inf false := by
    rw [List.getD_eq_getElem?_getD, show S.threshold[k]? = some (.inf false) from hth]; rfl
  refine (row_cells (fun k => uFeatures phase S (x.getD 0 []) k) S.lengths.length k 2 hk (by omega)).trans ?_
  show some (uFeatures phase S (x.getD 0 []) k).2.2 = _
  unfold uFeatures
  rw [e, ieee_features_inf hD]
  simp [uDistances, distances]

/-- **C113.** The same for multivariate shapelets. -/
theorem C113_infinite_threshold_multivariate (phase : Bool) (S : MShp (Ieee F)) {k : Nat} (hk : k < S.lengths.length)
    (hth : thrAt (.m S) k = some (.inf false)) (x : List (List (Ieee F))) (T : Nat)
    (hD : Ieee.nan ∉ mDistances phase S x T k) :
    (rowOf phase (.m S) x T)[3 * k + 2]? =
      some (Scalar.ofNat (nWin phase T (S.lengths.getD k 0) (S.dilations.getD k 0))) := by
  have e : S.threshold.getD k 0 = .inf false := by
    rw [List.getD_eq_getElem?_getD, show S.threshold[k]? = some (.inf false) from hth]; rfl
  refine (row_cells (fun k => mFeatures phase S x T k) S.lengths.length k 2 hk (by omega)).trans ?_
  show some (mFeatures phase S x T k).2.2 = _
  unfold mFeatures
  rw [e, ieee_features_inf hD]
  simp [mDistances]

open Classical in
/-- **C113.** In general, for both kinds of shapelets: with an infinite threshold exactly the windows whose distance is not
`NaN` are counted. -/
theorem C113_infinite_threshold_counts (phase : Bool) (S : Shapelets (Ieee F)) {k : Nat} (hk : k < Shapelets.count S)
    (hth : thrAt S k = some (.inf false)) (x : List (List (Ieee F))) (T : Nat) :
    (rowOf phase S x T)[3 * k + 2]? = some (Scalar.ofNat ((match S with
      | .u S => uDistances phase S (x.getD 0 []) k
      | .m S => mDistances phase S x T k).countP fun d => d ≠ Ieee.nan)) := by
  have key : ∀ D : List (Ieee F), (features D (inf false)).2.2 = Scalar.ofNat (D.countP fun d => d ≠ Ieee.nan) := by
    intro D
    show Scalar.ofNat (D.countP fun x => Scalar.leb x (inf false)) = _
    congr 2
    funext a
    cases a with
    | nan => simp [show Scalar.leb (nan : Ieee F) (inf false) = false from rfl]
    | inf s => simp [ieee_leb_inf (F := F) (a := inf s) (by simp)]
    | fin v => simp [ieee_leb_inf (F := F) (a := fin v) (by simp)]
  cases S with
  | u S =>
    have e : S.threshold.getD k 0 = .inf false := by
      rw [List.getD_eq_getElem?_getD, show S.threshold[k]? = some (.inf false) from hth]; rfl
    refine (row_cells (fun k => uFeatures phase S (x.getD 0 []) k) S.lengths.length k 2 hk (by omega)).trans ?_
    show some (uFeatures phase S (x.getD 0 []) k).2.2 = _
    unfold uFeatures
    rw [e, key]
  | m S =>
    have e : S.threshold.getD k 0 = .inf false := by
      rw [List.getD_eq_getElem?_getD, show S.threshold[k]? = some (.inf false) from hth]; rfl
    refine (row_cells (fun k => mFeatures phase S x T k) S.lengths.length k 2 hk (by omega)).trans ?_
    show some (mFeatures phase S x T k).2.2 = _
    unfold mFeatures
    rw [e, key]

/-- **C113 (percentiles of infinite distances).** The percentile 0 of two distances of which one is infinite is `NaN`
and not the lesser one: the code computes `lower * 1 + upper * 0`. -/
theorem C113_percentile_zero (h : Ranged F δ t big N) (x : ℝ) :
    percentile [fin x, inf false] (0 : Ieee F) = .ok nan ∧ percentile [inf false, fin x] (0 : Ieee F) = .ok nan := by
  have hrank : (1 : Ieee F) + Scalar.ofNat (2 - 1) * ((0 : Ieee F) / Scalar.ofNat 100) = fin 1 := by
    have h100 := Ranged'.ofNat h h.large
    have h1 := Ranged'.ofNat (q := 1) h (by have := h.large; omega)
    rw [h100, show (2 - 1 : Nat) = 1 from rfl, h1, ieee_zero]
    have e1 : (fin 0 / fin ((100 : Nat) : ℝ) : Ieee F) = fin 0 := by
      show (Ieee.div (fin 0) (fin ((100 : Nat) : ℝ)) : Ieee F) = _
      simp only [Ieee.div]
      rw [if_neg (by norm_num), zero_div, rnd_zero, over_zero, ieee_zero]
    have e2 : (fin ((1 : Nat) : ℝ) * fin 0 : Ieee F) = fin 0 := by
      show (over (F.rnd (((1 : Nat) : ℝ) * 0)) : Ieee F) = _
      rw [mul_zero, rnd_zero, over_zero, ieee_zero]
    rw [e1, e2]
    show (fin 1 + fin 0 : Ieee F) = _
    rw [ieee_fin_add, add_zero, rnd_one, over_nonneg (by norm_num) F.top_gt]
  have key : ∀ D : List (Ieee F), D.length = 2 → nan ∉ D → ssort D = [fin x, inf false] →
      percentile D (0 : Ieee F) = .ok nan := by
    intro D hl hn hs
    unfold percentile
    rw [if_pos (by
      have := ieee_leb_zero_hundred h (le_refl (0 : ℝ)) (by norm_num)
      rwa [← ieee_zero] at this)]
    have hf : D.find? (fun x => !(Scalar.eqb x x)) = none := by
      rw [List.find?_eq_none]
      intro a ha
      rw [(ieee_eqb_self a).2 (by rintro rfl; exact hn ha)]
      simp
    rw [hf]
    simp only
    unfold percentileInner
    rw [if_neg (by omega), if_neg (by
      rw [Ranged'.ofNat h h.large, ieee_zero, ieee_eqb_fin]
      norm_num), hl, hs]
    simp only
    rw [hrank]
    have hfl : Scalar.floor (fin 1 : Ieee F) = 1 := by
      show ⌊(1 : ℝ)⌋ = 1
      exact Int.floor_one
    rw [hfl]
    have hm : (fin 1 - Scalar.ofNat (Int.toNat 1) : Ieee F) = fin 0 := by
      have : (Scalar.ofNat (Int.toNat 1) : Ieee F) = fin 1 := by
        show (Scalar.ofNat 1 : Ieee F) = _
        rw [Ranged'.ofNat h (by have := h.large; omega)]
        norm_num
      rw [this, ieee_fin_sub, sub_self, rnd_zero, over_zero, ieee_zero]
    rw [hm]
    show Except.ok (_ + (inf false * fin 0 : Ieee F)) = _
    have e : (inf false * fin 0 : Ieee F) = nan := if_pos rfl
    rw [e, ieee_add_nan]
  constructor
  · refine key _ rfl (by simp) ?_
    unfold ssort
    simp [List.mergeSort, List.MergeSort.Internal.splitInTwo, show Scalar.leb (fin x : Ieee F) (inf false) = true from rfl]
  · refine key _ rfl (by simp) ?_
    unfold ssort
    simp [List.mergeSort, List.MergeSort.Internal.splitInTwo,
      show Scalar.leb (inf false : Ieee F) (fin x) = false from rfl]

theorem u_lost {phase : Bool} {S : UShp (Ieee F)} (hS : UWF S) {k : Nat} (hk : k < S.lengths.length)
    (hn : NotFinite (.u S) k) (x : List (Ieee F)) : ∀ a ∈ uDistances phase S x k, Lost a := by
  intro a ha
  obtain ⟨i, -, rfl⟩ := List.mem_map.1 ha
  exact lost_of (tame_l1 _ _) (notFin_l1 (by rw [seen_length, window_length, uValues_length hS hk]) hn)

theorem m_lost {phase : Bool} {S : MShp (Ieee F)} {nf : Nat} (hS : MWF S nf) {k : Nat} (hk : k < S.lengths.length)
    (hc : (mChannels S k).length = S.nChannels.getD k 0) (hn : NotFinite (.m S) k) (x : List (List (Ieee F)))
    (T : Nat) : ∀ a ∈ mDistances phase S x T k, Lost a := by
  intro a ha
  obtain ⟨i, -, rfl⟩ := List.mem_map.1 ha
  refine lost_of (tame_mDist _ _ _ _ _) ?_
  obtain ⟨c, hcl, hn⟩ := hn
  unfold mDist
  refine notFin_foldl_idx 0 (Or.inr ⟨c, List.mem_range.2 (by omega), notFin_l1 ?_ hn⟩)
  rw [seen_length, window_length, mValues_length hS hk hcl]

/-- A learned shapelet with a value which is not finite has the threshold `NaN`, and tells nothing. -/
theorem blind_learned (h : Ranged F δ t big N) {nShp : Nat} {sizes : List Nat} {n ns nf mc : Nat} (hn : 1 ≤ n)
    {len : Nat → Nat} {series : Nat → Nat → List (Ieee F)} {y : List L} {q0 q1 : Ieee F} {draw : Ieee F → Prop}
    {phase : Bool} {S : Shapelets (Ieee F)}
    (hL : Learned nShp sizes n ns nf mc len series y (ThrFrom q0 q1 draw) phase S) {k : Nat}
    (hk : k < Shapelets.count S) (hnf : NotFinite S k) :
    thrAt S k = some .nan ∧ ∀ (x : List (List (Ieee F))) (T : Nat), (∀ r ∈ x, r.length = T) → 1 ≤ x.length → n ≤ T →
      Blind (rowOf phase S x T) k := by
  cases S with
  | u S =>
    have hL : ULearned nShp sizes n ns len series y (ThrFrom q0 q1 draw) phase S := hL
    have hk : k < S.lengths.length := hk
    have hlt := uLearned_lt hL hn hk
    obtain ⟨l, d, norm, a1, a2, a3, a4, a5, a6, s, t, a7, a8, a9, test, th, b1, b2, b3⟩ := hL.shapelet k hk
    have e := lost_threshold h (u_lost hL.wf hk hnf _) b3
    subst e
    refine ⟨b2, ?_⟩
    intro x T hx hxl hT
    have eT : (x.getD 0 []).length = T := by
      rw [getD_lt [] (by omega : 0 < x.length)]
      exact hx _ (List.getElem_mem _)
    have et : S.threshold.getD k 0 = .nan := by
      rw [List.getD_eq_getElem?_getD, b2]; rfl
    obtain ⟨v, hv, hf⟩ := lost_features (D := uDistances phase S (x.getD 0 []) k) (by
      apply List.ne_nil_of_length_pos
      rw [uDistances, distances, List.length_map, List.length_range, eT]
      exact nWin_pos (by unfold HasWindow; split <;> omega)) (u_lost hL.wf hk hnf _)
    have hf' : uFeatures phase S (x.getD 0 []) k = (v, fin 0, fin 0) := by
      unfold uFeatures
      rw [et, hf]
    have r := fun j (hj : j < 3) => row_cells (fun k => uFeatures phase S (x.getD 0 []) k) S.lengths.length k j hk hj
    simp only [hf', cells] at r
    exact ⟨⟨v, r 0 (by omega), hv⟩, r 1 (by omega), r 2 (by omega)⟩
  | m S =>
    have hL : MLearned nShp sizes n ns nf mc len series y (ThrFrom q0 q1 draw) phase S := hL
    have hk : k < S.lengths.length := hk
    have hlt := mLearned_lt hL hn hk
    obtain ⟨l, d, norm, nch, a1, a2, a3, a4, a5, a6, c1, c2, c3, c4, c5, s, t, a7, a8, a9, test, th, b1, b2, b3⟩ :=
      hL.shapelet k hk
    have hc : (mChannels S k).length = S.nChannels.getD k 0 := by
      rw [c4, List.getD_eq_getElem?_getD, a4]; rfl
    have e := lost_threshold h (m_lost hL.wf hk hc hnf _ _) b3
    subst e
    refine ⟨b2, ?_⟩
    intro x T hx hxl hT
    have et : S.threshold.getD k 0 = .nan := by
      rw [List.getD_eq_getElem?_getD, b2]; rfl
    obtain ⟨v, hv, hf⟩ := lost_features (D := mDistances phase S x T k) (by
      apply List.ne_nil_of_length_pos
      rw [mDistances, List.length_map, List.length_range]
      exact nWin_pos (by unfold HasWindow; split <;> omega)) (m_lost hL.wf hk hc hnf _ _)
    have hf' : mFeatures phase S x T k = (v, fin 0, fin 0) := by
      unfold mFeatures
      rw [et, hf]
    have r := fun j (hj : j < 3) => row_cells (fun k => mFeatures phase S x T k) S.lengths.length k j hk hj
    simp only [hf', cells] at r
    exact ⟨⟨v, r 0 (by omega), hv⟩, r 1 (by omega), r 2 (by omega)⟩

/-- **C113.** `fit` on a 3D array of numbers of a bounded range, with infinite and missing values anywhere, and
whatever overflows or underflows: with usable parameters it succeeds, for every generator and every schedule, with the
same result.  Every shapelet is a window of a training series, and its threshold is computed from two percentiles of
its distances to a series of the same class.  `transform` then succeeds on every array of the same number of channels and
at least as many points; a shapelet with the threshold `NaN` never occurs; a shapelet with an infinite or missing
value has the threshold `NaN` and gives the same useless features (infinite or missing, 0, 0) for every series. -/
theorem C113_fit_same_length (h : Ranged F δ t big N) (env : Env G R L) (o : Rdst (Ieee F) R) (w : World R)
    (dt : DType) (A : Arr3 (Ieee F)) (y : List L)
    (hty : o.transformType = .uni ∨ o.transformType = .multi ∨ o.transformType = .auto ∧ dt ≠ .otherDtype)
    (hWF : (XIn.array dt A).WF) (hne : A.data ≠ []) (hnf : 1 ≤ A.nf) (hnt : 4 ≤ A.nt) (hntN : A.nt < N)
    (hy : y.length = A.data.length) (hp : IeeeParams o A.nt N)
    (hmc : ∀ m, o.maxChannels = some m → 1 ≤ m ∧ m ≤ A.nf) (gs : Nat → G) :
    ∃ o' w' S, ∃ sizes : List Nat,
      (∀ order, IsSchedule order → o.fit env gs order w (.array dt A) y = (o', w', .ok ())) ∧
      o'.shapelets = some S ∧ (∀ l ∈ sizes, 2 ≤ l ∧ l ≤ A.nt) ∧
      Learned o.nShp sizes A.nt A.data.length A.nf (o.maxChannels.getD A.nf) (fun _ => A.nt)
        (fun s c => (A.data.getD s []).getD c []) y (ThrFrom o.pMin o.pMax UnitDraw) o.phase S ∧
      (∀ k, k < Shapelets.count S → NotFinite S k → thrAt S k = some .nan) ∧
      ∀ (dt' : DType) (B : Arr3 (Ieee F)), (XIn.array dt' B).WF → B.data ≠ [] → B.nf = A.nf → A.nt ≤ B.nt →
        ∃ M, o'.transform (.array dt' B) = .ok M ∧ M = B.data.map (fun x => rowOf o.phase S x B.nt) ∧
          ∀ k, k < Shapelets.count S → ∀ row ∈ M,
            (thrAt S k = some .nan → row[3 * k + 2]? = some (.fin 0)) ∧ (NotFinite S k → Blind row k) := by
  obtain ⟨o', w', S, sizes, h1, h2, h3, -, h5, -, h6⟩ := object_same_length ieee_eqb_zero env o w dt A y hty hWF hne hnf
    hnt hy (IeeeParams.any h hntN hp) (drawSafe_ieee h (by omega)) hmc gs
  have hL := learned_mono (fun D th => ThrFrom.mono (drawable_ieee (G := G))) h5
  refine ⟨o', w', S, sizes, h1, h2, h3, hL, fun k hk hn => (blind_learned h (by omega) hL hk hn).1, ?_⟩
  intro dt' B a1 a2 a3 a4
  refine ⟨_, h6 dt' B a1 a2 a3 a4, rfl, ?_⟩
  intro k hk row hrow
  obtain ⟨x, hx, rfl⟩ := List.mem_map.1 hrow
  refine ⟨fun hth => C113_nan_threshold o.phase S hk hth x B.nt, fun hn => ?_⟩
  obtain ⟨b1, b2⟩ := a1 x hx
  exact (blind_learned h (by omega) hL hk hn).2 x B.nt b2 (by omega) a4

/-- **C113.** The same for series of different lengths given as a list of 2D arrays. -/
theorem C113_fit_variable_length (h : Ranged F δ t big N) (env : Env G R L) (o : Rdst (Ieee F) R) (w : World R)
    (xs : List (Mat (Ieee F))) (y : List L) (hty : o.transformType.Var ∨ o.transformType = .auto)
    (hwf : ∀ x ∈ xs, x.WF) (hne : xs ≠ []) (nf : Nat) (hnf1 : 1 ≤ nf)
    (hnf : ∀ x ∈ xs, x.rows.length = nf) (m : Nat) (hm4 : 4 ≤ m) (hmN : m < N) (hlen : ∀ x ∈ xs, m ≤ x.len)
    (hm : o.minLen = some m ∨ o.minLen = none ∧ ∃ x ∈ xs, x.len = m)
    (hy : y.length = xs.length) (hp : IeeeParams o m N)
    (hmc : ∀ k, o.maxChannels = some k → 1 ≤ k ∧ k ≤ nf) (gs : Nat → G) :
    ∃ o' w' S, ∃ sizes : List Nat,
      (∀ order, IsSchedule order → o.fit env gs order w (.list xs) y = (o', w', .ok ())) ∧
      o'.shapelets = some S ∧ (∀ l ∈ sizes, 2 ≤ l ∧ l ≤ m) ∧
      Learned o.nShp sizes m xs.length nf (o.maxChannels.getD nf) (fun s => (xs.map Mat.len).getD s 0)
        (fun s c => ((xs.map Mat.rows).getD s []).getD c []) y (ThrFrom o.pMin o.pMax UnitDraw) o.phase S ∧
      (∀ k, k < Shapelets.count S → NotFinite S k → thrAt S k = some .nan) ∧
      ∀ zs : List (Mat (Ieee F)), (∀ z ∈ zs, z.WF) → zs ≠ [] → (∀ z ∈ zs, z.rows.length = nf) →
        (∀ z ∈ zs, m ≤ z.len) →
        ∃ M, o'.transform (.list zs) = .ok M ∧ M = zs.map (fun z => rowOf o.phase S z.rows z.len) ∧
          ∀ k, k < Shapelets.count S → ∀ row ∈ M,
            (thrAt S k = some .nan → row[3 * k + 2]? = some (.fin 0)) ∧ (NotFinite S k → Blind row k) := by
  obtain ⟨o', w', S, sizes, h1, h2, h3, -, h5, -, h6⟩ := object_variable_length ieee_eqb_zero env o w xs y hty hwf hne nf
    hnf1 hnf m hm4 hlen hm hy (IeeeParams.any h hmN hp) (drawSafe_ieee h (by omega)) hmc gs
  have hL := learned_mono (fun D th => ThrFrom.mono (drawable_ieee (G := G))) h5
  refine ⟨o', w', S, sizes, h1, h2, h3, hL, fun k hk hn => (blind_learned h (by omega) hL hk hn).1, ?_⟩
  intro zs a1 a2 a3 a4
  refine ⟨_, h6 zs a1 a2 a3 a4, rfl, ?_⟩
  intro k hk row hrow
  obtain ⟨x, hx, rfl⟩ := List.mem_map.1 hrow
  refine ⟨fun hth => C113_nan_threshold o.phase S hk hth x.rows x.len, fun hn => ?_⟩
  exact (blind_learned h (by omega) hL hk hn).2 x.rows x.len (a1 x hx) (by rw [a3 x hx]; exact hnf1) (a4 x hx)

end

/-! ## `float64` -/

theorem rndBin_pow {p : Nat} (e : Int) : rndBin p ((2 : ℝ) ^ e) = (2 : ℝ) ^ e := by
  have hb : binExp ((2 : ℝ) ^ e) = e := by
    have hp : (0 : ℝ) < (2 : ℝ) ^ e := zpow_pos (by norm_num) _
    apply binExp_eq <;> rw [abs_of_pos hp]
    exact zpow_lt_zpow_right₀ (by norm_num) (by omega)
  exact rndBin_fine (q := e) 1 (by push_cast; ring) (by rw [hb]; omega)

theorem rndBin_nonneg {p : Nat} {x : ℝ} (h : 0 ≤ x) : 0 ≤ rndBin p x := (Rounding.binary p).nonneg h

theorem rndSub_nonneg {p : Nat} {q : Int} {x : ℝ} (h : 0 ≤ x) : 0 ≤ rndSub p q x := by
  unfold rndSub
  split
  · exact rndBin_nonneg h
  · have hq : (0 : ℝ) < (2 : ℝ) ^ q := zpow_pos (by norm_num) _
    have hq' : (0 : ℝ) < (2 : ℝ) ^ (-q) := zpow_pos (by norm_num) _
    have : 0 ≤ round (x * (2 : ℝ) ^ (-q)) := by
      have h0 : 0 ≤ x * (2 : ℝ) ^ (-q) := by positivity
      rw [round_eq]
      exact Int.floor_nonneg.2 (by linarith)
    have : (0 : ℝ) ≤ round (x * (2 : ℝ) ^ (-q)) := by exact_mod_cast this
    positivity

theorem binExp_mono {x y : ℝ} (hx : 0 < x) (hxy : x ≤ y) : binExp x ≤ binExp y := by
  obtain ⟨a1, -⟩ := binExp_bounds hx.ne'
  obtain ⟨-, b2⟩ := binExp_bounds (hx.trans_le hxy).ne'
  rw [abs_of_pos hx] at a1
  rw [abs_of_pos (hx.trans_le hxy)] at b2
  have : binExp x < binExp y + 1 :=
    (zpow_lt_zpow_iff_right₀ (by norm_num : (1 : ℝ) < 2)).1 (lt_of_le_of_lt (a1.trans hxy) b2)
  omega

/-- Rounding with underflow is monotone. -/
theorem rndSub_mono {p : Nat} {q : Int} {x y : ℝ} (hx : 0 ≤ x) (hxy : x ≤ y) : rndSub p q x ≤ rndSub p q y := by
  rcases hx.eq_or_lt with rfl | hx
  · have : rndSub p q 0 = 0 := by unfold rndSub; split <;> simp [rndBin]
    rw [this]
    exact rndSub_nonneg hxy
  have hb := binExp_mono hx hxy
  have hq : (0 : ℝ) < (2 : ℝ) ^ q := zpow_pos (by norm_num) _
  have hq' : (0 : ℝ) < (2 : ℝ) ^ (-q) := zpow_pos (by norm_num) _
  have hr : ∀ a b : ℝ, a ≤ b → (round a : ℝ) ≤ round b := by
    intro a b h
    rw [round_eq, round_eq]
    exact_mod_cast Int.floor_mono (by linarith)
  unfold rndSub
  by_cases h1 : q ≤ binExp x - p
  · rw [if_pos h1, if_pos (by omega)]
    exact rndBin_mono p hxy
  rw [if_neg h1]
  split
  · rename_i h2
    obtain ⟨-, a2⟩ := binExp_bounds hx.ne'
    obtain ⟨b1, -⟩ := binExp_bounds (hx.trans_le hxy).ne'
    rw [abs_of_pos hx] at a2
    rw [abs_of_pos (hx.trans_le hxy)] at b1
    have c1 : x ≤ (2 : ℝ) ^ (q + p) := a2.le.trans (zpow_le_zpow_right₀ (by norm_num) (by omega))
    have c2 : (2 : ℝ) ^ (q + p) ≤ y := (zpow_le_zpow_right₀ (by norm_num) (by omega)).trans b1
    have d2 := rndBin_mono p c2
    rw [rndBin_pow] at d2
    refine le_trans ?_ d2
    have e : (2 : ℝ) ^ (q + p) * (2 : ℝ) ^ (-q) = ((2 ^ p : Int) : ℝ) := by
      rw [← zpow_add₀ (by norm_num), show q + (p : Int) + -q = p by omega, zpow_natCast]
      push_cast; rfl
    have f := hr _ _ (mul_le_mul_of_nonneg_right c1 hq'.le)
    rw [e, round_intCast] at f
    calc (round (x * (2 : ℝ) ^ (-q)) : ℝ) * (2 : ℝ) ^ q ≤ ((2 ^ p : Int) : ℝ) * (2 : ℝ) ^ q :=
          mul_le_mul_of_nonneg_right f hq.le
      _ = (2 : ℝ) ^ (q + p) := by
          rw [← e, mul_assoc, ← zpow_add₀ (by norm_num)]; simp
  · exact mul_le_mul_of_nonneg_right (hr _ _ (mul_le_mul_of_nonneg_right hxy hq'.le)) hq.le

theorem rndSub_normal {p : Nat} {q : Int} {x : ℝ} (h : (2 : ℝ) ^ (q + p) ≤ x) : rndSub p q x = rndBin p x := by
  have hp : (0 : ℝ) < (2 : ℝ) ^ (q + p) := zpow_pos (by norm_num) _
  have hb : binExp ((2 : ℝ) ^ (q + p)) = q + p := by
    apply binExp_eq <;> rw [abs_of_pos hp]
    exact zpow_lt_zpow_right₀ (by norm_num) (by omega)
  have := binExp_mono hp h
  rw [hb] at this
  unfold rndSub
  rw [if_pos (by omega)]

theorem tiny_le_half : (2 : ℝ) ^ (-1022 : Int) ≤ 1 / 2 := by
  calc (2 : ℝ) ^ (-1022 : Int) ≤ (2 : ℝ) ^ (-1 : Int) := zpow_le_zpow_right₀ (by norm_num) (by norm_num)
    _ = 1 / 2 := by norm_num

theorem top64_ge : (2 : ℝ) ^ 64 ≤ FloatFormat.float64.top :=
  pow_le_pow_right₀ (show (1 : ℝ) ≤ 2 by norm_num) (by norm_num : 64 ≤ 1024)

theorem u64 : FloatFormat.float64.r.u = 1 / 2 ^ 53 := double_u

/-- **C113.** `float64`, with correctly rounded `log`, `log2` and `2**x`, is a format for which `fit` is safe on series
of up to `2^40` points. -/
theorem C113_float64 : Ranged FloatFormat.float64 (1 / 2 ^ 53) ((2 : ℝ) ^ (-1022 : Int)) (2 ^ 54) (2 ^ 40) where
  acc := C100_double_accurate
  mono _ _ := rndSub_mono
  normal x h := rndSub_normal (p := 52) (q := -1074) (by norm_num at h ⊢; exact h)
  tiny_pos := zpow_pos (by norm_num) _
  tiny_exact := rndBin_pow _
  tiny_small := by
    rw [u64]
    have := tiny_le_half
    have h : (0 : ℝ) < (2 : ℝ) ^ (-1022 : Int) := zpow_pos (by norm_num) _
    generalize (2 : ℝ) ^ (-1022 : Int) = t at *
    have : (1 + 1 / 2 ^ 53 : ℝ) ^ 4 * t ≤ (1 + 1 / 2 ^ 53 : ℝ) ^ 4 * (1 / 2) :=
      mul_le_mul_of_nonneg_left this (by positivity)
    norm_num at this ⊢
    linarith
  tiny_inv := by
    have := tiny_le_half
    generalize (2 : ℝ) ^ (-1022 : Int) = t at *
    have : t * (1 + 1 / 2 ^ 53 : ℝ) ≤ 1 / 2 * (1 + 1 / 2 ^ 53) := mul_le_mul_of_nonneg_right this (by positivity)
    norm_num at this ⊢
    linarith
  delta_le := by norm_num
  log_nonneg x hx := rndBin_nonneg (p := 52) (Real.log_nonneg hx)
  log_one := by
    show rndBin 52 (Real.log 1) = 0
    rw [Real.log_one]
    exact Rounding.double.zero
  big_ge := by norm_num
  big_lt := lt_of_lt_of_le (by norm_num) top64_ge
  absorb := by
    have e : FloatFormat.float64.rnd ((2 : ℝ) ^ 54 + 1) = rndBin 52 ((2 : ℝ) ^ 54 + 1) :=
      rndSub_normal (p := 52) (q := -1074) (by
        have := tiny_le_half
        norm_num at this ⊢
        linarith)
    have hb : binExp ((2 : ℝ) ^ 54 + 1) = 54 := by
      apply binExp_eq <;> rw [abs_of_pos (by norm_num)] <;> norm_num
    rw [e]
    unfold rndBin
    rw [hb]
    have : round (((2 : ℝ) ^ 54 + 1) * 2 ^ (((52 : Nat) : Int) - 54)) = 2 ^ 52 := by
      rw [round_eq, Int.floor_eq_iff]
      norm_num
    rw [this]
    norm_num
  large := by norm_num
  room := lt_of_lt_of_le (by norm_num) top64_ge

/-! ## Concrete objects -/

/-- A generator next to `float64` that always draws the least integer and one half. -/
structure IeeeGen where

noncomputable instance : Gen IeeeGen (Ieee .float64) where
  randint lo _ g := (lo, g)
  unit g := (.fin (1 / 2), g)

instance : LawfulIeee IeeeGen (F := .float64) where
  int_ge _ _ _ _ := le_rfl
  int_lt _ _ _ h := h
  unit_fin _ := ⟨1 / 2, rfl, by norm_num, by norm_num⟩

/-- A fresh object with the default parameters but for the number of shapelets. -/
noncomputable def ieeeObj (t : TType) : Rdst (Ieee .float64) Nat where
  transformType := t
  phase := false
  alpha := .fin (1 / 2)
  normalizeOutput := false
  nSamples := none
  nShp := 4
  lens := .ints [11]
  bounds := none
  reduction := .fin (1 / 2)
  prime := true
  pNorm := .fin (4 / 5)
  pMin := .fin 5
  pMax := .fin 10
  rs := .own 7
  nJobs := 1
  maxChannels := none
  minLen := none
  shapelets := none

theorem ieeeObj_ok (t : TType) (m : Nat) : IeeeParams (ieeeObj t) m (2 ^ 40) where
  nShp := by show 1 ≤ 4; omega
  pMin := C100_double_percentile (show (0 : ℝ) ≤ 5 by norm_num) (Or.inr (show (5 : ℝ) ≤ _ by norm_num))
  pMax := C100_double_percentile (show (0 : ℝ) ≤ 10 by norm_num) (Or.inr (show (10 : ℝ) ≤ _ by norm_num))
  nSamples := rfl
  red := ⟨by norm_num, by norm_num⟩
  bounds := by intro b0 b1 h; cases h
  lens _ := Or.inl ⟨[11], rfl, by simp, by simp⟩

/-- Two series of five points with infinite and missing values, and a sum that overflows. -/
noncomputable def ieeeArr : Arr3 (Ieee .float64) :=
  ⟨[[[.fin 0, .inf false, .fin 2, .fin (2 ^ 1023), .fin (-2 ^ 1023)]], [[.fin 7, .nan, .inf true, .fin 8, .fin 0]]],
    1, 5⟩

/-- The hypotheses of `C113_fit_same_length` are met. -/
example (env : Env IeeeGen Nat Nat) (w : World Nat) (gs : Nat → IeeeGen) :
    ∃ o' w' S, (∀ order, IsSchedule order →
        (ieeeObj .auto).fit env gs order w (.array .float64 ieeeArr) [0, 1] = (o', w', .ok ())) ∧
      o'.shapelets = some S ∧ Shapelets.count S ≤ 4 ∧
      ∃ M, o'.transform (.array .float64 ieeeArr) = .ok M ∧ M.length = 2 := by
  have hwf : (XIn.array .float64 ieeeArr).WF := by simp [XIn.WF, ieeeArr]
  obtain ⟨o', w', S, sizes, h1, h2, -, h3, -, h4⟩ := C113_fit_same_length C113_float64 env
    (ieeeObj .auto) w .float64 ieeeArr [0, 1] (Or.inr (Or.inr ⟨rfl, by simp⟩)) hwf (by simp [ieeeArr])
    (by simp [ieeeArr]) (by simp [ieeeArr]) (by simp [ieeeArr]) (by simp [ieeeArr]) (ieeeObj_ok _ _)
    (by simp [ieeeObj]) gs
  obtain ⟨M, hM, rfl, -⟩ := h4 .float64 ieeeArr hwf (by simp [ieeeArr]) rfl le_rfl
  exact ⟨o', w', S, h1, h2, learned_count h3, _, hM, by simp [ieeeArr]⟩

/-- Series of five and four points. -/
noncomputable def ieeeList : List (Mat (Ieee .float64)) :=
  [⟨[[.fin 0, .inf false, .fin 2, .fin 3, .fin 4]], 5⟩, ⟨[[.fin 7, .nan, .inf true, .fin 8]], 4⟩]

/-- The hypotheses of `C113_fit_variable_length` are met. -/
example (env : Env IeeeGen Nat Nat) (w : World Nat) (gs : Nat → IeeeGen) :
    ∃ o' w' S, (∀ order, IsSchedule order →
        (ieeeObj .auto).fit env gs order w (.list ieeeList) [0, 1] = (o', w', .ok ())) ∧
      o'.shapelets = some S ∧ Shapelets.count S ≤ 4 ∧
      ∃ M, o'.transform (.list ieeeList) = .ok M ∧ M.length = 2 := by
  have hwf : ∀ x ∈ ieeeList, x.WF := by simp [ieeeList, Mat.WF]
  obtain ⟨o', w', S, sizes, h1, h2, -, h3, -, h4⟩ := C113_fit_variable_length C113_float64 env
    (ieeeObj .auto) w ieeeList [0, 1] (Or.inr rfl) hwf (by simp [ieeeList]) 1 le_rfl (by simp [ieeeList]) 4 le_rfl
    (by norm_num) (by simp [ieeeList]) (Or.inr ⟨rfl, by simp [ieeeList]⟩) (by simp [ieeeList]) (ieeeObj_ok _ _)
    (by simp [ieeeObj]) gs
  obtain ⟨M, hM, rfl, -⟩ := h4 ieeeList hwf (by simp [ieeeList]) (by simp [ieeeList]) (by simp [ieeeList])
  exact ⟨o', w', S, h1, h2, learned_count h3, _, hM, by simp [ieeeList]⟩

/-- A window with an infinite value: the hypothesis of `C113_window` is met, and the shapelet has such a value. -/
example : ∃ a ∈ seen true (window false [.fin 0, .inf false, .fin (2 : ℝ), (.fin 3 : Ieee .float64)] 2 1 1),
    ∀ v, a ≠ .fin v :=
  (C113_window true false _).1 (Or.inl ⟨0, false, by omega, rfl⟩)

/-- A shapelet with the threshold `NaN`. -/
noncomputable def nanU : UShp (Ieee .float64) := ⟨[[.fin 1, .fin 2]], [2], [1], [.nan], [false]⟩

/-- The hypotheses of `C113_nan_threshold` are met. -/
example : (rowOf false (.u nanU) [[.fin 1, .fin 2, (.fin 5 : Ieee .float64)]] 3)[2]? = some (.fin 0) :=
  C113_nan_threshold (k := 0) false (.u nanU) (show 0 < 1 by omega) rfl _ _

/-- Two series of five infinite values. -/
noncomputable def infArr : Arr3 (Ieee .float64) :=
  ⟨[[List.replicate 5 (.inf false)], [List.replicate 5 (.inf true)]], 1, 5⟩

theorem infArr_hit {s : Nat} (hs : s < 2) {phase : Bool} {l d i : Nat} (hl : 1 ≤ l)
    (hi : i < nWin phase 5 l d) : HitAny phase ((infArr.data.getD s []).getD 0 []) l d i := by
  have key : ∀ b : Bool, HitAny phase (List.replicate 5 (.inf b : Ieee .float64)) l d i := by
    intro b
    refine Or.inl ⟨0, b, by omega, ?_⟩
    have h5 : i < 5 := by
      unfold nWin at hi
      split at hi <;> omega
    have hp : pos phase 5 d i 0 < 5 := by
      unfold pos
      split
      · exact Nat.mod_lt _ (by omega)
      · omega
    rw [List.length_replicate, List.getElem?_replicate, if_pos hp]
  have : s = 0 ∨ s = 1 := by omega
  rcases this with rfl | rfl
  · exact key false
  · exact key true

/-- Shapelets which are not finite occur: on series of infinite values there are no others, and the features of all
shapelets are useless for every series. -/
example (env : Env IeeeGen Nat Nat) (w : World Nat) (gs : Nat → IeeeGen) :
    ∃ o' w' S, (∀ order, IsSchedule order →
        (ieeeObj .uni).fit env gs order w (.array .float64 infArr) [0, 1] = (o', w', .ok ())) ∧
      o'.shapelets = some S ∧ (∀ k, k < Shapelets.count S → NotFinite S k) ∧
      ∃ M, o'.transform (.array .float64 ieeeArr) = .ok M ∧ ∀ k, k < Shapelets.count S → ∀ row ∈ M, Blind row k := by
  have hwf : (XIn.array .float64 infArr).WF := by simp [XIn.WF, infArr]
  have hwf' : (XIn.array .float64 ieeeArr).WF := by simp [XIn.WF, ieeeArr]
  obtain ⟨o', w', S, sizes, h1, h2, h0, h3, -, h4⟩ := C113_fit_same_length C113_float64 env
    (ieeeObj .uni) w .float64 infArr [0, 1] (Or.inl rfl) hwf (by simp [infArr])
    (by simp [infArr]) (by simp [infArr]) (by simp [infArr]) (by simp [infArr]) (ieeeObj_ok _ _)
    (by simp [ieeeObj]) gs
  have hall : ∀ k, k < Shapelets.count S → NotFinite S k := by
    intro k hk
    cases S with
    | u S =>
      obtain ⟨l, d, norm, a1, a2, a3, a4, a5, a6, s, t, a7, a8, a9, -⟩ := ULearned.shapelet h3 k hk
      obtain ⟨a, ha, hn⟩ := (C113_window norm _ _).1 (infArr_hit (s := s) a7 (by have := h0 l a4; omega) a8)
      exact ⟨a, by rw [a9]; exact ha, hn⟩
    | m S =>
      obtain ⟨l, d, norm, nch, a1, a2, a3, a4, a5, a6, c1, c2, c3, c4, c5, s, t, a7, a8, a9, -⟩ :=
        MLearned.shapelet h3 k hk
      have e4 : S.nChannels.getD k 0 = nch := by rw [List.getD_eq_getElem?_getD, a4]; rfl
      have e0 : (mChannels S k).getD 0 0 = 0 := by
        have hlen : 0 < (mChannels S k).length := by omega
        have hm : (mChannels S k).getD 0 0 ∈ mChannels S k := by
          rw [getD_lt 0 hlen]; exact List.getElem_mem _
        have := (MLearned.wf h3).range _ (List.mem_of_mem_drop (List.mem_of_mem_take hm))
        have : (mChannels S k).getD 0 0 < 1 := this
        omega
      have h9 := a9 0 (by omega)
      rw [e0] at h9
      obtain ⟨a, ha, hn⟩ := (C113_window norm _ _).1 (infArr_hit (s := s) a7 (by have := h0 l a5; omega) a8)
      exact ⟨0, by omega, a, by rw [h9]; exact ha, hn⟩
  obtain ⟨M, hM, -, h5⟩ := h4 .float64 ieeeArr hwf' (by simp [ieeeArr]) rfl le_rfl
  exact ⟨o', w', S, h1, h2, hall, M, hM, fun k hk row hr => (h5 k hk row hr).2 (hall k hk)⟩

/-- The percentile 0 of a finite and an infinite float64 distance is `NaN`. -/
example : percentile [fin 3, inf false] (0 : Ieee .float64) = .ok nan := (C113_percentile_zero C113_float64 3).1

theorem plain_distance {F : FloatFormat} (a : ℝ) : (nan : Ieee F) ≠ fin 0 + Scalar.abs (fin a - fin 0) := by
  rw [ieee_fin_sub, abs_over]
  unfold over
  split_ifs <;> simp [ieee_fin_add_inf, ieee_fin_add, over]
  split_ifs <;> simp

/-- An infinite threshold: the shapelet `[0]` is counted at all three windows of `[1, ∞, 9]`. -/
example : (rowOf false (.u ⟨[[fin 0]], [1], [1], [inf false], [false]⟩ : Shapelets (Ieee .float64))
    [[fin 1, inf false, fin 9]] 3)[2]? = some (Scalar.ofNat 3) := by
  refine C113_infinite_threshold_univariate (F := .float64) (k := 0) false _ (by simp) rfl _ 3 ?_
  intro hm
  simp [uDistances, distances, nWin, List.range_succ] at hm
  rcases hm with h | h | h
  · exact plain_distance 1 h
  · cases h
  · exact plain_distance 9 h

end Convst.Props
