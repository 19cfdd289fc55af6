import Verif.Proofs.MissingFit
import Verif.Props.Missing
import Verif.Props.RoundedFit

/-!
# C107: `fit` on training series with missing values

`Nf` (`Verif/Model/Missing.lean`) is arithmetic with `NaN`; `MissingThreshold`, `MissingOrigin` and `NfParams`
(`Verif/Spec/MissingFit.lean`) say what is expected.
-/

set_option autoImplicit false
set_option linter.unusedSectionVars false

namespace Convst.Props
open Convst Spec Nf

section
variable {G R L : Type} [Gen G Nf] [LawfulNf G] [DecidableEq L]

theorem trunc_le_natCast {x : ℝ} {n : Nat} (h : x ≤ n) : (Scalar.trunc (Nf.num x) : Int) ≤ n := by
  show (if 0 ≤ x then ⌊x⌋ else ⌈x⌉) ≤ (n : Int)
  split
  · have := Int.floor_mono h
    simpa using this
  · exact Int.ceil_le.2 (by exact_mod_cast h)

/-- Usable parameters are safe with `NaN`. -/
theorem NfParams.any {m : Nat} {o : Rdst Nf R} {qMin qMax : ℝ} (h : NfParams o m qMin qMax) : AnyParams o m := by
  have key : (setLengths o.lens o.bounds o.reduction m).astypeInt ≠ [] ∧
      ∀ z ∈ (setLengths o.lens o.bounds o.reduction m).astypeInt, 1 < z := by
    cases hb : o.bounds with
    | some b =>
      obtain ⟨b0, b1⟩ := b
      apply lengths_from_bounds
      intro _
      obtain ⟨ρ, hρ, h1⟩ := h.red
      rw [hρ, nf_ofNat, nf_mul]
      exact trunc_le_natCast (by nlinarith [(Nat.cast_nonneg (countBetween (boundVal m b0) (boundVal m b1)) :
        (0 : ℝ) ≤ _)])
    | none =>
      rcases h.lens hb with ⟨l, hl, hne, hz⟩ | ⟨l, hl, hne, hx⟩
      · rw [hl]
        exact ⟨hne, hz⟩
      · rw [hl]
        simp only [setLengths, LenArr.astypeInt, List.map_map]
        refine ⟨by simp [hne], ?_⟩
        intro z hz
        obtain ⟨x, hxl, rfl⟩ := List.mem_map.1 hz
        have h4 : (2 : Int) ≤ ⌊(m : ℝ) * x⌋ := Int.le_floor.2 (by exact_mod_cast hx x hxl)
        obtain ⟨n, hn⟩ := Int.eq_ofNat_of_zero_le (show 0 ≤ ⌊(m : ℝ) * x⌋ by omega)
        simp only [Function.comp, nf_ofNat, nf_mul]
        have e : Scalar.floor (Nf.num ((m : ℝ) * x)) = ⌊(m : ℝ) * x⌋ := rfl
        rw [e, hn]
        show 1 < Scalar.trunc (Scalar.ofNat n : Nf)
        rw [nf_ofNat]
        show 1 < (if 0 ≤ (n : ℝ) then ⌊(n : ℝ)⌋ else ⌈(n : ℝ)⌉)
        rw [if_pos (Nat.cast_nonneg n), Int.floor_natCast]
        omega
  refine ⟨h.nShp, ?_, ?_, h.nSamples, key.1, key.2⟩
  · rw [h.pMin]; exact percSafe_nf h.low (h.order.trans h.high)
  · rw [h.pMax]; exact percSafe_nf (h.low.trans h.order) h.high

theorem MissingThreshold.iff {q0 q1 : ℝ} {D : List Nf} {th : Nf} (h : MissingThreshold q0 q1 D th) :
    th = .nan ↔ .nan ∈ D := by
  refine ⟨?_, h.missing⟩
  intro e
  by_contra hn
  obtain ⟨D', rfl⟩ := exists_map_num hn
  obtain ⟨p0, p1, t, -, -, ht, -⟩ := h.number D' rfl
  rw [ht] at e
  cases e

theorem uOrigin_of {nShp : Nat} {sizes : List Nat} {n ns : Nat} (hn : 1 ≤ n) {len : Nat → Nat}
    {series : Nat → Nat → List Nf} {y : List L} {q0 q1 : ℝ} {phase : Bool} {S : UShp Nf}
    (hlen : ∀ s, s < y.length → (series s 0).length = len s) (hmin : ∀ s, s < y.length → n ≤ len s)
    (h : ULearned nShp sizes n ns len series y (MissingThreshold q0 q1) phase S) {k : Nat}
    (hk : k < S.lengths.length) : UMissingOrigin ns len series y phase S k := by
  obtain ⟨l, d, norm, a1, a2, a3, a4, a5, a6, s, t, a7, a8, a9, test, th, b1, b2, b3⟩ := h.shapelet k hk
  have e1 : S.lengths.getD k 0 = l := by rw [List.getD_eq_getElem?_getD, a1]; rfl
  have e2 : S.dilations.getD k 0 = d := by rw [List.getD_eq_getElem?_getD, a2]; rfl
  have e3 : nan ∈ uValues S k ↔ Hit phase (series s 0) l d t := by rw [a9, nan_mem_seen, nan_mem_window]
  refine ⟨l, d, norm, s, t, test, a1, a2, a3, a7, a8, b1, a9, e3, ?_⟩
  rw [b2, Option.some.injEq, (MissingThreshold.iff b3)]
  unfold uDistances
  have hl := hlen test b1.1
  have hm := hmin test b1.1
  have hv : (uValues S k).length = l := by rw [a9, seen_length, window_length]
  rw [e1, e2, nan_mem_distances hv (by rw [hl]; exact nWin_pos (by unfold HasWindow; split <;> omega)), e3, hl]

theorem getElem?_mem_iff_getD {l : List Nat} {c : Nat} : c ∈ l ↔ ∃ i, i < l.length ∧ l.getD i 0 = c := by
  constructor
  · intro h
    obtain ⟨i, hi, e⟩ := List.getElem_of_mem h
    exact ⟨i, hi, by rw [getD_lt 0 hi, e]⟩
  · rintro ⟨i, hi, rfl⟩
    rw [getD_lt 0 hi]
    exact List.getElem_mem hi

theorem mOrigin_of {nShp : Nat} {sizes : List Nat} {n ns nf mc : Nat} (hn : 1 ≤ n) {len : Nat → Nat}
    {series : Nat → Nat → List Nf} {y : List L} {q0 q1 : ℝ} {phase : Bool} {S : MShp Nf}
    (hmin : ∀ s, s < y.length → n ≤ len s)
    (h : MLearned nShp sizes n ns nf mc len series y (MissingThreshold q0 q1) phase S) {k : Nat}
    (hk : k < S.lengths.length) : MMissingOrigin ns len series y phase S k := by
  obtain ⟨l, d, norm, nch, a1, a2, a3, a4, a5, a6, c1, c2, c3, c4, c5, s, t, a7, a8, a9, test, th, b1, b2, b3⟩ :=
    h.shapelet k hk
  have e1 : S.lengths.getD k 0 = l := by rw [List.getD_eq_getElem?_getD, a1]; rfl
  have e2 : S.dilations.getD k 0 = d := by rw [List.getD_eq_getElem?_getD, a2]; rfl
  have e4 : S.nChannels.getD k 0 = nch := by rw [List.getD_eq_getElem?_getD, a4]; rfl
  have e3 : ∀ c < nch, (nan ∈ mValues S k c ↔ Hit phase (series s ((mChannels S k).getD c 0)) l d t) := by
    intro c hc
    rw [a9 c hc, nan_mem_seen, nan_mem_window]
  refine ⟨l, d, norm, nch, s, t, test, a1, a2, a3, a4, c4, a7, a8, b1, fun c hc => ⟨a9 c hc, e3 c hc⟩, ?_⟩
  rw [b2, Option.some.injEq, (MissingThreshold.iff b3), nan_mem_mDistances h.wf hk (by rw [c4, e4]) (by
    rw [e1, e2]
    have hm := hmin test b1.1
    exact nWin_pos (by unfold HasWindow; split <;> omega)), e1, e2]
  have hch : ∀ c, c < nch → (mChannels S k).getD c 0 < nf := by
    intro c hc
    refine h.wf.range _ ?_
    have : (mChannels S k).getD c 0 ∈ mChannels S k := getElem?_mem_iff_getD.2 ⟨c, by omega, rfl⟩
    exact List.mem_of_mem_drop (List.mem_of_mem_take this)
  constructor
  · rintro ⟨i, hi, hh⟩
    rw [c4] at hi
    refine ⟨_, getElem?_mem_iff_getD.2 ⟨i, by omega, rfl⟩, ?_⟩
    rw [e3 i hi, getD_range_map _ (hch i hi)] at hh
    exact hh
  · rintro ⟨c, hc, hh⟩
    obtain ⟨i, hi, rfl⟩ := getElem?_mem_iff_getD.1 hc
    have hi' : i < nch := by omega
    refine ⟨i, hi, ?_⟩
    rw [e3 i hi', getD_range_map _ (hch i hi')]
    exact hh

theorem origin_of {nShp : Nat} {sizes : List Nat} {n ns nf mc : Nat} (hn : 1 ≤ n) {len : Nat → Nat}
    {series : Nat → Nat → List Nf} {y : List L} {q0 q1 : ℝ} {phase : Bool} {S : Shapelets Nf}
    (hlen : ∀ s, s < y.length → (series s 0).length = len s) (hmin : ∀ s, s < y.length → n ≤ len s)
    (h : Learned nShp sizes n ns nf mc len series y (MissingThreshold q0 q1) phase S) :
    MissingOrigin ns len series y phase S := by
  cases S with
  | u S => exact fun k hk => uOrigin_of hn hlen hmin h hk
  | m S => exact fun k hk => mOrigin_of hn hmin h hk

/-- **C107.** A shapelet whose threshold is `NaN` is never counted as occurring, on any series. -/
theorem C107_nan_threshold (phase : Bool) (S : Shapelets Nf) {k : Nat} (hk : k < Shapelets.count S)
    (hth : thrAt S k = some .nan) (x : List (List Nf)) (T : Nat) :
    (rowOf phase S x T)[3 * k + 2]? = some (.num 0) := by
  cases S with
  | u S =>
    have e : S.threshold.getD k 0 = .nan := by
      rw [List.getD_eq_getElem?_getD, show S.threshold[k]? = some .nan from hth]; rfl
    have := row_cells (fun k => uFeatures phase S (x.getD 0 []) k) S.lengths.length k 2 hk (by omega)
    refine this.trans ?_
    show some (uFeatures phase S (x.getD 0 []) k).2.2 = _
    unfold uFeatures
    rw [e, features_nan_thr]
  | m S =>
    have e : S.threshold.getD k 0 = .nan := by
      rw [List.getD_eq_getElem?_getD, show S.threshold[k]? = some .nan from hth]; rfl
    have := row_cells (fun k => mFeatures phase S x T k) S.lengths.length k 2 hk (by omega)
    refine this.trans ?_
    show some (mFeatures phase S x T k).2.2 = _
    unfold mFeatures
    rw [e, features_nan_thr]

/-- **C107.** A shapelet containing a missing value gives `NaN`, 0 and 0 on every series on which it has a window. -/
theorem C107_nan_shapelet (phase : Bool) (S : Shapelets Nf) {nf : Nat} (hS : ShpWF S nf) {k : Nat}
    (hk : k < Shapelets.count S) (hn : HasNan S k) {x : List (List Nf)} {T : Nat} (hx : ∀ r ∈ x, r.length = T)
    (hxl : 1 ≤ x.length)
    (hw : match S with
      | .u S => HasWindow phase T (S.lengths.getD k 0) (S.dilations.getD k 0)
      | .m S => (mChannels S k).length = S.nChannels.getD k 0 ∧
          HasWindow phase T (S.lengths.getD k 0) (S.dilations.getD k 0)) :
    (rowOf phase S x T)[3 * k]? = some .nan ∧ (rowOf phase S x T)[3 * k + 1]? = some (.num 0) ∧
      (rowOf phase S x T)[3 * k + 2]? = some (.num 0) := by
  cases S with
  | u S =>
    have hS : UWF S := hS
    have hk : k < S.lengths.length := hk
    have hT : (x.getD 0 []).length = T := by
      rw [getD_lt [] (by omega : 0 < x.length)]
      exact hx _ (List.getElem_mem _)
    have hf : uFeatures phase S (x.getD 0 []) k = (nan, num 0, num 0) := by
      refine features_all_nan ?_ ?_ _
      · apply List.ne_nil_of_length_pos
        rw [uDistances, distances, List.length_map, List.length_range, hT]
        exact nWin_pos hw
      · intro v hv
        obtain ⟨i, -, rfl⟩ := List.mem_map.1 hv
        rw [l1_eq_nan (by rw [seen_length, window_length, uValues_length hS hk])]
        exact Or.inr hn
    have r := fun j (hj : j < 3) => row_cells (fun k => uFeatures phase S (x.getD 0 []) k) S.lengths.length k j hk hj
    simp only [hf, cells] at r
    exact ⟨r 0 (by omega), r 1 (by omega), r 2 (by omega)⟩
  | m S =>
    have hS : MWF S nf := hS
    have hk : k < S.lengths.length := hk
    obtain ⟨c, hc, hn⟩ := hn
    have hf : mFeatures phase S x T k = (nan, num 0, num 0) := by
      refine features_all_nan ?_ ?_ _
      · apply List.ne_nil_of_length_pos
        rw [mDistances, List.length_map, List.length_range]
        exact nWin_pos hw.2
      · intro v hv
        obtain ⟨i, -, rfl⟩ := List.mem_map.1 hv
        unfold mDist
        rw [show (0 : Nf) = num 0 from rfl, foldl_eq_nan]
        refine ⟨c, List.mem_range.2 hc, ?_⟩
        rw [l1_eq_nan (by rw [seen_length, window_length, mValues_length hS hk (by rw [← hw.1]; exact hc)])]
        exact Or.inr hn
    have r := fun j (hj : j < 3) => row_cells (fun k => mFeatures phase S x T k) S.lengths.length k j hk hj
    simp only [hf, cells] at r
    exact ⟨r 0 (by omega), r 1 (by omega), r 2 (by omega)⟩

theorem nan_shapelet_learned {nShp : Nat} {sizes : List Nat} {n ns nf mc : Nat} (hn : 1 ≤ n) {len : Nat → Nat}
    {series : Nat → Nat → List Nf} {y : List L} {thr : List Nf → Nf → Prop} {phase : Bool} {S : Shapelets Nf}
    (h : Learned nShp sizes n ns nf mc len series y thr phase S) {k : Nat} (hk : k < Shapelets.count S)
    (hnan : HasNan S k) {x : List (List Nf)} {T : Nat} (hx : ∀ r ∈ x, r.length = T) (hxl : 1 ≤ x.length)
    (hT : n ≤ T) : (rowOf phase S x T)[3 * k]? = some .nan ∧ (rowOf phase S x T)[3 * k + 1]? = some (.num 0) ∧
      (rowOf phase S x T)[3 * k + 2]? = some (.num 0) := by
  refine C107_nan_shapelet phase S (learned_wf h) hk hnan hx hxl ?_
  cases S with
  | u S =>
    have := uLearned_lt h hn hk
    show HasWindow _ _ _ _
    unfold HasWindow; split <;> omega
  | m S =>
    have h' : MLearned nShp sizes n ns nf mc len series y thr phase S := h
    have h2 := mLearned_lt h' hn hk
    obtain ⟨l, d, norm, nch, a1, a2, a3, a4, a5, a6, c1, c2, c3, c4, -⟩ := h'.shapelet k hk
    refine ⟨by rw [c4, List.getD_eq_getElem?_getD, a4]; rfl, ?_⟩
    unfold HasWindow; split <;> omega

/-- **C107.** `fit` on a 3D array in which any entries may be missing: with usable parameters it succeeds, for every
generator and every schedule, with the same result.  Every shapelet is a window of a training series, contains a
missing value exactly when that window does, and has the threshold `NaN` exactly when its window or some window of
the series it was compared with contains a missing value; otherwise the threshold is a number between the two
percentiles of its distances.  `transform` succeeds on every array (complete or not) with the same number of channels
and at least as many points, and gives 0 for the number of occurrences of every shapelet with the threshold `NaN`, and `NaN`, 0 and 0 for every
shapelet containing a missing value. -/
theorem C107_fit_same_length (env : Env G R L) (o : Rdst Nf R) (w : World R) (dt : DType) (A : Arr3 Nf) (y : List L)
    (hty : o.transformType = .uni ∨ o.transformType = .multi ∨ o.transformType = .auto ∧ dt ≠ .otherDtype)
    (hWF : (XIn.array dt A).WF) (hne : A.data ≠ []) (hnf : 1 ≤ A.nf) (hnt : 4 ≤ A.nt)
    (hy : y.length = A.data.length) {qMin qMax : ℝ} (hp : NfParams o A.nt qMin qMax)
    (hmc : ∀ m, o.maxChannels = some m → 1 ≤ m ∧ m ≤ A.nf) (gs : Nat → G) :
    ∃ o' w' S, ∃ sizes : List Nat,
      (∀ order, IsSchedule order → o.fit env gs order w (.array dt A) y = (o', w', .ok ())) ∧
      o'.shapelets = some S ∧ (∀ l ∈ sizes, 2 ≤ l ∧ l ≤ A.nt) ∧
      Learned o.nShp sizes A.nt A.data.length A.nf (o.maxChannels.getD A.nf) (fun _ => A.nt)
        (fun s c => (A.data.getD s []).getD c []) y (MissingThreshold qMin qMax) o.phase S ∧
      MissingOrigin A.data.length (fun _ => A.nt) (fun s c => (A.data.getD s []).getD c []) y o.phase S ∧
      ∀ (dt' : DType) (B : Arr3 Nf), (XIn.array dt' B).WF → B.data ≠ [] → B.nf = A.nf → A.nt ≤ B.nt →
        ∃ M, o'.transform (.array dt' B) = .ok M ∧ M = B.data.map (fun x => rowOf o.phase S x B.nt) ∧
          ∀ k, k < Shapelets.count S → ∀ row ∈ M,
            (thrAt S k = some .nan → row[3 * k + 2]? = some (.num 0)) ∧
            (HasNan S k → row[3 * k]? = some .nan ∧ row[3 * k + 1]? = some (.num 0) ∧
              row[3 * k + 2]? = some (.num 0)) := by
  obtain ⟨o', w', S, sizes, h1, h2, h3, -, h5, -, h6⟩ := object_same_length nf_eqb_zero env o w dt A y hty hWF hne hnf
    hnt hy (NfParams.any hp) (drawSafe_nf _) hmc gs
  have hL : Learned o.nShp sizes A.nt A.data.length A.nf (o.maxChannels.getD A.nf) (fun _ => A.nt)
        (fun s c => (A.data.getD s []).getD c []) y (MissingThreshold qMin qMax) o.phase S := by
    refine learned_mono (fun D th h => ?_) h5
    rw [hp.pMin, hp.pMax] at h
    exact missingThreshold_of hp.low hp.order hp.high h
  refine ⟨o', w', S, sizes, h1, h2, h3, hL, origin_of (by omega) ?_ (fun _ _ => le_rfl) hL, ?_⟩
  · intro s hs
    rw [hy] at hs
    obtain ⟨a1, a2⟩ := hWF _ (List.getElem_mem hs)
    rw [getD_lt [] hs, getD_lt [] (by omega : 0 < A.data[s].length)]
    exact a2 _ (List.getElem_mem _)
  · intro dt' B a1 a2 a3 a4
    refine ⟨_, h6 dt' B a1 a2 a3 a4, rfl, ?_⟩
    intro k hk row hrow
    obtain ⟨x, hx, rfl⟩ := List.mem_map.1 hrow
    refine ⟨fun hth => C107_nan_threshold o.phase S hk hth x B.nt, fun hnan => ?_⟩
    obtain ⟨b1, b2⟩ := a1 x hx
    exact nan_shapelet_learned (by omega) hL hk hnan b2 (by omega) a4

/-- **C107.** The same for series of different lengths given as a list of 2D arrays. -/
theorem C107_fit_variable_length (env : Env G R L) (o : Rdst Nf R) (w : World R) (xs : List (Mat Nf)) (y : List L)
    (hty : o.transformType.Var ∨ o.transformType = .auto)
    (hwf : ∀ x ∈ xs, x.WF) (hne : xs ≠ []) (nf : Nat) (hnf1 : 1 ≤ nf)
    (hnf : ∀ x ∈ xs, x.rows.length = nf) (m : Nat) (hm4 : 4 ≤ m) (hlen : ∀ x ∈ xs, m ≤ x.len)
    (hm : o.minLen = some m ∨ o.minLen = none ∧ ∃ x ∈ xs, x.len = m)
    (hy : y.length = xs.length) {qMin qMax : ℝ} (hp : NfParams o m qMin qMax)
    (hmc : ∀ k, o.maxChannels = some k → 1 ≤ k ∧ k ≤ nf) (gs : Nat → G) :
    ∃ o' w' S, ∃ sizes : List Nat,
      (∀ order, IsSchedule order → o.fit env gs order w (.list xs) y = (o', w', .ok ())) ∧
      o'.shapelets = some S ∧ (∀ l ∈ sizes, 2 ≤ l ∧ l ≤ m) ∧
      Learned o.nShp sizes m xs.length nf (o.maxChannels.getD nf) (fun s => (xs.map Mat.len).getD s 0)
        (fun s c => ((xs.map Mat.rows).getD s []).getD c []) y (MissingThreshold qMin qMax) o.phase S ∧
      MissingOrigin xs.length (fun s => (xs.map Mat.len).getD s 0)
        (fun s c => ((xs.map Mat.rows).getD s []).getD c []) y o.phase S ∧
      ∀ zs : List (Mat Nf), (∀ z ∈ zs, z.WF) → zs ≠ [] → (∀ z ∈ zs, z.rows.length = nf) → (∀ z ∈ zs, m ≤ z.len) →
        ∃ M, o'.transform (.list zs) = .ok M ∧ M = zs.map (fun z => rowOf o.phase S z.rows z.len) ∧
          ∀ k, k < Shapelets.count S → ∀ row ∈ M,
            (thrAt S k = some .nan → row[3 * k + 2]? = some (.num 0)) ∧
            (HasNan S k → row[3 * k]? = some .nan ∧ row[3 * k + 1]? = some (.num 0) ∧
              row[3 * k + 2]? = some (.num 0)) := by
  obtain ⟨o', w', S, sizes, h1, h2, h3, -, h5, -, h6⟩ := object_variable_length nf_eqb_zero env o w xs y hty hwf hne nf
    hnf1 hnf m hm4 hlen hm hy (NfParams.any hp) (drawSafe_nf _) hmc gs
  have hL : Learned o.nShp sizes m xs.length nf (o.maxChannels.getD nf) (fun s => (xs.map Mat.len).getD s 0)
        (fun s c => ((xs.map Mat.rows).getD s []).getD c []) y (MissingThreshold qMin qMax) o.phase S := by
    refine learned_mono (fun D th h => ?_) h5
    rw [hp.pMin, hp.pMax] at h
    exact missingThreshold_of hp.low hp.order hp.high h
  have hlens : ∀ s, (hs : s < xs.length) → (xs.map Mat.len).getD s 0 = xs[s].len := by
    intro s hs
    rw [getD_lt 0 (by simpa using hs)]; simp
  refine ⟨o', w', S, sizes, h1, h2, h3, hL, origin_of (by omega) ?_ ?_ hL, ?_⟩
  · intro s hs
    rw [hy] at hs
    have hc := hnf _ (List.getElem_mem hs)
    have hr : (xs.map Mat.rows).getD s [] = xs[s].rows := by
      rw [getD_lt [] (by simpa using hs)]; simp
    rw [hlens s hs, hr, getD_lt [] (by omega : 0 < xs[s].rows.length)]
    exact hwf _ (List.getElem_mem hs) _ (List.getElem_mem _)
  · intro s hs
    rw [hy] at hs
    rw [hlens s hs]
    exact hlen _ (List.getElem_mem hs)
  · intro zs a1 a2 a3 a4
    refine ⟨_, h6 zs a1 a2 a3 a4, rfl, ?_⟩
    intro k hk row hrow
    obtain ⟨x, hx, rfl⟩ := List.mem_map.1 hrow
    refine ⟨fun hth => C107_nan_threshold o.phase S hk hth x.rows x.len, fun hnan => ?_⟩
    exact nan_shapelet_learned (by omega) hL hk hnan (a1 x hx) (by rw [a3 x hx]; exact hnf1) (a4 x hx)

end

/-! ## Concrete objects -/

/-- A generator next to `Nf` that always draws the least integer and one half. -/
structure NfGen where

noncomputable instance : Gen NfGen Nf where
  randint lo _ g := (lo, g)
  unit g := (.num (1 / 2), g)

instance : LawfulNf NfGen where
  int_ge _ _ _ _ := le_rfl
  int_lt _ _ _ h := h
  unit_num _ := ⟨1 / 2, rfl, by norm_num, by norm_num⟩

/-- A fresh object with the default parameters but for the number of shapelets. -/
noncomputable def nfObj (t : TType) : Rdst Nf Nat where
  transformType := t
  phase := false
  alpha := .num (1 / 2)
  normalizeOutput := false
  nSamples := none
  nShp := 4
  lens := .ints [11]
  bounds := none
  reduction := .num (1 / 2)
  prime := true
  pNorm := .num (4 / 5)
  pMin := .num 5
  pMax := .num 10
  rs := .own 7
  nJobs := 1
  maxChannels := none
  minLen := none
  shapelets := none

theorem nfObj_ok (t : TType) (m : Nat) : NfParams (nfObj t) m 5 10 where
  nShp := by show 1 ≤ 4; omega
  pMin := rfl
  pMax := rfl
  low := by norm_num
  order := by norm_num
  high := by norm_num
  nSamples := rfl
  red := ⟨1 / 2, rfl, by norm_num⟩
  lens _ := Or.inl ⟨[11], rfl, by simp, by simp⟩

/-- Two series of five points, one value of each class missing. -/
noncomputable def nfArr : Arr3 Nf :=
  ⟨[[[.num 0, .num 1, .nan, .num 3, .num 4]], [[.num 7, .nan, .num 9, .num 8, .num 0]]], 1, 5⟩

/-- The hypotheses of `C107_fit_same_length` are met. -/
example (env : Env NfGen Nat Nat) (w : World Nat) (gs : Nat → NfGen) :
    ∃ o' w' S, (∀ order, IsSchedule order →
        (nfObj .auto).fit env gs order w (.array .float64 nfArr) [0, 1] = (o', w', .ok ())) ∧
      o'.shapelets = some S ∧ Shapelets.count S ≤ 4 ∧
      ∃ M, o'.transform (.array .float64 nfArr) = .ok M ∧ M.length = 2 := by
  have hwf : (XIn.array .float64 nfArr).WF := by simp [XIn.WF, nfArr]
  obtain ⟨o', w', S, sizes, h1, h2, -, h3, -, h4⟩ := C107_fit_same_length env
    (nfObj .auto) w .float64 nfArr [0, 1] (Or.inr (Or.inr ⟨rfl, by simp⟩)) hwf (by simp [nfArr]) (by simp [nfArr])
    (by simp [nfArr]) (by simp [nfArr]) (nfObj_ok _ _) (by simp [nfObj]) gs
  obtain ⟨M, hM, rfl, -⟩ := h4 .float64 nfArr hwf (by simp [nfArr]) rfl le_rfl
  exact ⟨o', w', S, h1, h2, learned_count h3, _, hM, by simp [nfArr]⟩

/-- Series of five and four points. -/
noncomputable def nfList : List (Mat Nf) :=
  [⟨[[.num 0, .num 1, .nan, .num 3, .num 4]], 5⟩, ⟨[[.num 7, .nan, .num 9, .num 8]], 4⟩]

/-- The hypotheses of `C107_fit_variable_length` are met. -/
example (env : Env NfGen Nat Nat) (w : World Nat) (gs : Nat → NfGen) :
    ∃ o' w' S, (∀ order, IsSchedule order →
        (nfObj .auto).fit env gs order w (.list nfList) [0, 1] = (o', w', .ok ())) ∧
      o'.shapelets = some S ∧ Shapelets.count S ≤ 4 ∧
      ∃ M, o'.transform (.list nfList) = .ok M ∧ M.length = 2 := by
  have hwf : ∀ x ∈ nfList, x.WF := by simp [nfList, Mat.WF]
  obtain ⟨o', w', S, sizes, h1, h2, -, h3, -, h4⟩ := C107_fit_variable_length env
    (nfObj .auto) w nfList [0, 1] (Or.inr rfl) hwf (by simp [nfList]) 1 le_rfl (by simp [nfList]) 4 le_rfl
    (by simp [nfList]) (Or.inr ⟨rfl, by simp [nfList]⟩) (by simp [nfList]) (nfObj_ok _ _)
    (by simp [nfObj]) gs
  obtain ⟨M, hM, rfl, -⟩ := h4 nfList hwf (by simp [nfList]) (by simp [nfList]) (by simp [nfList])
  exact ⟨o', w', S, h1, h2, learned_count h3, _, hM, by simp [nfList]⟩

/-- A shapelet with values 1, 2 and the threshold `NaN`, and one with a missing value. -/
noncomputable def nfShp : UShp Nf where
  values := [[.num 1, .num 2], [.nan, .num 2]]
  lengths := [2, 2]
  dilations := [1, 1]
  threshold := [.nan, .num 3]
  normalize := [false, false]

/-- The hypotheses of `C107_nan_threshold` and of `C107_nan_shapelet` are met. -/
example : (rowOf false (.u nfShp) [[.num 1, .num 2, .num 5]] 3)[2]? = some (.num 0) ∧
    (rowOf false (.u nfShp) [[.num 1, .num 2, .num 5]] 3)[3]? = some .nan := by
  refine ⟨C107_nan_threshold (k := 0) false (.u nfShp) (show 0 < 2 by omega) rfl _ _, ?_⟩
  exact (C107_nan_shapelet (nf := 1) (k := 1) false (.u nfShp) (by
    refine ⟨rfl, rfl, rfl, rfl, ?_, ?_⟩ <;> decide) (show 1 < 2 by omega)
    (by show nan ∈ uValues nfShp 1; simp [uValues, nfShp]) (by simp) (by simp)
    (by show HasWindow _ _ _ _; simp [HasWindow, nfShp])).1

end Convst.Props
