import Verif.Proofs.Digital
import Verif.Props.Rounded
import Verif.Props.RoundedFit
import Verif.Props.Double

/-!
# C121: digitised data

On data digitised by a converter (integers of moderate size, up to a power of two), the features of the shapelets
compared with the raw series are computed without any rounding error, in whatever order the terms of the distances are
added up.
-/

set_option autoImplicit false
set_option linter.unusedSectionVars false

namespace Convst.Props

open Convst Spec

/-- **C121.** `float64` has the 53 digits. -/
theorem C121_double_digits : ExactDigits Rounding.double := C117_float64.fix

/-- **C121.** Sums in any order.  A shapelet compared with the raw series, the values of both being at most `B` steps of
size `2 ^ e`; its distances `D'` are computed by rounded subtractions and rounded additions, in any order and with any
association.  When the length times the number of channels times `2 * B` is at most `2⁵³`, `D'` are the exact
distances. -/
theorem C121_any_order {r : Rounding} (hr : ExactDigits r) {e : Int} {B : Nat} (phase : Bool) (S : Shapelets ℝ)
    (s : List (List ℝ)) {nf T k : Nat} (hs : Rect s nf T) (hnf : 1 ≤ nf) (hn : shpNorm S k = false)
    (hds : DigitalSeries e B s) (hdS : DigitalShapelet e B S k)
    (hB : shpLength S k * (shpChannels S k).length * (2 * B) ≤ 2 ^ 53) {h : Nat} (D' : List ℝ)
    (hlen : D'.length = nWin phase T (shpLength S k) (shpDilation S k))
    (hD' : ∀ (i : Nat) (v : ℝ), D'[i]? = some v → SumsTo r h (shpTerms r.rnd phase S s k i) v) :
    D' = shpDistances phase S s T k := by
  rw [shpDistances_terms hs hnf hn]
  apply List.ext_getElem?
  intro i
  by_cases hi : i < nWin phase T (shpLength S k) (shpDilation S k)
  · rw [List.getElem?_map, List.getElem?_range hi, Option.map_some]
    have hi' : i < D'.length := by omega
    rw [List.getElem?_eq_getElem hi', Option.some.injEq]
    have hv := hD' i _ (List.getElem?_eq_getElem hi')
    by_cases h0 : (shpTerms r.rnd phase S s k i).length = 0
    · have h1 : shpTerms r.rnd phase S s k i = [] := List.length_eq_zero_iff.1 h0
      have h2 : shpTerms id phase S s k i = [] := List.length_eq_zero_iff.1 (by
        rw [shpTerms_length] at h0 ⊢; exact h0)
      rw [h1] at hv
      rw [h2]
      exact (sumsTo_exact hr (e := 0) (C := 0) hv (by simp) (by simp)).1
    · rw [shpTerms_length] at h0
      have hB2 : 2 * B ≤ 2 ^ 53 := by
        refine le_trans ?_ hB
        refine Nat.le_mul_of_pos_left _ ?_
        rw [Nat.mul_comm]; omega
      obtain ⟨e1, e2⟩ := shpTerms_digital hr hB2 (phase := phase) i hds hdS
      rw [e1] at hv
      exact (sumsTo_exact hr hv e2 (by
        rw [shpTerms_length, Nat.mul_comm (shpChannels S k).length]; exact hB)).1
  · rw [List.getElem?_eq_none (by omega), List.getElem?_eq_none (by simpa using hi)]

variable {r : Rounding} {R : Type}

/-- The cells of a shapelet compared with the raw series, on a digitised series. -/
theorem digital_cells (hr : ExactDigits r) {e : Int} {B : Nat} {phase : Bool} {S : Shapelets (Fl r)} {nf : Nat}
    (hnf1 : 1 ≤ nf) {x : Mat (Fl r)} (hx : x.WF) (hrows : x.rows.length = nf) (hT : x.len ≤ 2 ^ 53) {k : Nat}
    (hk : k < shpCount S.exact) (hn : shpNorm S.exact k = false) (hds : DigitalSeries e B (x.rows : List (List ℝ)))
    (hdS : DigitalShapelet e B S.exact k)
    (hB : shpLength S.exact k * (shpChannels S.exact k).length * (2 * B) ≤ 2 ^ 53) :
    SameCells k (objRow (K := ℝ) phase S.exact x) (objRow (K := Fl r) phase S x) := by
  obtain ⟨D', hl, hD', row1, a, p, n, hrow1, hf, c0, c1, c2⟩ := code_sumsTo (phase := phase) hx hrows hnf1 hk hn
  have hD := C121_any_order hr phase S.exact x.rows (show Rect (x.rows : List (List ℝ)) nf x.len from ⟨hrows, hx⟩)
    hnf1 hn hds hdS hB D' hl hD'
  obtain ⟨hp, hq⟩ := features_le hf
  have hle : D'.length ≤ 2 ^ 53 := by
    rw [hl]
    refine le_trans ?_ hT
    unfold nWin
    split <;> omega
  rw [exactDigits_nat hr (hp.trans hle)] at c1
  rw [exactDigits_nat hr (hq.trans hle)] at c2
  rw [hD] at hf
  obtain ⟨b0, b1, b2⟩ := shpRow_cells phase S.exact x.rows x.len hk
  have hf' : shpFeatures phase S.exact x.rows x.len k = (a, (p : ℝ), (n : ℝ)) := hf
  rw [hf'] at b0 b1 b2
  have hsr := objRow_shpRow phase S.exact x
  rw [← hsr] at b0 b1 b2
  rw [hrow1] at c0 c1 c2
  exact ⟨a, p, n, b0, b1, b2, c0, c1, c2⟩

/-- **C121.** `transform` in an arithmetic with 53 digits, compared with the same object computing exactly on the same
input: it succeeds or fails (with the same error) on the same inputs, and for every digitised series and every
digitised shapelet compared with the raw series the three cells are exactly those of real arithmetic. -/
theorem C121_transform (hr : ExactDigits r) {e : Int} {B : Nat} {o : Rdst (Fl r) R} {S : Shapelets (Fl r)}
    (hS : o.shapelets = some S) {nf : Nat} (hnf1 : 1 ≤ nf) (hwf : ShpWF S nf) {X : XIn (Fl r)} (hX : X.WF)
    {xs : List (Mat (Fl r))} (hxs : samples X = .ok xs) (hnf : ∀ x ∈ xs, x.rows.length = nf)
    (hT : ∀ x ∈ xs, x.len ≤ 2 ^ 53) :
    (∃ e, o.transform X = .error e ∧ o.exact.transform X.exact = .error e) ∨
    (∃ M M', o.exact.transform X.exact = .ok M ∧ o.transform X = .ok M' ∧ M.length = xs.length ∧
      M'.length = xs.length ∧
      ∀ (i : Nat) x row row', xs[i]? = some x → M[i]? = some row → M'[i]? = some row' →
        DigitalSeries e B (x.rows : List (List ℝ)) →
        ∀ k, k < shpCount S.exact → shpNorm S.exact k = false → DigitalShapelet e B S.exact k →
          shpLength S.exact k * (shpChannels S.exact k).length * (2 * B) ≤ 2 ^ 53 → SameCells k row row') := by
  rcases transform_same_outcome hS hwf hX hxs hnf with h | ⟨M, M', hM, hM'⟩
  · exact Or.inl h
  · right
    obtain ⟨e', -⟩ := transform_rows hS hwf hX hxs hnf hM'
    have hwf' : ShpWF S.exact nf := by cases S <;> exact hwf
    obtain ⟨e1, -⟩ := transform_rows (K := ℝ) (o := o.exact) (S := S.exact) hS hwf' (X := X.exact) hX (xs := xs)
      hxs hnf hM
    let ys : List (Mat ℝ) := xs
    have e2 : M = ys.map (objRow o.phase S.exact) := e1
    refine ⟨M, M', hM, hM', (congrArg List.length e2).trans (List.length_map _), by rw [e', List.length_map], ?_⟩
    intro i x row row' hx hr1 hr2 hd k hk hn hdS hB
    have hmem := List.mem_of_getElem? hx
    have hrow : row = objRow (K := ℝ) o.phase S.exact x := by
      let y : Mat ℝ := x
      have hy : ys[i]? = some y := hx
      rw [e2, List.getElem?_map, hy, Option.map_some, Option.some.injEq] at hr1
      exact hr1.symm
    rw [e', List.getElem?_map, hx, Option.map_some, Option.some.injEq] at hr2
    have key := digital_cells hr (phase := o.phase) hnf1 (samples_wf hX hxs x hmem) (hnf x hmem) (hT x hmem) hk hn hd hdS hB
    rw [hrow]
    have hr3 : (row' : List ℝ) = objRow (K := Fl r) o.phase S x := hr2.symm
    rw [hr3]
    exact key

/-! ## After `fit` -/

/-- A shapelet learned from digitised series and compared with the raw series is digitised. -/
theorem learned_digital {L : Type} {e : Int} {B nShp n ns nf mc : Nat} {sizes : List Nat} {len : Nat → Nat}
    {series : Nat → Nat → List (Fl r)} {y : List L} {thr : List (Fl r) → Fl r → Prop} {phase : Bool}
    {S : Shapelets (Fl r)} (h : Learned nShp sizes n ns nf mc len series y thr phase S)
    (hser : ∀ s c, ∀ a ∈ series s c, Digital e B a.val) (hsz : ∀ l ∈ sizes, l ≤ n) (hmc : 1 ≤ mc) {k : Nat}
    (hk : k < shpCount S.exact) (hn : shpNorm S.exact k = false) :
    DigitalShapelet e B S.exact k ∧ shpLength S.exact k ≤ n ∧ (shpChannels S.exact k).length ≤ mc := by
  have hwin : ∀ s c l d t, ∀ a ∈ window phase (series s c) l d t, Digital e B a.val := by
    intro s c l d t
    exact digital_window (x := (series s c : List ℝ)) (hser s c) phase l d t
  cases S with
  | u S =>
    obtain ⟨l, d, norm, h1, h2, h3, h4, h5, h6, s, t, -, -, h7, -⟩ := h.shapelet k hk
    have hnorm : norm = false := by
      have : S.normalize.getD k false = false := hn
      rw [List.getD_eq_getElem?_getD, h3] at this
      exact this
    subst hnorm
    refine ⟨?_, ?_, ?_⟩
    · intro c _ a ha
      have ha' : a ∈ (uValues S k : List (Fl r)) := ha
      rw [h7] at ha'
      exact hwin s 0 l d t a ha'
    · show S.lengths.getD k 0 ≤ n
      rw [List.getD_eq_getElem?_getD, h1]
      exact hsz l h4
    · exact hmc
  | m S =>
    obtain ⟨l, d, norm, nch, h1, h2, h3, h4, h5, h6, h7, h8, h9, h10, -, s, t, -, -, h11, -⟩ := h.shapelet k hk
    have hnorm : norm = false := by
      have : S.normalize.getD k false = false := hn
      rw [List.getD_eq_getElem?_getD, h3] at this
      exact this
    subst hnorm
    have hch : (shpChannels (Shapelets.exact (.m S)) k).length = nch := h10
    refine ⟨?_, ?_, by rw [hch]; exact h9⟩
    · intro c hc a ha
      rw [hch] at hc
      have ha' : a ∈ (mValues S k c : List (Fl r)) := ha
      rw [h11 c hc] at ha'
      exact hwin s _ l d t a ha'
    · show S.lengths.getD k 0 ≤ n
      rw [List.getD_eq_getElem?_getD, h1]
      exact hsz l h5

variable {G L : Type} [Gen G (Fl r)] [LawfulFl G] [DecidableEq L] {δ : ℝ} {N : Nat}

/-- **C121.** `fit` in an arithmetic with 53 digits on digitised series of equal length, `nt` points and `nf` channels
with `nt * nf * 2 * B ≤ 2⁵³`: it succeeds, and on every digitised array with the same number of channels and at least
as many points `transform` gives, for every learned shapelet compared with the raw series, exactly the cells that real
arithmetic would give for the learned shapelets. -/
theorem C121_fit_same_length (hr : ExactDigits r) (hacc : Accurate r δ N) (hN : 100 ≤ N) {e : Int} {B : Nat}
    (env : Env G R L) (o : Rdst (Fl r) R) (w : World R) (dt : DType) (A : Arr3 (Fl r)) (y : List L)
    (hty : o.transformType = .uni ∨ o.transformType = .multi ∨ o.transformType = .auto ∧ dt ≠ .otherDtype)
    (hWF : (XIn.array dt A).WF) (hne : A.data ≠ []) (hnf : 1 ≤ A.nf) (hnt : 4 ≤ A.nt) (hntN : A.nt < N)
    (hy : y.length = A.data.length) (hp : FlParams o A.nt N)
    (hmc : ∀ m, o.maxChannels = some m → 1 ≤ m ∧ m ≤ A.nf) (gs : Nat → G)
    (hdA : ∀ s ∈ A.data, DigitalSeries e B (s : List (List ℝ))) (hB : A.nt * A.nf * (2 * B) ≤ 2 ^ 53) :
    ∃ o' w' S, (∀ order, IsSchedule order → o.fit env gs order w (.array dt A) y = (o', w', .ok ())) ∧
      o'.shapelets = some S ∧
      ∀ (dt' : DType) (Z : Arr3 (Fl r)), (XIn.array dt' Z).WF → Z.data ≠ [] → Z.nf = A.nf → A.nt ≤ Z.nt →
        Z.nt ≤ 2 ^ 53 → (∀ s ∈ Z.data, DigitalSeries e B (s : List (List ℝ))) →
        ∃ M M', o'.exact.transform (XIn.exact (.array dt' Z)) = .ok M ∧ o'.transform (.array dt' Z) = .ok M' ∧
          M.length = Z.data.length ∧ M'.length = Z.data.length ∧
          ∀ (i : Nat) row row', M[i]? = some row → M'[i]? = some row' →
            ∀ k, k < shpCount S.exact → shpNorm S.exact k = false → SameCells k row row' := by
  obtain ⟨o', w', S, sizes, h1, h2, h3, -, h5, h6⟩ := C100_fit_same_length hacc hN env o w dt A y hty hWF hne hnf hnt
    hntN hy hp hmc gs
  refine ⟨o', w', S, h1, h2, ?_⟩
  intro dt' Z z1 z2 z3 z4 z5 z6
  have hmc1 : 1 ≤ o.maxChannels.getD A.nf ∧ o.maxChannels.getD A.nf ≤ A.nf := by
    cases hm : o.maxChannels with
    | none => exact ⟨hnf, le_rfl⟩
    | some m => exact hmc m hm
  have hser : ∀ s c, ∀ a ∈ (A.data.getD s []).getD c [], Digital e B a.val := by
    intro s c a ha
    have hd : DigitalSeries e B (A.data.getD s [] : List (List ℝ)) := by
      by_cases hs : s < A.data.length
      · rw [getD_lt _ hs]; exact hdA _ (List.getElem_mem hs)
      · rw [List.getD_eq_getElem?_getD, List.getElem?_eq_none (by omega), Option.getD_none]
        intro c hc; cases hc
    exact digital_channel hd c a ha
  have hrows : ∀ x ∈ Z.data.map (fun s => (⟨s, Z.nt⟩ : Mat (Fl r))), x.rows.length = A.nf := by
    intro x hx
    obtain ⟨s, hs, rfl⟩ := List.mem_map.1 hx
    rw [← z3]; exact (z1 s hs).1
  rcases C121_transform (e := e) (B := B) hr h2 hnf (learned_wf h5) z1 (xs := Z.data.map fun s => ⟨s, Z.nt⟩) rfl
    hrows (by
      intro x hx
      obtain ⟨s, hs, rfl⟩ := List.mem_map.1 hx
      exact z5) with ⟨er, h, -⟩ | ⟨M, M', m1, m2, m3, m4, m5⟩
  · rw [(h6 dt' Z z1 z2 z3 z4).1] at h
    cases h
  · rw [List.length_map] at m3 m4
    refine ⟨M, M', m1, m2, m3, m4, ?_⟩
    intro i row row' hr1 hr2 k hk hn
    have hi : i < Z.data.length := by rw [← m3]; exact (List.getElem?_eq_some_iff.1 hr1).1
    obtain ⟨d1, d2, d3⟩ := learned_digital h5 hser (fun l hl => (h3 l hl).2) hmc1.1 hk hn
    refine m5 i ⟨Z.data[i], Z.nt⟩ row row' ?_ hr1 hr2 (z6 _ (List.getElem_mem hi)) k hk hn d1 ?_
    · rw [List.getElem?_map, List.getElem?_eq_getElem hi, Option.map_some]
    · exact le_trans (Nat.mul_le_mul_right _ (Nat.mul_le_mul d2 (d3.trans hmc1.2))) hB

/-- **C121.** The same for series of different lengths given as a list of 2D arrays; `m` is the number of points used
as the minimal length. -/
theorem C121_fit_variable_length (hr : ExactDigits r) (hacc : Accurate r δ N) (hN : 100 ≤ N) {e : Int} {B : Nat}
    (env : Env G R L) (o : Rdst (Fl r) R) (w : World R) (xs : List (Mat (Fl r))) (y : List L)
    (hty : o.transformType.Var ∨ o.transformType = .auto)
    (hwf : ∀ x ∈ xs, x.WF) (hne : xs ≠ []) (nf : Nat) (hnf1 : 1 ≤ nf)
    (hnf : ∀ x ∈ xs, x.rows.length = nf) (m : Nat) (hm4 : 4 ≤ m) (hmN : m < N) (hlen : ∀ x ∈ xs, m ≤ x.len)
    (hm : o.minLen = some m ∨ o.minLen = none ∧ ∃ x ∈ xs, x.len = m)
    (hy : y.length = xs.length) (hp : FlParams o m N)
    (hmc : ∀ k, o.maxChannels = some k → 1 ≤ k ∧ k ≤ nf) (gs : Nat → G)
    (hdx : ∀ x ∈ xs, DigitalSeries e B (x.rows : List (List ℝ))) (hB : m * nf * (2 * B) ≤ 2 ^ 53) :
    ∃ o' w' S, (∀ order, IsSchedule order → o.fit env gs order w (.list xs) y = (o', w', .ok ())) ∧
      o'.shapelets = some S ∧
      ∀ zs : List (Mat (Fl r)), (∀ z ∈ zs, z.WF) → zs ≠ [] → (∀ z ∈ zs, z.rows.length = nf) →
        (∀ z ∈ zs, m ≤ z.len ∧ z.len ≤ 2 ^ 53) → (∀ z ∈ zs, DigitalSeries e B (z.rows : List (List ℝ))) →
        ∃ M M', o'.exact.transform (XIn.exact (.list zs)) = .ok M ∧ o'.transform (.list zs) = .ok M' ∧
          M.length = zs.length ∧ M'.length = zs.length ∧
          ∀ (i : Nat) row row', M[i]? = some row → M'[i]? = some row' →
            ∀ k, k < shpCount S.exact → shpNorm S.exact k = false → SameCells k row row' := by
  obtain ⟨o', w', S, sizes, h1, h2, h3, -, h5, h6⟩ := C100_fit_variable_length hacc hN env o w xs y hty hwf hne nf hnf1
    hnf m hm4 hmN hlen hm hy hp hmc gs
  refine ⟨o', w', S, h1, h2, ?_⟩
  intro zs z1 z2 z3 z4 z6
  have hmc1 : 1 ≤ o.maxChannels.getD nf ∧ o.maxChannels.getD nf ≤ nf := by
    cases hm : o.maxChannels with
    | none => exact ⟨hnf1, le_rfl⟩
    | some m => exact hmc m hm
  have hser : ∀ s c, ∀ a ∈ ((xs.map Mat.rows).getD s []).getD c [], Digital e B a.val := by
    intro s c a ha
    have hd : DigitalSeries e B ((xs.map Mat.rows).getD s [] : List (List ℝ)) := by
      by_cases hs : s < xs.length
      · rw [getD_lt _ (by rw [List.length_map]; exact hs), List.getElem_map]
        exact hdx _ (List.getElem_mem hs)
      · rw [List.getD_eq_getElem?_getD, List.getElem?_eq_none (by rw [List.length_map]; omega), Option.getD_none]
        intro c hc; cases hc
    exact digital_channel hd c a ha
  rcases C121_transform (e := e) (B := B) hr h2 hnf1 (learned_wf h5) (X := .list zs) z1 (xs := zs) rfl
    z3 (fun z hz => (z4 z hz).2) with ⟨er, h, -⟩ | ⟨M, M', m1, m2, m3, m4, m5⟩
  · rw [(h6 zs z1 z2 z3 fun z hz => (z4 z hz).1).1] at h
    cases h
  · refine ⟨M, M', m1, m2, m3, m4, ?_⟩
    intro i row row' hr1 hr2 k hk hn
    have hi : i < zs.length := by rw [← m3]; exact (List.getElem?_eq_some_iff.1 hr1).1
    obtain ⟨d1, d2, d3⟩ := learned_digital h5 hser (fun l hl => (h3 l hl).2) hmc1.1 hk hn
    refine m5 i zs[i] row row' (List.getElem?_eq_getElem hi) hr1 hr2 (z6 _ (List.getElem_mem hi)) k hk hn d1 ?_
    exact le_trans (Nat.mul_le_mul_right _ (Nat.mul_le_mul d2 (d3.trans hmc1.2))) hB

/-! ## Concrete cases -/

/-- 16-bit samples: a thousand points and up to a hundred channels are within the bound, with room to spare. -/
example : 1000 * 100 * (2 * 2 ^ 15) ≤ 2 ^ 53 := by norm_num

/-- A sample of a 16-bit converter with a step of `2⁻¹⁰`. -/
example : Digital (-10) (2 ^ 15) (-1234 * (2 : ℝ) ^ (-10 : Int)) := ⟨-1234, by norm_num, by norm_num⟩

theorem digital_small {n : Nat} (h : n ≤ 10) : Digital 0 10 (n : ℝ) :=
  ⟨n, by simp, by rw [abs_of_nonneg (by omega)]; exact_mod_cast h⟩

theorem dblArr_digital : ∀ s ∈ dblArr.data, DigitalSeries 0 10 (s : List (List ℝ)) := by
  intro s hs c hc a ha
  have key : ∃ n : Nat, n ≤ 10 ∧ a = (n : ℝ) := by
    simp only [dblArr, List.mem_cons, List.not_mem_nil, or_false] at hs
    rcases hs with rfl | rfl
    all_goals
      rcases List.mem_cons.1 hc with rfl | hc
      · repeat first
          | (cases ha; done)
          | (rcases List.mem_cons.1 ha with rfl | ha
             · first
                | exact ⟨0, by omega, Nat.cast_zero.symm⟩
                | exact ⟨1, by omega, Nat.cast_one.symm⟩
                | exact ⟨2, by omega, rfl⟩
                | exact ⟨3, by omega, rfl⟩
                | exact ⟨4, by omega, rfl⟩
                | exact ⟨7, by omega, rfl⟩
                | exact ⟨8, by omega, rfl⟩
                | exact ⟨9, by omega, rfl⟩)
      · cases hc
  obtain ⟨n, h, rfl⟩ := key
  exact digital_small h

/-- The hypotheses of `C121_fit_same_length` are met, in double precision. -/
example (env : Env HalfGen Nat Nat) (w : World Nat) (gs : Nat → HalfGen) :
    ∃ o' w' S, (∀ order, IsSchedule order →
        (dblObj .auto).fit env gs order w (.array .float64 dblArr) [0, 1] = (o', w', .ok ())) ∧
      o'.shapelets = some S ∧
      ∃ M M', o'.exact.transform (XIn.exact (.array .float64 dblArr)) = .ok M ∧
        o'.transform (.array .float64 dblArr) = .ok M' ∧ M.length = 2 ∧ M'.length = 2 ∧
        ∀ (i : Nat) row row', M[i]? = some row → M'[i]? = some row' →
          ∀ k, k < shpCount S.exact → shpNorm S.exact k = false → SameCells k row row' := by
  have hwf : (XIn.array .float64 dblArr).WF := by simp [XIn.WF, dblArr]
  obtain ⟨o', w', S, h1, h2, h3⟩ := C121_fit_same_length C121_double_digits C100_double_accurate (by norm_num) env
    (dblObj .auto) w .float64 dblArr [0, 1] (Or.inr (Or.inr ⟨rfl, by simp⟩)) hwf (by simp [dblArr]) (by simp [dblArr])
    (by simp [dblArr]) (by simp [dblArr]) (by simp [dblArr]) (dblObj_ok _ _) (by simp [dblObj]) gs dblArr_digital
    (by simp [dblArr])
  exact ⟨o', w', S, h1, h2, h3 .float64 dblArr hwf (by simp [dblArr]) rfl le_rfl (by simp [dblArr]) dblArr_digital⟩

end Convst.Props
