import Verif.Proofs.RoundedRidge
import Verif.Props.Rounded
import Verif.Props.Ridge
import Verif.Props.Digital
import Verif.Props.Histories

/-!
# C124: predictions of `R_DST_Ridge` in rounded arithmetic
-/

set_option autoImplicit false
set_option linter.unusedSectionVars false

namespace Convst.Props
open Convst Spec

variable {r : Rounding} {R L : Type}

/-- **C124.** Error of a score.  The kept features are standardised, multiplied by the coefficients of score `q` and added up with
the intercept, all in rounded arithmetic; the additions are made in any order and with any association, no number going through
more than `h` of them.  The features themselves may have errors up to `η`. -/
theorem C124_any_order (sc : Scaler ℝ) (m : Linear ℝ L) {row row' : List ℝ} {η : Nat → ℝ} {q h : Nat} {v : ℝ}
    (hη : ∀ a ∈ sc.atts, |row'.getD a 0 - row.getD a 0| ≤ η a) (hq : q < m.coef.length)
    (hv : SumsTo r h ((List.range sc.atts.length).map (roundedTerm r.rnd sc m row' q) ++ [m.intercept.getD q 0]) v) :
    |v - (decision m (standardised sc row)).getD q 0| ≤ scoreError r.u (h + 3) sc m η row q :=
  score_error hη hq hv

theorem map_getElem? {α β : Type} (f : α → β) (l : List α) {i : Nat} {b : β} (h : (l.map f)[i]? = some b)
    (hi : i < l.length) : b = f l[i] := by
  rw [List.getElem?_map, List.getElem?_eq_getElem hi] at h
  exact (Option.some.inj h).symm

/-- One row: the class chosen in rounded arithmetic is the exact one when the choice is clear. -/
theorem row_clear {sc : Scaler (Fl r)} {m : Linear (Fl r) L} {n : Nat} (hs : ScalerWF sc n) (hm : LinWF m sc.atts.length)
    {row : List ℝ} {row' : List (Fl r)} {η : Nat → ℝ}
    (hη : ∀ a ∈ sc.atts, |(row'.getD a 0).val - row.getD a 0| ≤ η a)
    (hc : Clear (decision m.exact (standardised sc.exact row))
      (scoreError r.u (sc.atts.length + 4) sc.exact m.exact η row)) :
    Chosen (decision m.exact (standardised sc.exact row))
      (classIdx (List.zipWith (fun c b => dot (standardRow sc.offset sc.scale (sc.atts.map fun j => row'.getD j 0)) c + b)
        m.coef m.intercept)) := by
  set s' := List.zipWith (fun c b => dot (standardRow sc.offset sc.scale (sc.atts.map fun j => row'.getD j 0)) c + b)
    m.coef m.intercept with hs'
  have hl : s'.length = m.coef.length := by rw [hs', List.length_zipWith, hm.intercept, Nat.min_self]
  have hl2 : (decision m.exact (standardised sc.exact row)).length = m.coef.length := by
    unfold decision
    rw [List.length_map, List.length_range]
    rfl
  refine chosen_of_clear (s' := (s' : List ℝ)) (hl.trans hl2.symm) ?_ hc ?_
  · intro q hq
    rw [hl2] at hq
    have hcol : (m.coef.getD q []).length = sc.atts.length := by
      rw [getD_lt _ hq]
      exact hm.cols _ (List.getElem_mem hq)
    have h1 := fl_score_sumsTo hs.offset hs.scale row' hcol
    have h2 := C124_any_order sc.exact m.exact (row := row) (row' := row') (η := η) hη hq h1
    have h3 : s'.getD q 0 = dot (standardRow sc.offset sc.scale (sc.atts.map fun j => row'.getD j 0)) (m.coef.getD q []) +
        m.intercept.getD q 0 := by
      rw [getD_lt _ (by omega), getD_lt _ hq, getD_lt _ (by rw [hm.intercept]; exact hq)]
      simp only [hs', List.getElem_zipWith]
    change |(s'.getD q 0).val - _| ≤ _
    rw [h3]
    exact h2
  · rw [fl_classIdx]
    apply classIdx_spec
    intro h0
    have h1 : m.coef.length = 0 := hl.symm.trans (congrArg (List.length (α := ℝ)) h0)
    exact hm.ne (List.length_eq_zero_iff.1 h1)

section
variable [DecidableEq L]

/-- **C124.** `R_DST_Ridge.predict` in rounded arithmetic, compared with the same fitted classifier computing exactly: both
raise the same exception, or both predict a class for each series, and the class is the same for every series
whose exact scores are clear with respect to the errors of its features and to the rounding of the scores. -/
theorem C124_predict {c : RidgeClf (Fl r) R L} {nf : Nat} {o : Rdst (Fl r) R} {S : Shapelets (Fl r)} {sc : Scaler (Fl r)}
    {m : Linear (Fl r) L} (hc : RidgeFitted c.exact nf o.exact S.exact sc.exact m.exact) {X : XIn (Fl r)} (hX : X.WF)
    {xs : List (Mat (Fl r))} (hxs : samples X = .ok xs) (hnf : ∀ x ∈ xs, x.rows.length = nf) :
    (∃ e, c.predict X = .error e ∧ c.exact.predict X.exact = .error e) ∨
    (∃ M M' P P', o.exact.transform X.exact = .ok M ∧ o.transform X = .ok M' ∧ c.exact.predict X.exact = .ok P ∧
      c.predict X = .ok P' ∧ P.length = xs.length ∧ P'.length = xs.length ∧
      ∀ (i : Nat) row row', M[i]? = some row → M'[i]? = some row' →
        ∀ η : Nat → ℝ, (∀ a ∈ sc.atts, |(row'.getD a 0).val - row.getD a 0| ≤ η a) →
          Clear (decision m.exact (standardised sc.exact row))
            (scoreError r.u (sc.atts.length + 4) sc.exact m.exact η row) → P'[i]? = P[i]?) := by
  have hsh : o.shapelets = some S := hc.shapelets
  have hwf : ShpWF S nf := by
    have := hc.wf
    cases S <;> exact this
  have htr : c.transformer = some o := hc.transformer
  have hcl : c.classifier = some (some (sc, m)) := hc.classifier
  have hsw : ScalerWF sc (3 * Shapelets.count S) := by
    have := hc.scaler
    have e : Shapelets.count S.exact = Shapelets.count S := by cases S <;> rfl
    rw [e] at this
    exact ⟨this.offset, this.scale, this.atts, this.nodup⟩
  have hlin : LinWF m sc.atts.length := ⟨hc.linear.ne, hc.linear.intercept, hc.linear.cols, hc.linear.classes⟩
  obtain ⟨p1, p2⟩ := C53_predict hc (X := X.exact) hX (xs := xs) hxs hnf
  rcases transform_same_outcome hsh hwf hX hxs hnf with ⟨e, h1, h2⟩ | ⟨M, M', hM, hM'⟩
  · refine Or.inl ⟨e, ?_, p1 e h2⟩
    unfold RidgeClf.predict
    rw [hcl, htr]
    simp only [h1]
    rfl
  · right
    obtain ⟨P, hP, hPf⟩ := p2 M hM
    obtain ⟨eM, -⟩ := transform_rows (K := ℝ) hc.shapelets hc.wf (X := X.exact) hX (xs := xs) hxs hnf hM
    obtain ⟨eM', hne⟩ := transform_rows hsh hwf hX hxs hnf hM'
    have hrows : ∀ row ∈ M', row.length = 3 * Shapelets.count S := by
      intro row hr
      rw [eM'] at hr
      obtain ⟨x, -, rfl⟩ := List.mem_map.1 hr
      exact objRow_length _ _ _
    set Z := M'.map fun row => standardRow sc.offset sc.scale (sc.atts.map fun j => row.getD j 0) with hZ
    have hZl : ∀ z ∈ Z, z.length = sc.atts.length := by
      intro z hz
      obtain ⟨row, -, rfl⟩ := List.mem_map.1 hz
      simp [standardRow, hsw.offset, hsw.scale]
    have hZne : Z ≠ [] := by
      rw [hZ, eM']
      simpa using hne
    obtain ⟨P', hP', hP'l, -⟩ := linear_predict_any hlin hZne hZl
    have hpred : c.predict X = .ok P' := by
      unfold RidgeClf.predict
      rw [hcl, htr]
      simp only [hM', Res.bind_ok]
      unfold predictPipeline
      rw [transformStandard_any hrows hsw.atts, Res.bind_ok]
      exact hP'
    have hPl : P.length = xs.length := hPf.length_eq.symm
    have hP'l : P'.length = xs.length := by rw [hP'l, hZ, List.length_map, eM', List.length_map]
    refine ⟨M, M', P, P', hM, hM', hP, hpred, hPl, hP'l, ?_⟩
    intro i row row' hi hi' η hη hclear
    have hix : i < xs.length := by
      have := (List.getElem?_eq_some_iff.1 hi').1
      rwa [eM', List.length_map] at this
    -- the exact prediction
    obtain ⟨k, hk, hkp⟩ := (List.forall₂_iff_get.1 hPf).2 i hix (by omega)
    have hrow : row = objRow o.exact.phase S.exact (xs[i] : Mat ℝ) := by
      rw [eM] at hi
      exact map_getElem? _ _ hi hix
    have hk : Chosen (decision m.exact (standardised sc.exact row)) k := by
      rw [hrow]
      exact hk
    -- the computed prediction
    unfold Linear.predict at hP'
    rw [if_neg (by simpa using hZne), mapM_eq_ok] at hP'
    have hiZ : i < Z.length := by rw [hZ, List.length_map, eM', List.length_map]; exact hix
    have hstep := (List.forall₂_iff_get.1 hP').2 i hiZ (by omega)
    have hz : Z.get ⟨i, hiZ⟩ = standardRow sc.offset sc.scale (sc.atts.map fun j => row'.getD j 0) := by
      have : Z[i]? = some (standardRow sc.offset sc.scale (sc.atts.map fun j => row'.getD j 0)) := by
        rw [hZ, List.getElem?_map, hi']
        rfl
      rw [List.getElem?_eq_getElem hiZ, Option.some.injEq] at this
      exact this
    rw [hz] at hstep
    have hsc : m.scores (standardRow sc.offset sc.scale (sc.atts.map fun j => row'.getD j 0)) =
        .ok (List.zipWith (fun c b => dot (standardRow sc.offset sc.scale (sc.atts.map fun j => row'.getD j 0)) c + b)
          m.coef m.intercept) := by
      unfold Linear.scores
      rw [if_pos]
      rw [List.all_eq_true]
      intro c' hc'
      rw [beq_iff_eq, hlin.cols c' hc']
      simp [standardRow, hsw.offset, hsw.scale]
    rw [hsc, Res.bind_ok] at hstep
    have hch := row_clear hsw hlin hη hclear
    have hkk := chosen_unique hch hk
    rw [hkk] at hstep
    have hklt : k < m.classes.length := (List.getElem?_eq_some_iff.1 hkp).1
    rw [pyGet_ok hklt] at hstep
    have e1 : P'[i]? = some m.classes[k] := by
      rw [List.getElem?_eq_getElem (by omega)]
      exact congrArg some (Except.ok.inj hstep).symm
    have e2 : P[i]? = some m.classes[k] := by
      have h5 : (m.classes)[k]? = some (P.get ⟨i, by omega⟩) := hkp
      rw [List.getElem?_eq_getElem hklt] at h5
      rw [List.getElem?_eq_getElem (by omega), h5]
      rfl
    rw [e1, e2]

theorem drift_zero (sc : Scaler ℝ) (m : Linear ℝ L) (q : Nat) : drift sc m (fun _ => 0) q = 0 := by
  unfold drift total
  apply List.sum_eq_zero
  intro a ha
  obtain ⟨j, -, rfl⟩ := List.mem_map.1 ha
  rw [zero_div, zero_mul]

theorem sameCells_getD {k a : Nat} (ha : a / 3 = k) {row row' : List ℝ} (h : SameCells k row row') :
    row'.getD a 0 = row.getD a 0 := by
  obtain ⟨x, p, n, h1, h2, h3, h4, h5, h6⟩ := h
  have : a = 3 * k ∨ a = 3 * k + 1 ∨ a = 3 * k + 2 := by omega
  rcases this with rfl | rfl | rfl
  · rw [List.getD_eq_getElem?_getD, List.getD_eq_getElem?_getD, h1, h4]
  · rw [List.getD_eq_getElem?_getD, List.getD_eq_getElem?_getD, h2, h5]
  · rw [List.getD_eq_getElem?_getD, List.getD_eq_getElem?_getD, h3, h6]

/-- **C124.** Digitised data and shapelets compared with the raw series: the features are exact (C121), and the class predicted in
rounded arithmetic is the exact one as soon as the exact scores are clear with respect to the rounding of the scores alone. -/
theorem C124_digital (hr : ExactDigits r) {e : Int} {B : Nat} {c : RidgeClf (Fl r) R L} {nf : Nat} {o : Rdst (Fl r) R}
    {S : Shapelets (Fl r)} {sc : Scaler (Fl r)} {m : Linear (Fl r) L}
    (hc : RidgeFitted c.exact nf o.exact S.exact sc.exact m.exact) (hnf1 : 1 ≤ nf)
    (hraw : ∀ a ∈ sc.atts, shpNorm S.exact (a / 3) = false ∧ DigitalShapelet e B S.exact (a / 3) ∧
      shpLength S.exact (a / 3) * (shpChannels S.exact (a / 3)).length * (2 * B) ≤ 2 ^ 53)
    {X : XIn (Fl r)} (hX : X.WF) {xs : List (Mat (Fl r))} (hxs : samples X = .ok xs) (hnf : ∀ x ∈ xs, x.rows.length = nf)
    (hT : ∀ x ∈ xs, x.len ≤ 2 ^ 53) (hd : ∀ x ∈ xs, DigitalSeries e B (x.rows : List (List ℝ))) :
    (∃ e, c.predict X = .error e ∧ c.exact.predict X.exact = .error e) ∨
    (∃ M P P', o.exact.transform X.exact = .ok M ∧ c.exact.predict X.exact = .ok P ∧ c.predict X = .ok P' ∧
      P.length = xs.length ∧ P'.length = xs.length ∧
      ∀ (i : Nat) row, M[i]? = some row →
        Clear (decision m.exact (standardised sc.exact row))
          (fun q => ((1 + r.u) ^ (sc.atts.length + 4) - 1) * termSize m.exact (standardised sc.exact row) q) →
        P'[i]? = P[i]?) := by
  have hsh : o.shapelets = some S := hc.shapelets
  have hwf : ShpWF S nf := by
    have := hc.wf
    cases S <;> exact this
  rcases C124_predict hc hX hxs hnf with h | ⟨M, M', P, P', h1, h2, h3, h4, h5, h6, h7⟩
  · exact Or.inl h
  · refine Or.inr ⟨M, P, P', h1, h3, h4, h5, h6, ?_⟩
    rcases C121_transform hr (e := e) (B := B) hsh hnf1 hwf hX hxs hnf hT with ⟨er, g1, -⟩ | ⟨N, N', g1, g2, g3, g4, g5⟩
    · rw [h2] at g1
      cases g1
    · rw [h1] at g1
      rw [h2] at g2
      cases g1
      cases g2
      intro i row hi hclear
      have hilt : i < M.length := (List.getElem?_eq_some_iff.1 hi).1
      have hix : i < xs.length := by omega
      have hi' : i < M'.length := by omega
      refine h7 i row M'[i] hi (List.getElem?_eq_getElem hi') (fun _ => 0) ?_ ?_
      · intro a ha
        obtain ⟨r1, r2, r3⟩ := hraw a ha
        have hlt : a / 3 < shpCount S.exact := by
          have := hc.scaler.atts a ha
          have e1 : Shapelets.count S.exact = shpCount S.exact := by cases S <;> rfl
          omega
        have hsame := g5 i _ row M'[i] (List.getElem?_eq_getElem hix) hi (List.getElem?_eq_getElem hi')
          (hd _ (List.getElem_mem hix)) (a / 3) hlt r1 r2 r3
        have := sameCells_getD rfl hsame
        have h8 : (M'[i].getD a 0).val = row.getD a 0 := this
        rw [h8, sub_self, abs_zero]
      · have : scoreError r.u (sc.atts.length + 4) sc.exact m.exact (fun _ => 0) row =
            fun q => ((1 + r.u) ^ (sc.atts.length + 4) - 1) * termSize m.exact (standardised sc.exact row) q := by
          funext q
          unfold scoreError
          rw [drift_zero, mul_zero, add_zero]
        rw [this]
        exact hclear

end

/-- The margin of double precision: with up to a million selected features, the error due to the rounding of the scores is less
than a four-billionth of the size of the added numbers. -/
theorem C124_double {sc : Scaler ℝ} {m : Linear ℝ L} (h : sc.atts.length + 4 ≤ 2 ^ 20) (row : List ℝ) (q : Nat) :
    ((1 + Rounding.double.u) ^ (sc.atts.length + 4) - 1) * termSize m (standardised sc row) q ≤
      (1 / 2) ^ 32 * termSize m (standardised sc row) q := by
  have h1 := (C95_double (sc.atts.length + 4) h).1
  have h2 : 0 ≤ termSize m (standardised sc row) q :=
    add_nonneg (List.sum_nonneg (by
      intro a ha
      obtain ⟨j, -, rfl⟩ := List.mem_map.1 ha
      exact abs_nonneg _)) (abs_nonneg _)
  exact mul_le_mul_of_nonneg_right (by linarith) h2

/-- A fitted classifier in double precision: one selected feature, the number of matches of a raw shapelet; two classes. -/
noncomputable def exFlClf : RidgeClf (Fl Rounding.double) Nat Int :=
  ({ p := exParams (.int 1), rs := .seed 7, nJobs := .int 1, transformer := some exFl.exact,
     classifier := some (some (⟨[2], [0], [1]⟩, ⟨[[1]], [1], [0, 1]⟩)) } : RidgeClf ℝ Nat Int)

theorem exFlClf_fitted : RidgeFitted exFlClf.exact 1 exFl.exact (.u exU) ⟨[2], [0], [1]⟩ ⟨[[1]], [1], [0, 1]⟩ where
  transformer := rfl
  shapelets := rfl
  wf := exU_wf
  classifier := rfl
  scaler := ⟨rfl, rfl, by simp [Shapelets.count, exU], by simp⟩
  linear := ⟨by simp, by simp, by simp, rfl⟩

theorem exX_digital : ∀ s ∈ exX, DigitalSeries 0 10 s := by
  intro s hs c hc a ha
  have key : ∃ n : Nat, n ≤ 10 ∧ a = (n : ℝ) := by
    simp only [exX, List.mem_cons, List.not_mem_nil, or_false] at hs
    rcases hs with rfl | rfl
    · simp only [List.mem_cons, List.not_mem_nil, or_false] at hc
      subst hc
      simp only [List.mem_cons, List.not_mem_nil, or_false] at ha
      rcases ha with rfl | rfl | rfl | rfl | rfl
      · exact ⟨0, by omega, by norm_num⟩
      · exact ⟨1, by omega, by norm_num⟩
      · exact ⟨2, by omega, by norm_num⟩
      · exact ⟨3, by omega, by norm_num⟩
      · exact ⟨4, by omega, by norm_num⟩
    · simp only [List.mem_cons, List.not_mem_nil, or_false] at hc
      subst hc
      simp only [List.mem_cons, List.not_mem_nil, or_false] at ha
      rcases ha with rfl | rfl | rfl | rfl | rfl
      · exact ⟨1, by omega, by norm_num⟩
      · exact ⟨1, by omega, by norm_num⟩
      · exact ⟨0, by omega, by norm_num⟩
      · exact ⟨0, by omega, by norm_num⟩
      · exact ⟨2, by omega, by norm_num⟩
  obtain ⟨n, h, rfl⟩ := key
  exact digital_small h

/-- The hypotheses of `C124_digital` are met: the classifier above predicts in double precision the exact classes of both
series. -/
example : ∃ P P', exFlClf.exact.predict (.array .float64 ⟨exX, 1, 5⟩) = .ok P ∧
    exFlClf.predict (XIn.array .float64 (⟨exX, 1, 5⟩ : Arr3 ℝ) : XIn ℝ) = .ok P' ∧ P.length = 2 ∧ P'.length = 2 ∧
    ∀ i, i < 2 → P'[i]? = P[i]? := by
  have hX : (XIn.array .float64 (⟨exX, 1, 5⟩ : Arr3 ℝ)).WF := by simp [XIn.WF, exX]
  have hnf : ∀ x ∈ [(⟨[[0, 1, 2, 3, 4]], 5⟩ : Mat ℝ), (⟨[[1, 1, 0, 0, 2]], 5⟩ : Mat ℝ)], x.rows.length = 1 := by simp
  have hlen : ∀ x ∈ [(⟨[[0, 1, 2, 3, 4]], 5⟩ : Mat ℝ), (⟨[[1, 1, 0, 0, 2]], 5⟩ : Mat ℝ)], x.len ≤ 2 ^ 53 := by simp
  have hdig : ∀ x ∈ [(⟨[[0, 1, 2, 3, 4]], 5⟩ : Mat ℝ), (⟨[[1, 1, 0, 0, 2]], 5⟩ : Mat ℝ)], DigitalSeries 0 10 x.rows := by
    intro x hx
    refine exX_digital _ ?_
    simp only [List.mem_cons, List.not_mem_nil, or_false] at hx
    rcases hx with rfl | rfl <;> simp [exX]
  have et : exFl.exact.transform (XIn.array .float64 ⟨exX, 1, 5⟩) =
      .ok (exX.map fun s => uRow false exU (s.getD 0 [])) := by
    rw [← C01_univariate_same_length exU_wf false exX_ne exX_fits]
    show (do let A ← toArr3 (XIn.array .float64 (⟨exX, 1, 5⟩ : Arr3 ℝ)); uslApply A.data exU false) = _
    rfl
  have hp := C124_digital (r := Rounding.double) C121_double_digits (e := 0) (B := 10) (c := exFlClf) (o := exFl)
    (S := Shapelets.u exU) (sc := (⟨[2], [0], [1]⟩ : Scaler ℝ)) (m := (⟨[[1]], [1], [0, 1]⟩ : Linear ℝ Int)) exFlClf_fitted
    le_rfl
    (by
      intro a ha
      have : a = 2 := by simpa using ha
      subst this
      refine ⟨rfl, ?_, ?_⟩
      · intro c hc x hx
        have hx' : x ∈ ([1, 2] : List ℝ) := by
          have hc0 : c = 0 := by
            have : c < 1 := hc
            omega
          subst hc0
          exact hx
        simp only [List.mem_cons, List.not_mem_nil, or_false] at hx'
        rcases hx' with rfl | rfl
        · exact_mod_cast digital_small (n := 1) (by omega)
        · exact_mod_cast digital_small (n := 2) (by omega)
      · show 2 * 1 * (2 * 10) ≤ 2 ^ 53
        norm_num)
    (X := XIn.array .float64 (⟨exX, 1, 5⟩ : Arr3 ℝ)) hX
    (xs := [(⟨[[0, 1, 2, 3, 4]], 5⟩ : Mat ℝ), (⟨[[1, 1, 0, 0, 2]], 5⟩ : Mat ℝ)]) rfl hnf hlen hdig
  rcases hp with ⟨e, -, h⟩ | ⟨M, P, P', h1, h2, h3, h4, h5, h6⟩
  · exfalso
    obtain ⟨p1, p2⟩ := C53_predict exFlClf_fitted (X := XIn.array .float64 ⟨exX, 1, 5⟩) hX
      (xs := [(⟨[[0, 1, 2, 3, 4]], 5⟩ : Mat ℝ), (⟨[[1, 1, 0, 0, 2]], 5⟩ : Mat ℝ)]) rfl hnf
    obtain ⟨P, hP, -⟩ := p2 _ et
    have h' : exFlClf.exact.predict (XIn.array .float64 ⟨exX, 1, 5⟩) = .error e := h
    rw [hP] at h'
    cases h'
  · refine ⟨P, P', h2, h3, h4, h5, fun i hi => ?_⟩
    have hM : M = exX.map fun s => uRow false exU (s.getD 0 []) := by
      have : exFl.exact.transform (XIn.array .float64 ⟨exX, 1, 5⟩) = .ok M := h1
      rw [et] at this
      cases this
      rfl
    have hlenM : i < M.length := by rw [hM]; simpa [exX] using hi
    refine h6 i M[i] (List.getElem?_eq_getElem hlenM) ?_
    have hcell : 0 ≤ M[i].getD 2 0 := by
      subst hM
      rw [List.getElem_map]
      exact Nat.cast_nonneg _
    have hu := (C95_double (1 + 4) (by norm_num)).1
    unfold Clear
    rw [if_pos (by simp [decision, Linear.exact])]
    simp only [decision, standardised, termSize, total, Linear.exact, Scaler.exact]
    have hB : ((1 + Rounding.double.u) ^ (1 + 4) - 1) * (|M[i].getD 2 0| + 1) < |M[i].getD 2 0 + 1| := by
      rw [abs_of_nonneg hcell, abs_of_nonneg (by linarith)]
      have h7 : (1 + Rounding.double.u) ^ (1 + 4) - 1 ≤ 1 / 2 := by
        refine (sub_le_sub_right hu 1).trans ?_
        norm_num
      have key : ∀ a g : ℝ, 0 ≤ a → g ≤ 1 / 2 → g * (a + 1) < a + 1 := by
        intro a g ha hg
        nlinarith
      exact key _ _ hcell h7
    simpa using hB

end Convst.Props
