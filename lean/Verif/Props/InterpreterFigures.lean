import Verif.Props.InterpreterPlots

/-!
# Figures of the best shapelets of a class (C49, C71), and concrete cases for the interpreters
-/

set_option autoImplicit false
set_option linter.unusedSectionVars false

namespace Convst.Props

open Convst Spec

section
variable {R L : Type}

/-- What a figure must show for shapelet `k`: the three features of the shapelet over the data, split by
`isClass`; its values; and its best match and its distances on two given series. -/
structure ShowsShapelet (phase : Bool) (S : UShp ℝ) (data : List (List (List ℝ))) (isClass : List Bool)
    (xOther xClass : List ℝ) (f : ShpFigure ℝ) : Prop where
  inRange : f.shp < S.lengths.length
  isClass : f.isClass = isClass
  cols : f.cols = [0, 1, 2].map fun r => data.map fun s => (uRow phase S (s.getD 0 [])).getD (3 * f.shp + r) 0
  values : f.values = uValues S f.shp
  matchOther : ∃ p, FirstMin (uDistances phase S xOther f.shp) p ∧ f.matchOther.1 =
    (List.range (S.lengths.getD f.shp 0)).map (pos phase xOther.length (S.dilations.getD f.shp 0) p)
  matchClass : ∃ p, FirstMin (uDistances phase S xClass f.shp) p ∧ f.matchClass.1 =
    (List.range (S.lengths.getD f.shp 0)).map (pos phase xClass.length (S.dilations.getD f.shp 0) p)
  distOther : f.distOther = (uDistances phase S xOther f.shp, S.threshold.getD f.shp 0)
  distClass : f.distClass = (uDistances phase S xClass f.shp, S.threshold.getD f.shp 0)

theorem uRow_length (phase : Bool) (S : UShp ℝ) (x : List ℝ) :
    (uRow phase S x).length = 3 * S.lengths.length :=
  objRow_length phase (.u S) ⟨[x], 0⟩

theorem shpFigure_ok {o : Rdst ℝ R} {S : UShp ℝ} (hS : o.shapelets = some (.u S)) (hwf : UWF S)
    (ht : o.transformType = .uni ∨ o.transformType = .uniVar) {A : Arr3 ℝ} {isClass : List Bool} {i1 i2 k : Nat}
    {x1 x2 : List ℝ} (h1 : firstChannel A i1 = .ok x1) (h2 : firstChannel A i2 = .ok x2)
    (hk : k < S.lengths.length)
    (hw1 : HasWindow o.phase x1.length (S.lengths.getD k 0) (S.dilations.getD k 0))
    (hw2 : HasWindow o.phase x2.length (S.lengths.getD k 0) (S.dilations.getD k 0)) :
    ∃ f, shpFigure o A isClass (A.data.map fun s => uRow o.phase S (s.getD 0 [])) i1 i2 k = .ok f ∧ f.shp = k ∧
      ShowsShapelet o.phase S A.data isClass x2 x1 f := by
  have hg := (C63_univariate hS hwf ht).1 k hk
  have hl : 1 ≤ S.lengths.getD k 0 := hwf.pos k hk
  have hv := uValues_length hwf hk
  have hcol : ∀ r, r < 3 → column (A.data.map fun s => uRow o.phase S (s.getD 0 [])) (3 * k + r) =
      .ok (A.data.map fun s => (uRow o.phase S (s.getD 0 [])).getD (3 * k + r) 0) := by
    intro r hr
    rw [column_ok (by
      intro row hrow
      obtain ⟨s, -, rfl⟩ := List.mem_map.1 hrow
      rw [uRow_length]
      omega)]
    unfold colOf
    rw [List.map_map]
    rfl
  obtain ⟨p1, hm1, -, hp1⟩ := C64_positions ⟨uValues S k, S.lengths.getD k 0, S.dilations.getD k 0,
    S.normalize.getD k false, S.threshold.getD k 0, o.phase⟩ x1 hl hv hw1
  obtain ⟨p2, hm2, -, hp2⟩ := C64_positions ⟨uValues S k, S.lengths.getD k 0, S.dilations.getD k 0,
    S.normalize.getD k false, S.threshold.getD k 0, o.phase⟩ x2 hl hv hw2
  have hd1 := C17_dist_vector x1 (uValues S k) (S.lengths.getD k 0) (S.dilations.getD k 0)
    (S.normalize.getD k false) o.phase hl hv.ge (fits_of_hasWindow hw1)
  have hd2 := C17_dist_vector x2 (uValues S k) (S.lengths.getD k 0) (S.dilations.getD k 0)
    (S.normalize.getD k false) o.phase hl hv.ge (fits_of_hasWindow hw2)
  have hfin : ∀ vals1 vals2, interpPlotOnX o k x1 = .ok ((List.range (S.lengths.getD k 0)).map
        (pos o.phase x1.length (S.dilations.getD k 0) p1), vals1) →
      interpPlotOnX o k x2 = .ok ((List.range (S.lengths.getD k 0)).map
        (pos o.phase x2.length (S.dilations.getD k 0) p2), vals2) →
      shpFigure o A isClass (A.data.map fun s => uRow o.phase S (s.getD 0 [])) i1 i2 k = .ok
        ⟨k, isClass, [0, 1, 2].map fun r => A.data.map fun s => (uRow o.phase S (s.getD 0 [])).getD (3 * k + r) 0,
          uValues S k,
          ((List.range (S.lengths.getD k 0)).map (pos o.phase x2.length (S.dilations.getD k 0) p2), vals2),
          ((List.range (S.lengths.getD k 0)).map (pos o.phase x1.length (S.dilations.getD k 0) p1), vals1),
          (uDistances o.phase S x2 k, S.threshold.getD k 0), (uDistances o.phase S x1 k, S.threshold.getD k 0)⟩ := by
    intro vals1 vals2 e1 e2
    unfold shpFigure
    rw [show k * 3 = 3 * k + 0 by omega, show 1 + (3 * k + 0) = 3 * k + 1 by omega,
      show 2 + (3 * k + 0) = 3 * k + 2 by omega, hcol 0 (by omega), Res.bind_ok, hcol 1 (by omega), Res.bind_ok,
      hcol 2 (by omega), Res.bind_ok, h1, h2]
    unfold interpPlot interpPlotDistanceVector ShpView.plotDistanceVector
    simp only [hg, Res.bind_ok, e1, e2, hd1, hd2, Res.pure_eq]
    rfl
  have hun : ∀ X, interpPlotOnX o k X = (⟨uValues S k, S.lengths.getD k 0, S.dilations.getD k 0,
      S.normalize.getD k false, S.threshold.getD k 0, o.phase⟩ : ShpView ℝ).plotOnX X := by
    intro X
    unfold interpPlotOnX
    rw [hg, Res.bind_ok]
  exact ⟨_, hfin _ _ ((hun x1).trans hp1) ((hun x2).trans hp2), rfl, ⟨hk, rfl, rfl, rfl, ⟨p2, hm2, rfl⟩, ⟨p1, hm1, rfl⟩, rfl, rfl⟩⟩

theorem chooseWhere_ok {n : Nat} {p : Nat → Bool} (h : ∃ i, i < n ∧ p i = true) (pick : Nat) :
    ∃ i, chooseWhere n p pick = .ok i ∧ i < n ∧ p i = true := by
  obtain ⟨i, hi, hp⟩ := h
  have hmem : i ∈ whereIdx n p := by rw [mem_whereIdx]; exact ⟨hi, hp⟩
  have hlt : pick % (whereIdx n p).length < (whereIdx n p).length :=
    Nat.mod_lt _ (List.length_pos_iff.2 (List.ne_nil_of_mem hmem))
  refine ⟨(whereIdx n p)[pick % (whereIdx n p).length], ?_, ?_⟩
  · unfold chooseWhere chooseWhere.pyGetOr
    rw [List.getElem?_eq_getElem hlt]
  · have := List.getElem_mem hlt
    rwa [mem_whereIdx] at this

theorem chooseWhere_error {n : Nat} {p : Nat → Bool} (h : ∀ i, i < n → p i = false) (pick : Nat) :
    chooseWhere n p pick = .error .valueError := by
  have : whereIdx n p = [] := by
    rw [List.eq_nil_iff_forall_not_mem]
    intro i hi
    rw [mem_whereIdx] at hi
    rw [h i hi.1] at hi
    simp at hi
  unfold chooseWhere chooseWhere.pyGetOr
  rw [this]
  rfl

theorem firstChannel_ok {A : Arr3 ℝ} (dt : DType) (hWF : (XIn.array dt A).WF) (hnf : 1 ≤ A.nf) {i : Nat}
    (hi : i < A.data.length) : firstChannel A i = .ok ((A.data.getD i []).getD 0 []) ∧
      ((A.data.getD i []).getD 0 []).length = A.nt := by
  have hs := hWF A.data[i] (List.getElem_mem _)
  have h0 : 0 < A.data[i].length := by omega
  refine ⟨?_, ?_⟩
  · unfold firstChannel
    rw [pyGet_ok hi, Res.bind_ok, pyGet_ok h0, getD_lt _ hi, getD_lt _ h0]
  · rw [getD_lt _ hi, getD_lt _ h0]
    exact hs.2 _ (List.getElem_mem _)

/-- **C49.** For a fitted univariate classifier, data on which `transform` succeeds and which offer a
window to every shapelet, a class number that is also a label of some series but not of all, and every
order `argsort` may return and every random choice of the two series: the figures are shown, one for each
of the `min(n_shp, n)` selected shapelets in that order, and each shows the features, the values, the best
matches and the distances of its shapelet, on one series of the class and one of another class. -/
theorem C49_figures {c : RidgeClf ℝ R Int} {nf : Nat} {o : Rdst ℝ R} {S : UShp ℝ} {sc : Scaler ℝ}
    {m : Linear ℝ Int} (hc : RidgeFitted c nf o (.u S) sc m) (ht : o.transformType = .uni)
    {order : List ℝ → List Nat} (ho : ∀ v, IsArgsort v (order v)) (pick1 pick2 : Nat) {dt : DType} {A : Arr3 ℝ}
    (hWF : (XIn.array dt A).WF) (hnf : A.nf = nf) (hnf1 : 1 ≤ nf) {M : List (List ℝ)}
    (hM : o.transform (.array dt A) = .ok M) {y : List Int} (hy : y.length = A.data.length)
    (hw : ∀ k, k < S.lengths.length → HasWindow o.phase A.nt (S.lengths.getD k 0) (S.dilations.getD k 0))
    {q : Nat} (hq : q < m.classes.length) (hin : (q : Int) ∈ y) (hout : ∃ b ∈ y, b ≠ (q : Int)) (nShp : Int) :
    ∃ v figs, shpImportance c q = .ok v ∧ visualizeBest c o order pick1 pick2 dt A y q nShp = .ok figs ∧
      figs.map (·.shp) = bestShapelets (order v) nShp ∧ figs.length = min nShp.toNat S.lengths.length ∧
      ∃ i1 i2, y[i1]? = some (q : Int) ∧ i2 < y.length ∧ y[i2]? ≠ some (q : Int) ∧
        ∀ f ∈ figs, ShowsShapelet o.phase S A.data (y.map (· == (q : Int))) ((A.data.getD i2 []).getD 0 [])
          ((A.data.getD i1 []).getD 0 []) f := by
  obtain ⟨v, hv, hvl, -, -⟩ := C48_importance hc hq
  have hsamp : samples (.array dt A) = .ok (A.data.map fun s => (⟨s, A.nt⟩ : Mat ℝ)) := rfl
  obtain ⟨hMr, -⟩ := transform_rows hc.shapelets hc.wf hWF hsamp (by
    intro x hx
    obtain ⟨s, hs, rfl⟩ := List.mem_map.1 hx
    rw [← hnf]
    exact (hWF s hs).1) hM
  have hMr : M = A.data.map fun s => uRow o.phase S (s.getD 0 []) := by
    rw [hMr, List.map_map]
    rfl
  obtain ⟨i1, hi1, hi1l, hi1p⟩ := chooseWhere_ok (n := y.length) (p := fun i => y[i]? == some (q : Int)) (by
    obtain ⟨i, hi, he⟩ := List.getElem_of_mem hin
    exact ⟨i, hi, by simp [List.getElem?_eq_getElem hi, he]⟩) pick1
  obtain ⟨i2, hi2, hi2l, hi2p⟩ := chooseWhere_ok (n := y.length) (p := fun i => !(y[i]? == some (q : Int))) (by
    obtain ⟨b, hb, hbq⟩ := hout
    obtain ⟨i, hi, he⟩ := List.getElem_of_mem hb
    exact ⟨i, hi, by simp [List.getElem?_eq_getElem hi, he, hbq]⟩) pick2
  obtain ⟨hx1, hl1⟩ := firstChannel_ok dt hWF (by omega) (i := i1) (by omega)
  obtain ⟨hx2, hl2⟩ := firstChannel_ok dt hWF (by omega) (i := i2) (by omega)
  obtain ⟨-, hrange, hlen, -, -⟩ := C49_best_shapelets (n := S.lengths.length) hvl (ho v) nShp
  have hfig : ∀ k, ∃ f : ShpFigure ℝ, k < S.lengths.length →
      shpFigure o A (y.map (· == (q : Int))) M i1 i2 k = .ok f ∧ f.shp = k ∧
        ShowsShapelet o.phase S A.data (y.map (· == (q : Int))) ((A.data.getD i2 []).getD 0 [])
          ((A.data.getD i1 []).getD 0 []) f := by
    intro k
    by_cases hk : k < S.lengths.length
    · obtain ⟨f, h1, h2, h3⟩ := shpFigure_ok hc.shapelets hc.wf (Or.inl ht) (isClass := y.map (· == (q : Int)))
        hx1 hx2 hk (by rw [hl1]; exact hw k hk) (by rw [hl2]; exact hw k hk)
      exact ⟨f, fun _ => ⟨by rw [hMr]; exact h1, h2, h3⟩⟩
    · exact ⟨⟨0, [], [], [], ([], []), ([], []), ([], 0), ([], 0)⟩, fun h => absurd h hk⟩
  choose g hgk using hfig
  refine ⟨v, (bestShapelets (order v) nShp).map g, hv, ?_, ?_, by rw [List.length_map, hlen], i1, i2,
    by simpa using hi1p, hi2l, by simpa using hi2p, ?_⟩
  · unfold visualizeBest
    rw [hv, Res.bind_ok]
    simp only
    rw [hM, Res.bind_ok, hi1, Res.bind_ok, hi2, Res.bind_ok]
    apply mapM_ok
    intro k hk
    exact (hgk k (hrange k hk)).1
  · rw [List.map_map]
    conv_rhs => rw [← List.map_id (bestShapelets (order v) nShp)]
    apply List.map_congr_left
    intro k hk
    exact (hgk k (hrange k hk)).2.1
  · intro f hf
    obtain ⟨k, hk, rfl⟩ := List.mem_map.1 hf
    exact (hgk k (hrange k hk)).2.2

/-- **C49.** When no series has the requested label, or every series has it, the call raises `ValueError`
after a successful transform. -/
theorem C49_needs_both {c : RidgeClf ℝ R Int} {nf : Nat} {o : Rdst ℝ R} {S : Shapelets ℝ} {sc : Scaler ℝ}
    {m : Linear ℝ Int} (hc : RidgeFitted c nf o S sc m) (order : List ℝ → List Nat) (pick1 pick2 : Nat)
    {dt : DType} {A : Arr3 ℝ} {M : List (List ℝ)} (hM : o.transform (.array dt A) = .ok M) {y : List Int}
    {q : Nat} (hq : q < m.classes.length) (nShp : Int)
    (hbad : (q : Int) ∉ y ∨ ∀ b ∈ y, b = (q : Int)) :
    visualizeBest c o order pick1 pick2 dt A y q nShp = .error .valueError := by
  obtain ⟨v, hv, -⟩ := C48_importance hc hq
  unfold visualizeBest
  rw [hv, Res.bind_ok]
  simp only
  rw [hM, Res.bind_ok]
  by_cases hin : (q : Int) ∈ y
  · obtain ⟨i1, hi1, -⟩ := chooseWhere_ok (n := y.length) (p := fun i => y[i]? == some (q : Int)) (by
      obtain ⟨i, hi, he⟩ := List.getElem_of_mem hin
      exact ⟨i, hi, by simp [List.getElem?_eq_getElem hi, he]⟩) pick1
    rw [hi1, Res.bind_ok, chooseWhere_error]
    · rfl
    · intro i hi
      rcases hbad with h | h
      · exact absurd hin h
      · simp [List.getElem?_eq_getElem hi, h _ (List.getElem_mem hi)]
  · rw [chooseWhere_error]
    · rfl
    · intro i hi
      simp only [List.getElem?_eq_getElem hi, beq_eq_false_iff_ne, ne_eq, Option.some.injEq]
      intro he
      exact hin (he ▸ List.getElem_mem hi)

/-! ## C71: the class shown -/

/-- **C71 (partial: labels `0 .. k-1`).** When the labels are `0, ..., k-1`, as `LabelEncoder` makes them,
the importance vector of a label is that of the class with this label. -/
theorem C71_class_by_label_partial {c : RidgeClf ℝ R Int} {nf : Nat} {o : Rdst ℝ R} {S : Shapelets ℝ}
    {sc : Scaler ℝ} {m : Linear ℝ Int} (hc : RidgeFitted c nf o S sc m)
    (hcl : m.classes = (List.range m.classes.length).map Int.ofNat) {l : Int} (hl : l ∈ m.classes) :
    ∃ q v, m.classes[q]? = some l ∧ shpImportance c l = .ok v ∧
      ∀ j, j < sc.atts.length → v.getD (sc.atts.getD j 0) 0 = classCoef m q j := by
  rw [hcl] at hl
  obtain ⟨q, hq, rfl⟩ := List.mem_map.1 hl
  rw [List.mem_range] at hq
  obtain ⟨v, hv, -, hk, -⟩ := C48_importance hc hq
  refine ⟨q, v, ?_, hv, hk⟩
  rw [hcl, List.getElem?_map, List.getElem?_range hq]
  rfl

end

/-! ## Concrete cases -/

/-- A transformer fitted with the three shapelets `exU`. -/
noncomputable def exInterpObj : Rdst ℝ Nat := { exObj .uni with shapelets := some (.u exU) }

/-- A scaler that keeps four of the nine features. -/
noncomputable def exInterpScaler : Scaler ℝ := ⟨[0, 2, 3, 8], [1, 0, 2, 1], [1, 2, 1, 3]⟩

/-- A classifier with the given coefficients and labels. -/
noncomputable def exInterpClf (coef : List (List ℝ)) (classes : List Int) : RidgeClf ℝ Nat Int where
  p := exParams (.int 1)
  rs := .seed 7
  nJobs := .int 1
  transformer := some exInterpObj
  classifier := some (some (exInterpScaler, ⟨coef, coef.map fun _ => 0, classes⟩))

theorem exInterp_fitted (coef : List (List ℝ)) (classes : List Int) (h1 : coef ≠ [])
    (h2 : ∀ r ∈ coef, r.length = 4) (h3 : classes.length = if coef.length = 1 then 2 else coef.length) :
    RidgeFitted (exInterpClf coef classes) 1 exInterpObj (.u exU) exInterpScaler
      ⟨coef, coef.map fun _ => 0, classes⟩ where
  transformer := rfl
  shapelets := rfl
  wf := exU_wf
  classifier := rfl
  scaler := ⟨rfl, rfl, by simp [exInterpScaler, Shapelets.count, exU], by simp [exInterpScaler]⟩
  linear := ⟨h1, by simp, h2, h3⟩

/-- C48: two classes. -/
example : ∃ v, shpImportance (exInterpClf [[1, -2, 3, 5]] [0, 1]) 0 = .ok v ∧ v.length = 9 ∧
    v.getD 2 0 = 2 ∧ v.getD 8 0 = -5 ∧ v.getD 1 0 = 0 := by
  obtain ⟨v, hv, hl, hk, h0⟩ := C48_importance (exInterp_fitted [[1, -2, 3, 5]] [0, 1] (by simp) (by simp) rfl)
    (q := 0) (by simp)
  refine ⟨v, hv, by simpa [Shapelets.count, exU] using hl, ?_, ?_, h0 1 (by simp [exInterpScaler])⟩
  · simpa [exInterpScaler, classCoef] using hk 1 (by simp [exInterpScaler])
  · simpa [exInterpScaler, classCoef] using hk 3 (by simp [exInterpScaler])

/-- **C71 (violated).** The class number is a position in the coefficients but is compared with the labels
of the series: for the labels 1 and 2, `class_id = 2` raises `IndexError` whatever the data, and
`class_id = 1` shows, beside the series labelled 1, the coefficients of the class labelled 2. -/
theorem C71_position_not_label :
    ∃ (c : RidgeClf ℝ Nat Int) (o : Rdst ℝ Nat) (S : Shapelets ℝ) (sc : Scaler ℝ) (m : Linear ℝ Int),
      RidgeFitted c 1 o S sc m ∧ m.classes = [1, 2] ∧
      (∀ order p1 p2 dt A y n, visualizeBest c o order p1 p2 dt A y 2 n = .error .indexError) ∧
      ∃ v, shpImportance c 1 = .ok v ∧
        (∀ j, j < sc.atts.length → v.getD (sc.atts.getD j 0) 0 = classCoef m 1 j) ∧
        ∃ j, j < sc.atts.length ∧ v.getD (sc.atts.getD j 0) 0 ≠ classCoef m 0 j := by
  have hf := exInterp_fitted [[1, -2, 3, 5]] [1, 2] (by simp) (by simp) rfl
  refine ⟨_, _, _, _, _, hf, rfl, ?_, ?_⟩
  · intro order p1 p2 dt A y n
    unfold visualizeBest
    rw [(C48_class_range hf).1 2 (Or.inl (by simp))]
    rfl
  · obtain ⟨v, hv, -, hk, -⟩ := C48_importance hf (q := 1) (by simp)
    refine ⟨v, hv, hk, 0, by simp [exInterpScaler], ?_⟩
    rw [hk 0 (by simp [exInterpScaler])]
    norm_num [classCoef]

/-- C71: labels 0 and 1. -/
example : ∃ v, shpImportance (exInterpClf [[1, -2, 3, 5]] [0, 1]) 1 = .ok v ∧ v.getD 8 0 = 5 := by
  obtain ⟨q, v, hq, hv, hk⟩ := C71_class_by_label_partial (l := 1)
    (exInterp_fitted [[1, -2, 3, 5]] [0, 1] (by simp) (by simp) rfl) (by simp [List.range_succ]) (by simp)
  refine ⟨v, hv, ?_⟩
  have hq1 : q = 1 := by
    match q, hq with
    | 0, h => simp at h
    | 1, _ => rfl
    | (n + 2), h => simp at h
  subst hq1
  simpa [exInterpScaler, classCoef] using hk 3 (by simp [exInterpScaler])

/-- An order for `argsort`. -/
theorem argsort_exists (v : List ℝ) : ∃ order, IsArgsort v order := by
  refine ⟨(List.range v.length).mergeSort fun i j => decide (v.getD i 0 ≤ v.getD j 0),
    List.mergeSort_perm _ _, ?_⟩
  have := List.pairwise_mergeSort (le := fun i j => decide (v.getD i 0 ≤ v.getD j 0))
    (by intro a b c; simp only [decide_eq_true_eq]; exact le_trans)
    (by intro a b; simp only [Bool.or_eq_true, decide_eq_true_eq]; exact le_total _ _) (List.range v.length)
  simpa using this

/-- C49: three classes, two figures out of three shapelets. -/
example : ∃ order : List ℝ → List Nat, ∃ figs, visualizeBest
      (exInterpClf [[1, -2, 3, 5], [0, 1, 2, 3], [1, 1, 0, -1]] [0, 1, 2]) exInterpObj order 3 4 .float64 exArr
        [1, 0] 1 2 = .ok figs ∧ figs.length = 2 := by
  choose order ho using argsort_exists
  have hWF : (XIn.array .float64 exArr).WF := by simp [XIn.WF, exArr]
  have hM : ∃ M, exInterpObj.transform (.array .float64 exArr) = .ok M := by
    have h1 : exInterpObj.transform (.array .float64 exArr) =
        (toArr3 (.array .float64 exArr)).bind fun A => uslApply A.data exU false := rfl
    rw [h1, toArr3_array (by simp [exArr]) (by simp [exArr]) (by simp [exArr])]
    exact ⟨_, C01_univariate_same_length (X := exX) exU_wf (phase := false) exX_ne exX_fits⟩
  obtain ⟨M, hM⟩ := hM
  obtain ⟨v, figs, -, h, -, hl, -⟩ := C49_figures
    (exInterp_fitted [[1, -2, 3, 5], [0, 1, 2, 3], [1, 1, 0, -1]] [0, 1, 2] (by simp) (by simp) rfl) rfl ho 3 4
    hWF rfl le_rfl hM (y := [1, 0]) (by simp [exArr]) (by
      intro k hk
      simp [exU] at hk
      interval_cases k <;> simp [exU, HasWindow, exArr, exInterpObj, exObj]) (q := 1) (by simp) (by simp)
    ⟨0, by simp, by simp⟩ 2
  exact ⟨order, figs, h, by rw [hl]; rfl⟩

/-- C63: a fitted multivariate transformer. -/
example : getParams ({ exObj .multi with shapelets := some (.m exM) } : Rdst ℝ Nat) 0 = .error .valueError :=
  ((C63_multivariate_value_error (L := Nat) _ exM rfl).2 0).1

/-- C63: a fitted univariate transformer; the third shapelet. -/
example : ∃ s, getParams exInterpObj 2 = .ok s ∧ s.values = [4, 5] ∧ s.norm = true :=
  ⟨_, (C63_univariate (o := exInterpObj) rfl exU_wf (Or.inl rfl)).1 2 (by simp [exU]), by simp [uValues, exU], by
    simp [exU]⟩

end Convst.Props
