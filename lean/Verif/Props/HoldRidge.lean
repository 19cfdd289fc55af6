import Verif.Props.Hold
import Verif.Props.UnitsRidge

/-!
# C132: the classifier at a multiple of the sampling rate
-/

set_option autoImplicit false
set_option linter.unusedSectionVars false

namespace Convst.Props
open Convst Spec

/-- A row with column `j` multiplied by `f j`. -/
noncomputable def scaleRow (f : Nat → ℝ) (row : List ℝ) : List ℝ := row.mapIdx fun j v => f j * v

variable {f : Nat → ℝ}

theorem scaleRow_getD (row : List ℝ) (j : Nat) : (scaleRow f row).getD j 0 = f j * row.getD j 0 := by
  rw [List.getD_eq_getElem?_getD, List.getD_eq_getElem?_getD]
  unfold scaleRow
  rw [List.getElem?_mapIdx]
  cases row[j]? <;> simp

theorem colOf_scale (X : List (List ℝ)) (j : Nat) :
    colOf (X.map (scaleRow f)) j = (colOf X j).map fun v => f j * v := by
  unfold colOf
  rw [List.map_map, List.map_map]
  apply List.map_congr_left
  intro r _
  exact scaleRow_getD r j

theorem rect_scale {X : List (List ℝ)} {nc : Nat} (h : ∀ r ∈ X, r.length = nc) :
    ∀ r ∈ X.map (scaleRow f), r.length = nc := by
  intro r hr
  obtain ⟨r', hr', rfl⟩ := List.mem_map.1 hr
  simp [scaleRow, h r' hr']

/-- The standard scaler does not see positive factors of the columns. -/
theorem scaler_scale (hf : ∀ j, 0 < f j) {X : List (List ℝ)} {nc : Nat} (h : ∀ r ∈ X, r.length = nc) :
    (∀ e, Scaler.fitStandard X nc = .error e → Scaler.fitStandard (X.map (scaleRow f)) nc = .error e) ∧
    (∀ s, Scaler.fitStandard X nc = .ok s → ∃ s', Scaler.fitStandard (X.map (scaleRow f)) nc = .ok s' ∧
      ∀ Z : List (List ℝ), (∀ r ∈ Z, r.length = nc) →
        s'.transformStandard (Z.map (scaleRow f)) = s.transformStandard Z) := by
  have hstd : ∀ j, std (colOf (X.map (scaleRow f)) j) = f j * std (colOf X j) := by
    intro j
    rw [colOf_scale, std_mul_const, abs_of_pos (hf j)]
  have hatts : (whereIdx nc fun j => !(Scalar.eqb (std (colOf (X.map (scaleRow f)) j)) 0)) =
      whereIdx nc fun j => !(Scalar.eqb (std (colOf X j)) 0) := by
    unfold whereIdx
    apply List.filter_congr
    intro j _
    rw [hstd]
    have := (hf j).ne'
    rw [Bool.eq_iff_iff]
    simp [this]
  have e1 := fitStandard_eq h
  have e2 := fitStandard_eq (rect_scale (f := f) h)
  simp only at e1 e2
  rw [hatts] at e2
  have hnil : X.map (scaleRow f) = [] ↔ X = [] := List.map_eq_nil_iff
  constructor
  · intro e he
    rw [e1] at he
    rw [e2]
    split at he
    · rename_i h0
      rw [if_pos (by rw [hnil]; exact h0)]
      exact he
    · cases he
  · intro s hs
    have hok : ∃ s', Scaler.fitStandard (X.map (scaleRow f)) nc = .ok s' := by
      rw [e1] at hs
      rw [e2]
      split at hs
      · cases hs
      · rename_i h0
        rw [if_neg (by rw [hnil]; exact h0)]
        exact ⟨_, rfl⟩
    obtain ⟨s', hs'⟩ := hok
    refine ⟨s', hs', fun Z hZ => ?_⟩
    rw [C47_predict_time h hs Z (fun r hr => (hZ r hr).ge),
      C47_predict_time (rect_scale h) hs' _ (fun r hr => (rect_scale hZ r hr).ge)]
    have ha : s'.atts = s.atts := by
      rw [(fitStandard_ok h hs).2.1, (fitStandard_ok (rect_scale h) hs').2.1, hatts]
    rw [List.map_map, ha]
    congr 1
    apply List.map_congr_left
    intro r _
    simp only [Function.comp_apply]
    apply List.map_congr_left
    intro j _
    rw [scaleRow_getD, hstd, colOf_scale, mean_mul_const, ← mul_sub]
    exact mul_div_mul_left _ _ (hf j).ne'

variable {G R L : Type} [Gen G ℝ] [LawfulGen G] [DecidableEq L]

theorem pipeline_scale (env : ClfEnv G ℝ R L) (hf : ∀ j, 0 < f j) {F : List (List ℝ)} {nc : Nat} (hne : F ≠ [])
    (h : ∀ r ∈ F, r.length = nc) (y : List L) :
    (∀ e, fitPipeline env F y = .error e → fitPipeline env (F.map (scaleRow f)) y = .error e) ∧
    (∀ sm, fitPipeline env F y = .ok sm → ∃ sm', fitPipeline env (F.map (scaleRow f)) y = .ok sm' ∧
      ∀ Z : List (List ℝ), (∀ r ∈ Z, r.length = nc) →
        predictPipeline sm' (Z.map (scaleRow f)) = predictPipeline sm Z) := by
  have hn : nCols F = nc := by
    obtain ⟨r, F', rfl⟩ := List.exists_cons_of_ne_nil hne
    exact h r (by simp)
  have hn' : nCols (F.map (scaleRow f)) = nc := by
    obtain ⟨r, F', rfl⟩ := List.exists_cons_of_ne_nil hne
    exact rect_scale (f := f) h _ (by simp)
  obtain ⟨h1, h2⟩ := scaler_scale hf h
  unfold fitPipeline
  rw [hn, hn']
  cases hs : Scaler.fitStandard F nc with
  | error e =>
    rw [h1 e hs]
    exact ⟨fun e' he' => he', fun sm hsm => by cases hsm⟩
  | ok s =>
    obtain ⟨s', hs', hZ⟩ := h2 s hs
    rw [hs', Res.bind_ok, Res.bind_ok, hZ F h]
    cases hF : s.transformStandard F with
    | error e => exact ⟨fun e' he' => he', fun sm hsm => by cases hsm⟩
    | ok Fs =>
      rw [Res.bind_ok, Res.bind_ok]
      cases hm : env.ridge Fs y with
      | error e => exact ⟨fun e' he' => he', fun sm hsm => by cases hsm⟩
      | ok m =>
        refine ⟨fun e' he' => (by cases he'), fun sm hsm => ?_⟩
        obtain rfl := Except.ok.inj hsm
        refine ⟨(s', m), rfl, fun Z hZr => ?_⟩
        unfold predictPipeline
        simp only
        rw [hZ Z hZr]

theorem objRow_len (phase : Bool) (S : Shapelets ℝ) (x : Mat ℝ) : (objRow phase S x).length = 3 * numShapelets S := by
  cases S with
  | u S => simp [objRow, uRow, numShapelets, List.length_flatMap, cells, Nat.mul_comm]
  | m S => simp [objRow, mRow, numShapelets, List.length_flatMap, cells, Nat.mul_comm]

/-- The factors of the columns. -/
noncomputable def rateFactor (r j : Nat) : ℝ := if j % 3 = 0 then 1 else r

theorem objRow_rate {r : Nat} (hr : 1 ≤ r) (phase : Bool) (S : Shapelets ℝ) (x : Mat ℝ) :
    objRow phase (wider r S) (heldSeries r x) = scaleRow (rateFactor r) (objRow phase S x) := by
  have hnum : numShapelets (wider r S) = numShapelets S := by cases S <;> rfl
  apply List.ext_getElem?
  intro j
  rcases Nat.lt_or_ge j (3 * numShapelets S) with h | h
  · obtain ⟨m, p, c, h0, h1, h2, h3, h4, h5⟩ := rows_held hr phase S x (k := j / 3) (by omega) sound_real
    unfold scaleRow
    rw [List.getElem?_mapIdx]
    have hj : j = 3 * (j / 3) ∨ j = 3 * (j / 3) + 1 ∨ j = 3 * (j / 3) + 2 := by omega
    rcases hj with e | e | e
    · have hm : rateFactor r j = 1 := if_pos (by omega)
      rw [hm, e, h3, h0]; simp
    · have hm : rateFactor r j = r := if_neg (by omega)
      rw [hm, e, h4, h1]; simp
    · have hm : rateFactor r j = r := if_neg (by omega)
      rw [hm, e, h5, h2]; simp
  · rw [List.getElem?_eq_none (by rw [objRow_len, hnum]; exact h),
      List.getElem?_eq_none (by unfold scaleRow; rw [List.length_mapIdx, objRow_len]; exact h)]

/-- **C132.** The scaler and the linear classifier trained on the features of the recordings at `r` times the rate, with
dilations `r` times as large, raise the same exception or give the same predictions for recordings at that rate as those
trained on the recordings themselves. -/
theorem C132_predictions (env : ClfEnv G ℝ R L) {r : Nat} (hr : 1 ≤ r) {o : Rdst ℝ R} {S : Shapelets ℝ}
    (hS : o.shapelets = some S) {nf : Nat} (hwf : ShpWF S nf) {X X' Z Z' : XIn ℝ} (hX : X.WF) (hX' : X'.WF) (hZ : Z.WF)
    (hZ' : Z'.WF) {xs zs : List (Mat ℝ)} (hxs : samples X = .ok xs) (hxs' : samples X' = .ok (xs.map (heldSeries r)))
    (hzs : samples Z = .ok zs) (hzs' : samples Z' = .ok (zs.map (heldSeries r)))
    (hnf : ∀ x ∈ xs, x.rows.length = nf) (hnfz : ∀ z ∈ zs, z.rows.length = nf) {F F' M M' : List (List ℝ)}
    (hF : o.transform X = .ok F) (hF' : Rdst.transform { o with shapelets := some (wider r S) } X' = .ok F')
    (hM : o.transform Z = .ok M) (hM' : Rdst.transform { o with shapelets := some (wider r S) } Z' = .ok M') (y : List L) :
    (∃ e, fitPipeline env F y = .error e ∧ fitPipeline env F' y = .error e) ∨
    ∃ sm sm', fitPipeline env F y = .ok sm ∧ fitPipeline env F' y = .ok sm' ∧
      predictPipeline sm' M' = predictPipeline sm M := by
  have hheld : ∀ {ws : List (Mat ℝ)}, (∀ x ∈ ws, x.rows.length = nf) →
      ∀ x ∈ ws.map (heldSeries r), x.rows.length = nf := by
    intro ws h x hx
    obtain ⟨z, hz, rfl⟩ := List.mem_map.1 hx
    simpa [heldSeries] using h z hz
  obtain ⟨eF, hne⟩ := transform_rows hS hwf hX hxs hnf hF
  obtain ⟨eF', -⟩ := transform_rows (o := { o with shapelets := some (wider r S) }) rfl (wider_wf hwf) hX' hxs' (hheld hnf) hF'
  obtain ⟨eM, -⟩ := transform_rows hS hwf hZ hzs hnfz hM
  obtain ⟨eM', -⟩ := transform_rows (o := { o with shapelets := some (wider r S) }) rfl (wider_wf hwf) hZ' hzs' (hheld hnfz) hM'
  have key : ∀ ws : List (Mat ℝ), (ws.map (heldSeries r)).map (objRow o.phase (wider r S)) =
      (ws.map (objRow o.phase S)).map (scaleRow (rateFactor r)) := by
    intro ws
    rw [List.map_map, List.map_map]
    exact List.map_congr_left fun x _ => objRow_rate hr o.phase S x
  have eF'' : F' = F.map (scaleRow (rateFactor r)) := by rw [eF', eF]; exact key xs
  have eM'' : M' = M.map (scaleRow (rateFactor r)) := by rw [eM', eM]; exact key zs
  have hpos : ∀ j, 0 < rateFactor r j := by
    intro j
    unfold rateFactor
    split
    · exact one_pos
    · exact_mod_cast hr
  have hlen : ∀ ws : List (Mat ℝ), ∀ row ∈ ws.map (objRow o.phase S), row.length = 3 * numShapelets S := by
    intro ws row hrow
    obtain ⟨x, -, rfl⟩ := List.mem_map.1 hrow
    exact objRow_len _ _ _
  obtain ⟨p1, p2⟩ := pipeline_scale env hpos (F := F) (by rw [eF]; simpa using hne) (eF ▸ hlen xs) y
  cases h : fitPipeline env F y with
  | error e => exact Or.inl ⟨e, rfl, by rw [eF'']; exact p1 e h⟩
  | ok sm =>
    obtain ⟨sm', h1, h2⟩ := p2 sm h
    exact Or.inr ⟨sm, sm', rfl, by rw [eF'']; exact h1, by rw [eM'']; exact h2 M (eM ▸ hlen zs)⟩

/-- The two series of five points and the three shapelets `exU`, at twice the rate: both series are also the test series. -/
example (env : ClfEnv G ℝ R L) {o : Rdst ℝ R} (ht : o.transformType = .uni) (hS : o.shapelets = some (.u exU)) (y : List L) :
    ∃ F F', o.transform (.array .float64 ⟨exX, 1, 5⟩) = .ok F ∧
      Rdst.transform { o with shapelets := some (wider 2 (.u exU)) } (.array .float64
        ⟨[[[0, 0, 1, 1, 2, 2, 3, 3, 4, 4]], [[1, 1, 1, 1, 0, 0, 0, 0, 2, 2]]], 1, 10⟩) = .ok F' ∧
      ((∃ e, fitPipeline env F y = .error e ∧ fitPipeline env F' y = .error e) ∨
      ∃ sm sm', fitPipeline env F y = .ok sm ∧ fitPipeline env F' y = .ok sm' ∧
        predictPipeline sm' F' = predictPipeline sm F) := by
  have hw : ∀ x ∈ [(⟨[[0, 1, 2, 3, 4]], 5⟩ : Mat ℝ), ⟨[[1, 1, 0, 0, 2]], 5⟩], x.WF ∧ x.rows.length = 1 := by
    simp [Mat.WF]
  obtain ⟨-, h⟩ := C132_accepted (r := 2) (by omega) hS (nf := 1) le_rfl exU_wf (by rw [ht]; exact Or.inl rfl)
    (xs := [⟨[[0, 1, 2, 3, 4]], 5⟩, ⟨[[1, 1, 0, 0, 2]], 5⟩]) (by simp) hw (T := 5) (by omega) (by simp) (by
      intro k hk
      replace hk : k < 3 := hk
      interval_cases k <;> simp [spanOf, exU])
  obtain ⟨F, F', hF, hF'⟩ := h (Or.inl ht) (by simp) .float64
  have w1 : (XIn.array DType.float64 (⟨exX, 1, 5⟩ : Arr3 ℝ)).WF := by
    intro s hs
    simp only [exX, List.mem_cons, List.not_mem_nil, or_false] at hs
    rcases hs with rfl | rfl <;> simp
  have w2 : (XIn.array DType.float64 (⟨[[[0, 0, 1, 1, 2, 2, 3, 3, 4, 4]], [[1, 1, 1, 1, 0, 0, 0, 0, 2, 2]]], 1, 10⟩ :
      Arr3 ℝ)).WF := by
    intro s hs
    simp only [List.mem_cons, List.not_mem_nil, or_false] at hs
    rcases hs with rfl | rfl <;> simp
  exact ⟨F, F', hF, hF', C132_predictions env (r := 2) (by omega) hS (nf := 1) exU_wf w1 w2 w1 w2
    (xs := [⟨[[0, 1, 2, 3, 4]], 5⟩, ⟨[[1, 1, 0, 0, 2]], 5⟩]) (zs := [⟨[[0, 1, 2, 3, 4]], 5⟩, ⟨[[1, 1, 0, 0, 2]], 5⟩])
    rfl rfl rfl rfl (by simp) (by simp) hF hF' hF hF' y⟩

/-- A shapelet of dilation 1 cut from the recording `0, 1, 0`. -/
def peakU : UShp ℝ where
  values := [[0, 1, 0]]
  lengths := [3]
  dilations := [1]
  threshold := [0]
  normalize := [false]

theorem peakU_wf : UWF peakU := by
  refine ⟨rfl, rfl, rfl, rfl, ?_, ?_⟩ <;> intro k hk <;> replace hk : k < 1 := hk <;> obtain rfl : k = 0 := by omega
  all_goals simp [peakU]

/-- **C132.** The dilations have to be multiplied: with the dilations of the original rate, a shapelet cut from a recording
does not occur any more in the same recording at twice the rate. -/
theorem C132_dilations_needed {o : Rdst ℝ R} (ht : o.transformType = .uni) (hph : o.phase = false)
    (hS : o.shapelets = some (.u peakU)) :
    ∃ row row' : List ℝ, o.transform (.array .float64 ⟨[[[0, 1, 0]]], 1, 3⟩) = .ok [row] ∧ row[0]? = some 0 ∧
      o.transform (.array .float64 ⟨[[held 2 [0, 1, 0]]], 1, 6⟩) = .ok [row'] ∧ row'[0]? = some 1 ∧ row'[2]? = some 0 := by
  have hk : ∀ T, 3 ≤ T → ∀ k, k < peakU.lengths.length → (peakU.lengths.getD k 0 - 1) * peakU.dilations.getD k 0 < T := by
    intro T hT k hk
    replace hk : k < 1 := hk
    obtain rfl : k = 0 := by omega
    simp [peakU]; omega
  have h1 := transform_array_uni ht hS peakU_wf (dt := .float64) (B := ⟨[[[0, 1, 0]]], 1, 3⟩)
    (by simp [XIn.WF]) (by simp) (by simp) (by simp) (hk 3 le_rfl)
  have h2 := transform_array_uni ht hS peakU_wf (dt := .float64) (B := ⟨[[held 2 [0, 1, 0]]], 1, 6⟩)
    (by simp [XIn.WF, held]) (by simp) (by simp) (by simp) (hk 6 (by omega))
  have d1 : uDistances false peakU [0, 1, 0] 0 = [0] := by
    norm_num [uDistances, distances, nWin, window, pos, l1, seen, uValues, peakU, List.range_succ]
  have d2 : uDistances false peakU (held 2 [0, 1, 0]) 0 = [2, 1, 1, 2] := by
    norm_num [uDistances, distances, nWin, window, pos, l1, seen, uValues, peakU, List.range_succ, held]
  have r0 : List.range peakU.lengths.length = [0] := rfl
  have u1 : uRow false peakU [0, 1, 0] = [0, 0, 1] := by
    simp only [uRow, r0, uFeatures, d1, List.flatMap_cons, List.flatMap_nil]
    norm_num [features, scanMin, peakU, cells]
  have u2 : uRow false peakU (held 2 [0, 1, 0]) = [1, 1, 0] := by
    simp only [uRow, r0, uFeatures, d2, List.flatMap_cons, List.flatMap_nil]
    norm_num [features, scanMin, peakU, cells]
  rw [hph] at h1 h2
  refine ⟨[0, 0, 1], [1, 1, 0], ?_, rfl, ?_, rfl, rfl⟩
  · rw [h1, ← u1]; rfl
  · rw [h2, ← u2]; rfl

end Convst.Props
