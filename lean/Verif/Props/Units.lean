import Verif.Proofs.UnitsFit
import Verif.Proofs.UnitsApply
import Verif.Proofs.ObjectRows
import Verif.Props.FitCount

/-!
# C84: a change of units
-/

set_option autoImplicit false
set_option linter.unusedSectionVars false

namespace Convst.Props
open Convst Spec

/-- An array in the new units. -/
noncomputable def Arr3.units (c b : ℝ) (A : Arr3 ℝ) : Arr3 ℝ :=
  ⟨A.data.map (List.map (List.map (inUnits c b))), A.nf, A.nt⟩

/-- One series of a list in the new units. -/
noncomputable def Mat.units (c b : ℝ) (x : Mat ℝ) : Mat ℝ := ⟨x.rows.map (List.map (inUnits c b)), x.len⟩

/-- Fitted shapelets in the new units. -/
inductive ShpUnits (c b : ℝ) : Shapelets ℝ → Shapelets ℝ → Prop
  | u {S S' : UShp ℝ} (h : UUnits c b S S') : ShpUnits c b (.u S) (.u S')
  | m {S S' : MShp ℝ} (h : MUnits c b S S') : ShpUnits c b (.m S) (.m S')

theorem hasWindow_of_lt {phase : Bool} {T l d : Nat} (h : (l - 1) * d < T) : HasWindow phase T l d := by
  unfold HasWindow
  split <;> omega

variable {G R L : Type} [Gen G ℝ] [LawfulGen G] [DecidableEq L] {c b : ℝ}

/-! ## The fitters -/

/-- **C84.** Univariate, equal lengths: on the data in the new units, with the same random draws and
under every schedule, `fit` returns the shapelets in the new units. -/
theorem C84_fit_univariate_same_length {a : FitArgs ℝ L} (hv : ValidSL a) (hc : c ≠ 0)
    (hs : |c| = 1 ∨ a.pNorm ≤ 0) (hb : b = 0 ∨ 1 ≤ a.pNorm) (g0 : G) (gs : Nat → G) :
    ∃ S S', UUnits c b S S' ∧ ∀ order, IsSchedule order →
      uslGenerate a g0 gs order = .ok S ∧
      uslGenerate { a with X := a.X.map (List.map (List.map (inUnits c b))) } g0 gs order = .ok S' := by
  obtain ⟨S, S', h1, -, -, -, h2⟩ := uslGenerate_units hv hc hs hb g0 gs
  exact ⟨S, S', h1, h2⟩

/-- **C84.** Univariate, variable lengths. -/
theorem C84_fit_univariate_variable_length {a : FitArgs ℝ L} {minLen : Nat} {xLen : List Nat}
    (hv : ValidVL a minLen xLen) (hc : c ≠ 0) (hs : |c| = 1 ∨ a.pNorm ≤ 0) (hb : b = 0 ∨ 1 ≤ a.pNorm)
    (g0 : G) (gs : Nat → G) :
    ∃ S S', UUnits c b S S' ∧ ∀ order, IsSchedule order →
      uvlGenerate a minLen xLen g0 gs order = .ok S ∧
      uvlGenerate { a with X := a.X.map (List.map (List.map (inUnits c b))) } minLen xLen g0 gs order =
        .ok S' := by
  obtain ⟨S, S', h1, -, -, -, h2⟩ := uvlGenerate_units hv hc hs hb g0 gs
  exact ⟨S, S', h1, h2⟩

/-- **C84.** Multivariate, equal lengths: offsets need no care. -/
theorem C84_fit_multivariate_same_length {a : FitArgs ℝ L} (hv : ValidSL a) {mc : Nat} (hmc : 1 ≤ mc)
    (hmcf : mc ≤ a.nf) (hc : c ≠ 0) (hs : |c| = 1 ∨ a.pNorm ≤ 0) (g0 : G) (gs : Nat → G) :
    ∃ S S', MUnits c b S S' ∧ ∀ order, IsSchedule order →
      mslGenerate a mc g0 gs order = .ok S ∧
      mslGenerate { a with X := a.X.map (List.map (List.map (inUnits c b))) } mc g0 gs order = .ok S' := by
  obtain ⟨S, S', h1, -, -, -, h2⟩ := mslGenerate_units hv hmc hmcf hc hs g0 gs
  exact ⟨S, S', h1, h2⟩

/-- **C84.** Multivariate, variable lengths. -/
theorem C84_fit_multivariate_variable_length {a : FitArgs ℝ L} {minLen : Nat} {xLen : List Nat}
    (hv : ValidVL a minLen xLen) {mc : Nat} (hmc : 1 ≤ mc) (hmcf : mc ≤ a.nf) (hc : c ≠ 0)
    (hs : |c| = 1 ∨ a.pNorm ≤ 0) (g0 : G) (gs : Nat → G) :
    ∃ S S', MUnits c b S S' ∧ ∀ order, IsSchedule order →
      mvlGenerate a mc minLen xLen g0 gs order = .ok S ∧
      mvlGenerate { a with X := a.X.map (List.map (List.map (inUnits c b))) } mc minLen xLen g0 gs order =
        .ok S' := by
  obtain ⟨S, S', h1, -, -, -, h2⟩ := mvlGenerate_units hv hmc hmcf hc hs g0 gs
  exact ⟨S, S', h1, h2⟩

example (g0 : Script) (gs : Nat → Script) :
    ∃ S S', UUnits (-1) 0 S S' ∧ ∀ order, IsSchedule order →
      uslGenerate exA g0 gs order = .ok S ∧
      uslGenerate { exA with X := exA.X.map (List.map (List.map (inUnits (-1) 0))) } g0 gs order = .ok S' :=
  C84_fit_univariate_same_length exA_valid (by norm_num) (Or.inl (by norm_num)) (Or.inl rfl) g0 gs

/-! ## The features of given shapelets -/

/-- **C84.** The row of a univariate series: with shapelets and series in the new units, distances are
multiplied by `|c|`, positions and numbers of occurrences are unchanged. -/
theorem C84_row_univariate {S S' : UShp ℝ} (hU : UUnits c b S S') (hH : Harmless c S.normalize) (hS : UWF S)
    (phase : Bool) (x : List ℝ)
    (hw : ∀ k, k < S.lengths.length → HasWindow phase x.length (S.lengths.getD k 0) (S.dilations.getD k 0)) :
    uRow phase S' (x.map (inUnits c b)) = rowUnits c (uRow phase S x) :=
  uRow_units hU hH hS phase x hw

/-- **C84.** The row of a multivariate series. -/
theorem C84_row_multivariate {S S' : MShp ℝ} {nf : Nat} (hU : MUnits c b S S') (hH : Harmless c S.normalize)
    (hS : MWF S nf) (phase : Bool) {x : List (List ℝ)} {T : Nat} (hx : Rect x nf T)
    (hw : ∀ k, k < S.lengths.length → HasWindow phase T (S.lengths.getD k 0) (S.dilations.getD k 0)) :
    mRow phase S' (x.map (List.map (inUnits c b))) T = rowUnits c (mRow phase S x T) :=
  mRow_units hU hH hS phase hx hw

/-! ## `R_DST` objects -/

theorem Arr3.units_wf {dt dt' : DType} {A : Arr3 ℝ} (h : (XIn.array dt A).WF) :
    (XIn.array dt' (Arr3.units c b A)).WF := by
  intro s hs
  obtain ⟨s', hs', rfl⟩ := List.mem_map.1 hs
  obtain ⟨h1, h2⟩ := h s' hs'
  refine ⟨by rw [List.length_map]; exact h1, fun r hr => ?_⟩
  obtain ⟨r', hr', rfl⟩ := List.mem_map.1 hr
  rw [List.length_map]
  exact h2 r' hr'

theorem Mat.units_wf {x : Mat ℝ} (h : x.WF) : (Mat.units c b x).WF := by
  intro r hr
  obtain ⟨r', hr', rfl⟩ := List.mem_map.1 hr
  rw [List.length_map]
  exact h r' hr'

/-- The resolved type of the transform for an array. -/
theorem setFit_array (o : Rdst ℝ R) {dt : DType} {A : Arr3 ℝ}
    (hty : o.transformType = .uni ∨ o.transformType = .multi ∨
      o.transformType = .auto ∧ dt ≠ .otherDtype)
    (harr : toArr3 (.array dt A) = .ok A) :
    setFitTransform o (.array dt A) =
      ({ o with transformType :=
          if o.transformType = .multi ∨ o.transformType = .auto ∧ 1 < A.nf then .multi else .uni }, .ok ()) := by
  rcases hty with h | h | ⟨h, hdt⟩
  · rw [C34_fixed_type o (Or.inl h), if_neg (by simp [h]), ← h]
  · rw [C34_fixed_type o (Or.inr (Or.inl h)), if_pos (Or.inl h), ← h]
  · have hc : autoClass (.array dt A) = .ok (if A.nf > 1 then .multi else .uni) := by
      simp [autoClass, hdt, harr, Bind.bind, Except.bind, pure, Except.pure]
    by_cases h1 : A.nf > 1
    · rw [if_pos h1] at hc
      rw [if_pos (Or.inr ⟨h, h1⟩)]
      simp [setFitTransform, h, hc]
    · rw [if_neg h1] at hc
      rw [if_neg (by simp only [h]; simpa using h1)]
      simp [setFitTransform, h, hc]

/-- **C84.** `fit` then `transform` on 3D arrays.  Two runs start from the same object and the same
process-wide state; the second gets all measurements, of the training set and of the batch, in new
units `v ↦ c v + b`.  If `|c| = 1` (an offset, possibly with a change of sign) or no shapelet is
normalised (`proba_norm ≤ 0`), then both succeed, the process-wide state afterwards is the same, the
shapelets of the second are those of the first in the new units, and so is every row of features:
distances are multiplied by `|c|`, positions and numbers of occurrences are the same.  For the
univariate transform a non-zero offset is only covered when every shapelet is normalised. -/
theorem C84_object_same_length (env : Env G R L) (o : Rdst ℝ R) (w : World R) (dt dt₂ : DType)
    (A : Arr3 ℝ) (y : List L)
    (hty : o.transformType = .uni ∨ o.transformType = .multi ∨
      o.transformType = .auto ∧ dt ≠ .otherDtype ∧ dt₂ ≠ .otherDtype)
    (hWF : (XIn.array dt A).WF) (hne : A.data ≠ []) (hnf : 1 ≤ A.nf) (hnt : 4 ≤ A.nt)
    (hy : y.length = A.data.length) (hp : GoodParams o A.nt)
    (hmc : ∀ m, o.maxChannels = some m → 1 ≤ m ∧ m ≤ A.nf)
    (hc : c ≠ 0) (hs : |c| = 1 ∨ o.pNorm ≤ 0)
    (hb : b = 0 ∨ 1 ≤ o.pNorm ∨ o.transformType = .multi ∨ o.transformType = .auto ∧ 1 < A.nf)
    (gs : Nat → G) {order : Nat → List Nat} (ho : IsSchedule order) :
    ∃ o₁ o₂ w' S₁ S₂, o.fit env gs order w (.array dt A) y = (o₁, w', .ok ()) ∧
      o.fit env gs order w (.array dt₂ (Arr3.units c b A)) y = (o₂, w', .ok ()) ∧
      o₁.shapelets = some S₁ ∧ o₂ = { o₁ with shapelets := some S₂ } ∧ ShpUnits c b S₁ S₂ ∧
      ∀ (dt' dt₂' : DType) (B : Arr3 ℝ), (XIn.array dt' B).WF → B.data ≠ [] → B.nf = A.nf → A.nt ≤ B.nt →
        ∃ M, o₁.transform (.array dt' B) = .ok M ∧
          o₂.transform (.array dt₂' (Arr3.units c b B)) = .ok (M.map (rowUnits c)) := by
  have hneU : (Arr3.units c b A).data ≠ [] := by simpa [Arr3.units] using hne
  have harr : toArr3 (.array dt A) = .ok A := toArr3_array hne hnf (by omega)
  have harr₂ : toArr3 (.array dt₂ (Arr3.units c b A)) = .ok (Arr3.units c b A) :=
    toArr3_array hneU hnf (by exact Nat.le_of_succ_le hnt)
  have hset := setFit_array o (hty.imp_right (Or.imp_right fun h => ⟨h.1, h.2.1⟩)) harr
  have hset₂ := setFit_array o (hty.imp_right (Or.imp_right fun h => ⟨h.1, h.2.2⟩)) harr₂
  obtain ⟨sizes, hcp, hsne, hsb⟩ := hp.sizes hnt
  set t : TType := if o.transformType = .multi ∨ o.transformType = .auto ∧ 1 < A.nf then .multi else .uni
    with ht
  have htt : t = .uni ∨ t = .multi := by rw [ht]; split <;> simp
  have htc : t.Concrete := by rcases htt with h | h <;> rw [h] <;> simp [TType.Concrete]
  have htv : ¬ t.Var := by rcases htt with h | h <;> rw [h] <;> simp [TType.Var]
  obtain ⟨rs', w', seed, hd, hprep⟩ := prepare_eq env o w y htc hset
    (loadTrain_same (o := { o with transformType := t }) htv harr) hp.nSamples hcp
  obtain ⟨rs₂, w₂, seed₂, hd₂, hprep₂⟩ := prepare_eq env o w y htc hset₂
    (loadTrain_same (o := { o with transformType := t }) htv harr₂) hp.nSamples hcp
  have hdd := hd.symm.trans hd₂
  rw [Prod.mk.injEq, Prod.mk.injEq] at hdd
  obtain ⟨hrs, rfl, rfl⟩ := hdd
  have hrs : rs' = rs₂ := congrArg Rdst.rs hrs
  subst hrs
  set a : FitArgs ℝ L :=
    { X := A.data, nf := A.nf, nt := A.nt, y := y, nShp := o.nShp, sizes := sizes,
      pNorm := o.pNorm, pMin := o.pMin, pMax := o.pMax, alpha := o.alpha, phase := o.phase,
      prime := o.prime } with ha
  have hv : ValidSL a := {
      data := ⟨hy, fun s hs => (hWF s hs).1, fun s hs => (hWF s hs).2⟩
      nf := hnf
      perc := ⟨hp.perc.1, hp.perc.2.1, hp.perc.2.2⟩
      nShp := hp.nShp
      sizes := hsne
      bounds := hsb }
  have hBU : ∀ {dt' : DType} {B : Arr3 ℝ}, (XIn.array dt' B).WF → B.data ≠ [] →
      ∀ dt₂', (XIn.array dt₂' (Arr3.units c b B)).WF ∧ (Arr3.units c b B).data ≠ [] := by
    intro dt' B hB hBne dt₂'
    exact ⟨Arr3.units_wf hB, by simpa [Arr3.units] using hBne⟩
  rcases htt with h | h
  · rw [h] at hprep hprep₂
    have hb' : b = 0 ∨ 1 ≤ a.pNorm := by
      rcases hb with hb | hb | hb
      · exact Or.inl hb
      · exact Or.inr hb
      · rw [if_pos hb] at ht; rw [h] at ht; cases ht
    obtain ⟨S, S', hU, hH, hw1, hw2, hrun⟩ := uslGenerate_units hv hc hs hb' (env.seedG seed) gs
    obtain ⟨S0, h0, -, -, hk⟩ := C19_fit_univariate_same_length hv (env.seedG seed) gs
    have e0 := (h0 order ho).symm.trans (hrun order ho).1
    rw [Except.ok.injEq] at e0
    subst e0
    refine ⟨{ o with
        transformType := .uni, minLen := some A.nt, maxChannels := some (o.maxChannels.getD A.nf),
        lens := setLengths o.lens o.bounds o.reduction A.nt, rs := rs', shapelets := some (.u S0) },
      { o with
        transformType := .uni, minLen := some A.nt, maxChannels := some (o.maxChannels.getD A.nf),
        lens := setLengths o.lens o.bounds o.reduction A.nt, rs := rs', shapelets := some (.u S') },
      w', .u S0, .u S', ?_, ?_, rfl, rfl, .u hU, ?_⟩
    · unfold Rdst.fit
      rw [hprep]
      simp only [callOf, Call.run]
      rw [(hrun order ho).1]
      rfl
    · refine fit_of_prepare hprep₂ ?_
      show (uslGenerate (a.units c b) (env.seedG seed) gs order).map _ = _
      rw [(hrun order ho).2]
      rfl
    · intro dt' dt₂' B hB hBne hBf hBt
      have hlt : ∀ k, k < S0.lengths.length → (S0.lengths.getD k 0 - 1) * S0.dilations.getD k 0 < B.nt :=
        fun k hkl => (hk k hkl).2.2.trans_le hBt
      refine ⟨_, transform_array_uni rfl rfl hw1 hB hBne (by omega) (by omega) hlt, ?_⟩
      rw [transform_array_uni rfl rfl hw2 (hBU hB hBne dt₂').1 (hBU hB hBne dt₂').2
        (show 1 ≤ B.nf by omega) (show 3 ≤ B.nt by omega) (by rw [hU.lengths, hU.dilations]; exact hlt)]
      simp only [Arr3.units, List.map_map]
      congr 1
      apply List.map_congr_left
      intro s hs
      obtain ⟨h1, h2⟩ := hB s hs
      have hs0 : 0 < s.length := by omega
      have hlen : (s.getD 0 []).length = B.nt := by
        rw [getD_lt _ hs0]; exact h2 _ (List.getElem_mem hs0)
      have e : (s.map (List.map (inUnits c b))).getD 0 [] = (s.getD 0 []).map (inUnits c b) := by
        rw [getD_lt _ (by simpa using hs0), getD_lt _ hs0, List.getElem_map]
      simp only [Function.comp_apply]
      rw [e]
      exact uRow_units hU hH hw1 _ _ fun k hkl => hasWindow_of_lt (by rw [hlen]; exact hlt k hkl)
  · rw [h] at hprep hprep₂
    have hmc1 : 1 ≤ o.maxChannels.getD A.nf := by
      cases hm : o.maxChannels with
      | none => exact hnf
      | some m => exact (hmc m hm).1
    have hmc2 : o.maxChannels.getD A.nf ≤ a.nf := by
      cases hm : o.maxChannels with
      | none => exact le_refl _
      | some m => exact (hmc m hm).2
    obtain ⟨S, S', hU, hH, hw1, hw2, hrun⟩ := mslGenerate_units hv hmc1 hmc2 hc hs (b := b) (env.seedG seed) gs
    obtain ⟨S0, h0, -, -, hk⟩ := C21_fit_multivariate_same_length hv hmc1 hmc2 (env.seedG seed) gs
    have e0 := (h0 order ho).symm.trans (hrun order ho).1
    rw [Except.ok.injEq] at e0
    subst e0
    refine ⟨{ o with
        transformType := .multi, minLen := some A.nt, maxChannels := some (o.maxChannels.getD A.nf),
        lens := setLengths o.lens o.bounds o.reduction A.nt, rs := rs', shapelets := some (.m S0) },
      { o with
        transformType := .multi, minLen := some A.nt, maxChannels := some (o.maxChannels.getD A.nf),
        lens := setLengths o.lens o.bounds o.reduction A.nt, rs := rs', shapelets := some (.m S') },
      w', .m S0, .m S', ?_, ?_, rfl, rfl, .m hU, ?_⟩
    · unfold Rdst.fit
      rw [hprep]
      simp only [callOf, Call.run]
      rw [(hrun order ho).1]
      rfl
    · refine fit_of_prepare hprep₂ ?_
      show (mslGenerate (a.units c b) (o.maxChannels.getD A.nf) (env.seedG seed) gs order).map _ = _
      rw [(hrun order ho).2]
      rfl
    · intro dt' dt₂' B hB hBne hBf hBt
      have hlt : ∀ k, k < S0.lengths.length → (S0.lengths.getD k 0 - 1) * S0.dilations.getD k 0 < B.nt :=
        fun k hkl => (hk k hkl).2.2.1.trans_le hBt
      have hw1' : MWF S0 B.nf := by rw [hBf]; exact hw1
      have hw2' : MWF S' (Arr3.units c b B).nf := by
        show MWF S' B.nf
        rw [hBf]; exact hw2
      refine ⟨_, transform_array_multi rfl rfl hw1' hB hBne (by omega) (by omega) hlt, ?_⟩
      rw [transform_array_multi rfl rfl hw2' (hBU hB hBne dt₂').1 (hBU hB hBne dt₂').2
        (show 1 ≤ B.nf by omega) (show 3 ≤ B.nt by omega) (by rw [hU.lengths, hU.dilations]; exact hlt)]
      simp only [Arr3.units, List.map_map]
      congr 1
      apply List.map_congr_left
      intro s hs
      exact mRow_units hU hH hw1' _ (hB s hs) fun k hkl => hasWindow_of_lt (hlt k hkl)

/-- The resolved type of the transform for a list of series with `nf` channels. -/
theorem setFit_list (o : Rdst ℝ R) {xs : List (Mat ℝ)} {nf : Nat} (hty : o.transformType.Var ∨ o.transformType = .auto)
    (hne : xs ≠ []) (hnf : ∀ x ∈ xs, x.rows.length = nf) :
    setFitTransform o (.list xs) =
      ({ o with transformType :=
          if o.transformType = .multiVar ∨ o.transformType = .auto ∧ 1 < nf then .multiVar else .uniVar },
        .ok ()) := by
  rcases hty with (h | h) | h
  · rw [C34_fixed_type o (Or.inr (Or.inr (Or.inr h))), if_pos (Or.inl h), ← h]
  · rw [C34_fixed_type o (Or.inr (Or.inr (Or.inl h))), if_neg (by simp [h]), ← h]
  · obtain ⟨x, xs', rfl⟩ := List.exists_cons_of_ne_nil hne
    have hc := (C34_auto_list x xs').1
    rw [hnf x (by simp)] at hc
    by_cases h1 : nf > 1
    · rw [if_pos h1] at hc
      rw [if_pos (Or.inr ⟨h, h1⟩)]
      simp [setFitTransform, h, hc]
    · rw [if_neg h1] at hc
      rw [if_neg (by simp only [h]; simpa using h1)]
      simp [setFitTransform, h, hc]

/-- Padding after or before the change of units gives the same series. -/
theorem sameSeries_units {xs : List (Mat ℝ)} (hwf : ∀ x ∈ xs, x.WF) (nt : Nat) :
    SameSeries (xs.map Mat.len)
      ((xs.map fun s => s.rows.map (padRow nt)).map (List.map (List.map (inUnits c b))))
      ((xs.map (Mat.units c b)).map fun s => s.rows.map (padRow nt)) := by
  refine ⟨by simp, fun s => ?_, fun s ch => ?_⟩
  · rw [List.map_map, List.map_map]
    simp only [List.getD_eq_getElem?_getD, List.getElem?_map]
    cases xs[s]? <;> simp [Mat.units]
  · rw [List.map_map, List.map_map]
    simp only [List.getD_eq_getElem?_getD, List.getElem?_map]
    cases h : xs[s]? with
    | none => simp
    | some x =>
      have hx : x ∈ xs := List.mem_of_getElem? h
      simp only [Option.map_some, Option.getD_some, Function.comp_apply, Mat.units, List.getElem?_map]
      cases h' : x.rows[ch]? with
      | none => simp
      | some r =>
        have hr : r ∈ x.rows := List.mem_of_getElem? h'
        have hl := hwf x hx r hr
        simp only [Option.map_some, Option.getD_some]
        rw [← List.map_take, padRow_take' (hwf x hx) hr, ← hl, ← List.length_map (inUnits c b), padRow_take]

/-- **C84.** `fit` then `transform` on lists of series of different lengths. -/
theorem C84_object_variable_length (env : Env G R L) (o : Rdst ℝ R) (w : World R)
    (xs : List (Mat ℝ)) (y : List L)
    (hty : o.transformType.Var ∨ o.transformType = .auto)
    (hwf : ∀ x ∈ xs, x.WF) (hne : xs ≠ []) (nf : Nat) (hnf1 : 1 ≤ nf)
    (hnf : ∀ x ∈ xs, x.rows.length = nf) (m : Nat) (hm4 : 4 ≤ m) (hlen : ∀ x ∈ xs, m ≤ x.len)
    (hm : o.minLen = some m ∨ o.minLen = none ∧ ∃ x ∈ xs, x.len = m)
    (hy : y.length = xs.length) (hp : GoodParams o m)
    (hmc : ∀ k, o.maxChannels = some k → 1 ≤ k ∧ k ≤ nf)
    (hc : c ≠ 0) (hs : |c| = 1 ∨ o.pNorm ≤ 0)
    (hb : b = 0 ∨ 1 ≤ o.pNorm ∨ o.transformType = .multiVar ∨ o.transformType = .auto ∧ 1 < nf)
    (gs : Nat → G) {order : Nat → List Nat} (ho : IsSchedule order) :
    ∃ o₁ o₂ w' S₁ S₂, o.fit env gs order w (.list xs) y = (o₁, w', .ok ()) ∧
      o.fit env gs order w (.list (xs.map (Mat.units c b))) y = (o₂, w', .ok ()) ∧
      o₁.shapelets = some S₁ ∧ o₂ = { o₁ with shapelets := some S₂ } ∧ ShpUnits c b S₁ S₂ ∧
      ∀ zs : List (Mat ℝ), (∀ z ∈ zs, z.WF) → zs ≠ [] → (∀ z ∈ zs, z.rows.length = nf) →
        (∀ z ∈ zs, m ≤ z.len) →
        ∃ M, o₁.transform (.list zs) = .ok M ∧
          o₂.transform (.list (zs.map (Mat.units c b))) = .ok (M.map (rowUnits c)) := by
  have hU : ∀ zs : List (Mat ℝ), (∀ z ∈ zs, z.WF) → zs ≠ [] → (∀ z ∈ zs, z.rows.length = nf) →
      (∀ z ∈ zs, m ≤ z.len) → (∀ z ∈ zs.map (Mat.units c b), z.WF) ∧ zs.map (Mat.units c b) ≠ [] ∧
        (∀ z ∈ zs.map (Mat.units c b), z.rows.length = nf) ∧ (∀ z ∈ zs.map (Mat.units c b), m ≤ z.len) := by
    intro zs h1 h2 h3 h4
    refine ⟨?_, by simpa using h2, ?_, ?_⟩
    · intro z hz
      obtain ⟨z', hz', rfl⟩ := List.mem_map.1 hz
      exact Mat.units_wf (h1 z' hz')
    · intro z hz
      obtain ⟨z', hz', rfl⟩ := List.mem_map.1 hz
      simpa [Mat.units] using h3 z' hz'
    · intro z hz
      obtain ⟨z', hz', rfl⟩ := List.mem_map.1 hz
      exact h4 z' hz'
  obtain ⟨u1, u2, u3, u4⟩ := hU xs hwf hne hnf hlen
  obtain ⟨nt, hnt, hle, hf, hrect, Y, hY⟩ := formatUneven_pad hwf hne hnf hnf1 (m := m) (by omega) hlen
  obtain ⟨nt₂, hnt₂, hle₂, hf₂, hrect₂, Y₂, hY₂⟩ := formatUneven_pad u1 u2 u3 hnf1 (m := m) (by omega) u4
  have hlens : (xs.map (Mat.units c b)).map Mat.len = xs.map Mat.len := by
    rw [List.map_map]; rfl
  rw [hlens] at hf₂ hnt₂
  obtain rfl : nt = nt₂ := by rw [hnt] at hnt₂; exact Except.ok.inj hnt₂
  have hset := setFit_list o hty hne hnf
  have hset₂ := setFit_list o hty u2 u3
  set t : TType := if o.transformType = .multiVar ∨ o.transformType = .auto ∧ 1 < nf then .multiVar else .uniVar
    with ht
  have htt : t = .uniVar ∨ t = .multiVar := by rw [ht]; split <;> simp
  have htc : t.Concrete := by rcases htt with h | h <;> rw [h] <;> simp [TType.Concrete]
  have htv : t.Var := by rcases htt with h | h <;> rw [h] <;> simp [TType.Var]
  have hload : ∀ {X : XIn ℝ} {A : Arr3 ℝ} {Y}, formatUneven X = .ok (A, xs.map Mat.len) →
      checkArray3D A.py = .ok Y → loadTrain { o with transformType := t } X =
      ({ o with transformType := t, minLen := some m }, .ok (A, xs.map Mat.len)) := by
    intro X A Y hf hY
    rcases hm with h | ⟨h, x, hx, hxm⟩
    · rw [loadTrain_var_some (o := { o with transformType := t }) htv hf hY h, ← h]
    · refine loadTrain_var_none (o := { o with transformType := t }) htv hf hY h ?_
      obtain ⟨m', hm'⟩ : ∃ m', nmin (xs.map Mat.len) = .ok m' := by
        cases xs with
        | nil => exact absurd rfl hne
        | cons x xs => exact ⟨_, rfl⟩
      obtain ⟨h1, h2⟩ := nmin_spec hm'
      rw [hm']
      congr 1
      obtain ⟨x', hx', hxm'⟩ := List.mem_map.1 h2
      have := hlen x' hx'
      have := h1 _ (List.mem_map.2 ⟨x, hx, rfl⟩)
      omega
  obtain ⟨sizes, hcp, hsne, hsb⟩ := hp.sizes hm4
  obtain ⟨rs', w', seed, hd, hprep⟩ := prepare_eq env o w y htc hset (hload hf hY) hp.nSamples hcp
  obtain ⟨rs₂, w₂, seed₂, hd₂, hprep₂⟩ := prepare_eq env o w y htc hset₂ (hload hf₂ hY₂) hp.nSamples hcp
  have hdd := hd.symm.trans hd₂
  rw [Prod.mk.injEq, Prod.mk.injEq] at hdd
  obtain ⟨hrs, rfl, rfl⟩ := hdd
  have hrs : rs' = rs₂ := congrArg Rdst.rs hrs
  subst hrs
  set a : FitArgs ℝ L :=
    { X := xs.map fun s => s.rows.map (padRow nt), nf := nf, nt := nt, y := y, nShp := o.nShp, sizes := sizes,
      pNorm := o.pNorm, pMin := o.pMin, pMax := o.pMax, alpha := o.alpha, phase := o.phase,
      prime := o.prime } with ha
  have hv : ValidVL a m (xs.map Mat.len) := {
      data := ⟨by simpa [ha] using hy, by simp [ha], fun s hs => (hrect s hs).1, fun s hs => (hrect s hs).2,
        by simpa using hle, by simpa using hlen⟩
      ne := by simpa [ha] using hne
      nf := hnf1
      perc := ⟨hp.perc.1, hp.perc.2.1, hp.perc.2.2⟩
      nShp := hp.nShp
      sizes := hsne
      bounds := hsb }
  rcases htt with h | h
  · rw [h] at hprep hprep₂
    have hb' : b = 0 ∨ 1 ≤ a.pNorm := by
      rcases hb with hb | hb | hb
      · exact Or.inl hb
      · exact Or.inr hb
      · rw [if_pos hb] at ht; rw [h] at ht; cases ht
    obtain ⟨S, S', hUU, hH, hw1, hw2, hrun⟩ := uvlGenerate_units hv hc hs hb' (env.seedG seed) gs
    obtain ⟨S0, h0, -, -, hk⟩ := C20_fit_univariate_variable_length hv (env.seedG seed) gs
    have e0 := (h0 order ho).symm.trans (hrun order ho).1
    rw [Except.ok.injEq] at e0
    subst e0
    have hrun₂ := C27_padding_univariate (xs.map Mat.len) (a.units c b) _ nt m
      (sameSeries_units (c := c) (b := b) hwf nt) (env.seedG seed) gs order
    rw [(hrun order ho).2] at hrun₂
    refine ⟨{ o with
        transformType := .uniVar, minLen := some m, maxChannels := some (o.maxChannels.getD nf),
        lens := setLengths o.lens o.bounds o.reduction m, rs := rs', shapelets := some (.u S0) },
      { o with
        transformType := .uniVar, minLen := some m, maxChannels := some (o.maxChannels.getD nf),
        lens := setLengths o.lens o.bounds o.reduction m, rs := rs', shapelets := some (.u S') },
      w', .u S0, .u S', ?_, ?_, rfl, rfl, .u hUU, ?_⟩
    · refine fit_of_prepare hprep ?_
      show (uvlGenerate a m _ (env.seedG seed) gs order).map _ = _
      rw [(hrun order ho).1]
      rfl
    · refine fit_of_prepare hprep₂ ?_
      exact congrArg (Except.map Shapelets.u) hrun₂
    · intro zs hz hzne hznf hzlen
      obtain ⟨v1, v2, v3, v4⟩ := hU zs hz hzne hznf hzlen
      refine ⟨_, transform_list_uni rfl rfl hw1 hz hzne hnf1 hznf (show 3 ≤ m by omega) hzlen
        fun k hkl => (hk k hkl).2.2, ?_⟩
      rw [transform_list_uni rfl rfl hw2 v1 v2 hnf1 v3 (show 3 ≤ m by omega) v4
        (by rw [hUU.lengths, hUU.dilations]; exact fun k hkl => (hk k hkl).2.2)]
      rw [List.map_map, List.map_map]
      congr 1
      apply List.map_congr_left
      intro z hzm
      have h0 : 0 < z.rows.length := by rw [hznf z hzm]; exact hnf1
      have hlen : (z.rows.getD 0 []).length = z.len := by
        rw [getD_lt _ h0]; exact hz z hzm _ (List.getElem_mem h0)
      have e : (Mat.units c b z).rows.getD 0 [] = (z.rows.getD 0 []).map (inUnits c b) := by
        show (z.rows.map (List.map (inUnits c b))).getD 0 [] = _
        rw [getD_lt _ (by simpa using h0), getD_lt _ h0, List.getElem_map]
      simp only [Function.comp_apply]
      rw [e]
      exact uRow_units hUU hH hw1 _ _ fun k hkl => hasWindow_of_lt
        (by rw [hlen]; exact ((hk k hkl).2.2).trans_le (hzlen z hzm))
  · rw [h] at hprep hprep₂
    have hmc1 : 1 ≤ o.maxChannels.getD nf := by
      cases hm : o.maxChannels with
      | none => exact hnf1
      | some m => exact (hmc m hm).1
    have hmc2 : o.maxChannels.getD nf ≤ a.nf := by
      cases hm : o.maxChannels with
      | none => exact le_refl _
      | some m => exact (hmc m hm).2
    obtain ⟨S, S', hUU, hH, hw1, hw2, hrun⟩ :=
      mvlGenerate_units hv hmc1 hmc2 hc hs (b := b) (env.seedG seed) gs
    obtain ⟨S0, h0, -, -, hk⟩ := C22_fit_multivariate_variable_length hv hmc1 hmc2 (env.seedG seed) gs
    have e0 := (h0 order ho).symm.trans (hrun order ho).1
    rw [Except.ok.injEq] at e0
    subst e0
    have hrun₂ := C27_padding_multivariate (xs.map Mat.len) (a.units c b) _ nt (o.maxChannels.getD nf) m
      (sameSeries_units (c := c) (b := b) hwf nt) (env.seedG seed) gs order
    rw [(hrun order ho).2] at hrun₂
    refine ⟨{ o with
        transformType := .multiVar, minLen := some m, maxChannels := some (o.maxChannels.getD nf),
        lens := setLengths o.lens o.bounds o.reduction m, rs := rs', shapelets := some (.m S0) },
      { o with
        transformType := .multiVar, minLen := some m, maxChannels := some (o.maxChannels.getD nf),
        lens := setLengths o.lens o.bounds o.reduction m, rs := rs', shapelets := some (.m S') },
      w', .m S0, .m S', ?_, ?_, rfl, rfl, .m hUU, ?_⟩
    · refine fit_of_prepare hprep ?_
      show (mvlGenerate a (o.maxChannels.getD nf) m _ (env.seedG seed) gs order).map _ = _
      rw [(hrun order ho).1]
      rfl
    · refine fit_of_prepare hprep₂ ?_
      exact congrArg (Except.map Shapelets.m) hrun₂
    · intro zs hz hzne hznf hzlen
      obtain ⟨v1, v2, v3, v4⟩ := hU zs hz hzne hznf hzlen
      refine ⟨_, transform_list_multi rfl rfl hw1 hz hzne hnf1 hznf (show 3 ≤ m by omega) hzlen
        fun k hkl => (hk k hkl).2.2.1, ?_⟩
      rw [transform_list_multi rfl rfl hw2 v1 v2 hnf1 v3 (show 3 ≤ m by omega) v4
        (by rw [hUU.lengths, hUU.dilations]; exact fun k hkl => (hk k hkl).2.2.1)]
      rw [List.map_map, List.map_map]
      congr 1
      apply List.map_congr_left
      intro z hzm
      exact mRow_units hUU hH hw1 _ ⟨hznf z hzm, hz z hzm⟩ fun k hkl => hasWindow_of_lt
        (((hk k hkl).2.2.1).trans_le (hzlen z hzm))

/-! ## Why the offset needs care in the univariate transform -/

/-- **C84.** Series all equal to 1: as they are, univariate `fit` without normalisation returns at
least `min(n_shapelets, n_samples)` shapelets; after subtracting 1 from every measurement it returns
none.  So a mere offset changes the features. -/
theorem C84_offset_loses_shapelets {a : FitArgs ℝ L} (hv : ValidSL a) (ha : a.alpha ≤ 1) (hp : a.pNorm ≤ 0)
    (hone : ∀ s ∈ a.X, ∀ v ∈ s.getD 0 [], v = 1) (g0 : G) (gs : Nat → G) {order : Nat → List Nat}
    (ho : IsSchedule order) :
    ∃ S S', uslGenerate a g0 gs order = .ok S ∧ min a.nShp a.X.length ≤ S.lengths.length ∧
      uslGenerate { a with X := a.X.map (List.map (List.map (inUnits 1 (-1)))) } g0 gs order = .ok S' ∧
      S'.lengths = [] := by
  obtain ⟨S, h, -⟩ := C19_fit_univariate_same_length hv g0 gs
  have hv' : ValidSL (a.units 1 (-1)) := validSL_units hv 1 (-1)
  obtain ⟨S', h', -⟩ := C19_fit_univariate_same_length hv' g0 gs
  refine ⟨S, S', h order ho, ?_, h' order ho, ?_⟩
  · exact C32_count_univariate_same_length hv ha hp (fun s hs v hvm => by rw [hone s hs v hvm]; norm_num) ho
      (h order ho)
  · obtain ⟨P, rec, out, kept, hF⟩ := usl_fitted hv' ho (h' order ho)
    have hk : kept = [] := by
      by_contra hne
      obtain ⟨i, hi⟩ := List.exists_mem_of_ne_nil _ hne
      obtain ⟨hin, v, hvo, x, hx, hx0⟩ := (hF.from_.mem i).1 hi
      obtain ⟨ch, hch, ⟨-, h2, -⟩ | ⟨r, v', h1, h2, h3, h4, h5⟩⟩ := hF.good i hin
      · rw [hvo] at h2; cases h2
      · rw [hvo] at h2
        obtain rfl := Option.some.inj h2
        have hch : ch = [0] := by simpa [ChannelsOK] using hch
        rw [h5.values, h3, hch] at hx
        simp [subseq, seen, hF.drawn.norm_none hp i hin, optOf] at hx
        have hsm : r.sample < (a.units 1 (-1)).X.length := h4.1
        have hmem := mem_window (by
          rw [show ((trainSL (a.units 1 (-1))).series r.sample 0).length = (trainSL (a.units 1 (-1))).len r.sample
            from trainSL_len hv' hsm]
          exact h4.2.1) hx
        have hmem : x ∈ (((a.units 1 (-1)).X.getD r.sample []).getD 0 []) := hmem
        rw [getD_lt _ hsm] at hmem
        have hsm' : r.sample < a.X.length := by simpa [FitArgs.units] using hsm
        have e : (a.units 1 (-1)).X[r.sample] = a.X[r.sample].map (List.map (inUnits 1 (-1))) := by
          simp [FitArgs.units]
        rw [e] at hmem
        have hz : x ∈ (a.X[r.sample].getD 0 []).map (inUnits 1 (-1)) := by
          rw [List.getD_eq_getElem?_getD, List.getElem?_map] at hmem
          rw [List.getD_eq_getElem?_getD]
          cases h9 : a.X[r.sample][0]? with
          | none => rw [h9] at hmem; simp at hmem
          | some r0 => rw [h9] at hmem; simpa using hmem
        obtain ⟨u, hu, rfl⟩ := List.mem_map.1 hz
        have hu1 := hone _ (List.getElem_mem hsm') u hu
        apply hx0
        rw [hu1]
        norm_num [inUnits]
    have := hF.from_.count
    rw [hk] at this
    exact List.length_eq_zero_iff.1 this

/-- **C84.** Offsets and changes of sign leave every feature as it is. -/
theorem C84_rowUnits_abs_one (hc : |c| = 1) (row : List ℝ) : rowUnits c row = row := by
  unfold rowUnits
  apply List.ext_getElem
  · simp
  · intro i h1 h2
    simp [hc]

/-! ## Concrete cases -/

/-- A change of sign and an offset, multivariate: all features are unchanged. -/
example (g : G) (w : World Nat) (gs : Nat → G) :
    ∃ o₁ o₂ w' M, (exObj .multi).fit (exEnv g) gs List.range w (.array .float64 exArr) [0, 1] = (o₁, w', .ok ()) ∧
      (exObj .multi).fit (exEnv g) gs List.range w (.array .float64 (Arr3.units (-1) 7 exArr)) [0, 1] =
        (o₂, w', .ok ()) ∧
      o₁.transform (.array .float64 exArr) = .ok M ∧
      o₂.transform (.array .float64 (Arr3.units (-1) 7 exArr)) = .ok M := by
  have hwf : (XIn.array .float64 exArr).WF := by simp [XIn.WF, exArr]
  obtain ⟨o₁, o₂, w', S₁, S₂, h1, h2, -, -, -, h3⟩ := C84_object_same_length (c := -1) (b := 7) (exEnv g)
    (exObj .multi) w .float64 .float64 exArr [0, 1] (Or.inr (Or.inl rfl)) hwf (by simp [exArr]) (by simp [exArr])
    (by simp [exArr]) (by simp [exArr]) (exObj_good _ _) (by simp [exObj]) (by norm_num) (Or.inl (by norm_num))
    (Or.inr (Or.inr (Or.inl rfl))) gs (order := List.range) (fun _ => List.Perm.refl _)
  obtain ⟨M, m1, m2⟩ := h3 .float64 .float64 exArr hwf (by simp [exArr]) rfl le_rfl
  refine ⟨o₁, o₂, w', M, h1, h2, m1, ?_⟩
  rw [m2]
  congr 1
  conv_rhs => rw [← List.map_id M]
  exact List.map_congr_left fun row _ => C84_rowUnits_abs_one (by norm_num) row

/-- A change of scale without normalisation, series of different lengths. -/
example (g : G) (w : World Nat) (gs : Nat → G) :
    ∃ o₁ o₂ w' M, ({ exObj .auto with pNorm := 0 } : Rdst ℝ Nat).fit (exEnv g) gs List.range w (.list exList) [0, 1] =
        (o₁, w', .ok ()) ∧
      ({ exObj .auto with pNorm := 0 } : Rdst ℝ Nat).fit (exEnv g) gs List.range w
        (.list (exList.map (Mat.units 10 0))) [0, 1] = (o₂, w', .ok ()) ∧
      o₁.transform (.list exList) = .ok M ∧
      o₂.transform (.list (exList.map (Mat.units 10 0))) = .ok (M.map (rowUnits 10)) := by
  have hp : GoodParams ({ exObj .auto with pNorm := 0 } : Rdst ℝ Nat) 4 :=
    ⟨(exObj_good .auto 4).nShp, (exObj_good .auto 4).perc, rfl, (exObj_good .auto 4).red, (exObj_good .auto 4).lens⟩
  obtain ⟨o₁, o₂, w', S₁, S₂, h1, h2, -, -, -, h3⟩ := C84_object_variable_length (c := 10) (b := 0) (exEnv g)
    ({ exObj .auto with pNorm := 0 } : Rdst ℝ Nat) w exList [0, 1]
    (Or.inr rfl) exList_wf (by simp [exList]) 1 le_rfl (by simp [exList]) 4 le_rfl (by simp [exList])
    (Or.inr ⟨rfl, by simp [exList]⟩) (by simp [exList]) hp (by simp [exObj]) (by norm_num)
    (Or.inr (le_refl _)) (Or.inl rfl) gs (order := List.range) (fun _ => List.Perm.refl _)
  obtain ⟨M, m1, m2⟩ := h3 exList exList_wf (by simp [exList]) (by simp [exList]) (by simp [exList])
  exact ⟨o₁, o₂, w', M, h1, h2, m1, m2⟩

/-- Two series equal to 1, five points each. -/
noncomputable def exOnes : FitArgs ℝ Nat := { exSame with X := [[[1, 1, 1, 1, 1]], [[1, 1, 1, 1, 1]]] }

theorem exOnes_valid : ValidSL exOnes where
  data := ⟨rfl, by simp [exOnes, exSame, exA], by simp [exOnes, exSame, exA]⟩
  nf := le_refl _
  perc := ⟨exSame_valid.perc.1, exSame_valid.perc.2, exSame_valid.perc.3⟩
  nShp := exSame_valid.nShp
  sizes := exSame_valid.sizes
  bounds := exSame_valid.bounds

example (g0 : G) (gs : Nat → G) :
    ∃ S S', uslGenerate exOnes g0 gs List.range = .ok S ∧ 2 ≤ S.lengths.length ∧
      uslGenerate { exOnes with X := exOnes.X.map (List.map (List.map (inUnits 1 (-1)))) } g0 gs List.range =
        .ok S' ∧ S'.lengths = [] :=
  C84_offset_loses_shapelets exOnes_valid (by norm_num [exOnes, exSame, exA]) (le_refl _)
    (by simp [exOnes]) g0 gs (fun _ => List.Perm.refl _)

end Convst.Props
