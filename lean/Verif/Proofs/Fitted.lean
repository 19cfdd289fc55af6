import Verif.Proofs.ObjectRows
import Verif.Props.Units
import Verif.Spec.Stability

/-!
# `R_DST` objects after `fit`: facts about the shapelets and the rows of `transform`, for all types
-/

set_option autoImplicit false
set_option linter.unusedSectionVars false

namespace Convst.Props
open Convst Spec

variable {G R L : Type} [Gen G ℝ] [LawfulGen G] [DecidableEq L]

/-- Facts about fitted shapelets, for data with `nf` channels and at least `m` points. -/
structure FittedOn (S : Shapelets ℝ) (nf m : Nat) : Prop where
  wf : ShpWF S nf
  length : ∀ k, k < shpCount S → 2 ≤ shpLength S k
  dilation : ∀ k, k < shpCount S → 1 ≤ shpDilation S k
  span : ∀ k, k < shpCount S → (shpLength S k - 1) * shpDilation S k < m
  channels : ∀ k, k < shpCount S → ∀ c ∈ shpChannels S k, c < nf

theorem fitted_array (env : Env G R L) (o : Rdst ℝ R) (w : World R) (dt : DType)
    (A : Arr3 ℝ) (y : List L)
    (hty : o.transformType = .uni ∨ o.transformType = .multi ∨ o.transformType = .auto ∧ dt ≠ .otherDtype)
    (hWF : (XIn.array dt A).WF) (hne : A.data ≠ []) (hnf : 1 ≤ A.nf) (hnt : 4 ≤ A.nt)
    (hy : y.length = A.data.length) (hp : GoodParams o A.nt)
    (hmc : ∀ m, o.maxChannels = some m → 1 ≤ m ∧ m ≤ A.nf)
    (gs : Nat → G) {order : Nat → List Nat} (ho : IsSchedule order) :
    ∃ o' w' S, o.fit env gs order w (.array dt A) y = (o', w', .ok ()) ∧ o'.shapelets = some S ∧
      FittedOn S A.nf A.nt ∧
      ∀ (dt' : DType) (B : Arr3 ℝ), (XIn.array dt' B).WF → B.data ≠ [] → B.nf = A.nf → A.nt ≤ B.nt →
        o'.transform (.array dt' B) = .ok (B.data.map fun s => shpRow o.phase S s B.nt) := by
  have harr : toArr3 (.array dt A) = .ok A := toArr3_array hne hnf (by omega)
  have hset := setFit_array o hty harr
  obtain ⟨sizes, hcp, hsne, hsb⟩ := hp.sizes hnt
  set t : TType := if o.transformType = .multi ∨ o.transformType = .auto ∧ 1 < A.nf then .multi else .uni
    with ht
  have htt : t = .uni ∨ t = .multi := by rw [ht]; split <;> simp
  have htc : t.Concrete := by rcases htt with h | h <;> rw [h] <;> simp [TType.Concrete]
  have htv : ¬ t.Var := by rcases htt with h | h <;> rw [h] <;> simp [TType.Var]
  obtain ⟨rs', w', seed, hd, hprep⟩ := prepare_eq env o w y htc hset
    (loadTrain_same (o := { o with transformType := t }) htv harr) hp.nSamples hcp
  set a : FitArgs ℝ L :=
    { X := A.data, nf := A.nf, nt := A.nt, y := y, nShp := o.nShp, sizes := sizes,
      pNorm := o.pNorm, pMin := o.pMin, pMax := o.pMax, alpha := o.alpha, phase := o.phase,
      prime := o.prime } with ha
  have hv : ValidSL a := {
      data := ⟨hy, fun s hs => (hWF s hs).1, fun s hs => (hWF s hs).2⟩
      nf := hnf
      perc := ⟨hp.perc.1, hp.perc.2.1, hp.perc.2.2⟩
      nShp := hp.nShp
      sizes := hsne
      bounds := hsb }
  rcases htt with h | h
  · rw [h] at hprep
    obtain ⟨S, h0, hwf, -, hk⟩ := C19_fit_univariate_same_length hv (env.seedG seed) gs
    refine ⟨{ o with
        transformType := .uni, minLen := some A.nt, maxChannels := some (o.maxChannels.getD A.nf),
        lens := setLengths o.lens o.bounds o.reduction A.nt, rs := rs', shapelets := some (.u S) },
      w', .u S, ?_, rfl, ?_, ?_⟩
    · refine fit_of_prepare hprep ?_
      show (uslGenerate a (env.seedG seed) gs order).map _ = _
      rw [h0 order ho]
      rfl
    · exact ⟨hwf, fun k hkl => (hsb _ (hk k hkl).1).1, fun k hkl => (hk k hkl).2.1, fun k hkl => (hk k hkl).2.2,
        fun k hkl c hc => by
          simp only [shpChannels, List.mem_singleton] at hc
          omega⟩
    · intro dt' B hB hBne hBf hBt
      exact transform_array_uni rfl rfl hwf hB hBne (by omega) (by omega)
        fun k hkl => (hk k hkl).2.2.trans_le hBt
  · rw [h] at hprep
    have hmc1 : 1 ≤ o.maxChannels.getD A.nf := by
      cases hm : o.maxChannels with
      | none => exact hnf
      | some m => exact (hmc m hm).1
    have hmc2 : o.maxChannels.getD A.nf ≤ a.nf := by
      cases hm : o.maxChannels with
      | none => exact le_refl _
      | some m => exact (hmc m hm).2
    obtain ⟨S, h0, hwf, -, hk⟩ := C21_fit_multivariate_same_length hv hmc1 hmc2 (env.seedG seed) gs
    refine ⟨{ o with
        transformType := .multi, minLen := some A.nt, maxChannels := some (o.maxChannels.getD A.nf),
        lens := setLengths o.lens o.bounds o.reduction A.nt, rs := rs', shapelets := some (.m S) },
      w', .m S, ?_, rfl, ?_, ?_⟩
    · refine fit_of_prepare hprep ?_
      show (mslGenerate a (o.maxChannels.getD A.nf) (env.seedG seed) gs order).map _ = _
      rw [h0 order ho]
      rfl
    · exact ⟨hwf, fun k hkl => (hsb _ (hk k hkl).1).1, fun k hkl => (hk k hkl).2.1,
        fun k hkl => (hk k hkl).2.2.1, fun k hkl => (hk k hkl).2.2.2.2.2.2.2⟩
    · intro dt' B hB hBne hBf hBt
      have hwf' : MWF S B.nf := by rw [hBf]; exact hwf
      exact transform_array_multi rfl rfl hwf' hB hBne (by omega) (by omega)
        fun k hkl => (hk k hkl).2.2.1.trans_le hBt

theorem fitted_list (env : Env G R L) (o : Rdst ℝ R) (w : World R)
    (xs : List (Mat ℝ)) (y : List L)
    (hty : o.transformType.Var ∨ o.transformType = .auto)
    (hwf : ∀ x ∈ xs, x.WF) (hne : xs ≠ []) (nf : Nat) (hnf1 : 1 ≤ nf)
    (hnf : ∀ x ∈ xs, x.rows.length = nf) (m : Nat) (hm4 : 4 ≤ m) (hlen : ∀ x ∈ xs, m ≤ x.len)
    (hm : o.minLen = some m ∨ o.minLen = none ∧ ∃ x ∈ xs, x.len = m)
    (hy : y.length = xs.length) (hp : GoodParams o m)
    (hmc : ∀ k, o.maxChannels = some k → 1 ≤ k ∧ k ≤ nf)
    (gs : Nat → G) {order : Nat → List Nat} (ho : IsSchedule order) :
    ∃ o' w' S, o.fit env gs order w (.list xs) y = (o', w', .ok ()) ∧ o'.shapelets = some S ∧
      FittedOn S nf m ∧
      (o.alpha ≤ 1 → (o.transformType = .multiVar ∨ o.transformType = .auto ∧ 1 < nf) ∨
          o.pNorm ≤ 0 ∧ (∀ x ∈ xs, ∀ v ∈ x.rows.getD 0 [], v ≠ 0) →
        min o.nShp xs.length ≤ Shapelets.count S) ∧
      ∀ zs : List (Mat ℝ), (∀ z ∈ zs, z.WF) → zs ≠ [] → (∀ z ∈ zs, z.rows.length = nf) →
        (∀ z ∈ zs, m ≤ z.len) →
        o'.transform (.list zs) = .ok (zs.map fun z => shpRow o.phase S z.rows z.len) := by
  obtain ⟨nt, hnt, hle, hf, hrect, Y, hY⟩ := formatUneven_pad hwf hne hnf hnf1 (m := m) (by omega) hlen
  have hset := setFit_list o hty hne hnf
  set t : TType := if o.transformType = .multiVar ∨ o.transformType = .auto ∧ 1 < nf then .multiVar else .uniVar
    with ht
  have htt : t = .uniVar ∨ t = .multiVar := by rw [ht]; split <;> simp
  have htc : t.Concrete := by rcases htt with h | h <;> rw [h] <;> simp [TType.Concrete]
  have htv : t.Var := by rcases htt with h | h <;> rw [h] <;> simp [TType.Var]
  have hload : ∀ {X : XIn ℝ} {A : Arr3 ℝ} {Y}, formatUneven X = .ok (A, xs.map Mat.len) →
      checkArray3D A.py = .ok Y → loadTrain { o with transformType := t } X =
      ({ o with transformType := t, minLen := some m }, .ok (A, xs.map Mat.len)) := by
    intro X A Y hf hY
    rcases hm with h | ⟨h, x, hx, hxm⟩
    · rw [loadTrain_var_some (o := { o with transformType := t }) htv hf hY h, ← h]
    · refine loadTrain_var_none (o := { o with transformType := t }) htv hf hY h ?_
      obtain ⟨m', hm'⟩ : ∃ m', nmin (xs.map Mat.len) = .ok m' := by
        cases xs with
        | nil => exact absurd rfl hne
        | cons x xs => exact ⟨_, rfl⟩
      obtain ⟨h1, h2⟩ := nmin_spec hm'
      rw [hm']
      congr 1
      obtain ⟨x', hx', hxm'⟩ := List.mem_map.1 h2
      have := hlen x' hx'
      have := h1 _ (List.mem_map.2 ⟨x, hx, rfl⟩)
      omega
  obtain ⟨sizes, hcp, hsne, hsb⟩ := hp.sizes hm4
  obtain ⟨rs', w', seed, hd, hprep⟩ := prepare_eq env o w y htc hset (hload hf hY) hp.nSamples hcp
  set a : FitArgs ℝ L :=
    { X := xs.map fun s => s.rows.map (padRow nt), nf := nf, nt := nt, y := y, nShp := o.nShp, sizes := sizes,
      pNorm := o.pNorm, pMin := o.pMin, pMax := o.pMax, alpha := o.alpha, phase := o.phase,
      prime := o.prime } with ha
  have hv : ValidVL a m (xs.map Mat.len) := {
      data := ⟨by simpa [ha] using hy, by simp [ha], fun s hs => (hrect s hs).1, fun s hs => (hrect s hs).2,
        by simpa using hle, by simpa using hlen⟩
      ne := by simpa [ha] using hne
      nf := hnf1
      perc := ⟨hp.perc.1, hp.perc.2.1, hp.perc.2.2⟩
      nShp := hp.nShp
      sizes := hsne
      bounds := hsb }
  rcases htt with h | h
  · rw [h] at hprep
    obtain ⟨S, h0, hwfS, -, hk⟩ := C20_fit_univariate_variable_length hv (env.seedG seed) gs
    have hcnt : a.alpha ≤ 1 → a.pNorm ≤ 0 → (∀ x ∈ xs, ∀ v ∈ x.rows.getD 0 [], v ≠ 0) →
        min a.nShp xs.length ≤ S.lengths.length := by
      intro c1 c2 c3
      have := C32_count_univariate_variable_length hv c1 c2 (by
        intro s hs v hvm
        have hs' : s < xs.length := by simpa [ha] using hs
        have hx : xs[s] ∈ xs := List.getElem_mem hs'
        refine c3 _ hx v ?_
        have hr : 0 < (xs[s]).rows.length := by rw [hnf _ hx]; omega
        have e1 : (a.X.getD s []).getD 0 [] = padRow nt ((xs[s]).rows[0]) := by
          rw [getD_lt [] hs]
          simp [ha, hr]
        have e2 : (xs.map Mat.len).getD s 0 = ((xs[s]).rows[0]).length := by
          rw [getD_lt 0 (by simpa using hs')]
          simp only [List.getElem_map]
          exact (hwf _ hx _ (List.getElem_mem hr)).symm
        rw [e1, e2] at hvm
        rw [getD_lt [] hr]
        simpa [padRow] using hvm) ho (h0 order ho)
      simpa [ha] using this
    refine ⟨{ o with
        transformType := .uniVar, minLen := some m, maxChannels := some (o.maxChannels.getD nf),
        lens := setLengths o.lens o.bounds o.reduction m, rs := rs', shapelets := some (.u S) },
      w', .u S, ?_, rfl, ?_, ?_, ?_⟩
    · refine fit_of_prepare hprep ?_
      show (uvlGenerate a m _ (env.seedG seed) gs order).map _ = _
      rw [h0 order ho]
      rfl
    · exact ⟨hwfS, fun k hkl => (hsb _ (hk k hkl).1).1, fun k hkl => (hk k hkl).2.1, fun k hkl => (hk k hkl).2.2,
        fun k hkl c hc => by
          simp only [shpChannels, List.mem_singleton] at hc
          omega⟩
    · rintro c1 (c2 | ⟨c2, c3⟩)
      · rw [ht, if_pos c2] at h
        cases h
      · exact hcnt c1 c2 c3
    · intro zs hz hzne hznf hzlen
      exact transform_list_uni rfl rfl hwfS hz hzne hnf1 hznf (show 3 ≤ m by omega) hzlen
        fun k hkl => (hk k hkl).2.2
  · rw [h] at hprep
    have hmc1 : 1 ≤ o.maxChannels.getD nf := by
      cases hm : o.maxChannels with
      | none => exact hnf1
      | some m => exact (hmc m hm).1
    have hmc2 : o.maxChannels.getD nf ≤ a.nf := by
      cases hm : o.maxChannels with
      | none => exact le_refl _
      | some m => exact (hmc m hm).2
    obtain ⟨S, h0, hwfS, -, hk⟩ := C22_fit_multivariate_variable_length hv hmc1 hmc2 (env.seedG seed) gs
    refine ⟨{ o with
        transformType := .multiVar, minLen := some m, maxChannels := some (o.maxChannels.getD nf),
        lens := setLengths o.lens o.bounds o.reduction m, rs := rs', shapelets := some (.m S) },
      w', .m S, ?_, rfl, ?_, ?_, ?_⟩
    · refine fit_of_prepare hprep ?_
      show (mvlGenerate a (o.maxChannels.getD nf) m _ (env.seedG seed) gs order).map _ = _
      rw [h0 order ho]
      rfl
    · exact ⟨hwfS, fun k hkl => (hsb _ (hk k hkl).1).1, fun k hkl => (hk k hkl).2.1,
        fun k hkl => (hk k hkl).2.2.1, fun k hkl => (hk k hkl).2.2.2.2.2.2.2⟩
    · intro c1 _
      have := C32_count_multivariate_variable_length hv c1 hmc1 hmc2 ho (h0 order ho)
      simpa [ha, Shapelets.count] using this
    · intro zs hz hzne hznf hzlen
      exact transform_list_multi rfl rfl hwfS hz hzne hnf1 hznf (show 3 ≤ m by omega) hzlen
        fun k hkl => (hk k hkl).2.2.1

end Convst.Props
