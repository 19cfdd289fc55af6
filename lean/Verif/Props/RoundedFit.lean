import Verif.Proofs.RoundedFit
import Verif.Proofs.SamplingAll
import Verif.Proofs.ObjectRows
import Verif.Props.EndToEnd
import Verif.Props.Ridge

/-!
# C100: `fit` in floating-point arithmetic

`fit` never indexes outside its arrays and never fails on usable parameters, whatever the rounding, and every
shapelet is a window of a training series.
-/

set_option autoImplicit false
set_option linter.unusedSectionVars false

namespace Convst.Props
open Convst Spec

section anyArith
variable {G K R L : Type} [Scalar K] [Gen G K] [LawfulInt G] [DecidableEq L]

/-- What the parameter check leaves of the lengths. -/
theorem checkParams_sizes {lens : LenArr K} {m : Nat} (hm : 4 ≤ m) (hne : lens.astypeInt ≠ [])
    (h1 : ∀ z ∈ lens.astypeInt, 1 < z) :
    ∃ sizes, checkParams lens m = .ok sizes ∧ sizes ≠ [] ∧ (∀ l ∈ sizes, 2 ≤ l ∧ l ≤ m) ∧
      ((∀ z ∈ lens.astypeInt, z ≤ m) → ∀ l ∈ sizes, (l : Int) ∈ lens.astypeInt) := by
  unfold checkParams
  simp only
  generalize lens.astypeInt = l at *
  rw [if_neg (by simpa using hne), if_neg (by simpa using h1)]
  split
  · rename_i h
    rw [if_neg (by omega)]
    refine ⟨_, rfl, by simpa using hne, ?_, ?_⟩
    · intro k hk
      obtain ⟨z, hz, rfl⟩ := List.mem_map.1 hk
      have := h1 z hz
      split <;> omega
    · intro hall
      simp only [Bool.not_eq_true', List.all_eq_false, decide_eq_true_eq] at h
      obtain ⟨z, hz, hz'⟩ := h
      exact absurd (hall z hz) hz'
  · rename_i h
    simp only [Bool.not_eq_true', List.all_eq_false, decide_eq_true_eq, not_exists, not_and, not_not] at h
    refine ⟨_, rfl, by simpa using hne, ?_, ?_⟩
    · intro k hk
      obtain ⟨z, hz, rfl⟩ := List.mem_map.1 hk
      have := h1 z hz
      have := h z hz
      omega
    · intro _ k hk
      obtain ⟨z, hz, rfl⟩ := List.mem_map.1 hk
      have := h1 z hz
      rw [Int.toNat_of_nonneg (by omega)]
      exact hz

/-- The part of the parameters that matters in any arithmetic. -/
structure AnyParams (o : Rdst K R) (m : Nat) : Prop where
  nShp : 1 ≤ o.nShp
  pMin : PercSafe o.pMin
  pMax : PercSafe o.pMax
  nSamples : o.nSamples = none
  ne : (setLengths o.lens o.bounds o.reduction m).astypeInt ≠ []
  gt : ∀ z ∈ (setLengths o.lens o.bounds o.reduction m).astypeInt, 1 < z

theorem ThrFrom.mono {pMin pMax : K} {draw draw' : K → Prop} (hd : ∀ u, draw u → draw' u) {D : List K} {th : K}
    (h : ThrFrom pMin pMax draw D th) : ThrFrom pMin pMax draw' D th := by
  obtain ⟨p0, p1, u, h0, h1, h2, h3⟩ := h
  exact ⟨p0, p1, u, h0, h1, hd u h2, h3⟩

/-- A weaker condition on the thresholds. -/
theorem learned_mono {nShp : Nat} {sizes : List Nat} {n ns nf mc : Nat} {len : Nat → Nat}
    {series : Nat → Nat → List K} {y : List L} {thr thr' : List K → K → Prop} {phase : Bool} {S : Shapelets K}
    (ht : ∀ D th, thr D th → thr' D th)
    (h : Learned nShp sizes n ns nf mc len series y thr phase S) :
    Learned nShp sizes n ns nf mc len series y thr' phase S := by
  cases S with
  | u S =>
    refine ⟨h.wf, h.count, fun k hk => ?_⟩
    obtain ⟨l, d, norm, a1, a2, a3, a4, a5, a6, s, t, a7, a8, a9, test, th, b1, b2, b3⟩ := h.shapelet k hk
    exact ⟨l, d, norm, a1, a2, a3, a4, a5, a6, s, t, a7, a8, a9, test, th, b1, b2, ht _ _ b3⟩
  | m S =>
    refine ⟨h.wf, h.count, fun k hk => ?_⟩
    obtain ⟨l, d, norm, nch, a1, a2, a3, a4, a5, a6, c1, c2, c3, c4, c5, s, t, a7, a8, a9, test, th, b1, b2, b3⟩ :=
      h.shapelet k hk
    exact ⟨l, d, norm, nch, a1, a2, a3, a4, a5, a6, c1, c2, c3, c4, c5, s, t, a7, a8, a9, test, th, b1, b2,
      ht _ _ b3⟩

theorem learned_count {nShp : Nat} {sizes : List Nat} {n ns nf mc : Nat} {len : Nat → Nat}
    {series : Nat → Nat → List K} {y : List L} {thr : List K → K → Prop} {phase : Bool} {S : Shapelets K}
    (h : Learned nShp sizes n ns nf mc len series y thr phase S) : Shapelets.count S ≤ nShp := by
  cases S with
  | u S => exact h.count
  | m S => exact h.count

theorem learned_wf {nShp : Nat} {sizes : List Nat} {n ns nf mc : Nat} {len : Nat → Nat}
    {series : Nat → Nat → List K} {y : List L} {thr : List K → K → Prop} {phase : Bool} {S : Shapelets K}
    (h : Learned nShp sizes n ns nf mc len series y thr phase S) : ShpWF S nf := by
  cases S with
  | u S => exact h.wf
  | m S => exact h.wf

theorem uLearned_lt {nShp : Nat} {sizes : List Nat} {n ns : Nat} {len : Nat → Nat}
    {series : Nat → Nat → List K} {y : List L} {thr : List K → K → Prop} {phase : Bool} {S : UShp K}
    (h : ULearned nShp sizes n ns len series y thr phase S) (hn : 1 ≤ n) {k : Nat}
    (hk : k < S.lengths.length) : (S.lengths.getD k 0 - 1) * S.dilations.getD k 0 < n := by
  obtain ⟨l, d, norm, h1, h2, -, -, -, h3, -⟩ := h.shapelet k hk
  rw [List.getD_eq_getElem?_getD, List.getD_eq_getElem?_getD, h1, h2]
  simp only [Option.getD_some]; omega

theorem mLearned_lt {nShp : Nat} {sizes : List Nat} {n ns nf mc : Nat} {len : Nat → Nat}
    {series : Nat → Nat → List K} {y : List L} {thr : List K → K → Prop} {phase : Bool} {S : MShp K}
    (h : MLearned nShp sizes n ns nf mc len series y thr phase S) (hn : 1 ≤ n)
    {k : Nat} (hk : k < S.lengths.length) : (S.lengths.getD k 0 - 1) * S.dilations.getD k 0 < n := by
  obtain ⟨l, d, norm, nch, h1, h2, -, -, -, -, h3, -⟩ := h.shapelet k hk
  rw [List.getD_eq_getElem?_getD, List.getD_eq_getElem?_getD, h1, h2]
  simp only [Option.getD_some]; omega

theorem rowLen {K : Type} [Scalar K] (f : Nat → Feat K) (n : Nat) :
    ((List.range n).flatMap fun k => cells (f k)).length = 3 * n := by
  rw [← cells_flatMap]; simp

/-- Three columns per shapelet. -/
theorem rowOf_length (phase : Bool) (S : Shapelets K) (x : List (List K)) (T : Nat) :
    (rowOf phase S x T).length = 3 * Shapelets.count S := by
  cases S with
  | u S => exact rowLen _ _
  | m S => exact rowLen _ _

/-- Equal lengths, any arithmetic. -/
theorem object_same_length (heq : ∀ x : K, Scalar.eqb x 0 = true ↔ x = 0) (env : Env G R L) (o : Rdst K R)
    (w : World R) (dt : DType) (A : Arr3 K) (y : List L)
    (hty : o.transformType = .uni ∨ o.transformType = .multi ∨ o.transformType = .auto ∧ dt ≠ .otherDtype)
    (hWF : (XIn.array dt A).WF) (hne : A.data ≠ []) (hnf : 1 ≤ A.nf) (hnt : 4 ≤ A.nt)
    (hy : y.length = A.data.length) (hp : AnyParams o A.nt) (hD : DrawSafe G K A.nt)
    (hmc : ∀ m, o.maxChannels = some m → 1 ≤ m ∧ m ≤ A.nf) (gs : Nat → G) :
    ∃ o' w' S, ∃ sizes : List Nat, (∀ order, IsSchedule order → o.fit env gs order w (.array dt A) y = (o', w', .ok ())) ∧
      o'.shapelets = some S ∧
      (∀ l ∈ sizes, 2 ≤ l ∧ l ≤ A.nt) ∧
      ((∀ z ∈ (setLengths o.lens o.bounds o.reduction A.nt).astypeInt, z ≤ A.nt) →
        ∀ l ∈ sizes, (l : Int) ∈ (setLengths o.lens o.bounds o.reduction A.nt).astypeInt) ∧
      Learned o.nShp sizes A.nt A.data.length A.nf (o.maxChannels.getD A.nf) (fun _ => A.nt)
        (fun s c => (A.data.getD s []).getD c []) y (ThrFrom o.pMin o.pMax (Drawable G)) o.phase S ∧
      (Sampling (arraySetting (Drawable G) o A y sizes) (o.maxChannels.getD A.nf) S ∧
        (o.transformType = .multi → ∃ M, S = .m M)) ∧
      ∀ (dt' : DType) (B : Arr3 K), (XIn.array dt' B).WF → B.data ≠ [] → B.nf = A.nf → A.nt ≤ B.nt →
        o'.transform (.array dt' B) = .ok (B.data.map fun x => rowOf o.phase S x B.nt) := by
  have harr : toArr3 (.array dt A) = .ok A := toArr3_array hne hnf (by omega)
  obtain ⟨t, htt, hmul, hset⟩ : ∃ t, (t = .uni ∨ t = .multi) ∧ (o.transformType = .multi → t = .multi) ∧
      setFitTransform o (.array dt A) = ({ o with transformType := t }, .ok ()) := by
    rcases hty with h | h | ⟨h, hdt⟩
    · refine ⟨.uni, Or.inl rfl, (by simp [h]), ?_⟩
      rw [C34_fixed_type o (Or.inl h), ← h]
    · refine ⟨.multi, Or.inr rfl, fun _ => rfl, ?_⟩
      rw [C34_fixed_type o (Or.inr (Or.inl h)), ← h]
    · have hc : autoClass (.array dt A) = .ok (if A.nf > 1 then .multi else .uni) := by
        simp [autoClass, hdt, harr, Bind.bind, Except.bind, pure, Except.pure]
      by_cases h1 : A.nf > 1
      · rw [if_pos h1] at hc
        exact ⟨.multi, Or.inr rfl, fun _ => rfl, by simp [setFitTransform, h, hc]⟩
      · rw [if_neg h1] at hc
        exact ⟨.uni, Or.inl rfl, by simp [h], by simp [setFitTransform, h, hc]⟩
  have htc : t.Concrete := by rcases htt with rfl | rfl <;> simp [TType.Concrete]
  have htv : ¬ t.Var := by rcases htt with rfl | rfl <;> simp [TType.Var]
  obtain ⟨sizes, hcp, hsne, hsb, hsub⟩ := checkParams_sizes hnt hp.ne hp.gt
  obtain ⟨o1, w1, c, seed, hprep, e1, e2, -, ha, k1, k2, -, -⟩ := prepare_forward env o w y htc hset
    (loadTrain_same (o := { o with transformType := t }) htv harr) hp.nSamples hcp
  have hv : SafeSL c.args := by
    rw [ha]
    exact {
      data := ⟨hy, fun s hs => (hWF s hs).1, fun s hs => (hWF s hs).2⟩
      nf := hnf
      nShp := hp.nShp
      sizes := hsne
      bounds := hsb }
  have hD' : DrawSafe G K c.args.nt := by rw [ha]; exact hD
  have hp0 : PercSafe c.args.pMin := by rw [ha]; exact hp.pMin
  have hp1 : PercSafe c.args.pMax := by rw [ha]; exact hp.pMax
  have hph : c.args.phase = o.phase := by rw [ha]
  have hnf' : c.args.nf = A.nf := by rw [ha]
  rcases htt with rfl | rfl
  · obtain ⟨S, hL, hS⟩ := uslGenerate_safe heq hv hD' hp0 hp1 (env.seedG seed) gs
    obtain ⟨S₂, P, rec, out, kept, hT, hS₂⟩ := uslGenerate_any heq hv hD' hp0 hp1 (env.seedG seed) gs
    obtain rfl : S = S₂ := Except.ok.inj ((hS List.range fun _ => List.Perm.refl _).symm.trans
      (hS₂ List.range fun _ => List.Perm.refl _))
    have hE : settingSL G c.args = arraySetting (Drawable G) o A y sizes := by rw [ha]; rfl
    rw [hE] at hT
    have hL' : ULearned o.nShp sizes A.nt A.data.length (fun _ => A.nt)
        (fun s c => (A.data.getD s []).getD c []) y (ThrFrom o.pMin o.pMax (Drawable G)) o.phase S := by
      rw [ha] at hL
      exact hL
    refine ⟨{ o1 with shapelets := some (.u S) }, w1, .u _, sizes, ?_, rfl, hsb, hsub, hL',
      ⟨⟨P, rec, out, kept, hT⟩, fun h => by cases hmul h⟩, ?_⟩
    · intro order ho
      unfold Rdst.fit
      rw [hprep]
      simp only
      rw [k1 rfl]
      simp [Call.run, hS order ho, Except.map]
    · intro dt' B hB hBne hBf hBt
      have := transform_array_uni (o := { o1 with shapelets := some (.u S) }) (S := S) e1 rfl hL'.wf hB hBne
        (by omega) (by omega) fun k hk => (uLearned_lt hL' (by omega) hk).trans_le hBt
      rw [this]
      simp only [e2]
      rfl
  · have hmc1 : 1 ≤ o.maxChannels.getD A.nf := by
      cases hm : o.maxChannels with
      | none => exact hnf
      | some m => exact (hmc m hm).1
    have hmc2 : o.maxChannels.getD A.nf ≤ c.args.nf := by
      rw [hnf']
      cases hm : o.maxChannels with
      | none => exact le_refl _
      | some m => exact (hmc m hm).2
    obtain ⟨S, hL, hS⟩ := mslGenerate_safe hv hmc1 hmc2 hD' hp0 hp1 (env.seedG seed) gs
    obtain ⟨S₂, P, nch, rec, out, kept, hT, hS₂⟩ := mslGenerate_any hv hmc1 hmc2 hD' hp0 hp1 (env.seedG seed) gs
    obtain rfl : S = S₂ := Except.ok.inj ((hS List.range fun _ => List.Perm.refl _).symm.trans
      (hS₂ List.range fun _ => List.Perm.refl _))
    have hE : settingSL G c.args = arraySetting (Drawable G) o A y sizes := by rw [ha]; rfl
    rw [hE] at hT
    have hL' : MLearned o.nShp sizes A.nt A.data.length A.nf (o.maxChannels.getD A.nf) (fun _ => A.nt)
        (fun s c => (A.data.getD s []).getD c []) y (ThrFrom o.pMin o.pMax (Drawable G)) o.phase S := by
      rw [ha] at hL
      exact hL
    refine ⟨{ o1 with shapelets := some (.m S) }, w1, .m _, sizes, ?_, rfl, hsb, hsub, hL',
      ⟨⟨P, nch, rec, out, kept, hT⟩, fun _ => ⟨_, rfl⟩⟩, ?_⟩
    · intro order ho
      unfold Rdst.fit
      rw [hprep]
      simp only
      rw [k2 rfl]
      simp [Call.run, hS order ho, Except.map]
    · intro dt' B hB hBne hBf hBt
      have := transform_array_multi (o := { o1 with shapelets := some (.m S) }) (S := S) e1 rfl
        (by rw [hBf]; exact hL'.wf) hB hBne (by omega) (by omega)
        fun k hk => (mLearned_lt hL' (by omega) hk).trans_le hBt
      rw [this]
      simp only [e2]
      rfl

/-- Variable lengths, any arithmetic. -/
theorem object_variable_length (heq : ∀ x : K, Scalar.eqb x 0 = true ↔ x = 0) (env : Env G R L) (o : Rdst K R)
    (w : World R) (xs : List (Mat K)) (y : List L)
    (hty : o.transformType.Var ∨ o.transformType = .auto)
    (hwf : ∀ x ∈ xs, x.WF) (hne : xs ≠ []) (nf : Nat) (hnf1 : 1 ≤ nf)
    (hnf : ∀ x ∈ xs, x.rows.length = nf) (m : Nat) (hm4 : 4 ≤ m) (hlen : ∀ x ∈ xs, m ≤ x.len)
    (hm : o.minLen = some m ∨ o.minLen = none ∧ ∃ x ∈ xs, x.len = m)
    (hy : y.length = xs.length) (hp : AnyParams o m) (hD : DrawSafe G K m)
    (hmc : ∀ k, o.maxChannels = some k → 1 ≤ k ∧ k ≤ nf) (gs : Nat → G) :
    ∃ o' w' S, ∃ sizes : List Nat, (∀ order, IsSchedule order → o.fit env gs order w (.list xs) y = (o', w', .ok ())) ∧
      o'.shapelets = some S ∧
      (∀ l ∈ sizes, 2 ≤ l ∧ l ≤ m) ∧
      ((∀ z ∈ (setLengths o.lens o.bounds o.reduction m).astypeInt, z ≤ m) →
        ∀ l ∈ sizes, (l : Int) ∈ (setLengths o.lens o.bounds o.reduction m).astypeInt) ∧
      Learned o.nShp sizes m xs.length nf (o.maxChannels.getD nf) (fun s => (xs.map Mat.len).getD s 0)
        (fun s c => ((xs.map Mat.rows).getD s []).getD c []) y (ThrFrom o.pMin o.pMax (Drawable G)) o.phase S ∧
      Sampling (listSetting (Drawable G) o xs nf m y sizes) (o.maxChannels.getD nf) S ∧
      ∀ zs : List (Mat K), (∀ z ∈ zs, z.WF) → zs ≠ [] → (∀ z ∈ zs, z.rows.length = nf) →
        (∀ z ∈ zs, m ≤ z.len) →
        o'.transform (.list zs) = .ok (zs.map fun z => rowOf o.phase S z.rows z.len) := by
  obtain ⟨A, hf, hAf, hAl, hAle, hAr, Y, hY⟩ := formatUneven_list hwf hne hnf hnf1 (by omega) hlen
  obtain ⟨t, htt, hset⟩ : ∃ t, (t = .uniVar ∨ t = .multiVar) ∧
      setFitTransform o (.list xs) = ({ o with transformType := t }, .ok ()) := by
    rcases hty with (h | h) | h
    · refine ⟨.multiVar, Or.inr rfl, ?_⟩
      rw [C34_fixed_type o (Or.inr (Or.inr (Or.inr h))), ← h]
    · refine ⟨.uniVar, Or.inl rfl, ?_⟩
      rw [C34_fixed_type o (Or.inr (Or.inr (Or.inl h))), ← h]
    · obtain ⟨x, xs', rfl⟩ := List.exists_cons_of_ne_nil hne
      have hc := (C34_auto_list x xs').1
      by_cases h1 : x.rows.length > 1
      · rw [if_pos h1] at hc
        exact ⟨.multiVar, Or.inr rfl, by simp [setFitTransform, h, hc]⟩
      · rw [if_neg h1] at hc
        exact ⟨.uniVar, Or.inl rfl, by simp [setFitTransform, h, hc]⟩
  have htc : t.Concrete := by rcases htt with rfl | rfl <;> simp [TType.Concrete]
  have htv : t.Var := by rcases htt with rfl | rfl <;> simp [TType.Var]
  have hload : loadTrain { o with transformType := t } (.list xs) =
      ({ o with transformType := t, minLen := some m }, .ok (A, xs.map Mat.len)) := by
    rcases hm with h | ⟨h, x, hx, hxm⟩
    · rw [loadTrain_var_some (o := { o with transformType := t }) htv hf hY h, ← h]
    · refine loadTrain_var_none (o := { o with transformType := t }) htv hf hY h ?_
      obtain ⟨m', hm'⟩ : ∃ m', nmin (xs.map Mat.len) = .ok m' := by
        cases xs with
        | nil => exact absurd rfl hne
        | cons x xs => exact ⟨_, rfl⟩
      obtain ⟨h1, h2⟩ := nmin_spec hm'
      rw [hm']
      congr 1
      obtain ⟨x', hx', hxm'⟩ := List.mem_map.1 h2
      have := hlen x' hx'
      have := h1 _ (List.mem_map.2 ⟨x, hx, rfl⟩)
      omega
  obtain ⟨sizes, hcp, hsne, hsb, hsub⟩ := checkParams_sizes hm4 hp.ne hp.gt
  obtain ⟨o1, w1, c, seed, hprep, e1, e2, -, ha, -, -, k1, k2⟩ := prepare_forward env o w y htc hset
    hload hp.nSamples hcp
  have hv : SafeVL c.args m (xs.map Mat.len) := by
    rw [ha]
    exact {
      data := ⟨by rw [hy, hAl], by simp [hAl], fun s hs => by rw [(hAr s hs).1, hAf], fun s hs => (hAr s hs).2,
        hAle, by simpa using hlen⟩
      ne := by
        intro h
        simp only at h
        rw [h] at hAl
        exact hne (List.length_eq_zero_iff.1 hAl.symm)
      nf := by simpa only [hAf] using hnf1
      nShp := hp.nShp
      sizes := hsne
      bounds := hsb }
  have hp0 : PercSafe c.args.pMin := by rw [ha]; exact hp.pMin
  have hp1 : PercSafe c.args.pMax := by rw [ha]; exact hp.pMax
  have hph : c.args.phase = o.phase := by rw [ha]
  have hnf' : c.args.nf = nf := by rw [ha]; exact hAf
  have hser : seriesVL c.args (xs.map Mat.len) = fun s c => ((xs.map Mat.rows).getD s []).getD c [] := by
    obtain ⟨-, hdata, -, -, -⟩ := formatUneven_samples hf (xs := xs) rfl
    funext s ch
    have : c.args.X = xs.map (fun s => s.rows.map (padRow A.nt)) := by rw [ha]; exact hdata
    unfold seriesVL
    rw [this]
    by_cases hs : s < xs.length
    · have e1 : (xs.map fun s => s.rows.map (padRow A.nt)).getD s [] = xs[s].rows.map (padRow A.nt) := by
        rw [getD_lt [] (by simpa using hs)]; simp
      have e2 : (xs.map Mat.rows).getD s [] = xs[s].rows := by
        rw [getD_lt [] (by simpa using hs)]; simp
      have e3 : (xs.map Mat.len).getD s 0 = xs[s].len := by
        rw [getD_lt 0 (by simpa using hs)]; simp
      rw [e1, e2, e3]
      by_cases hc : ch < xs[s].rows.length
      · have e4 : (xs[s].rows.map (padRow A.nt)).getD ch [] = padRow A.nt (xs[s].rows[ch]) := by
          rw [getD_lt [] (by simpa using hc)]; simp
        rw [e4, getD_lt [] hc]
        have e5 := hwf _ (List.getElem_mem hs) _ (List.getElem_mem hc)
        rw [← e5]
        exact padRow_take
      · push Not at hc
        simp [List.getD_eq_getElem?_getD, hc]
    · push Not at hs
      simp [List.getD_eq_getElem?_getD, hs]
  rcases htt with rfl | rfl
  · obtain ⟨S, hL, hS⟩ := uvlGenerate_safe heq hv hD hp0 hp1 (env.seedG seed) gs
    obtain ⟨S₂, P, rec, out, kept, hT, hS₂⟩ := uvlGenerate_any heq hv hD hp0 hp1 (env.seedG seed) gs
    obtain rfl : S = S₂ := Except.ok.inj ((hS List.range fun _ => List.Perm.refl _).symm.trans
      (hS₂ List.range fun _ => List.Perm.refl _))
    have hE : settingVL G c.args m (xs.map Mat.len) = listSetting (Drawable G) o xs nf m y sizes := by
      unfold settingVL
      rw [hser, ha]
      simp only [hAl, hAf]
      rfl
    rw [hE] at hT
    have hL' : ULearned o.nShp sizes m xs.length (fun s => (xs.map Mat.len).getD s 0)
        (fun s c => ((xs.map Mat.rows).getD s []).getD c []) y (ThrFrom o.pMin o.pMax (Drawable G)) o.phase S := by
      rw [hser] at hL
      rw [ha] at hL
      simp only [hAl] at hL
      exact hL
    refine ⟨{ o1 with shapelets := some (.u S) }, w1, .u _, sizes, ?_, rfl, hsb, hsub, hL', ⟨P, rec, out, kept, hT⟩, ?_⟩
    · intro order ho
      unfold Rdst.fit
      rw [hprep]
      simp only
      rw [k1 rfl]
      simp [Call.run, hS order ho, Except.map]
    · intro zs hzwf hzne hznf hzlen
      have := transform_list_uni (o := { o1 with shapelets := some (.u S) }) (S := S) e1 rfl hL'.wf hzwf hzne
        hnf1 hznf (by omega) hzlen fun k hk => uLearned_lt hL' (by omega) hk
      rw [this]
      simp only [e2]
      rfl
  · have hmc1 : 1 ≤ o.maxChannels.getD A.nf := by
      cases hm : o.maxChannels with
      | none => rw [Option.getD_none, hAf]; exact hnf1
      | some m => exact (hmc m hm).1
    have hmc2 : o.maxChannels.getD A.nf ≤ c.args.nf := by
      rw [hnf']
      cases hm : o.maxChannels with
      | none => rw [Option.getD_none, hAf]
      | some m => exact (hmc m hm).2
    obtain ⟨S, hL, hS⟩ := mvlGenerate_safe hv hmc1 hmc2 hD hp0 hp1 (env.seedG seed) gs
    obtain ⟨S₂, P, nch, rec, out, kept, hT, hS₂⟩ := mvlGenerate_any hv hmc1 hmc2 hD hp0 hp1 (env.seedG seed) gs
    obtain rfl : S = S₂ := Except.ok.inj ((hS List.range fun _ => List.Perm.refl _).symm.trans
      (hS₂ List.range fun _ => List.Perm.refl _))
    have hE : settingVL G c.args m (xs.map Mat.len) = listSetting (Drawable G) o xs nf m y sizes := by
      unfold settingVL
      rw [hser, ha]
      simp only [hAl, hAf]
      rfl
    rw [hE] at hT
    rw [hAf] at hT
    have hL' : MLearned o.nShp sizes m xs.length nf (o.maxChannels.getD nf) (fun s => (xs.map Mat.len).getD s 0)
        (fun s c => ((xs.map Mat.rows).getD s []).getD c []) y (ThrFrom o.pMin o.pMax (Drawable G)) o.phase S := by
      rw [hser] at hL
      rw [ha] at hL
      simp only [hAl, hAf] at hL
      exact hL
    refine ⟨{ o1 with shapelets := some (.m S) }, w1, .m _, sizes, ?_, rfl, hsb, hsub, hL', ⟨P, nch, rec, out, kept, hT⟩, ?_⟩
    · intro order ho
      unfold Rdst.fit
      rw [hprep]
      simp only
      rw [k2 rfl]
      simp [Call.run, hS order ho, Except.map]
    · intro zs hzwf hzne hznf hzlen
      have := transform_list_multi (o := { o1 with shapelets := some (.m S) }) (S := S) e1 rfl hL'.wf hzwf hzne
        hnf1 hznf (by omega) hzlen fun k hk => mLearned_lt hL' (by omega) hk
      rw [this]
      simp only [e2]
      rfl

/-- The lengths obtained from bounds, when no more than all of them are to be removed. -/
theorem lengths_from_bounds (lens : LenArr K) (b0 b1 : Bound K) (red : K) (m : Nat)
    (h : 3 < countBetween (boundVal m b0) (boundVal m b1) →
      Scalar.trunc (Scalar.ofNat (K := K) (countBetween (boundVal m b0) (boundVal m b1)) * red) ≤
        (countBetween (boundVal m b0) (boundVal m b1) : Int)) :
    (setLengths lens (some (b0, b1)) red m).astypeInt ≠ [] ∧
      ∀ z ∈ (setLengths lens (some (b0, b1)) red m).astypeInt, 1 < z := by
  unfold setLengths
  simp only
  generalize boundVal m b0 = c0 at *
  generalize boundVal m b1 = c1 at *
  have hlen : (intRange (max 3 c0) (max 4 (max (c0 + 1) (c1 + 1)))).length = countBetween c0 c1 :=
    intRange_length _ _
  rw [hlen]
  have hpos : 0 < countBetween c0 c1 := by unfold countBetween; omega
  have hall : intRange (max 3 c0) (max 4 (max (c0 + 1) (c1 + 1))) ≠ [] ∧
      ∀ z ∈ intRange (max 3 c0) (max 4 (max (c0 + 1) (c1 + 1))), 1 < z := by
    refine ⟨?_, ?_⟩
    · intro h
      rw [h] at hlen
      simp at hlen
      omega
    · intro z hz
      rw [mem_intRange] at hz
      omega
  split
  · rename_i h3
    have h := h h3
    generalize Scalar.trunc (Scalar.ofNat (K := K) (countBetween c0 c1) * red) = nr at *
    split
    · rename_i hr
      have hst : 0 < countBetween c0 c1 / nr.toNat := Nat.div_pos (by omega) (by omega)
      generalize countBetween c0 c1 / nr.toNat = st at hst
      simp only [LenArr.astypeInt]
      rw [everyNth_eq _ _ _ hst]
      have hcnt : (max 4 (max (c0 + 1) (c1 + 1)) - max 3 c0).toNat = countBetween c0 c1 := rfl
      rw [hcnt]
      refine ⟨?_, ?_⟩
      · apply range_map_ne_nil
        exact Nat.div_pos (by omega) hst
      · intro z hz
        obtain ⟨i, -, rfl⟩ := List.mem_map.1 hz
        have : 0 ≤ ((i * st : Nat) : Int) := Int.natCast_nonneg _
        omega
    · exact hall
  · exact hall

end anyArith

section rounded
variable {r : Rounding} {δ : ℝ} {N : Nat}

theorem fl_boundVal_lt {m : Nat} (hm : m < N) (hr : r.rnd m = m) (b : Bound (Fl r)) (hb : BoundBelow N b) :
    boundVal m b < N := by
  cases b with
  | int z => exact hb
  | frac x =>
    have hx : x.val ≤ 1 := hb
    show Scalar.trunc (x * Scalar.ofNat m) < (N : Int)
    rw [fl_trunc, fl_mul, fl_ofNat, hr]
    have h1 : r.rnd (x.val * m) ≤ m := by
      calc r.rnd (x.val * m) ≤ r.rnd m := r.mono (by nlinarith [(Nat.cast_nonneg m : (0 : ℝ) ≤ m)])
        _ = m := hr
    split
    · have : ⌊r.rnd (x.val * m)⌋ ≤ (m : Int) := by
        have := Int.floor_mono h1
        simpa using this
      omega
    · have : ⌈r.rnd (x.val * m)⌉ ≤ (m : Int) := Int.ceil_le.2 (by exact_mod_cast h1)
      omega

/-- Usable parameters are safe in the rounded arithmetic. -/
theorem FlParams.any {R : Type} (hacc : Accurate r δ N) (hN : 100 ≤ N) {m : Nat} (hm : m < N)
    {o : Rdst (Fl r) R} (h : FlParams o m N) : AnyParams o m := by
  have hrm := hacc.nat m hm.le
  have h100 : r.rnd 100 = 100 := by exact_mod_cast hacc.nat 100 hN
  have h2 : r.rnd 2 = 2 := by exact_mod_cast hacc.nat 2 (by omega)
  have key : (setLengths o.lens o.bounds o.reduction m).astypeInt ≠ [] ∧
      ∀ z ∈ (setLengths o.lens o.bounds o.reduction m).astypeInt, 1 < z := by
    cases hb : o.bounds with
    | some b =>
      obtain ⟨b0, b1⟩ := b
      obtain ⟨hb0, hb1⟩ := h.bounds b0 b1 hb
      have e0 := fl_boundVal_lt hm hrm b0 hb0
      have e1 := fl_boundVal_lt hm hrm b1 hb1
      apply lengths_from_bounds
      intro _
      have hle : countBetween (boundVal m b0) (boundVal m b1) ≤ N := by unfold countBetween; omega
      generalize countBetween (boundVal m b0) (boundVal m b1) = n at *
      have hrn := hacc.nat n hle
      have h1 : r.rnd (n * o.reduction.val) ≤ n := by
        calc r.rnd (n * o.reduction.val) ≤ r.rnd n :=
              r.mono (by nlinarith [h.red, (Nat.cast_nonneg n : (0 : ℝ) ≤ n)])
          _ = n := hrn
      rw [fl_trunc, fl_mul, fl_ofNat, hrn]
      split
      · have := Int.floor_mono h1
        simpa using this
      · exact Int.ceil_le.2 (by exact_mod_cast h1)
    | none =>
      rcases h.lens hb with ⟨l, hl, hne, hz⟩ | ⟨l, hl, hne, hx⟩
      · rw [hl]
        exact ⟨hne, hz⟩
      · rw [hl]
        simp only [setLengths, LenArr.astypeInt, List.map_map]
        refine ⟨by simp [hne], ?_⟩
        intro z hz
        obtain ⟨x, hxl, rfl⟩ := List.mem_map.1 hz
        have h3 : 2 ≤ r.rnd ((m : ℝ) * x.val) := by
          rw [← h2]; exact r.mono (hx x hxl)
        have h4 : (2 : Int) ≤ ⌊r.rnd ((m : ℝ) * x.val)⌋ := Int.le_floor.2 (by exact_mod_cast h3)
        simp only [Function.comp]
        rw [fl_floor, fl_mul, fl_ofNat, hrm]
        obtain ⟨n, hn⟩ := Int.eq_ofNat_of_zero_le (show 0 ≤ ⌊r.rnd ((m : ℝ) * x.val)⌋ by omega)
        rw [hn]
        have hn2 : (2 : ℝ) ≤ n := by
          have : 2 ≤ n := by omega
          exact_mod_cast this
        have h5 : 2 ≤ r.rnd n := by rw [← h2]; exact r.mono hn2
        show 1 < Scalar.trunc (Scalar.ofNat n : Fl r)
        rw [fl_trunc, fl_ofNat, if_pos (by linarith)]
        have : (2 : Int) ≤ ⌊r.rnd n⌋ := Int.le_floor.2 (by exact_mod_cast h5)
        omega
  exact ⟨h.nShp, percSafe_fl h100 h.pMin, percSafe_fl h100 h.pMax, h.nSamples, key.1, key.2⟩

variable {G R L : Type} [Gen G (Fl r)] [LawfulFl G] [DecidableEq L]

theorem drawable_fl (u : Fl r) (h : Drawable G u) : 0 ≤ u.val ∧ u.val < 1 := by
  obtain ⟨g, rfl⟩ := h
  exact ⟨LawfulFl.unit_nonneg g, LawfulFl.unit_lt g⟩

/-- **C100.** `fit` in floating-point arithmetic, equal-length series given as a 3D array of fewer than `N` points:
with usable parameters it succeeds, for every generator with draws in `[0, 1)` and every schedule, with the same
result; every shapelet has an offered length, fits in the series, and is exactly a window of a training series
(normalised, when flagged); its threshold is computed from the two percentiles of its distances to a training series
of the same class (another one, when there is one) and a number drawn in `[0, 1)`; `transform` then succeeds on every array with the same number of channels and at least as
many points, giving for each series the specified row, with three columns per shapelet. -/
theorem C100_fit_same_length (hacc : Accurate r δ N) (hN : 100 ≤ N) (env : Env G R L) (o : Rdst (Fl r) R)
    (w : World R) (dt : DType) (A : Arr3 (Fl r)) (y : List L)
    (hty : o.transformType = .uni ∨ o.transformType = .multi ∨ o.transformType = .auto ∧ dt ≠ .otherDtype)
    (hWF : (XIn.array dt A).WF) (hne : A.data ≠ []) (hnf : 1 ≤ A.nf) (hnt : 4 ≤ A.nt) (hntN : A.nt < N)
    (hy : y.length = A.data.length) (hp : FlParams o A.nt N)
    (hmc : ∀ m, o.maxChannels = some m → 1 ≤ m ∧ m ≤ A.nf) (gs : Nat → G) :
    ∃ o' w' S, ∃ sizes : List Nat,
      (∀ order, IsSchedule order → o.fit env gs order w (.array dt A) y = (o', w', .ok ())) ∧
      o'.shapelets = some S ∧ (∀ l ∈ sizes, 2 ≤ l ∧ l ≤ A.nt) ∧
      (∀ offered, o.bounds = none → o.lens = .ints offered → (∀ z ∈ offered, z ≤ A.nt) →
        ∀ l ∈ sizes, (l : Int) ∈ offered) ∧
      Learned o.nShp sizes A.nt A.data.length A.nf (o.maxChannels.getD A.nf) (fun _ => A.nt)
        (fun s c => (A.data.getD s []).getD c [])
        y (ThrFrom o.pMin o.pMax fun u => 0 ≤ u.val ∧ u.val < 1) o.phase S ∧
      ∀ (dt' : DType) (B : Arr3 (Fl r)), (XIn.array dt' B).WF → B.data ≠ [] → B.nf = A.nf → A.nt ≤ B.nt →
        o'.transform (.array dt' B) = .ok (B.data.map fun x => rowOf o.phase S x B.nt) ∧
          ∀ x ∈ B.data, (rowOf o.phase S x B.nt).length = 3 * Shapelets.count S := by
  obtain ⟨o', w', S, sizes, h1, h2, h3, h4, h5, -, h6⟩ := object_same_length fl_eqb_zero env o w dt A y hty hWF hne hnf
    hnt hy (FlParams.any hacc hN hntN hp) (drawSafe_fl hacc (by omega)) hmc gs
  refine ⟨o', w', S, sizes, h1, h2, h3, ?_, learned_mono (fun D th => ThrFrom.mono drawable_fl) h5,
    fun dt' B a1 a2 a3 a4 => ⟨h6 dt' B a1 a2 a3 a4, fun x _ => rowOf_length _ _ _ _⟩⟩
  intro offered hb hl hz
  rw [hb, hl] at h4
  exact h4 hz

/-- **C100.** The same for series of different lengths given as a list of 2D arrays. -/
theorem C100_fit_variable_length (hacc : Accurate r δ N) (hN : 100 ≤ N) (env : Env G R L) (o : Rdst (Fl r) R)
    (w : World R) (xs : List (Mat (Fl r))) (y : List L)
    (hty : o.transformType.Var ∨ o.transformType = .auto)
    (hwf : ∀ x ∈ xs, x.WF) (hne : xs ≠ []) (nf : Nat) (hnf1 : 1 ≤ nf)
    (hnf : ∀ x ∈ xs, x.rows.length = nf) (m : Nat) (hm4 : 4 ≤ m) (hmN : m < N) (hlen : ∀ x ∈ xs, m ≤ x.len)
    (hm : o.minLen = some m ∨ o.minLen = none ∧ ∃ x ∈ xs, x.len = m)
    (hy : y.length = xs.length) (hp : FlParams o m N)
    (hmc : ∀ k, o.maxChannels = some k → 1 ≤ k ∧ k ≤ nf) (gs : Nat → G) :
    ∃ o' w' S, ∃ sizes : List Nat,
      (∀ order, IsSchedule order → o.fit env gs order w (.list xs) y = (o', w', .ok ())) ∧
      o'.shapelets = some S ∧ (∀ l ∈ sizes, 2 ≤ l ∧ l ≤ m) ∧
      (∀ offered, o.bounds = none → o.lens = .ints offered → (∀ z ∈ offered, z ≤ m) →
        ∀ l ∈ sizes, (l : Int) ∈ offered) ∧
      Learned o.nShp sizes m xs.length nf (o.maxChannels.getD nf) (fun s => (xs.map Mat.len).getD s 0)
        (fun s c => ((xs.map Mat.rows).getD s []).getD c [])
        y (ThrFrom o.pMin o.pMax fun u => 0 ≤ u.val ∧ u.val < 1) o.phase S ∧
      ∀ zs : List (Mat (Fl r)), (∀ z ∈ zs, z.WF) → zs ≠ [] → (∀ z ∈ zs, z.rows.length = nf) →
        (∀ z ∈ zs, m ≤ z.len) →
        o'.transform (.list zs) = .ok (zs.map fun z => rowOf o.phase S z.rows z.len) ∧
          ∀ z ∈ zs, (rowOf o.phase S z.rows z.len).length = 3 * Shapelets.count S := by
  obtain ⟨o', w', S, sizes, h1, h2, h3, h4, h5, -, h6⟩ := object_variable_length fl_eqb_zero env o w xs y hty hwf hne nf
    hnf1 hnf m hm4 hlen hm hy (FlParams.any hacc hN hmN hp) (drawSafe_fl hacc (by omega)) hmc gs
  refine ⟨o', w', S, sizes, h1, h2, h3, ?_, learned_mono (fun D th => ThrFrom.mono drawable_fl) h5,
    fun zs a1 a2 a3 a4 => ⟨h6 zs a1 a2 a3 a4, fun x _ => rowOf_length _ _ _ _⟩⟩
  intro offered hb hl hz
  rw [hb, hl] at h4
  exact h4 hz

end rounded

/-! ## Double precision -/

section double

theorem double_u : Rounding.double.u = 1 / 2 ^ 53 := by
  show ((1 : ℝ) / 2) ^ (52 + 1) = _
  rw [one_div_pow]

/-- **C100.** Doubles with correctly rounded `log2` and `2**x` are accurate enough for series of up to `2^40`
points. -/
theorem C100_double_accurate : Accurate Rounding.double (1 / 2 ^ 53) (2 ^ 40) where
  delta := by positivity
  nat q hq := rndBin_natCast (lt_of_le_of_lt hq (by norm_num))
  log2_nonneg x hx := Rounding.double.nonneg (Real.logb_nonneg (by norm_num) hx)
  log2_le x hx := by
    have := Rounding.double.le_of (Real.logb_nonneg (b := 2) (by norm_num) hx)
    rw [double_u] at this
    exact this
  pow2_ge x hx := by
    have h := Rounding.double.mono (Real.one_le_rpow (x := 2) (by norm_num) hx)
    rw [Rounding.double.one] at h
    exact h
  pow2_le x hx := by
    have := Rounding.double.le_of (x := (2 : ℝ) ^ x) (by positivity)
    rw [double_u] at this
    exact this
  pow2_pos x := by
    have h1 : (0 : ℝ) < (2 : ℝ) ^ x := by positivity
    have h2 := Rounding.double.ge_of h1.le
    have h3 : 0 < (1 - Rounding.double.u) * (2 : ℝ) ^ x := mul_pos (by linarith [Rounding.double.u_lt]) h1
    show 0 < Rounding.double.rnd ((2 : ℝ) ^ x)
    linarith
  small := by
    rw [double_u]
    have hN : (((2 ^ 40 : Nat) : ℝ)) = (2 : ℝ) ^ (40 : ℝ) := by norm_num
    rw [hN, ← Real.rpow_mul (by norm_num)]
    have h := rpow_one_add_le_one_add_mul_self (s := (1 : ℝ)) (by norm_num)
      (p := 40 * ((1 + 1 / 2 ^ 53) * (1 + 1 / 2 ^ 53) ^ 3 - 1)) (by norm_num) (by norm_num)
    rw [show (1 : ℝ) + 1 = 2 by norm_num] at h
    calc _ ≤ (1 + 1 / 2 ^ 53) * (1 + 40 * ((1 + 1 / 2 ^ 53) * (1 + 1 / 2 ^ 53) ^ 3 - 1) * 1) :=
          mul_le_mul_of_nonneg_left h (by norm_num)
      _ < _ := by norm_num

/-- **C100.** In double precision every percentile in `[0, 100 - 10⁻¹²]`, and 100, can be computed on arrays of every
length. -/
theorem C100_double_percentile {q : ℝ} (h0 : 0 ≤ q) (h : q = 100 ∨ q ≤ 100 - 1 / 10 ^ 12) :
    PercentileOK Rounding.double q := by
  refine ⟨h0, ?_⟩
  rcases h with h | h
  · exact Or.inl h
  · refine Or.inr ⟨by norm_num at h ⊢; linarith, ?_⟩
    rw [double_u]
    have : (1 + 1 / 2 ^ 53 : ℝ) ^ 4 * (q / 100) ≤ (1 + 1 / 2 ^ 53 : ℝ) ^ 4 * ((100 - 1 / 10 ^ 12) / 100) :=
      mul_le_mul_of_nonneg_left (by linarith) (by positivity)
    norm_num at this ⊢
    linarith

theorem binExp_eq {x : ℝ} {e : Int} (h1 : (2 : ℝ) ^ e ≤ |x|) (h2 : |x| < (2 : ℝ) ^ (e + 1)) : binExp x = e := by
  have hx : x ≠ 0 := by
    rintro rfl
    rw [abs_zero] at h1
    exact absurd h1 (not_le.2 (zpow_pos (by norm_num) _))
  obtain ⟨a1, a2⟩ := binExp_bounds hx
  have b1 : binExp x < e + 1 := (zpow_lt_zpow_iff_right₀ (by norm_num : (1 : ℝ) < 2)).1 (lt_of_le_of_lt a1 h2)
  have b2 : e < binExp x + 1 := (zpow_lt_zpow_iff_right₀ (by norm_num : (1 : ℝ) < 2)).1 (lt_of_le_of_lt h1 a2)
  omega

/-- **C100 (violated near 100).** With the largest double below 100 as a percentile, the selection of the percentile
of two numbers in double precision reads past the end of the array. -/
theorem C100_percentile_out_of_bounds (a b : Fl Rounding.double) :
    percentile [a, b] (Fl.mk (100 - 1 / 2 ^ 46) : Fl Rounding.double) = .error .oob := by
  have e100 : (Scalar.ofNat 100 : Fl Rounding.double).val = 100 := by
    rw [fl_ofNat]
    exact rndBin_natCast (by norm_num)
  have r1 : Rounding.double.rnd ((100 - 1 / 2 ^ 46) / 100) = 1 - 1 / 2 ^ 53 := by
    show rndBin 52 _ = _
    have hb : binExp (((100 : ℝ) - 1 / 2 ^ 46) / 100) = -1 := by
      apply binExp_eq <;> rw [abs_of_pos (by norm_num)] <;> norm_num
    unfold rndBin
    rw [hb]
    have : round (((100 : ℝ) - 1 / 2 ^ 46) / 100 * 2 ^ (((52 : Nat) : Int) - -1)) = 2 ^ 53 - 1 := by
      rw [round_eq, Int.floor_eq_iff]
      norm_num
    rw [this]
    norm_num
  have r2 : Rounding.double.rnd (1 * (1 - 1 / 2 ^ 53)) = 1 - 1 / 2 ^ 53 := by
    show rndBin 52 _ = _
    have hb : binExp ((1 : ℝ) * (1 - 1 / 2 ^ 53)) = -1 := by
      apply binExp_eq <;> rw [abs_of_pos (by norm_num)] <;> norm_num
    unfold rndBin
    rw [hb]
    have : round ((1 : ℝ) * (1 - 1 / 2 ^ 53) * 2 ^ (((52 : Nat) : Int) - -1)) = 2 ^ 53 - 1 := by
      rw [round_eq, Int.floor_eq_iff]
      norm_num
    rw [this]
    norm_num
  have r3 : Rounding.double.rnd (1 + (1 - 1 / 2 ^ 53)) = 2 := by
    show rndBin 52 _ = _
    have hb : binExp ((1 : ℝ) + (1 - 1 / 2 ^ 53)) = 0 := by
      apply binExp_eq <;> rw [abs_of_pos (by norm_num)] <;> norm_num
    unfold rndBin
    rw [hb]
    have : round (((1 : ℝ) + (1 - 1 / 2 ^ 53)) * 2 ^ (((52 : Nat) : Int) - 0)) = 2 ^ 53 := by
      rw [round_eq, Int.floor_eq_iff]
      norm_num
    rw [this]
    norm_num
  have hq : (Fl.mk (100 - 1 / 2 ^ 46) : Fl Rounding.double).val = 100 - 1 / 2 ^ 46 := rfl
  have h1 : Rounding.double.rnd ((2 - 1 : Nat) : ℝ) = 1 := by
    simpa using Rounding.double.one
  have hrank : ((1 : Fl Rounding.double) + Scalar.ofNat (2 - 1) *
      ((Fl.mk (100 - 1 / 2 ^ 46) : Fl Rounding.double) / Scalar.ofNat 100)).val = 2 := by
    rw [fl_add, fl_mul, fl_div, fl_ofNat, fl_one, e100, hq, h1, r1, r2, r3]
  rw [percentile_num fun x _ => (fl_eqb x x).2 rfl]
  unfold percentileInner
  rw [if_pos (by
    rw [Bool.and_eq_true, fl_leb, fl_leb, e100, hq]
    exact ⟨by rw [fl_zero]; norm_num, by norm_num⟩)]
  rw [if_neg (by simp), if_neg (by rw [fl_eqb, e100, hq]; norm_num)]
  have hf : Scalar.floor ((1 : Fl Rounding.double) + Scalar.ofNat (2 - 1) *
      ((Fl.mk (100 - 1 / 2 ^ 46) : Fl Rounding.double) / Scalar.ofNat 100)) = 2 := by
    rw [fl_floor, hrank]; norm_num
  simp only [List.length_cons, List.length_nil, Nat.zero_add, hf]
  have hl : (ssort [a, b]).length = 2 := ssort_len _
  rw [aget_ok (a := ssort [a, b]) (by rw [hl]; decide), Res.bind_ok]
  have : aget (ssort [a, b]) (2 : Int).toNat = .error .oob := by
    unfold aget
    rw [List.getElem?_eq_none (by rw [hl]; decide)]
  rw [this]
  rfl

/-! ## Concrete objects -/

/-- A generator of the double arithmetic that always draws the least integer and one half. -/
structure HalfGen where

noncomputable instance : Gen HalfGen (Fl Rounding.double) where
  randint lo _ g := (lo, g)
  unit g := (Fl.mk (1 / 2), g)

instance : LawfulFl (r := Rounding.double) HalfGen where
  int_ge _ _ _ _ := le_rfl
  int_lt _ _ _ h := h
  unit_nonneg _ := by show (0 : ℝ) ≤ 1 / 2; norm_num
  unit_lt _ := by show (1 : ℝ) / 2 < 1; norm_num

/-- A fresh object with the default parameters but for the number of shapelets. -/
noncomputable def dblObj (t : TType) : Rdst (Fl Rounding.double) Nat where
  transformType := t
  phase := false
  alpha := Fl.mk (1 / 2)
  normalizeOutput := false
  nSamples := none
  nShp := 4
  lens := .ints [11]
  bounds := none
  reduction := Fl.mk (1 / 2)
  prime := true
  pNorm := Fl.mk (4 / 5)
  pMin := Fl.mk 5
  pMax := Fl.mk 10
  rs := .own 7
  nJobs := 1
  maxChannels := none
  minLen := none
  shapelets := none

theorem dblObj_ok (t : TType) (m : Nat) : FlParams (dblObj t) m (2 ^ 40) where
  nShp := by show 1 ≤ 4; omega
  pMin := C100_double_percentile (show (0 : ℝ) ≤ 5 by norm_num) (Or.inr (show (5 : ℝ) ≤ _ by norm_num))
  pMax := C100_double_percentile (show (0 : ℝ) ≤ 10 by norm_num) (Or.inr (show (10 : ℝ) ≤ _ by norm_num))
  nSamples := rfl
  red := by show (1 : ℝ) / 2 < 1; norm_num
  bounds := by intro b0 b1 h; cases h
  lens _ := Or.inl ⟨[11], rfl, by simp, by simp⟩

/-- Two series of five points. -/
noncomputable def dblArr : Arr3 (Fl Rounding.double) :=
  ⟨[[[Fl.mk 0, Fl.mk 1, Fl.mk 2, Fl.mk 3, Fl.mk 4]], [[Fl.mk 7, Fl.mk 8, Fl.mk 9, Fl.mk 8, Fl.mk 0]]], 1, 5⟩

/-- The hypotheses of `C100_fit_same_length` are met, in double precision. -/
example (env : Env HalfGen Nat Nat) (w : World Nat) (gs : Nat → HalfGen) :
    ∃ o' w' S, (∀ order, IsSchedule order →
        (dblObj .auto).fit env gs order w (.array .float64 dblArr) [0, 1] = (o', w', .ok ())) ∧
      o'.shapelets = some S ∧ Shapelets.count S ≤ 4 ∧
      ∃ M, o'.transform (.array .float64 dblArr) = .ok M ∧ M.length = 2 := by
  have hwf : (XIn.array .float64 dblArr).WF := by simp [XIn.WF, dblArr]
  obtain ⟨o', w', S, sizes, h1, h2, -, -, h3, h4⟩ := C100_fit_same_length C100_double_accurate (by norm_num) env
    (dblObj .auto) w .float64 dblArr [0, 1] (Or.inr (Or.inr ⟨rfl, by simp⟩)) hwf (by simp [dblArr]) (by simp [dblArr])
    (by simp [dblArr]) (by simp [dblArr]) (by simp [dblArr]) (dblObj_ok _ _) (by simp [dblObj]) gs
  have h5 := (h4 .float64 dblArr hwf (by simp [dblArr]) rfl le_rfl).1
  exact ⟨o', w', S, h1, h2, learned_count h3, _, h5, by simp [dblArr]⟩

/-- Series of five and four points. -/
noncomputable def dblList : List (Mat (Fl Rounding.double)) :=
  [⟨[[Fl.mk 0, Fl.mk 1, Fl.mk 2, Fl.mk 3, Fl.mk 4]], 5⟩, ⟨[[Fl.mk 7, Fl.mk 8, Fl.mk 9, Fl.mk 8]], 4⟩]

/-- The hypotheses of `C100_fit_variable_length` are met, in double precision. -/
example (env : Env HalfGen Nat Nat) (w : World Nat) (gs : Nat → HalfGen) :
    ∃ o' w' S, (∀ order, IsSchedule order →
        (dblObj .auto).fit env gs order w (.list dblList) [0, 1] = (o', w', .ok ())) ∧
      o'.shapelets = some S ∧ Shapelets.count S ≤ 4 ∧
      ∃ M, o'.transform (.list dblList) = .ok M ∧ M.length = 2 := by
  have hwf : ∀ x ∈ dblList, x.WF := by simp [dblList, Mat.WF]
  obtain ⟨o', w', S, sizes, h1, h2, -, -, h3, h4⟩ := C100_fit_variable_length C100_double_accurate (by norm_num) env
    (dblObj .auto) w dblList [0, 1] (Or.inr rfl) hwf (by simp [dblList]) 1 le_rfl (by simp [dblList]) 4 le_rfl
    (by norm_num) (by simp [dblList]) (Or.inr ⟨rfl, by simp [dblList]⟩) (by simp [dblList]) (dblObj_ok _ _)
    (by simp [dblObj]) gs
  have h5 := (h4 dblList hwf (by simp [dblList]) (by simp [dblList]) (by simp [dblList])).1
  exact ⟨o', w', S, h1, h2, learned_count h3, _, h5, by simp [dblList]⟩

end double

end Convst.Props
