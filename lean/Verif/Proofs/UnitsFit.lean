import Verif.Proofs.Units
import Verif.Proofs.FitAll

/-! # A change of units: the whole of `fit` -/

set_option autoImplicit false
set_option linter.unusedSectionVars false

namespace Convst
open Spec
variable {G L : Type} [Gen G ℝ] [LawfulGen G] [DecidableEq L] {c b : ℝ}

/-- What the groups compute on their own (third part of `fitLoop_det`). -/
def FromGroups (lengths dilations : List Nat) (step : Nat → SubMask → Nat → RM G (SubMask × Option (Out ℝ)))
    (m0 : SubMask) (gs : Nat → G) (out : Nat → Option (Out ℝ)) : Prop :=
  ∀ i, i < lengths.length → ∃ iD minL m' lo g',
    iD < (uniqueSorted dilations).length ∧ i ∈ groupIds dilations ((uniqueSorted dilations).getD iD 0) ∧
    nmin ((groupIds dilations ((uniqueSorted dilations).getD iD 0)).map fun i => lengths.getD i 0) = .ok minL ∧
    localRun (step minL) (groupIds dilations ((uniqueSorted dilations).getD iD 0)) (m0, fun _ => none) (gs iD) =
      .ok ((m', lo), g') ∧ out i = lo i

theorem localRun_units {step step' : SubMask → Nat → RM G (SubMask × Option (Out ℝ))} {ids : List Nat}
    {nrm : Nat → Bool} (h : ∀ m, ∀ i ∈ ids, step' m i = stepUnits c b (nrm i) <$> step m i)
    (m : SubMask) (out : Nat → Option (Out ℝ)) :
    localRun step' ids (m, fun i => (out i).map (Out.units c b (nrm i))) =
      (fun r : SubMask × (Nat → Option (Out ℝ)) => (r.1, fun i => (r.2 i).map (Out.units c b (nrm i)))) <$>
        localRun step ids (m, out) := by
  induction ids generalizing m out with
  | nil => rfl
  | cons i ids ih =>
    unfold localRun at ih ⊢
    rw [List.foldlM_cons, List.foldlM_cons]
    simp only [h m i (by simp), map_bind, bind_map_left, bind_assoc, pure_bind]
    refine congrArg _ (funext fun r => ?_)
    rw [← ih (fun m j hj => h m j (by simp [hj]))]
    congr 2
    funext j
    by_cases hj : j = i
    · subst hj; simp [stepUnits]
    · simp [Function.update_of_ne hj]

theorem mem_group_unique {dilations : List Nat} {iD jD i : Nat} (h1 : iD < (uniqueSorted dilations).length)
    (h2 : jD < (uniqueSorted dilations).length)
    (h3 : i ∈ groupIds dilations ((uniqueSorted dilations).getD iD 0))
    (h4 : i ∈ groupIds dilations ((uniqueSorted dilations).getD jD 0)) : iD = jD := by
  rw [mem_groupIds] at h3 h4
  rw [h3, getD_lt _ h1, getD_lt _ h2] at h4
  exact (List.Nodup.getElem_inj_iff (uniqueSorted_nodup dilations)).1 (Option.some.inj h4)

theorem fromGroups_units {lengths dilations : List Nat} (hdil : dilations.length = lengths.length)
    {step step' : Nat → SubMask → Nat → RM G (SubMask × Option (Out ℝ))} {nrm : Nat → Bool}
    (h : ∀ minL m i, i < lengths.length → step' minL m i = stepUnits c b (nrm i) <$> step minL m i)
    {m0 : SubMask} {gs : Nat → G} {out out' : Nat → Option (Out ℝ)}
    (ho : FromGroups lengths dilations step m0 gs out) (ho' : FromGroups lengths dilations step' m0 gs out')
    (i : Nat) (hi : i < lengths.length) : out' i = (out i).map (Out.units c b (nrm i)) := by
  obtain ⟨iD, minL, m1, lo, g1, h1, h2, h3, h4, h5⟩ := ho i hi
  obtain ⟨jD, minL', m1', lo', g1', h1', h2', h3', h4', h5'⟩ := ho' i hi
  obtain rfl := mem_group_unique h1 h1' h2 h2'
  rw [h3] at h3'
  obtain rfl := Except.ok.inj h3'
  have := localRun_units (c := c) (b := b) (nrm := nrm) (step := step minL) (step' := step' minL)
    (ids := groupIds dilations ((uniqueSorted dilations).getD iD 0)) (fun m j hj => h minL m j (by
      rw [mem_groupIds] at hj
      have := (List.getElem?_eq_some_iff.1 hj).1
      omega)) m0 (fun _ => none)
  have h6 := congrFun this (gs iD)
  have h7 : (localRun (step' minL) (groupIds dilations ((uniqueSorted dilations).getD iD 0))
      (m0, fun _ => none) (gs iD)) = .ok ((m1, fun i => (lo i).map (Out.units c b (nrm i))), g1) := by
    refine Eq.trans h6 ?_
    show Except.bind (localRun _ _ _ (gs iD)) _ = _
    rw [h4]
    rfl
  rw [h7] at h4'
  have h8 := (Prod.ext_iff.1 (Prod.ext_iff.1 (Except.ok.inj h4')).1).2
  rw [h5', h5]
  exact (congrFun h8 i).symm

/-! ## From the sampled shapelets to the arrays -/

theorem eq_of_sorted {l l' : List Nat} (h : l.Pairwise (· < ·)) (h' : l'.Pairwise (· < ·))
    (hm : ∀ i, i ∈ l ↔ i ∈ l') : l = l' := by
  have hp : l.Perm l' := (List.perm_ext_iff_of_nodup (h.imp fun h => ne_of_lt h) (h'.imp fun h => ne_of_lt h)).2 hm
  exact hp.eq_of_pairwise (fun a b _ _ h1 h2 => absurd h1 (by omega)) h h'

theorem list_eq_of_kept {α : Type} {kept : List Nat} {l l' : List α} (F : Nat → α) (h : l.length = kept.length)
    (h' : l'.length = kept.length) (hl : ∀ k i : Nat, kept[k]? = some i → l[k]? = some (F i))
    (hl' : ∀ k i : Nat, kept[k]? = some i → l'[k]? = some (F i)) : l' = l := by
  apply List.ext_getElem?
  intro k
  by_cases hk : k < kept.length
  · have := List.getElem?_eq_getElem hk
    rw [hl k _ this, hl' k _ this]
  · rw [List.getElem?_eq_none (by omega), List.getElem?_eq_none (by omega)]

theorem shpUnits_ne {norm : Bool} (hc : c ≠ 0) (hb : b = 0 ∨ norm = true) (x : ℝ) :
    shpUnits c b norm x ≠ 0 ↔ x ≠ 0 := by
  have : (if norm = true then 0 else b) = 0 := by
    rcases hb with rfl | rfl <;> simp
  unfold shpUnits
  rw [this, add_zero]
  simp [hc]

theorem uUnits_of_from (hc : c ≠ 0) {P : Par} {out out' : Nat → Option (Out ℝ)} {kept kept' : List Nat}
    {S S' : UShp ℝ} (hf : UFrom P out kept S) (hw : UWF S) (hf' : UFrom P out' kept' S') (hw' : UWF S')
    (hb : ∀ i, i < P.n → b = 0 ∨ P.normalize i = true)
    (ho : ∀ i, i < P.n → out' i = (out i).map (Out.units c b (P.normalize i))) : UUnits c b S S' := by
  have hk : kept' = kept := by
    refine eq_of_sorted hf'.sorted hf.sorted fun i => ?_
    rw [hf'.mem, hf.mem]
    refine and_congr_right fun hi => ?_
    rw [ho i hi]
    cases out i with
    | none => simp
    | some v => simp [Out.units, shpUnits_ne hc (hb i hi)]
  subst hk
  have hlen := hf.count
  have hlen' := hf'.count
  refine ⟨list_eq_of_kept P.length hlen hlen' hf.lengths hf'.lengths,
    list_eq_of_kept P.dilation (hw.dilations.trans hlen) (hw'.dilations.trans hlen') hf.dilations hf'.dilations,
    list_eq_of_kept P.normalize (hw.normalize.trans hlen) (hw'.normalize.trans hlen') hf.normalize hf'.normalize,
    ?_, ?_⟩
  · refine list_eq_of_kept (kept := kept') (fun i => thrOf (out' i)) (by simp [hw.threshold, hlen])
      (hw'.threshold.trans hlen') ?_ ?_
    · intro k i hk
      obtain ⟨v, h1, -, h3⟩ := hf.shapelet k i hk
      have hi := ((hf.mem i).1 (List.mem_of_getElem? hk)).1
      rw [List.getElem?_map, h3, ho i hi, h1]
      rfl
    · intro k i hk
      obtain ⟨v, h1, -, h3⟩ := hf'.shapelet k i hk
      rw [h3, h1]; rfl
  · intro k hk
    rw [hlen] at hk
    have hki := List.getElem?_eq_getElem hk
    obtain ⟨v, h1, h2, -⟩ := hf.shapelet k _ hki
    obtain ⟨v', h1', h2', -⟩ := hf'.shapelet k _ hki
    have hi := ((hf.mem _).1 (List.mem_of_getElem? hki)).1
    rw [ho _ hi, h1] at h1'
    obtain rfl := Option.some.inj h1'
    rw [h2', h2, List.getD_eq_getElem?_getD, hf.normalize k _ hki]
    rfl

theorem flatMap_inj_of_length {f f' : Nat → List ℝ} {n l : Nat} (h : ∀ j, j < n → (f j).length = l)
    (h' : ∀ j, j < n → (f' j).length = l) (he : (List.range n).flatMap f = (List.range n).flatMap f') :
    ∀ j, j < n → f j = f' j := by
  induction n with
  | zero => intro j hj; omega
  | succ n ih =>
    rw [List.range_succ, List.flatMap_append, List.flatMap_append] at he
    have hl : ((List.range n).flatMap f).length = ((List.range n).flatMap f').length := by
      rw [flatMap_length_eq _ _ (fun _ => l) (fun j hj => h j (by rw [List.mem_range] at hj; omega)),
        flatMap_length_eq _ _ (fun _ => l) (fun j hj => h' j (by rw [List.mem_range] at hj; omega))]
    obtain ⟨h1, h2⟩ := List.append_inj he hl
    intro j hj
    rcases Nat.lt_succ_iff_lt_or_eq.1 hj with hj | rfl
    · exact ih (fun j hj => h j (by omega)) (fun j hj => h' j (by omega)) h1 j hj
    · simpa using h2

theorem mUnits_of_from {P : Par} {nch : Nat → Nat} {nf : Nat} {out out' : Nat → Option (Out ℝ)}
    {kept kept' : List Nat} {S S' : MShp ℝ} (hf : MFrom P nch out kept S) (hw : MWF S nf)
    (hf' : MFrom P nch out' kept' S') (hw' : MWF S' nf)
    (ho : ∀ i, i < P.n → out' i = (out i).map (Out.units c b (P.normalize i))) : MUnits c b S S' := by
  have hk : kept' = kept := by
    refine eq_of_sorted hf'.sorted hf.sorted fun i => ?_
    rw [hf'.mem, hf.mem]
    refine and_congr_right fun hi => ?_
    rw [ho i hi]
    cases out i <;> simp
  subst hk
  have hlen := hf.count
  have hlen' := hf'.count
  have e1 := list_eq_of_kept P.length hlen hlen' hf.lengths hf'.lengths
  have e2 := list_eq_of_kept nch (hw.nChannels.trans hlen) (hw'.nChannels.trans hlen') hf.nChannels hf'.nChannels
  refine ⟨e1,
    list_eq_of_kept P.dilation (hw.dilations.trans hlen) (hw'.dilations.trans hlen') hf.dilations hf'.dilations,
    list_eq_of_kept P.normalize (hw.normalize.trans hlen) (hw'.normalize.trans hlen') hf.normalize hf'.normalize,
    e2, ?_, ?_, ?_⟩
  · intro k hk
    rw [hlen] at hk
    have hki := List.getElem?_eq_getElem hk
    obtain ⟨v, h1, h2, -⟩ := hf.shapelet k _ hki
    obtain ⟨v', h1', h2', -⟩ := hf'.shapelet k _ hki
    have hi := ((hf.mem _).1 (List.mem_of_getElem? hki)).1
    rw [ho _ hi, h1] at h1'
    obtain rfl := Option.some.inj h1'
    rw [h2', h2]
    rfl
  · refine list_eq_of_kept (kept := kept') (fun i => thrOf (out' i)) (by simp [hw.threshold, hlen])
      (hw'.threshold.trans hlen') ?_ ?_
    · intro k i hk
      obtain ⟨v, h1, -, -, h3⟩ := hf.shapelet k i hk
      have hi := ((hf.mem i).1 (List.mem_of_getElem? hk)).1
      rw [List.getElem?_map, h3, ho i hi, h1]
      rfl
    · intro k i hk
      obtain ⟨v, h1, -, -, h3⟩ := hf'.shapelet k i hk
      rw [h3, h1]; rfl
  · intro k hk
    have hk' := hk
    rw [hlen] at hk
    have hki := List.getElem?_eq_getElem hk
    obtain ⟨v, h1, -, h2, -⟩ := hf.shapelet k _ hki
    obtain ⟨v', h1', -, h2', -⟩ := hf'.shapelet k _ hki
    have hi := ((hf.mem _).1 (List.mem_of_getElem? hki)).1
    rw [ho _ hi, h1] at h1'
    obtain rfl := Option.some.inj h1'
    have hn : S.normalize.getD k false = P.normalize kept'[k] := by
      rw [List.getD_eq_getElem?_getD, hf.normalize k _ hki]; rfl
    rw [e2] at h2'
    have h3 : (List.range (S.nChannels.getD k 0)).flatMap (mValues S' k) =
        (List.range (S.nChannels.getD k 0)).flatMap fun j =>
          (mValues S k j).map (shpUnits c b (S.normalize.getD k false)) := by
      rw [h2', ← List.map_flatMap, h2, hn]
      rfl
    refine flatMap_inj_of_length (l := S.lengths.getD k 0) ?_ ?_ h3
    · intro j hj
      rw [mValues_length hw' (by rw [e1]; exact hk') (by rw [e2]; exact hj), e1]
    · intro j hj
      rw [List.length_map, mValues_length hw hk' hj]

/-! ## The four functions -/

theorem harmlessFor_of_drawn {a : FitArgs ℝ L} {n : Nat} {P : Par} (hP : ParDrawn a n P)
    (hs : |c| = 1 ∨ a.pNorm ≤ 0) (i : Nat) (hi : i < P.n) : HarmlessFor c (P.normalize i) := by
  rcases hs with hs | hs
  · exact Or.inl hs
  · exact Or.inr (hP.norm_none hs i hi)

theorem validSL_units {a : FitArgs ℝ L} (hv : ValidSL a) (c b : ℝ) : ValidSL (a.units c b) where
  data :=
    { y := by simpa [FitArgs.units] using hv.data.y
      nf := by
        intro s hs
        obtain ⟨s', hs', rfl⟩ := List.mem_map.1 hs
        simpa [FitArgs.units] using hv.data.nf s' hs'
      nt := by
        intro s hs x hx
        obtain ⟨s', hs', rfl⟩ := List.mem_map.1 hs
        obtain ⟨x', hx', rfl⟩ := List.mem_map.1 hx
        simpa [FitArgs.units] using hv.data.nt s' hs' x' hx' }
  nf := hv.nf
  perc := ⟨hv.perc.lo, hv.perc.le, hv.perc.hi⟩
  nShp := hv.nShp
  sizes := hv.sizes
  bounds := hv.bounds

theorem validVL_units {a : FitArgs ℝ L} {minLen : Nat} {xLen : List Nat} (hv : ValidVL a minLen xLen) (c b : ℝ) :
    ValidVL (a.units c b) minLen xLen where
  data :=
    { y := by simpa [FitArgs.units] using hv.data.y
      len := by simpa [FitArgs.units] using hv.data.len
      nf := by
        intro s hs
        obtain ⟨s', hs', rfl⟩ := List.mem_map.1 hs
        simpa [FitArgs.units] using hv.data.nf s' hs'
      nt := by
        intro s hs x hx
        obtain ⟨s', hs', rfl⟩ := List.mem_map.1 hs
        obtain ⟨x', hx', rfl⟩ := List.mem_map.1 hx
        simpa [FitArgs.units] using hv.data.nt s' hs' x' hx'
      le := hv.data.le
      ge := hv.data.ge }
  ne := by simpa [FitArgs.units] using hv.ne
  nf := hv.nf
  perc := ⟨hv.perc.lo, hv.perc.le, hv.perc.hi⟩
  nShp := hv.nShp
  sizes := hv.sizes
  bounds := hv.bounds

/-- What a univariate function computes, with the runs of the groups. -/
theorem uslGenerate_det {a : FitArgs ℝ L} (hv : ValidSL a) (g0 : G) (gs : Nat → G) {P : UShp ℝ} {g' : G}
    (hP : uInit a.nShp a.sizes a.nt a.pNorm a.prime g0 = .ok (P, g')) :
    ∃ rec out kept S, UFitted (trainSL a) a a.nt (parOf P.lengths P.dilations P.normalize) rec out kept S ∧
      FromGroups P.lengths P.dilations (uslStep a P.lengths P.dilations P.normalize) (fun _ _ _ _ => true) gs out ∧
      ∀ order, IsSchedule order → uslGenerate a g0 gs order = .ok S := by
  obtain ⟨P1, g1, hP1, hI, hthr, mx, hmx, -, hval⟩ :=
    uInit_wp a.pNorm a.prime hv.nShp hv.sizes hv.bounds g0
  rw [hP] at hP1
  obtain ⟨rfl, rfl⟩ := Prod.mk.inj (Except.ok.inj hP1)
  have hpok := parOK_of_init hv.bounds hI
  have hmx' : ∀ l ∈ P.lengths, l ≤ mx := fun l hl => hmx l (hI.mem l hl)
  have h0 : (P.values, P.threshold) = uTarget P.lengths mx fun _ => none := by
    rw [hval, hthr]
    unfold uTarget
    simp [uRowOf, thrOf, List.map_const', hI.len]
  obtain ⟨rec, out, hgood, hgrp, hrun⟩ := fitLoop_det (T := trainSL a) (o := optOf a) (multi := false)
    (nch := fun _ => 1) (normalize := P.normalize) hpok.dil
    (write := uWrite P.lengths) (target := uTarget P.lengths mx)
    (shape := fun i v => ∀ o, v = some o → o.values.length = P.lengths.getD i 0)
    (fun S i v hi hS hvv => uWrite_ok hmx' S i v hi hS hvv)
    (fun rec out i _ h o ho => by simpa [parOf] using (goodAt_values h ho).1)
    (m0 := fun _ _ _ _ => true) (fun _ _ _ _ _ _ => rfl)
    (step := uslStep a P.lengths P.dilations P.normalize)
    (fun minL m i hi => uslStep_wp hv.data hv.nf hv.perc hpok hi _ minL m) gs
  obtain ⟨kept, hfrom, hwf⟩ := uFinish_from (fun x => real_eqb x 0) hmx' hpok.dil hpok.norm (out := out)
    (fun i v hi hvv => by simpa [parOf] using (goodAt_values (hgood i hi) hvv).1) hpok.pos
  refine ⟨rec, out, kept, _, ⟨parDrawn_of_init hI, hgood, hfrom, hwf⟩, hgrp, ?_⟩
  intro order ho
  obtain ⟨masks, hm⟩ := hrun (order (uniqueSorted P.dilations).length) (ho _)
  unfold uslGenerate
  rw [hP, Res.bind_ok]
  simp only
  rw [h0, hm, Res.bind_ok]
  rfl

theorem uvlGenerate_det {a : FitArgs ℝ L} {minLen : Nat} {xLen : List Nat}
    (hv : ValidVL a minLen xLen) (g0 : G) (gs : Nat → G) {P : UShp ℝ} {g' : G} {maxLen : Nat}
    (hM1 : nmax xLen = .ok maxLen) (hP : uInit a.nShp a.sizes minLen a.pNorm a.prime g0 = .ok (P, g')) :
    ∃ rec out kept S, UFitted (trainVL a xLen) a minLen (parOf P.lengths P.dilations P.normalize) rec out kept S ∧
      FromGroups P.lengths P.dilations (uvlStep a xLen maxLen P.lengths P.dilations P.normalize)
        (fun _ s _ t => decide (t < xLen.getD s 0)) gs out ∧
      ∀ order, IsSchedule order → uvlGenerate a minLen xLen g0 gs order = .ok S := by
  obtain ⟨P1, g1, hP1, hI, hthr, mx, hmx, -, hval⟩ :=
    uInit_wp a.pNorm a.prime hv.nShp hv.sizes hv.bounds g0
  rw [hP] at hP1
  obtain ⟨rfl, rfl⟩ := Prod.mk.inj (Except.ok.inj hP1)
  obtain ⟨maxLen1, hM, hM2⟩ := maxLen_ok hv.data hv.ne
  rw [hM1] at hM
  obtain rfl := Except.ok.inj hM
  obtain ⟨lens, hlens⟩ := lens_read hv.data
  have hpok := parOK_of_init hv.bounds hI
  have hmx' : ∀ l ∈ P.lengths, l ≤ mx := fun l hl => hmx l (hI.mem l hl)
  have h0 : (P.values, P.threshold) = uTarget P.lengths mx fun _ => none := by
    rw [hval, hthr]
    unfold uTarget
    simp [uRowOf, thrOf, List.map_const', hI.len]
  obtain ⟨rec, out, hgood, hgrp, hrun⟩ := fitLoop_det (T := trainVL a xLen) (o := optOf a) (multi := false)
    (nch := fun _ => 1) (normalize := P.normalize) hpok.dil
    (write := uWrite P.lengths) (target := uTarget P.lengths mx)
    (shape := fun i v => ∀ o, v = some o → o.values.length = P.lengths.getD i 0)
    (fun S i v hi hS hvv => uWrite_ok hmx' S i v hi hS hvv)
    (fun rec out i _ h o ho => by simpa [parOf] using (goodAt_values h ho).1)
    (m0 := fun _ s _ t => decide (t < xLen.getD s 0))
    (fun _ _ _ _ _ ht => decide_eq_true ht)
    (step := uvlStep a xLen maxLen P.lengths P.dilations P.normalize)
    (fun minL m i hi => uvlStep_wp hv.data hv.nf hv.perc hpok hi hM2 _ minL m) gs
  obtain ⟨kept, hfrom, hwf⟩ := uFinish_from (fun x => real_eqb x 0) hmx' hpok.dil hpok.norm (out := out)
    (fun i v hi hvv => by simpa [parOf] using (goodAt_values (hgood i hi) hvv).1) hpok.pos
  refine ⟨rec, out, kept, _, ⟨parDrawn_of_init hI, hgood, hfrom, hwf⟩, hgrp, ?_⟩
  intro order ho
  obtain ⟨masks, hm⟩ := hrun (order (uniqueSorted P.dilations).length) (ho _)
  unfold uvlGenerate
  rw [hM1, Res.bind_ok, hP, Res.bind_ok]
  simp only
  rw [hlens, Res.bind_ok, h0, hm, Res.bind_ok]
  rfl

theorem mslGenerate_det {a : FitArgs ℝ L} (hv : ValidSL a) {mc : Nat} (hmc : 1 ≤ mc)
    (hmcf : mc ≤ a.nf) (g0 : G) (gs : Nat → G) {P : MShp ℝ} {g' : G}
    (hP : mInit a.nShp a.sizes a.nt a.pNorm mc a.prime g0 = .ok (P, g')) :
    ∃ rec out kept S, MFitted (trainSL a) a a.nt mc (parOf P.lengths P.dilations P.normalize)
        (fun i => P.nChannels.getD i 0) rec out kept S ∧
      FromGroups P.lengths P.dilations (mslStep a P.lengths P.dilations P.normalize P.nChannels)
        (fun _ _ _ _ => true) gs out ∧
      ∀ order, IsSchedule order → mslGenerate a mc g0 gs order = .ok S := by
  obtain ⟨P1, g1, hP1, hI, hthr, hncl, hnc, hch, hval⟩ :=
    mInit_wp a.pNorm a.prime hv.nShp hv.sizes hv.bounds hmc g0
  rw [hP] at hP1
  obtain ⟨rfl, rfl⟩ := Prod.mk.inj (Except.ok.inj hP1)
  have hpok := parOK_of_init hv.bounds hI
  have hncl' : P.nChannels.length = P.lengths.length := by rw [hncl, hI.len]
  have h0 := mArr0_eq hI.len hncl hthr hch hval
  obtain ⟨rec, out, hgood, hgrp, hrun⟩ := fitLoop_det (T := trainSL a) (o := optOf a) (multi := true)
    (nch := fun i => P.nChannels.getD i 0) (normalize := P.normalize) hpok.dil
    (write := mWrite (offValues P.nChannels P.lengths) (offChannels P.nChannels))
    (target := mTarget P.lengths P.nChannels)
    (shape := fun i v => ∀ o, v = some o →
      o.values.length = P.nChannels.getD i 0 * P.lengths.getD i 0 ∧
      o.channels.length = P.nChannels.getD i 0)
    (fun S i v hi hS hvv => mWrite_ok hncl' S i v hi hS hvv)
    (fun rec out i _ h o ho => by
      have := goodAt_values h ho
      exact ⟨this.1, (this.2 rfl).1⟩)
    (m0 := fun _ _ _ _ => true) (fun _ _ _ _ _ _ => rfl)
    (step := mslStep a P.lengths P.dilations P.normalize P.nChannels)
    (fun minL m i hi => mslStep_wp hv.data hv.perc hpok hi hncl'
      (fun c hc => (hnc c hc).2.trans hmcf) minL m) gs
  obtain ⟨S, kept, hfin, hfrom, hwf⟩ := mFinish_from hpok.dil hpok.norm hncl' (out := out) (nf := a.nf)
    (fun i v hi hvv => by
      have := goodAt_values (hgood i hi) hvv
      exact ⟨this.1, this.2 rfl⟩) hpok.pos
  refine ⟨rec, out, kept, S, ⟨parDrawn_of_init hI, ?_, hgood, hfrom, hwf⟩, hgrp, ?_⟩
  · intro i hi
    have hi : i < P.nChannels.length := by rw [hncl']; exact hi
    show 1 ≤ P.nChannels.getD i 0 ∧ P.nChannels.getD i 0 ≤ mc
    rw [getD_lt _ hi]; exact hnc _ (List.getElem_mem hi)
  intro order ho
  obtain ⟨masks, hm⟩ := hrun (order (uniqueSorted P.dilations).length) (ho _)
  unfold mslGenerate
  rw [hP, Res.bind_ok]
  simp only
  rw [h0, hm, Res.bind_ok]
  exact hfin

theorem mvlGenerate_det {a : FitArgs ℝ L} {minLen : Nat} {xLen : List Nat}
    (hv : ValidVL a minLen xLen) {mc : Nat} (hmc : 1 ≤ mc)
    (hmcf : mc ≤ a.nf) (g0 : G) (gs : Nat → G) {P : MShp ℝ} {g' : G} {maxLen : Nat}
    (hM1 : nmax xLen = .ok maxLen) (hP : mInit a.nShp a.sizes minLen a.pNorm mc a.prime g0 = .ok (P, g')) :
    ∃ rec out kept S, MFitted (trainVL a xLen) a minLen mc (parOf P.lengths P.dilations P.normalize)
        (fun i => P.nChannels.getD i 0) rec out kept S ∧
      FromGroups P.lengths P.dilations (mvlStep a xLen maxLen P.lengths P.dilations P.normalize P.nChannels)
        (fun _ s _ t => decide (t < xLen.getD s 0)) gs out ∧
      ∀ order, IsSchedule order → mvlGenerate a mc minLen xLen g0 gs order = .ok S := by
  obtain ⟨P1, g1, hP1, hI, hthr, hncl, hnc, hch, hval⟩ :=
    mInit_wp a.pNorm a.prime hv.nShp hv.sizes hv.bounds hmc g0
  rw [hP] at hP1
  obtain ⟨rfl, rfl⟩ := Prod.mk.inj (Except.ok.inj hP1)
  obtain ⟨maxLen1, hM, hM2⟩ := maxLen_ok hv.data hv.ne
  rw [hM1] at hM
  obtain rfl := Except.ok.inj hM
  obtain ⟨lens, hlens⟩ := lens_read hv.data
  have hpok := parOK_of_init hv.bounds hI
  have hncl' : P.nChannels.length = P.lengths.length := by rw [hncl, hI.len]
  have h0 := mArr0_eq hI.len hncl hthr hch hval
  obtain ⟨rec, out, hgood, hgrp, hrun⟩ := fitLoop_det (T := trainVL a xLen) (o := optOf a) (multi := true)
    (nch := fun i => P.nChannels.getD i 0) (normalize := P.normalize) hpok.dil
    (write := mWrite (offValues P.nChannels P.lengths) (offChannels P.nChannels))
    (target := mTarget P.lengths P.nChannels)
    (shape := fun i v => ∀ o, v = some o →
      o.values.length = P.nChannels.getD i 0 * P.lengths.getD i 0 ∧
      o.channels.length = P.nChannels.getD i 0)
    (fun S i v hi hS hvv => mWrite_ok hncl' S i v hi hS hvv)
    (fun rec out i _ h o ho => by
      have := goodAt_values h ho
      exact ⟨this.1, (this.2 rfl).1⟩)
    (m0 := fun _ s _ t => decide (t < xLen.getD s 0))
    (fun _ _ _ _ _ ht => decide_eq_true ht)
    (step := mvlStep a xLen maxLen P.lengths P.dilations P.normalize P.nChannels)
    (fun minL m i hi => mvlStep_wp hv.data hv.perc hpok hi hncl'
      (fun c hc => (hnc c hc).2.trans hmcf) hM2 minL m) gs
  obtain ⟨S, kept, hfin, hfrom, hwf⟩ := mFinish_from hpok.dil hpok.norm hncl' (out := out) (nf := a.nf)
    (fun i v hi hvv => by
      have := goodAt_values (hgood i hi) hvv
      exact ⟨this.1, this.2 rfl⟩) hpok.pos
  refine ⟨rec, out, kept, S, ⟨parDrawn_of_init hI, ?_, hgood, hfrom, hwf⟩, hgrp, ?_⟩
  · intro i hi
    have hi : i < P.nChannels.length := by rw [hncl']; exact hi
    show 1 ≤ P.nChannels.getD i 0 ∧ P.nChannels.getD i 0 ≤ mc
    rw [getD_lt _ hi]; exact hnc _ (List.getElem_mem hi)
  intro order ho
  obtain ⟨masks, hm⟩ := hrun (order (uniqueSorted P.dilations).length) (ho _)
  unfold mvlGenerate
  rw [hM1, Res.bind_ok, hP, Res.bind_ok]
  simp only
  rw [hlens, Res.bind_ok, h0, hm, Res.bind_ok]
  exact hfin

/-- Offsets are harmless for the univariate functions (which drop identically zero shapelets). -/
theorem zero_kept {a : FitArgs ℝ L} {n : Nat} {P : Par} (hP : ParDrawn a n P) (hb : b = 0 ∨ 1 ≤ a.pNorm)
    (i : Nat) (hi : i < P.n) : b = 0 ∨ P.normalize i = true := by
  rcases hb with hb | hb
  · exact Or.inl hb
  · exact Or.inr (hP.norm_all hb i hi)

/-- The change of units is harmless for the fitted shapelets. -/
theorem harmless_of_from {a : FitArgs ℝ L} {n : Nat} {P : Par} (hP : ParDrawn a n P) (hc : c ≠ 0)
    (hs : |c| = 1 ∨ a.pNorm ≤ 0) {kept : List Nat} {nrm : List Bool} (hl : nrm.length = kept.length)
    (hk : ∀ i ∈ kept, i < P.n) (hn : ∀ k i : Nat, kept[k]? = some i → nrm[k]? = some (P.normalize i)) :
    Harmless c nrm := by
  rcases hs with hs | hs
  · exact Or.inl hs
  · refine Or.inr ⟨hc, fun k => ?_⟩
    rw [List.getD_eq_getElem?_getD]
    by_cases h : k < kept.length
    · rw [hn k _ (List.getElem?_eq_getElem h)]
      exact hP.norm_none hs _ (hk _ (List.getElem_mem h))
    · rw [List.getElem?_eq_none (by omega)]
      rfl

theorem uslGenerate_units {a : FitArgs ℝ L} (hv : ValidSL a) (hc : c ≠ 0) (hs : |c| = 1 ∨ a.pNorm ≤ 0)
    (hb : b = 0 ∨ 1 ≤ a.pNorm) (g0 : G) (gs : Nat → G) :
    ∃ S S', UUnits c b S S' ∧ Harmless c S.normalize ∧ UWF S ∧ UWF S' ∧ ∀ order, IsSchedule order →
      uslGenerate a g0 gs order = .ok S ∧ uslGenerate (a.units c b) g0 gs order = .ok S' := by
  obtain ⟨P, g', hP, hI, -⟩ := uInit_wp a.pNorm a.prime hv.nShp hv.sizes hv.bounds g0
  obtain ⟨rec, out, kept, S, hF, hG, hrun⟩ := uslGenerate_det hv g0 gs hP
  obtain ⟨rec', out', kept', S', hF', hG', hrun'⟩ := uslGenerate_det (validSL_units hv c b) g0 gs hP
  refine ⟨S, S', uUnits_of_from hc hF.from_ hF.wf hF'.from_ hF'.wf (zero_kept hF.drawn hb) ?_, harmless_of_from hF.drawn hc hs
      (by rw [hF.wf.normalize, hF.from_.count]) (fun i hi => ((hF.from_.mem i).1 hi).1) hF.from_.normalize,
    hF.wf, hF'.wf,
    fun order ho => ⟨hrun order ho, hrun' order ho⟩⟩
  exact fromGroups_units (nrm := fun i => P.normalize.getD i false) (parOK_of_init hv.bounds hI).dil
    (fun minL m i hi => uslStep_units hc a _ _ _ minL m i (harmlessFor_of_drawn hF.drawn hs i hi)) hG hG'

theorem uvlGenerate_units {a : FitArgs ℝ L} {minLen : Nat} {xLen : List Nat} (hv : ValidVL a minLen xLen)
    (hc : c ≠ 0) (hs : |c| = 1 ∨ a.pNorm ≤ 0) (hb : b = 0 ∨ 1 ≤ a.pNorm) (g0 : G) (gs : Nat → G) :
    ∃ S S', UUnits c b S S' ∧ Harmless c S.normalize ∧ UWF S ∧ UWF S' ∧ ∀ order, IsSchedule order →
      uvlGenerate a minLen xLen g0 gs order = .ok S ∧
      uvlGenerate (a.units c b) minLen xLen g0 gs order = .ok S' := by
  obtain ⟨P, g', hP, hI, -⟩ := uInit_wp a.pNorm a.prime hv.nShp hv.sizes hv.bounds g0
  obtain ⟨maxLen, hM1, hM2⟩ := maxLen_ok hv.data hv.ne
  obtain ⟨rec, out, kept, S, hF, hG, hrun⟩ := uvlGenerate_det hv g0 gs hM1 hP
  obtain ⟨rec', out', kept', S', hF', hG', hrun'⟩ := uvlGenerate_det (validVL_units hv c b) g0 gs hM1 hP
  refine ⟨S, S', uUnits_of_from hc hF.from_ hF.wf hF'.from_ hF'.wf (zero_kept hF.drawn hb) ?_, harmless_of_from hF.drawn hc hs
      (by rw [hF.wf.normalize, hF.from_.count]) (fun i hi => ((hF.from_.mem i).1 hi).1) hF.from_.normalize,
    hF.wf, hF'.wf,
    fun order ho => ⟨hrun order ho, hrun' order ho⟩⟩
  exact fromGroups_units (nrm := fun i => P.normalize.getD i false) (parOK_of_init hv.bounds hI).dil
    (fun minL m i hi => uvlStep_units hc a _ _ _ _ _ minL m i (harmlessFor_of_drawn hF.drawn hs i hi)) hG hG'

theorem mslGenerate_units {a : FitArgs ℝ L} (hv : ValidSL a) {mc : Nat} (hmc : 1 ≤ mc) (hmcf : mc ≤ a.nf)
    (hc : c ≠ 0) (hs : |c| = 1 ∨ a.pNorm ≤ 0) (g0 : G) (gs : Nat → G) :
    ∃ S S', MUnits c b S S' ∧ Harmless c S.normalize ∧ MWF S a.nf ∧ MWF S' a.nf ∧ ∀ order, IsSchedule order →
      mslGenerate a mc g0 gs order = .ok S ∧ mslGenerate (a.units c b) mc g0 gs order = .ok S' := by
  obtain ⟨P, g', hP, hI, -⟩ := mInit_wp a.pNorm a.prime hv.nShp hv.sizes hv.bounds hmc g0
  obtain ⟨rec, out, kept, S, hF, hG, hrun⟩ := mslGenerate_det hv hmc hmcf g0 gs hP
  obtain ⟨rec', out', kept', S', hF', hG', hrun'⟩ := mslGenerate_det (validSL_units hv c b) hmc hmcf g0 gs hP
  refine ⟨S, S', mUnits_of_from hF.from_ hF.wf hF'.from_ hF'.wf ?_, harmless_of_from hF.drawn hc hs
      (by rw [hF.wf.normalize, hF.from_.count]) (fun i hi => ((hF.from_.mem i).1 hi).1) hF.from_.normalize,
    hF.wf, hF'.wf,
    fun order ho => ⟨hrun order ho, hrun' order ho⟩⟩
  exact fromGroups_units (nrm := fun i => P.normalize.getD i false) (parOK_of_init hv.bounds hI).dil
    (fun minL m i hi => mslStep_units hc a _ _ _ _ minL m i (harmlessFor_of_drawn hF.drawn hs i hi)) hG hG'

theorem mvlGenerate_units {a : FitArgs ℝ L} {minLen : Nat} {xLen : List Nat} (hv : ValidVL a minLen xLen)
    {mc : Nat} (hmc : 1 ≤ mc) (hmcf : mc ≤ a.nf)
    (hc : c ≠ 0) (hs : |c| = 1 ∨ a.pNorm ≤ 0) (g0 : G) (gs : Nat → G) :
    ∃ S S', MUnits c b S S' ∧ Harmless c S.normalize ∧ MWF S a.nf ∧ MWF S' a.nf ∧ ∀ order, IsSchedule order →
      mvlGenerate a mc minLen xLen g0 gs order = .ok S ∧
      mvlGenerate (a.units c b) mc minLen xLen g0 gs order = .ok S' := by
  obtain ⟨P, g', hP, hI, -⟩ := mInit_wp a.pNorm a.prime hv.nShp hv.sizes hv.bounds hmc g0
  obtain ⟨maxLen, hM1, hM2⟩ := maxLen_ok hv.data hv.ne
  obtain ⟨rec, out, kept, S, hF, hG, hrun⟩ := mvlGenerate_det hv hmc hmcf g0 gs hM1 hP
  obtain ⟨rec', out', kept', S', hF', hG', hrun'⟩ := mvlGenerate_det (validVL_units hv c b) hmc hmcf g0 gs hM1 hP
  refine ⟨S, S', mUnits_of_from hF.from_ hF.wf hF'.from_ hF'.wf ?_, harmless_of_from hF.drawn hc hs
      (by rw [hF.wf.normalize, hF.from_.count]) (fun i hi => ((hF.from_.mem i).1 hi).1) hF.from_.normalize,
    hF.wf, hF'.wf,
    fun order ho => ⟨hrun order ho, hrun' order ho⟩⟩
  exact fromGroups_units (nrm := fun i => P.normalize.getD i false) (parOK_of_init hv.bounds hI).dil
    (fun minL m i hi => mvlStep_units hc a _ _ _ _ _ _ minL m i (harmlessFor_of_drawn hF.drawn hs i hi)) hG hG'

end Convst
