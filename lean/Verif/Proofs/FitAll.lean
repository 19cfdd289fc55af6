import Verif.Proofs.FitFinishM

/-! # The four `*_generate_shapelet` functions against the specification of `fit` -/

set_option autoImplicit false
set_option linter.unusedSectionVars false

namespace Convst
open Spec
variable {G L : Type} [Gen G ℝ] [LawfulGen G] [DecidableEq L]

theorem parDrawn_of_init {a : FitArgs ℝ L} {n : Nat} {lengths dilations : List Nat}
    {normalize : List Bool}
    (h : InitOK a.nShp a.sizes n a.pNorm a.prime lengths dilations normalize) :
    ParDrawn a n (parOf lengths dilations normalize) where
  count := h.len
  length i hi := by
    have hi : i < lengths.length := hi
    show lengths.getD i 0 ∈ a.sizes
    rw [getD_lt _ hi]; exact h.mem _ (List.getElem_mem hi)
  dilation i hi := h.dil i (by have hi : i < lengths.length := hi; rw [h.len] at hi; exact hi)
  norm_none hp i hi := by
    have hi : i < normalize.length := by
      have hi : i < lengths.length := hi
      rw [h.nlen, ← h.len]; exact hi
    show normalize.getD i false = _
    rw [getD_lt _ hi]; exact h.norm_none hp _ (List.getElem_mem hi)
  norm_all hp i hi := by
    have hi : i < normalize.length := by
      have hi : i < lengths.length := hi
      rw [h.nlen, ← h.len]; exact hi
    show normalize.getD i false = _
    rw [getD_lt _ hi]; exact h.norm_all hp _ (List.getElem_mem hi)

theorem parOK_of_init {nShp : Nat} {sizes : List Nat} {pNorm : ℝ} {prime : Bool} {n : Nat}
    {lengths dilations : List Nat} {normalize : List Bool} (hn : ∀ l ∈ sizes, 2 ≤ l ∧ l ≤ n)
    (h : InitOK nShp sizes n pNorm prime lengths dilations normalize) :
    ParOK lengths dilations normalize n where
  dil := by rw [h.dlen, h.len]
  norm := by rw [h.nlen, h.len]
  pos i hi := by
    rw [getD_lt _ hi]
    have := hn _ (h.mem _ (List.getElem_mem hi)); omega
  room i hi := by
    have h1 := (h.dil i (h.len ▸ hi)).2.1
    have h2 := hn _ (h.mem _ (List.getElem_mem hi))
    omega

theorem goodAt_values {T : Train L} {P : Par} {o : Opt} {multi : Bool} {nch : Nat → Nat}
    {rec : Nat → Option Src} {out : Nat → Option (Out ℝ)} {i : Nat}
    (h : GoodAt T P o multi nch rec out i) {v : Out ℝ} (hv : out i = some v) :
    v.values.length = (if multi then nch i else 1) * P.length i ∧
    (multi = true → v.channels.length = nch i ∧ ∀ c ∈ v.channels, c < T.nf) := by
  obtain ⟨ch, hch, ⟨-, h2, -⟩ | ⟨r, v', -, h2, h3, -, h5⟩⟩ := h
  · rw [h2] at hv; simp at hv
  · rw [h2] at hv; obtain rfl := Option.some.inj hv
    rw [h5.values, h5.channels, h3]
    have hl : (ch.flatMap fun c => subseq T P o i r.sample c r.index).length = ch.length * P.length i := by
      rw [flatMap_length_eq _ _ (fun _ => P.length i) (fun c _ => subseq_length _ _ _ _)]
      simp
    rw [hl]
    unfold ChannelsOK at hch
    cases multi with
    | true => simp only [if_true] at hch ⊢; rw [hch.2.1]; exact ⟨rfl, fun _ => ⟨rfl, hch.2.2⟩⟩
    | false => simp only [Bool.false_eq_true, if_false] at hch ⊢; rw [hch]; simp

theorem uslGenerate_spec {a : FitArgs ℝ L} (hv : ValidSL a) (g0 : G) (gs : Nat → G) :
    ∃ P rec out kept S, UFitted (trainSL a) a a.nt P rec out kept S ∧
      ∀ order, IsSchedule order → uslGenerate a g0 gs order = .ok S := by
  obtain ⟨P, g', hP, hI, hthr, mx, hmx, -, hval⟩ :=
    uInit_wp a.pNorm a.prime hv.nShp hv.sizes hv.bounds g0
  have hpok := parOK_of_init hv.bounds hI
  have hmx' : ∀ l ∈ P.lengths, l ≤ mx := fun l hl => hmx l (hI.mem l hl)
  have h0 : (P.values, P.threshold) = uTarget P.lengths mx fun _ => none := by
    rw [hval, hthr]
    unfold uTarget
    simp [uRowOf, thrOf, List.map_const', hI.len]
  obtain ⟨rec, out, hgood, hrun⟩ := fitLoop_ok (T := trainSL a) (o := optOf a) (multi := false)
    (nch := fun _ => 1) (normalize := P.normalize) hpok.dil
    (write := uWrite P.lengths) (target := uTarget P.lengths mx)
    (shape := fun i v => ∀ o, v = some o → o.values.length = P.lengths.getD i 0)
    (fun S i v hi hS hvv => uWrite_ok hmx' S i v hi hS hvv)
    (fun rec out i _ h o ho => by simpa [parOf] using (goodAt_values h ho).1)
    (m0 := fun _ _ _ _ => true) (fun _ _ _ _ _ _ => rfl)
    (step := uslStep a P.lengths P.dilations P.normalize)
    (fun minL m i hi => uslStep_wp hv.data hv.nf hv.perc hpok hi _ minL m) gs
  obtain ⟨kept, hfrom, hwf⟩ := uFinish_from (fun x => real_eqb x 0) hmx' hpok.dil hpok.norm (out := out)
    (fun i v hi hvv => by simpa [parOf] using (goodAt_values (hgood i hi) hvv).1) hpok.pos
  refine ⟨_, rec, out, kept, _, ⟨parDrawn_of_init hI, hgood, hfrom, hwf⟩, ?_⟩
  intro order ho
  obtain ⟨masks, hm⟩ := hrun (order (uniqueSorted P.dilations).length) (ho _)
  unfold uslGenerate
  rw [hP, Res.bind_ok]
  simp only
  rw [h0, hm, Res.bind_ok]
  rfl

theorem maxLen_ok {K : Type} {a : FitArgs K L} {minLen : Nat} {xLen : List Nat} (hd : DataVL a xLen minLen)
    (hne : a.X ≠ []) : ∃ maxLen, nmax xLen = .ok maxLen ∧
      ∀ s, s < a.X.length → xLen.getD s 0 ≤ maxLen := by
  obtain ⟨m, h1, -, h3⟩ := nmax_ok (a := xLen) (by
    intro h; apply hne; rw [← List.length_eq_zero_iff, ← hd.len, h]; rfl)
  refine ⟨m, h1, fun s hs => ?_⟩
  rw [← hd.len] at hs
  rw [getD_lt _ hs]; exact h3 _ (List.getElem_mem hs)

theorem lens_read {K : Type} {a : FitArgs K L} {minLen : Nat} {xLen : List Nat} (hd : DataVL a xLen minLen) :
    ∃ r, ((List.range a.X.length).mapM fun s => aget xLen s) = .ok r := by
  refine ⟨_, mapM_ok (g := fun s => xLen.getD s 0) fun s hs => ?_⟩
  rw [List.mem_range] at hs
  exact (hd.xlen hs).1

theorem uvlGenerate_spec {a : FitArgs ℝ L} {minLen : Nat} {xLen : List Nat}
    (hv : ValidVL a minLen xLen) (g0 : G) (gs : Nat → G) :
    ∃ P rec out kept S, UFitted (trainVL a xLen) a minLen P rec out kept S ∧
      ∀ order, IsSchedule order → uvlGenerate a minLen xLen g0 gs order = .ok S := by
  obtain ⟨P, g', hP, hI, hthr, mx, hmx, -, hval⟩ :=
    uInit_wp a.pNorm a.prime hv.nShp hv.sizes hv.bounds g0
  obtain ⟨maxLen, hM1, hM2⟩ := maxLen_ok hv.data hv.ne
  obtain ⟨lens, hlens⟩ := lens_read hv.data
  have hpok := parOK_of_init hv.bounds hI
  have hmx' : ∀ l ∈ P.lengths, l ≤ mx := fun l hl => hmx l (hI.mem l hl)
  have h0 : (P.values, P.threshold) = uTarget P.lengths mx fun _ => none := by
    rw [hval, hthr]
    unfold uTarget
    simp [uRowOf, thrOf, List.map_const', hI.len]
  obtain ⟨rec, out, hgood, hrun⟩ := fitLoop_ok (T := trainVL a xLen) (o := optOf a) (multi := false)
    (nch := fun _ => 1) (normalize := P.normalize) hpok.dil
    (write := uWrite P.lengths) (target := uTarget P.lengths mx)
    (shape := fun i v => ∀ o, v = some o → o.values.length = P.lengths.getD i 0)
    (fun S i v hi hS hvv => uWrite_ok hmx' S i v hi hS hvv)
    (fun rec out i _ h o ho => by simpa [parOf] using (goodAt_values h ho).1)
    (m0 := fun _ s _ t => decide (t < xLen.getD s 0))
    (fun _ _ _ _ _ ht => decide_eq_true ht)
    (step := uvlStep a xLen maxLen P.lengths P.dilations P.normalize)
    (fun minL m i hi => uvlStep_wp hv.data hv.nf hv.perc hpok hi hM2 _ minL m) gs
  obtain ⟨kept, hfrom, hwf⟩ := uFinish_from (fun x => real_eqb x 0) hmx' hpok.dil hpok.norm (out := out)
    (fun i v hi hvv => by simpa [parOf] using (goodAt_values (hgood i hi) hvv).1) hpok.pos
  refine ⟨_, rec, out, kept, _, ⟨parDrawn_of_init hI, hgood, hfrom, hwf⟩, ?_⟩
  intro order ho
  obtain ⟨masks, hm⟩ := hrun (order (uniqueSorted P.dilations).length) (ho _)
  unfold uvlGenerate
  rw [hM1, Res.bind_ok, hP, Res.bind_ok]
  simp only
  rw [hlens, Res.bind_ok, h0, hm, Res.bind_ok]
  rfl

theorem mslGenerate_spec {a : FitArgs ℝ L} (hv : ValidSL a) {mc : Nat} (hmc : 1 ≤ mc)
    (hmcf : mc ≤ a.nf) (g0 : G) (gs : Nat → G) :
    ∃ P nch rec out kept S, MFitted (trainSL a) a a.nt mc P nch rec out kept S ∧
      ∀ order, IsSchedule order → mslGenerate a mc g0 gs order = .ok S := by
  obtain ⟨P, g', hP, hI, hthr, hncl, hnc, hch, hval⟩ :=
    mInit_wp a.pNorm a.prime hv.nShp hv.sizes hv.bounds hmc g0
  have hpok := parOK_of_init hv.bounds hI
  have hncl' : P.nChannels.length = P.lengths.length := by rw [hncl, hI.len]
  have h0 := mArr0_eq hI.len hncl hthr hch hval
  obtain ⟨rec, out, hgood, hrun⟩ := fitLoop_ok (T := trainSL a) (o := optOf a) (multi := true)
    (nch := fun i => P.nChannels.getD i 0) (normalize := P.normalize) hpok.dil
    (write := mWrite (offValues P.nChannels P.lengths) (offChannels P.nChannels))
    (target := mTarget P.lengths P.nChannels)
    (shape := fun i v => ∀ o, v = some o →
      o.values.length = P.nChannels.getD i 0 * P.lengths.getD i 0 ∧
      o.channels.length = P.nChannels.getD i 0)
    (fun S i v hi hS hvv => mWrite_ok hncl' S i v hi hS hvv)
    (fun rec out i _ h o ho => by
      have := goodAt_values h ho
      exact ⟨this.1, (this.2 rfl).1⟩)
    (m0 := fun _ _ _ _ => true) (fun _ _ _ _ _ _ => rfl)
    (step := mslStep a P.lengths P.dilations P.normalize P.nChannels)
    (fun minL m i hi => mslStep_wp hv.data hv.perc hpok hi hncl'
      (fun c hc => (hnc c hc).2.trans hmcf) minL m) gs
  obtain ⟨S, kept, hfin, hfrom, hwf⟩ := mFinish_from hpok.dil hpok.norm hncl' (out := out) (nf := a.nf)
    (fun i v hi hvv => by
      have := goodAt_values (hgood i hi) hvv
      exact ⟨this.1, this.2 rfl⟩) hpok.pos
  refine ⟨_, _, rec, out, kept, S, ⟨parDrawn_of_init hI, ?_, hgood, hfrom, hwf⟩, ?_⟩
  · intro i hi
    have hi : i < P.nChannels.length := by rw [hncl']; exact hi
    show 1 ≤ P.nChannels.getD i 0 ∧ P.nChannels.getD i 0 ≤ mc
    rw [getD_lt _ hi]; exact hnc _ (List.getElem_mem hi)
  intro order ho
  obtain ⟨masks, hm⟩ := hrun (order (uniqueSorted P.dilations).length) (ho _)
  unfold mslGenerate
  rw [hP, Res.bind_ok]
  simp only
  rw [h0, hm, Res.bind_ok]
  exact hfin

theorem mvlGenerate_spec {a : FitArgs ℝ L} {minLen : Nat} {xLen : List Nat}
    (hv : ValidVL a minLen xLen) {mc : Nat} (hmc : 1 ≤ mc)
    (hmcf : mc ≤ a.nf) (g0 : G) (gs : Nat → G) :
    ∃ P nch rec out kept S, MFitted (trainVL a xLen) a minLen mc P nch rec out kept S ∧
      ∀ order, IsSchedule order → mvlGenerate a mc minLen xLen g0 gs order = .ok S := by
  obtain ⟨P, g', hP, hI, hthr, hncl, hnc, hch, hval⟩ :=
    mInit_wp a.pNorm a.prime hv.nShp hv.sizes hv.bounds hmc g0
  obtain ⟨maxLen, hM1, hM2⟩ := maxLen_ok hv.data hv.ne
  obtain ⟨lens, hlens⟩ := lens_read hv.data
  have hpok := parOK_of_init hv.bounds hI
  have hncl' : P.nChannels.length = P.lengths.length := by rw [hncl, hI.len]
  have h0 := mArr0_eq hI.len hncl hthr hch hval
  obtain ⟨rec, out, hgood, hrun⟩ := fitLoop_ok (T := trainVL a xLen) (o := optOf a) (multi := true)
    (nch := fun i => P.nChannels.getD i 0) (normalize := P.normalize) hpok.dil
    (write := mWrite (offValues P.nChannels P.lengths) (offChannels P.nChannels))
    (target := mTarget P.lengths P.nChannels)
    (shape := fun i v => ∀ o, v = some o →
      o.values.length = P.nChannels.getD i 0 * P.lengths.getD i 0 ∧
      o.channels.length = P.nChannels.getD i 0)
    (fun S i v hi hS hvv => mWrite_ok hncl' S i v hi hS hvv)
    (fun rec out i _ h o ho => by
      have := goodAt_values h ho
      exact ⟨this.1, (this.2 rfl).1⟩)
    (m0 := fun _ s _ t => decide (t < xLen.getD s 0))
    (fun _ _ _ _ _ ht => decide_eq_true ht)
    (step := mvlStep a xLen maxLen P.lengths P.dilations P.normalize P.nChannels)
    (fun minL m i hi => mvlStep_wp hv.data hv.perc hpok hi hncl'
      (fun c hc => (hnc c hc).2.trans hmcf) hM2 minL m) gs
  obtain ⟨S, kept, hfin, hfrom, hwf⟩ := mFinish_from hpok.dil hpok.norm hncl' (out := out) (nf := a.nf)
    (fun i v hi hvv => by
      have := goodAt_values (hgood i hi) hvv
      exact ⟨this.1, this.2 rfl⟩) hpok.pos
  refine ⟨_, _, rec, out, kept, S, ⟨parDrawn_of_init hI, ?_, hgood, hfrom, hwf⟩, ?_⟩
  · intro i hi
    have hi : i < P.nChannels.length := by rw [hncl']; exact hi
    show 1 ≤ P.nChannels.getD i 0 ∧ P.nChannels.getD i 0 ≤ mc
    rw [getD_lt _ hi]; exact hnc _ (List.getElem_mem hi)
  intro order ho
  obtain ⟨masks, hm⟩ := hrun (order (uniqueSorted P.dilations).length) (ho _)
  unfold mvlGenerate
  rw [hM1, Res.bind_ok, hP, Res.bind_ok]
  simp only
  rw [hlens, Res.bind_ok, h0, hm, Res.bind_ok]
  exact hfin

end Convst
