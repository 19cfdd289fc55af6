import Verif.Proofs.MemoryFitEnd
import Verif.Proofs.FitSafeAll

/-! # The four functions of `fit`, from the allocation of their arrays to their result (for C112) -/

set_option autoImplicit false
set_option linter.unusedSectionVars false

namespace Convst.Mem
open Spec

variable {G K L : Type} [Gen G K] [Scalar K] [DecidableEq L] {h h0 : Heap (Cell K)}

theorem divides_nodup {ws : List (List Nat × G)} {n : Nat} (hw : Divides ws n) : (ws.flatMap Prod.fst).Nodup :=
  hw.nodup_iff.2 List.nodup_range

theorem divides_lt {ws : List (List Nat × G)} {n : Nat} (hw : Divides ws n) : ∀ iD ∈ ws.flatMap Prod.fst, iD < n :=
  fun _ hi => List.mem_range.1 (hw.mem_iff.1 hi)

theorem lt_bufs_of_get {C : Type} {h : Heap C} {a i : Nat} {v : C} (hg : h.get a i = some v) : a < h.bufs.length := by
  unfold Heap.get at hg
  by_contra hc
  rw [List.getElem?_eq_none (by omega)] at hg
  cases hg

theorem uCells_inj {o : UOut} (h3 : o.threshold ≠ o.values) {i i' a j : Nat} (h : UCells o i a j) (h' : UCells o i' a j) :
    i = i' := by
  rcases h with ⟨e1, e2⟩ | ⟨e1, k, hk, e2⟩ <;> rcases h' with ⟨e3, e4⟩ | ⟨e3, k', hk', e4⟩
  · omega
  · exact absurd (e1.symm.trans e3) h3
  · exact absurd (e3.symm.trans e1) h3
  · exact (row_inj hk hk' (e2.symm.trans e4)).1

/-- The parallel loops and the end of a univariate function. -/
theorem u_ends {P : UShp K} {n mx : Nat} (hn : P.lengths.length = n) (hpos : 1 ≤ n) (hmx : 1 ≤ mx)
    (hdil : P.dilations.length = P.lengths.length) (hval : P.values = List.replicate n (List.replicate mx 0))
    (hthr : P.threshold.length = n) {ns nt : Nat} {hA : Heap (Cell K)} {m0 : Nat → SubMask}
    (hI : FitIs (UIs (uAlloc h P ns nt).2.1 n) h (uAlloc h P ns nt).2.2 (m0, (P.values, P.threshold)) hA)
    {sample : Nat → Nat → Nat → PM G K (Option (Out K))}
    {step : Nat → SubMask → Nat → RM G (SubMask × Option (Out K))}
    (hsam : ∀ iD M, iD < (uAlloc h P ns nt).2.2.nDil → MayMask M (uAlloc h P ns nt).2.2 iD →
      SampleSim h (uAlloc h P ns nt).2.2 iD M (fun a _ => a < h.bufs.length) (sample iD) step)
    {ws : List (List Nat × G)} (hws : Divides ws (uniqueSorted P.dilations).length)
    {st : Nat → FitState (List (List K) × List K)} (hst0 : st 0 = (m0, (P.values, P.threshold)))
    (hst : ∀ (w : Nat) (l : List Nat) (g : G), ws[w]? = some (l, g) →
      ∃ g', l.foldlM (fitGroup P.lengths P.dilations step (uWrite P.lengths)) (st w) g = .ok (st (w + 1), g')) :
    UEnds h n P (uAlloc h P ns nt).2.1 hA (ws.map (workerMem P.lengths P.dilations sample
      (uWriteMem (uAlloc h P ns nt).2.1 P.lengths))) (uFinish P (st ws.length).2) := by
  have hne : (uAlloc h P ns nt).2.1.threshold ≠ (uAlloc h P ns nt).2.1.values := by
    show h.bufs.length ≠ h.bufs.length + 1
    omega
  have ha1 : (uAlloc h P ns nt).2.2.addr ≠ (uAlloc h P ns nt).2.1.threshold := by
    show h.bufs.length + 2 ≠ h.bufs.length
    omega
  have ha2 : (uAlloc h P ns nt).2.2.addr ≠ (uAlloc h P ns nt).2.1.values := by
    show h.bufs.length + 2 ≠ h.bufs.length + 1
    omega
  have hnew : h.bufs.length ≤ (uAlloc h P ns nt).2.2.addr := by
    show h.bufs.length ≤ h.bufs.length + 2
    omega
  have ht : h.bufs.length ≤ (uAlloc h P ns nt).2.1.threshold := le_rfl
  have hv : h.bufs.length ≤ (uAlloc h P ns nt).2.1.values := by
    show h.bufs.length ≤ h.bufs.length + 1
    omega
  obtain ⟨h2, he2, hf2⟩ := fitLoop_parallel (OutC := UCells (uAlloc h P ns nt).2.1) hdil hnew rfl hsam
    (fun i M hM => uWrite_sim hM ht hv hne ha1 ha2)
    (fun arr h h' ho hA => hA.congr (ho _ ha1.symm) (ho _ ha2.symm))
    (fun i a j hc => by
      rcases hc with ⟨rfl, -⟩ | ⟨rfl, -⟩
      · exact ⟨ha1.symm, ht⟩
      · exact ⟨ha2.symm, hv⟩)
    (fun i i' a j _ _ hc hc' => uCells_inj hne hc hc') hws hst (by rw [hst0]; exact hI)
  set arr := (st ws.length).2 with harr
  have hU := hf2.arr
  have hw : (uAlloc h P ns nt).2.1.width = mx := by
    show (P.values.head?.map List.length).getD 0 = mx
    rw [hval]
    obtain ⟨k, rfl⟩ : ∃ k, n = k + 1 := ⟨n - 1, by omega⟩
    simp [List.replicate_succ]
  have hb1 : (uAlloc h P ns nt).2.1.threshold < h2.bufs.length := by
    have hl : 0 < arr.2.length := by rw [hU.num]; omega
    exact lt_bufs_of_get (hU.thr 0 _ (List.getElem?_eq_getElem hl))
  have hb2 : (uAlloc h P ns nt).2.1.values < h2.bufs.length := by
    have hl : 0 < arr.1.length := by rw [hU.len]; omega
    have hr : 0 < arr.1[0].length := by rw [hU.rows _ (List.getElem_mem hl), hw]; omega
    exact lt_bufs_of_get (hU.val 0 0 _ _ (List.getElem?_eq_getElem hl) (List.getElem?_eq_getElem hr))
  obtain ⟨h3, he3, hU3, hk3⟩ := keep_ends hU hf2.un (by omega) hb1 hb2
  exact ⟨h2, h3, he2, he3, uEnd_run hn hU3 hk3⟩

theorem mono_le {f : Nat → Nat} (hf : ∀ i, f i ≤ f (i + 1)) {i j : Nat} (h : i ≤ j) : f i ≤ f j :=
  monotone_nat_of_le_succ hf h

theorem mCells_inj {o : MOut} {mk : MaskBuf} (hf : o.Fresh mk h0) {lengths nChannels : List Nat}
    (hnc : nChannels.length = lengths.length) {i i' a j : Nat} (hi : i < lengths.length) (hi' : i' < lengths.length)
    (h : MCells o (offValues nChannels lengths) (offChannels nChannels) i a j)
    (h' : MCells o (offValues nChannels lengths) (offChannels nChannels) i' a j) : i = i' := by
  obtain ⟨f1, f2, f3, f4, -⟩ := hf
  have ev : ∀ k, k ≤ lengths.length → (offValues nChannels lengths).getD k 0 = vOff lengths nChannels k := by
    intro k hk
    simp [List.getD, aget_eq_ok.1 (vOff_get hnc hk)]
  have ec : ∀ k, k ≤ lengths.length → (offChannels nChannels).getD k 0 = cOff nChannels k := by
    intro k hk
    simp [List.getD, aget_eq_ok.1 (cOff_get (nChannels := nChannels) (i := k) (by omega))]
  have mv : ∀ {k k'}, k ≤ k' → vOff lengths nChannels k ≤ vOff lengths nChannels k' :=
    mono_le fun k => by rw [vOff_succ]; omega
  have mc : ∀ {k k'}, k ≤ k' → cOff nChannels k ≤ cOff nChannels k' :=
    mono_le fun k => by rw [cOff_succ]; omega
  rcases h with ⟨e, e1⟩ | ⟨e, e1⟩ | ⟨e, e1, e2⟩ | ⟨e, e1, e2⟩ <;>
    rcases h' with ⟨e', e3⟩ | ⟨e', e3⟩ | ⟨e', e3, e4⟩ | ⟨e', e3, e4⟩ <;> try omega
  · rw [ev _ hi.le] at e1
    rw [ev (i + 1) hi] at e2
    rw [ev _ hi'.le] at e3
    rw [ev (i' + 1) hi'] at e4
    by_contra hne
    rcases Nat.lt_or_gt_of_ne hne with hlt | hlt
    · have := mv (show i + 1 ≤ i' by omega); omega
    · have := mv (show i' + 1 ≤ i by omega); omega
  · rw [ec _ hi.le] at e1
    rw [ec (i + 1) hi] at e2
    rw [ec _ hi'.le] at e3
    rw [ec (i' + 1) hi'] at e4
    by_contra hne
    rcases Nat.lt_or_gt_of_ne hne with hlt | hlt
    · have := mc (show i + 1 ≤ i' by omega); omega
    · have := mc (show i' + 1 ≤ i by omega); omega

theorem MIs.congr {o : MOut} {n : Nat} {arr : Convst.MArr K} {h h' : Heap (Cell K)} (hA : MIs o n arr h)
    (h1 : h'.bufs[o.threshold]? = h.bufs[o.threshold]?) (h2 : h'.bufs[o.values]? = h.bufs[o.values]?)
    (h3 : h'.bufs[o.channelIds]? = h.bufs[o.channelIds]?) (h4 : h'.bufs[o.maskReturn]? = h.bufs[o.maskReturn]?) :
    MIs o n arr h' :=
  ⟨hA.nValues, hA.nIds, hA.nThr, hA.nRet, fun i e he => by rw [get_of_bufs h2]; exact hA.val i e he,
    fun i e he => by rw [get_of_bufs h3]; exact hA.ids i e he,
    fun i e he => by rw [get_of_bufs h1]; exact hA.thr i e he,
    fun i e he => by rw [get_of_bufs h4]; exact hA.ret i e he⟩

theorem MIs.of_onlyMask {o : MOut} {mk : MaskBuf} (hf : o.Fresh mk h0) {n : Nat} {arr : Convst.MArr K}
    {h h' : Heap (Cell K)} (ho : OnlyMask mk h h') (hA : MIs o n arr h) : MIs o n arr h' := by
  obtain ⟨f1, f2, f3, f4, f5⟩ := hf
  exact hA.congr (ho _ (by omega)) (ho _ (by omega)) (ho _ (by omega)) (ho _ (by omega))

/-- The parallel loop and the end of a multivariate function. -/
theorem m_ends {P S : MShp K} {n : Nat} (hn : P.lengths.length = n) (hdil : P.dilations.length = P.lengths.length)
    (hnc : P.nChannels.length = P.lengths.length) {ns nf nt : Nat} {hA : Heap (Cell K)} {m0 : Nat → SubMask}
    (hI : FitIs (MIs (mAlloc h P n ns nf nt).2.1 n) h (mAlloc h P n ns nf nt).2.2 (m0, mArr0 P n) hA)
    {sample : Nat → Nat → Nat → PM G K (Option (Out K))}
    {step : Nat → SubMask → Nat → RM G (SubMask × Option (Out K))}
    (hsam : ∀ iD M, iD < (mAlloc h P n ns nf nt).2.2.nDil → MayMask M (mAlloc h P n ns nf nt).2.2 iD →
      SampleSim h (mAlloc h P n ns nf nt).2.2 iD M (fun a _ => a < h.bufs.length) (sample iD) step)
    {ws : List (List Nat × G)} (hws : Divides ws (uniqueSorted P.dilations).length)
    {st : Nat → FitState (Convst.MArr K)} (hst0 : st 0 = (m0, mArr0 P n))
    (hst : ∀ (w : Nat) (l : List Nat) (g : G), ws[w]? = some (l, g) →
      ∃ g', l.foldlM (fitGroup P.lengths P.dilations step
        (mWrite (offValues P.nChannels P.lengths) (offChannels P.nChannels))) (st w) g = .ok (st (w + 1), g'))
    (hS : mFinish P (st ws.length).2 = .ok S) :
    MEnds h P (mAlloc h P n ns nf nt).2.1 hA (ws.map (workerMem P.lengths P.dilations sample
      (mWriteMem (mAlloc h P n ns nf nt).2.1 (offValues P.nChannels P.lengths) (offChannels P.nChannels)))) S := by
  have hfr := mAlloc_fresh h P n ns nf nt
  have hnew : h.bufs.length ≤ (mAlloc h P n ns nf nt).2.2.addr := by rw [hfr.mask]; omega
  obtain ⟨h2, he2, hf2⟩ := fitLoop_parallel (OutC := MCells (mAlloc h P n ns nf nt).2.1
      (offValues P.nChannels P.lengths) (offChannels P.nChannels)) hdil hnew rfl hsam
    (fun i M hM => mWrite_sim hM hfr)
    (fun arr h h' ho hA => hA.of_onlyMask hfr ho)
    (fun i a j hc => by
      obtain ⟨f1, f2, f3, f4, f5⟩ := hfr
      rcases hc with ⟨e, -⟩ | ⟨e, -⟩ | ⟨e, -⟩ | ⟨e, -⟩ <;> omega)
    (fun i i' a j hi hi' hc hc' => mCells_inj hfr hnc hi hi' hc hc') hws hst (by rw [hst0]; exact hI)
  exact ⟨h2, he2, mEnd_run hn hf2.arr hS⟩

theorem _root_.Convst.Spec.PassesOn.mono {next next' : Nat → G → G → Prop} {ws : List (List Nat × G)} {gs : Nat → G}
    (hp : PassesOn next ws gs) (hn : ∀ i g g', next i g g' → next' i g g') : PassesOn next' ws gs :=
  ⟨hp.first, fun w hw pre i j post e => hn _ _ _ (hp.later w hw pre i j post e)⟩

theorem usl_memory [LawfulInt G] {a : FitArgs K L} (hv : SafeSL a) (hD : DrawSafe G K a.nt) (hp0 : PercSafe a.pMin)
    (hp1 : PercSafe a.pMax) {b : FitIn K L} (hb : FitHeld h b a) (g0 : G) {workers : Nat → List (List Nat × G)}
    (hw : ∀ n, Divides (workers n) n) :
    ∃ P g1 gs S, uInit a.nShp a.sizes a.nt a.pNorm a.prime g0 = .ok (P, g1) ∧
      PassesOn (UslLeaves a P) (workers (uniqueSorted P.dilations).length) gs ∧
      UslReturns h b P workers S ∧
      ∀ order, IsSchedule order → uslGenerate a g0 gs order = .ok S := by
  obtain ⟨P, g', hP, hI, hthr, mx, hmx, hval⟩ := uInit_safe hD a.pNorm a.prime hv.nShp hv.sizes hv.bounds g0
  have hpok := parOK_of_safe hv.bounds hI
  have hmx' : ∀ l ∈ P.lengths, l ≤ mx := fun l hl => hmx l (hI.mem l hl)
  have e0 : (P.values, P.threshold) = uTarget P.lengths mx fun _ => none := by
    rw [hval, hthr]
    unfold uTarget
    simp [uRowOf, thrOf, List.map_const', hI.len]
  have hstep := fun minL m i (hi : i < P.lengths.length) =>
    uslStep_safe (G := G) hv.data hv.nf hp0 hp1 hpok hi (fun _ => 1) minL m
  have hwr := fun S i v (hi : i < P.lengths.length) (hS : S i = none)
    (hvv : ∀ o : Out K, v = some o → o.values.length = P.lengths.getD i 0) => uWrite_ok hmx' S i v hi hS hvv
  have hws := hw (uniqueSorted P.dilations).length
  obtain ⟨gs, st, hst0, hst, hloop, hgs⟩ := workers_value (m0 := fun _ _ _ _ => true) hpok.dil hwr
    (fun i o _ h v ho => by simpa [parOf] using (h v ho).size.1) hstep g0 _ (fun _ _ _ _ _ => true) (fun _ => none)
    (divides_nodup hws) (divides_lt hws) (fun _ _ => rfl) (fun _ _ _ _ => rfl)
  obtain ⟨out, hgood, hrun⟩ := fitLoop_safe hpok.dil hwr
    (fun i o _ h v ho => by simpa [parOf] using (h v ho).size.1) (fun _ _ _ _ => true) hstep gs
  obtain ⟨masks, hm⟩ := hrun _ hws
  rw [hloop] at hm
  have hst2 : (st (workers (uniqueSorted P.dilations).length).length).2 =
      uTarget P.lengths mx fun i => if i < P.lengths.length then some (out i) else none := by
    rw [Except.ok.inj hm]
  have hnS : b.nShp = a.nShp := hb.nShp
  refine ⟨P, g', gs, uFinish P (uTarget P.lengths mx fun i => if i < P.lengths.length then some (out i) else none), hP,
    hgs.mono fun i g g2 hn => by rw [UslLeaves, e0]; exact hn _ _ rfl fun _ _ => rfl, ?_, ?_⟩
  rotate_left
  · intro order ho
    obtain ⟨masks', hm'⟩ := hrun (order (uniqueSorted P.dilations).length) (ho _)
    unfold uslGenerate
    rw [hP, Res.bind_ok]
    simp only
    rw [e0, hm', Res.bind_ok]
    rfl
  · rw [← hst2]
    unfold UslReturns
    rw [hnS]
    have hl0 : 0 < P.lengths.length := by rw [hI.len]; exact hv.nShp
    refine u_ends hI.len hv.nShp
      ((hpok.pos 0 hl0).trans ((getD_lt 0 hl0) ▸ hmx' _ (List.getElem_mem hl0))) hpok.dil hval (by simp [hthr])
      (uAlloc_is h P _ _ hval (by simp [hthr])) ?_ hws (by rw [hst0, e0]) hst
    intro iD M hiD hM
    exact uslSample_sim hb hv.data (by show _ ≤ h.bufs.length + 2; omega) (fun _ _ h => h) hM hiD hb.samples rfl hb.nt

theorem uvl_memory [LawfulInt G] {a : FitArgs K L} {minLen : Nat} {xLen : List Nat} (hv : SafeVL a minLen xLen)
    (hD : DrawSafe G K minLen) (hp0 : PercSafe a.pMin)
    (hp1 : PercSafe a.pMax) {b : FitIn K L} (hb : FitHeld h b a) (g0 : G) {workers : Nat → List (List Nat × G)}
    (hw : ∀ n, Divides (workers n) n) :
    ∃ P g1 gs S, uInit a.nShp a.sizes minLen a.pNorm a.prime g0 = .ok (P, g1) ∧
      PassesOn (UvlLeaves a xLen P) (workers (uniqueSorted P.dilations).length) gs ∧
      UvlReturns h b xLen P workers S ∧
      ∀ order, IsSchedule order → uvlGenerate a minLen xLen g0 gs order = .ok S := by
  obtain ⟨P, g', hP, hI, hthr, mx, hmx, hval⟩ := uInit_safe hD a.pNorm a.prime hv.nShp hv.sizes hv.bounds g0
  obtain ⟨maxLen, hM1, hM2⟩ := maxLen_ok hv.data hv.ne
  obtain ⟨lens, hlens⟩ := lens_read hv.data
  have hpok := parOK_of_safe hv.bounds hI
  have hmx' : ∀ l ∈ P.lengths, l ≤ mx := fun l hl => hmx l (hI.mem l hl)
  have e0 : (P.values, P.threshold) = uTarget P.lengths mx fun _ => none := by
    rw [hval, hthr]
    unfold uTarget
    simp [uRowOf, thrOf, List.map_const', hI.len]
  have hstep := fun minL m i (hi : i < P.lengths.length) =>
    uvlStep_safe (G := G) hv.data hv.nf hp0 hp1 hpok hi hM2 (fun _ => 1) minL m
  have hwr := fun S i v (hi : i < P.lengths.length) (hS : S i = none)
    (hvv : ∀ o : Out K, v = some o → o.values.length = P.lengths.getD i 0) => uWrite_ok hmx' S i v hi hS hvv
  have hws := hw (uniqueSorted P.dilations).length
  obtain ⟨gs, st, hst0, hst, hloop, hgs⟩ := workers_value (m0 := fun _ s _ t => decide (t < xLen.getD s 0)) hpok.dil hwr
    (fun i o _ h v ho => by simpa [parOf] using (h v ho).size.1) hstep g0 _
    (fun _ _ s _ t => decide (t < xLen.getD s 0)) (fun _ => none)
    (divides_nodup hws) (divides_lt hws) (fun _ _ => rfl) (fun _ _ _ _ => rfl)
  obtain ⟨out, hgood, hrun⟩ := fitLoop_safe hpok.dil hwr
    (fun i o _ h v ho => by simpa [parOf] using (h v ho).size.1) 
    (fun _ s _ t => decide (t < xLen.getD s 0)) hstep gs
  obtain ⟨masks, hm⟩ := hrun _ hws
  rw [hloop] at hm
  have hst2 : (st (workers (uniqueSorted P.dilations).length).length).2 =
      uTarget P.lengths mx fun i => if i < P.lengths.length then some (out i) else none := by
    rw [Except.ok.inj hm]
  have hnS : b.nShp = a.nShp := hb.nShp
  refine ⟨P, g', gs, uFinish P (uTarget P.lengths mx fun i => if i < P.lengths.length then some (out i) else none), hP,
    hgs.mono fun i g g2 hn => (by
      obtain ⟨st, e⟩ := hn (fun _ _ s _ t => decide (t < xLen.getD s 0)) _ rfl fun _ _ => rfl
      exact ⟨maxLen, st, hM1, by rw [e0]; exact e⟩), ?_, ?_⟩
  rotate_left
  · intro order ho
    obtain ⟨masks', hm'⟩ := hrun (order (uniqueSorted P.dilations).length) (ho _)
    unfold uvlGenerate
    rw [hM1, Res.bind_ok, hP, Res.bind_ok]
    simp only
    rw [hlens, Res.bind_ok, e0, hm', Res.bind_ok]
    rfl
  · rw [← hst2]
    unfold UvlReturns
    rw [hnS]
    have hl0 : 0 < P.lengths.length := by rw [hI.len]; exact hv.nShp
    have hnew : h.bufs.length ≤ (uAlloc h P b.X.length maxLen).2.2.addr := by
      show _ ≤ h.bufs.length + 2
      omega
    obtain ⟨h1, he1, hf1⟩ := uvlFill_ends (xLen := xLen) hnew (fun s hs => by
        have hs : s < xLen.length := by rw [hv.data.len, ← hb.samples]; exact hs
        rw [aget_eq_ok, getD_lt _ hs, List.getElem?_eq_getElem hs])
      (fun arr _ _ ho hA => hA.congr (ho _ (by show h.bufs.length ≠ h.bufs.length + 2; omega))
        (ho _ (by show h.bufs.length + 1 ≠ h.bufs.length + 2; omega)))
      (uAlloc_is h P b.X.length maxLen hval (by simp [hthr]))
    refine ⟨maxLen, hM1, h1, he1, ?_⟩
    refine u_ends hI.len hv.nShp
      ((hpok.pos 0 hl0).trans ((getD_lt 0 hl0) ▸ hmx' _ (List.getElem_mem hl0))) hpok.dil hval (by simp [hthr])
      hf1 ?_ hws (by rw [hst0, e0]) hst
    intro iD M hiD hM
    exact uvlSample_sim hb hv.data hnew (fun _ _ h => h) hM hiD hb.samples rfl

theorem msl_memory [LawfulInt G] {a : FitArgs K L} (hv : SafeSL a) {mc : Nat} (hmc : 1 ≤ mc) (hmcf : mc ≤ a.nf)
    (hD : DrawSafe G K a.nt) (hp0 : PercSafe a.pMin) (hp1 : PercSafe a.pMax) {b : FitIn K L} (hb : FitHeld h b a) (g0 : G)
    {workers : Nat → List (List Nat × G)} (hw : ∀ n, Divides (workers n) n) :
    ∃ P g1 gs S, mInit a.nShp a.sizes a.nt a.pNorm mc a.prime g0 = .ok (P, g1) ∧
      PassesOn (MslLeaves a P) (workers (uniqueSorted P.dilations).length) gs ∧
      MslReturns h b P workers S ∧
      ∀ order, IsSchedule order → mslGenerate a mc g0 gs order = .ok S := by
  obtain ⟨P, g', hP, hI, hthr, hncl, hnc, hch, hval⟩ :=
    mInit_safe hD a.pNorm a.prime hv.nShp hv.sizes hv.bounds hmc g0
  have hpok := parOK_of_safe hv.bounds hI
  have hncl' : P.nChannels.length = P.lengths.length := by rw [hncl, hI.len]
  have e0 := mArr0_eq hI.len hncl hthr hch hval
  have hstep := fun minL m i (hi : i < P.lengths.length) => mslStep_safe (G := G) hv.data hp0 hp1 hpok hi hncl'
    (fun c hc => (hnc c hc).2.trans hmcf) minL m
  have hwr := fun S i v (hi : i < P.lengths.length) (hS : S i = none)
    (hvv : ∀ o : Out K, v = some o → o.values.length = P.nChannels.getD i 0 * P.lengths.getD i 0 ∧
      o.channels.length = P.nChannels.getD i 0) => mWrite_ok hncl' S i v hi hS hvv
  have hws := hw (uniqueSorted P.dilations).length
  obtain ⟨gs, st, hst0, hst, hloop, hgs⟩ := workers_value (m0 := fun _ _ _ _ => true) hpok.dil hwr
    (fun i o _ h v ho => ⟨(h v ho).size.1, ((h v ho).size.2 rfl).1⟩) hstep g0 _ (fun _ _ _ _ _ => true) (fun _ => none)
    (divides_nodup hws) (divides_lt hws) (fun _ _ => rfl) (fun _ _ _ _ => rfl)
  obtain ⟨out, hgood, hrun⟩ := fitLoop_safe hpok.dil hwr
    (fun i o _ h v ho => ⟨(h v ho).size.1, ((h v ho).size.2 rfl).1⟩) (fun _ _ _ _ => true) hstep gs
  obtain ⟨masks, hm⟩ := hrun _ hws
  rw [hloop] at hm
  have hst2 : (st (workers (uniqueSorted P.dilations).length).length).2 =
      mTarget P.lengths P.nChannels fun i => if i < P.lengths.length then some (out i) else none := by
    rw [Except.ok.inj hm]
  obtain ⟨S, kept, hfin, hfrom, hwf⟩ := mFinish_from hpok.dil hpok.norm hncl' (out := out) (nf := a.nf)
    (fun i v hi hvv => ⟨(hgood i hi v hvv).size.1, (hgood i hi v hvv).size.2 rfl⟩) hpok.pos
  have hnS : b.nShp = a.nShp := hb.nShp
  refine ⟨P, g', gs, S, hP,
    hgs.mono fun i g g2 hn => by rw [MslLeaves, e0]; exact hn _ _ rfl fun _ _ => rfl, ?_, ?_⟩
  rotate_left
  · intro order ho
    obtain ⟨masks', hm'⟩ := hrun (order (uniqueSorted P.dilations).length) (ho _)
    unfold mslGenerate
    rw [hP, Res.bind_ok]
    simp only
    rw [e0, hm', Res.bind_ok]
    exact hfin
  · unfold MslReturns
    rw [hnS]
    refine m_ends hI.len hpok.dil hncl' (mAlloc_is h P a.nShp _ _ _ (by simp [hthr])) ?_ hws (by rw [hst0, e0]) hst
      ((congrArg (mFinish P) hst2).trans hfin)
    intro iD M hiD hM
    exact mslSample_sim hb hv.data (by rw [(mAlloc_fresh h P a.nShp _ _ _).mask]; omega) (fun _ _ h => h) hM hiD
      hb.samples hb.nf hb.nt

theorem mvl_memory [LawfulInt G] {a : FitArgs K L} {minLen : Nat} {xLen : List Nat} (hv : SafeVL a minLen xLen)
    {mc : Nat} (hmc : 1 ≤ mc) (hmcf : mc ≤ a.nf)
    (hD : DrawSafe G K minLen) (hp0 : PercSafe a.pMin) (hp1 : PercSafe a.pMax) {b : FitIn K L} (hb : FitHeld h b a) (g0 : G)
    {workers : Nat → List (List Nat × G)} (hw : ∀ n, Divides (workers n) n) :
    ∃ P g1 gs S, mInit a.nShp a.sizes minLen a.pNorm mc a.prime g0 = .ok (P, g1) ∧
      PassesOn (MvlLeaves a xLen P) (workers (uniqueSorted P.dilations).length) gs ∧
      MvlReturns h b xLen P workers S ∧
      ∀ order, IsSchedule order → mvlGenerate a mc minLen xLen g0 gs order = .ok S := by
  obtain ⟨P, g', hP, hI, hthr, hncl, hnc, hch, hval⟩ :=
    mInit_safe hD a.pNorm a.prime hv.nShp hv.sizes hv.bounds hmc g0
  obtain ⟨maxLen, hM1, hM2⟩ := maxLen_ok hv.data hv.ne
  obtain ⟨lens, hlens⟩ := lens_read hv.data
  have hpok := parOK_of_safe hv.bounds hI
  have hncl' : P.nChannels.length = P.lengths.length := by rw [hncl, hI.len]
  have e0 := mArr0_eq hI.len hncl hthr hch hval
  have hstep := fun minL m i (hi : i < P.lengths.length) => mvlStep_safe (G := G) hv.data hp0 hp1 hpok hi hncl'
    (fun c hc => (hnc c hc).2.trans hmcf) hM2 minL m
  have hwr := fun S i v (hi : i < P.lengths.length) (hS : S i = none)
    (hvv : ∀ o : Out K, v = some o → o.values.length = P.nChannels.getD i 0 * P.lengths.getD i 0 ∧
      o.channels.length = P.nChannels.getD i 0) => mWrite_ok hncl' S i v hi hS hvv
  have hws := hw (uniqueSorted P.dilations).length
  obtain ⟨gs, st, hst0, hst, hloop, hgs⟩ := workers_value (m0 := fun _ s _ t => decide (t < xLen.getD s 0)) hpok.dil hwr
    (fun i o _ h v ho => ⟨(h v ho).size.1, ((h v ho).size.2 rfl).1⟩) hstep g0 _
    (fun _ _ s _ t => decide (t < xLen.getD s 0)) (fun _ => none)
    (divides_nodup hws) (divides_lt hws) (fun _ _ => rfl) (fun _ _ _ _ => rfl)
  obtain ⟨out, hgood, hrun⟩ := fitLoop_safe hpok.dil hwr
    (fun i o _ h v ho => ⟨(h v ho).size.1, ((h v ho).size.2 rfl).1⟩) 
    (fun _ s _ t => decide (t < xLen.getD s 0)) hstep gs
  obtain ⟨masks, hm⟩ := hrun _ hws
  rw [hloop] at hm
  have hst2 : (st (workers (uniqueSorted P.dilations).length).length).2 =
      mTarget P.lengths P.nChannels fun i => if i < P.lengths.length then some (out i) else none := by
    rw [Except.ok.inj hm]
  obtain ⟨S, kept, hfin, hfrom, hwf⟩ := mFinish_from hpok.dil hpok.norm hncl' (out := out) (nf := a.nf)
    (fun i v hi hvv => ⟨(hgood i hi v hvv).size.1, (hgood i hi v hvv).size.2 rfl⟩) hpok.pos
  have hnS : b.nShp = a.nShp := hb.nShp
  refine ⟨P, g', gs, S, hP,
    hgs.mono fun i g g2 hn => (by
      obtain ⟨st, e⟩ := hn (fun _ _ s _ t => decide (t < xLen.getD s 0)) _ rfl fun _ _ => rfl
      exact ⟨maxLen, st, hM1, by rw [e0]; exact e⟩), ?_, ?_⟩
  rotate_left
  · intro order ho
    obtain ⟨masks', hm'⟩ := hrun (order (uniqueSorted P.dilations).length) (ho _)
    unfold mvlGenerate
    rw [hM1, Res.bind_ok, hP, Res.bind_ok]
    simp only
    rw [hlens, Res.bind_ok, e0, hm', Res.bind_ok]
    exact hfin
  · unfold MvlReturns
    rw [hnS]
    have hfr := mAlloc_fresh h P a.nShp b.X.length b.nf maxLen
    have hnew : h.bufs.length ≤ (mAlloc h P a.nShp b.X.length b.nf maxLen).2.2.addr := by rw [hfr.mask]; omega
    obtain ⟨h1, he1, hf1⟩ := mvlFill_ends (xLen := xLen) hnew (fun s hs => by
        have hs : s < xLen.length := by rw [hv.data.len, ← hb.samples]; exact hs
        rw [aget_eq_ok, getD_lt _ hs, List.getElem?_eq_getElem hs])
      (fun arr h h' ho hA => hA.of_onlyMask hfr ho)
      (mAlloc_is h P a.nShp b.X.length b.nf maxLen (by simp [hthr]))
    refine ⟨maxLen, hM1, h1, he1, ?_⟩
    refine m_ends hI.len hpok.dil hncl' hf1 ?_ hws (by rw [hst0, e0]) hst ((congrArg (mFinish P) hst2).trans hfin)
    intro iD M hiD hM
    exact mvlSample_sim hb hv.data hnew (fun _ _ h => h) hM hiD hb.samples hb.nf

end Convst.Mem
