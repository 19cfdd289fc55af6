import Verif.Proofs.MemoryFitMask

/-! # The sampling steps in memory do what the sampling steps on values do (for C112) -/

set_option autoImplicit false
set_option linter.unusedSectionVars false

namespace Convst.Mem
open Spec

variable {G K L : Type} [Gen G K] [Scalar K] [DecidableEq L] {M R : Cells}

/-- A sampling step in memory simulates one on values. -/
def SampleSim (h0 : Heap (Cell K)) (mk : MaskBuf) (iD : Nat) (M R : Cells)
    (sample : Nat → Nat → PM G K (Option (Out K))) (step : Nat → SubMask → Nat → RM G (SubMask × Option (Out K))) : Prop :=
  ∀ minL i m m' o g g' masks h, Unchanged h0 h → MaskIs mk (Function.update masks iD m) h →
    step minL m i g = .ok ((m', o), g') →
    wpc M R (sample minL i g) h fun r h' => r = (o, g') ∧ MaskIs mk (Function.update masks iD m') h' ∧ OnlyMask mk h h'

theorem sliceStop_le (n : Nat) (k : Int) : sliceStop n k ≤ n := by
  unfold sliceStop
  split
  · omega
  · exact Nat.min_le_left _ _

theorem vlStop_le (phase : Bool) (nt n l d : Nat) : vlStop phase nt n l d ≤ nt := sliceStop_le _ _

theorem any_map_id (n : Nat) (p : Nat → Bool) : ((List.range n).map p).any id = !(whereIdx n p).isEmpty := by
  unfold whereIdx
  rw [Bool.eq_iff_iff]
  simp [List.filter_eq_nil_iff]

theorem any_range (n : Nat) (p : Nat → Bool) : (List.range n).any p = !(whereIdx n p).isEmpty := by
  unfold whereIdx
  rw [Bool.eq_iff_iff]
  simp [List.filter_eq_nil_iff]

theorem getD_map_range {β : Type} {n t : Nat} (ht : t < n) (f : Nat → β) (d : β) : ((List.range n).map f).getD t d = f t := by
  rw [getD_lt _ (by simpa using ht)]
  simp

theorem cand_congr {n stop : Nat} {p q : Nat → Nat → Bool} (hpq : ∀ s t, s < n → t < stop → p s t = q s t) :
    ((List.range n).flatMap fun s => (whereIdx stop fun t => p s t).map fun t => (s, t)) =
      (List.range n).flatMap fun s => (whereIdx stop fun t => q s t).map fun t => (s, t) := by
  unfold List.flatMap
  congr 1
  refine List.map_congr_left fun s hs => ?_
  rw [whereIdx_congr fun t ht => hpq s t (List.mem_range.1 hs) ht]

theorem mem_cand {n stop s : Nat} {p : Nat → Nat → Bool}
    (hs : s ∈ (((List.range n).flatMap fun s => (whereIdx stop fun t => p s t).map fun t => (s, t)).map Prod.fst)) :
    s < n := by
  simp only [List.mem_map, List.mem_flatMap, List.mem_range] at hs
  obtain ⟨_, ⟨s', hs', t, _, rfl⟩, rfl⟩ := hs
  exact hs'

theorem enoughRows_eq {alpha : K} {m : SubMask} {norm : Bool} {s t stop : Nat} (ht : t < stop) (channels : List Nat) :
    enoughRows alpha (channels.map fun c => (List.range stop).map (m norm s c)) t = enough alpha m norm s t channels := by
  unfold enoughRows enough
  rw [List.length_map, List.countP_map]
  congr 3
  funext c
  exact getD_map_range ht _ _

theorem choiceNoRep_lt [LawfulInt G] {n k : Nat} {r : List Nat} {g g1 : G}
    (h : choiceNoRep (List.range n) k g = .ok (r, g1)) : ∀ c ∈ r, c < n := by
  by_cases hk : k ≤ n
  · obtain ⟨r', g', h1, -, -, h2⟩ := wp_choiceNoRep (G := G) (a := List.range n) List.nodup_range (k := k) (by simpa using hk) g
    rw [h1] at h
    cases h
    intro c hc
    exact List.mem_range.1 (h2 c hc)
  · unfold choiceNoRep at h
    rw [if_pos (by simpa using hk)] at h
    cases h

section
variable {h0 : Heap (Cell K)} {b : FitIn K L} {a : FitArgs K L} {mk : MaskBuf} {lengths dilations : List Nat}
  {normalize : List Bool} {nChannels xLen : List Nat} {iD : Nat}

theorem uslSample_sim (hb : FitHeld h0 b a) (hd : DataSL a) (hnew : h0.bufs.length ≤ mk.addr)
    (hR : ∀ x i, x < h0.bufs.length → R x i) (hM : MayMask M mk iD) (hiD : iD < mk.nDil)
    (hns : mk.ns = a.X.length) (hnc : mk.nc = 1) (hnt : mk.nt = a.nt) :
    SampleSim (G := G) h0 mk iD M R (uslSample b mk lengths dilations normalize iD)
      (uslStep a lengths dilations normalize) := by
  intro minL i m m' o g g' masks h hu hm hst
  unfold uslStep at hst
  unfold uslSample
  simp only [hb.samples, hb.phase, hb.nt, hb.y, hb.alpha, hb.pMin, hb.pMax]
  replace hst := RM.bind_eq_ok.1 hst
  obtain ⟨d, g1, e1, hst⟩ := hst
  refine wpm_rand e1 ?_
  replace hst := RM.bind_eq_ok.1 hst
  obtain ⟨l, g2, e2, hst⟩ := hst
  refine wpm_rand e2 ?_
  replace hst := RM.bind_eq_ok.1 hst
  obtain ⟨norm, g3, e3, hst⟩ := hst
  refine wpm_rand e3 ?_
  try simp only at hst
  generalize (if a.phase then (a.nt : Int) else (a.nt : Int) - ((l : Int) - 1) * d) = dShape at hst ⊢
  refine wpm_mem ?_
  refine wpc_collect (ys := fun s => (List.range (sliceStop a.nt dShape)).map (m norm s 0)) (fun s hs => ?_) ?_
  · refine wpc_readMask hm hM hiD norm (by rw [hns]; exact List.mem_range.1 hs) (by omega)
      (by rw [hnt]; exact sliceStop_le _ _) ?_
    rw [Function.update_self]
    exact ⟨rfl, rfl⟩
  rw [cand_congr (q := fun s t => m norm s 0 t) fun s t hs ht => by
    rw [getD_map_range hs, getD_map_range ht]]
  split at hst
  · rename_i hpos
    rw [if_pos hpos]
    replace hst := RM.bind_eq_ok.1 hst
    obtain ⟨s, g4, e4, hst⟩ := hst
    refine wpm_rand e4 ?_
    replace hst := RM.bind_eq_ok.1 hst
    obtain ⟨index, g5, e5, hst⟩ := hst
    refine wpm_rand e5 ?_
    replace hst := RM.bind_eq_ok.1 hst
    obtain ⟨m1, g6, e6, hst⟩ := hst
    have f6 := ofRes_apply.1 e6
    clear e6
    obtain ⟨f6, rfl⟩ := f6
    refine wpm_mem ?_
    rw [← hns, ← hnc, ← hnt] at f6
    rw [hnt] at f6
    refine markLoop_sim hm hM hiD (by rw [hnt]; exact f6) fun h2 hm2 ho2 => ?_
    have hu2 : Unchanged h0 h2 := unchanged_of_onlyMask hu hnew ho2
    replace hst := RM.bind_eq_ok.1 hst
    obtain ⟨x, g7, e7, hst⟩ := hst
    have f7 := ofRes_apply.1 e7
    clear e7
    obtain ⟨f7, rfl⟩ := f7
    refine wpm_mem (wpc_readSeries hb hu2 hR f7 (row_length hd.nt f7).ge ?_)
    rw [List.take_of_length_le (row_length hd.nt f7).le]
    replace hst := RM.bind_eq_ok.1 hst
    obtain ⟨v, g8, e8, hst⟩ := hst
    refine wpm_rand e8 ?_
    replace hst := RM.bind_eq_ok.1 hst
    obtain ⟨test, g9, e9, hst⟩ := hst
    refine wpm_rand e9 ?_
    replace hst := RM.bind_eq_ok.1 hst
    obtain ⟨x', g10, e10, hst⟩ := hst
    have f10 := ofRes_apply.1 e10
    clear e10
    obtain ⟨f10, rfl⟩ := f10
    refine wpm_mem (wpc_readSeries hb hu2 hR f10 (row_length hd.nt f10).ge ?_)
    rw [List.take_of_length_le (row_length hd.nt f10).le]
    replace hst := RM.bind_eq_ok.1 hst
    obtain ⟨D, g11, e11, hst⟩ := hst
    refine wpm_rand e11 ?_
    replace hst := RM.bind_eq_ok.1 hst
    obtain ⟨thr, g12, e12, hst⟩ := hst
    refine wpm_rand e12 ?_
    cases hst
    exact ⟨rfl, hm2, ho2⟩
  · rename_i hpos
    rw [if_neg hpos]
    cases hst
    exact ⟨rfl, hm, .refl _ _⟩

theorem uvlSample_sim {n0 : Nat} (hb : FitHeld h0 b a) (hd : DataVL a xLen n0) (hnew : h0.bufs.length ≤ mk.addr)
    (hR : ∀ x i, x < h0.bufs.length → R x i) (hM : MayMask M mk iD) (hiD : iD < mk.nDil)
    (hns : mk.ns = a.X.length) (hnc : mk.nc = 1) :
    SampleSim (G := G) h0 mk iD M R (uvlSample b xLen mk.nt mk lengths dilations normalize iD)
      (uvlStep a xLen mk.nt lengths dilations normalize) := by
  have hlen : ∀ s c n x, aget2 a.X s c = .ok x → aget xLen s = .ok n → n ≤ x.length := by
    intro s c n x hx hn
    rw [row_length hd.nt hx]
    exact hd.le n (List.mem_of_getElem? (aget_eq_ok.1 hn))
  intro minL i m m' o g g' masks h hu hm hst
  unfold uvlStep at hst
  unfold uvlSample
  simp only [hb.samples, hb.phase, hb.y, hb.alpha, hb.pMin, hb.pMax]
  replace hst := RM.bind_eq_ok.1 hst
  obtain ⟨d, g1, e1, hst⟩ := hst
  refine wpm_rand e1 ?_
  replace hst := RM.bind_eq_ok.1 hst
  obtain ⟨l, g2, e2, hst⟩ := hst
  refine wpm_rand e2 ?_
  replace hst := RM.bind_eq_ok.1 hst
  obtain ⟨norm, g3, e3, hst⟩ := hst
  refine wpm_rand e3 ?_
  try simp only at hst
  replace hst := RM.bind_eq_ok.1 hst
  obtain ⟨rows, g4, e4, hst⟩ := hst
  have f4 := ofRes_apply.1 e4
  clear e4
  obtain ⟨f4, rfl⟩ := f4
  have hxl : ∀ s, s < a.X.length → aget xLen s = .ok (xLen.getD s 0) := fun s hs => aget_getD 0 (by rw [hd.len]; exact hs)
  have hrows : rows = (List.range a.X.length).map fun s =>
      whereIdx (vlStop a.phase mk.nt (xLen.getD s 0) l d) fun t => m norm s 0 t := by
    have := mapM_ok (l := List.range a.X.length) (f := fun s => do
      let n ← aget xLen s
      pure (whereIdx (vlStop a.phase mk.nt n l d) fun t => m norm s 0 t)) (g := fun s =>
      whereIdx (vlStop a.phase mk.nt (xLen.getD s 0) l d) fun t => m norm s 0 t)
      (fun s hs => by rw [hxl s (List.mem_range.1 hs)]; rfl)
    rw [this] at f4
    cases f4; rfl
  subst hrows
  refine wpm_mem ?_
  refine wpc_collect (ys := fun s => (List.range (vlStop a.phase mk.nt (xLen.getD s 0) l d)).map (m norm s 0))
    (fun s hs => ?_) ?_
  · rw [wpc_bind]
    refine wpc_ret (hxl s (List.mem_range.1 hs)) ?_
    refine wpc_readMask hm hM hiD norm (by rw [hns]; exact List.mem_range.1 hs) (by omega) (vlStop_le _ _ _ _ _) ?_
    rw [Function.update_self]
    exact ⟨rfl, rfl⟩
  rw [whereIdx_congr (q := fun s => !(((List.range a.X.length).map fun s =>
      whereIdx (vlStop a.phase mk.nt (xLen.getD s 0) l d) fun t => m norm s 0 t).getD s []).isEmpty) fun s hs => by
    rw [getD_map_range hs, getD_map_range hs, any_map_id]]
  split at hst
  · rename_i hpos
    rw [if_pos hpos]
    replace hst := RM.bind_eq_ok.1 hst
    obtain ⟨s, g5, e5, hst⟩ := hst
    refine wpm_rand e5 ?_
    replace hst := RM.bind_eq_ok.1 hst
    obtain ⟨n, g6, e6, hst⟩ := hst
    refine wpm_rand e6 ?_
    have f6 := ofRes_apply.1 e6
    clear e6
    obtain ⟨f6, rfl⟩ := f6
    have hs : s < a.X.length := by
      rw [← hd.len]; exact (List.getElem?_eq_some_iff.1 (aget_eq_ok.1 f6)).1
    refine wpm_mem (wpc_readMask hm hM hiD norm (by omega) (by omega) (vlStop_le _ _ _ _ _) ?_)
    rw [Function.update_self, whereIdx_congr (q := fun t => m norm s 0 t) fun t ht => getD_map_range ht _ _]
    replace hst := RM.bind_eq_ok.1 hst
    obtain ⟨index, g7, e7, hst⟩ := hst
    refine wpm_rand e7 ?_
    replace hst := RM.bind_eq_ok.1 hst
    obtain ⟨m1, g8, e8, hst⟩ := hst
    have f8 := ofRes_apply.1 e8
    clear e8
    obtain ⟨f8, rfl⟩ := f8
    refine wpm_mem ?_
    rw [← hns, ← hnc] at f8
    refine markLoop_sim hm hM hiD f8 fun h2 hm2 ho2 => ?_
    have hu2 : Unchanged h0 h2 := unchanged_of_onlyMask hu hnew ho2
    replace hst := RM.bind_eq_ok.1 hst
    obtain ⟨x, g9, e9, hst⟩ := hst
    have f9 := ofRes_apply.1 e9
    clear e9
    obtain ⟨f9, rfl⟩ := f9
    refine wpm_mem (wpc_readSeries hb hu2 hR f9 (hlen _ _ _ _ f9 f6) ?_)
    replace hst := RM.bind_eq_ok.1 hst
    obtain ⟨v, g10, e10, hst⟩ := hst
    refine wpm_rand e10 ?_
    replace hst := RM.bind_eq_ok.1 hst
    obtain ⟨test, g11, e11, hst⟩ := hst
    refine wpm_rand e11 ?_
    replace hst := RM.bind_eq_ok.1 hst
    obtain ⟨x', g12, e12, hst⟩ := hst
    have f12 := ofRes_apply.1 e12
    clear e12
    obtain ⟨f12, rfl⟩ := f12
    replace hst := RM.bind_eq_ok.1 hst
    obtain ⟨n', g13, e13, hst⟩ := hst
    refine wpm_rand e13 ?_
    have f13 := ofRes_apply.1 e13
    clear e13
    obtain ⟨f13, rfl⟩ := f13
    refine wpm_mem (wpc_readSeries hb hu2 hR f12 (hlen _ _ _ _ f12 f13) ?_)
    replace hst := RM.bind_eq_ok.1 hst
    obtain ⟨D, g14, e14, hst⟩ := hst
    refine wpm_rand e14 ?_
    replace hst := RM.bind_eq_ok.1 hst
    obtain ⟨thr, g15, e15, hst⟩ := hst
    refine wpm_rand e15 ?_
    cases hst
    exact ⟨rfl, hm2, ho2⟩
  · rename_i hpos
    rw [if_neg hpos]
    cases hst
    exact ⟨rfl, hm, .refl _ _⟩

theorem mslSample_sim [LawfulInt G] (hb : FitHeld h0 b a) (hd : DataSL a) (hnew : h0.bufs.length ≤ mk.addr)
    (hR : ∀ x i, x < h0.bufs.length → R x i) (hM : MayMask M mk iD) (hiD : iD < mk.nDil)
    (hns : mk.ns = a.X.length) (hnc : mk.nc = a.nf) (hnt : mk.nt = a.nt) :
    SampleSim (G := G) h0 mk iD M R (mslSample b mk lengths dilations normalize nChannels iD)
      (mslStep a lengths dilations normalize nChannels) := by
  intro minL i m m' o g g' masks h hu hm hst
  unfold mslStep at hst
  unfold mslSample
  simp only [hb.samples, hb.phase, hb.nt, hb.nf, hb.y, hb.alpha, hb.pMin, hb.pMax]
  replace hst := RM.bind_eq_ok.1 hst
  obtain ⟨d, g1, e1, hst⟩ := hst
  refine wpm_rand e1 ?_
  replace hst := RM.bind_eq_ok.1 hst
  obtain ⟨l, g2, e2, hst⟩ := hst
  refine wpm_rand e2 ?_
  replace hst := RM.bind_eq_ok.1 hst
  obtain ⟨norm, g3, e3, hst⟩ := hst
  refine wpm_rand e3 ?_
  replace hst := RM.bind_eq_ok.1 hst
  obtain ⟨nc, g4, e4, hst⟩ := hst
  refine wpm_rand e4 ?_
  try simp only at hst
  generalize (if a.phase then (a.nt : Int) else (a.nt : Int) - ((l : Int) - 1) * d) = dShape at hst ⊢
  replace hst := RM.bind_eq_ok.1 hst
  obtain ⟨channels, g5, e5, hst⟩ := hst
  refine wpm_rand e5 ?_
  have hch := choiceNoRep_lt e5
  refine wpm_mem ?_
  refine wpc_collect (ys := fun s => channels.map fun c => (List.range (sliceStop a.nt dShape)).map (m norm s c))
    (fun s hs => ?_) ?_
  · refine wpc_collect (ys := fun c => (List.range (sliceStop a.nt dShape)).map (m norm s c)) (fun c hc => ?_) ⟨rfl, rfl⟩
    refine wpc_readMask hm hM hiD norm (by rw [hns]; exact List.mem_range.1 hs) (by rw [hnc]; exact hch c hc)
      (by rw [hnt]; exact sliceStop_le _ _) ?_
    rw [Function.update_self]
    exact ⟨rfl, rfl⟩
  rw [cand_congr (q := fun s t => enough a.alpha m norm s t channels) fun s t hs ht => by
    rw [getD_map_range hs, enoughRows_eq ht]]
  split at hst
  · rename_i hpos
    rw [if_pos hpos]
    replace hst := RM.bind_eq_ok.1 hst
    obtain ⟨nd, g6, e6, hst⟩ := hst
    refine wpm_rand e6 ?_
    replace hst := RM.bind_eq_ok.1 hst
    obtain ⟨s, g7, e7, hst⟩ := hst
    refine wpm_rand e7 ?_
    replace hst := RM.bind_eq_ok.1 hst
    obtain ⟨index, g8, e8, hst⟩ := hst
    refine wpm_rand e8 ?_
    replace hst := RM.bind_eq_ok.1 hst
    obtain ⟨test, g9, e9, hst⟩ := hst
    refine wpm_rand e9 ?_
    replace hst := RM.bind_eq_ok.1 hst
    obtain ⟨⟨m1, D, V⟩, g10, e10, hst⟩ := hst
    have f10 := ofRes_apply.1 e10
    clear e10
    obtain ⟨f10, rfl⟩ := f10
    refine wpm_mem ?_
    have hsh : (⟨a.X.length, a.nf, a.nt⟩ : MaskShape) = ⟨mk.ns, mk.nc, mk.nt⟩ := by rw [hns, hnc, hnt]
    rw [hsh] at f10
    have hser : ∀ (s c : Nat) (x : List K) (h' : Heap (Cell K)), Unchanged h0 h' → aget2 a.X s c = .ok x →
        wpc M R (readSeries b.X s c a.nt) h' fun r h'' => r = x ∧ h'' = h' := by
      intro s c x h' hu' hx
      refine wpc_readSeries hb hu' hR hx (row_length hd.nt hx).ge ?_
      rw [List.take_of_length_le (row_length hd.nt hx).le]
      exact ⟨rfl, rfl⟩
    refine channelLoop_sim hnew hu hm hM hiD (hser s) (hser test) f10 fun h2 hm2 ho2 => ?_
    replace hst := RM.bind_eq_ok.1 hst
    obtain ⟨thr, g11, e11, hst⟩ := hst
    refine wpm_rand e11 ?_
    cases hst
    exact ⟨rfl, hm2, ho2⟩
  · rename_i hpos
    rw [if_neg hpos]
    cases hst
    exact ⟨rfl, hm, .refl _ _⟩

theorem mvlSample_sim [LawfulInt G] {n0 : Nat} (hb : FitHeld h0 b a) (hd : DataVL a xLen n0)
    (hnew : h0.bufs.length ≤ mk.addr)
    (hR : ∀ x i, x < h0.bufs.length → R x i) (hM : MayMask M mk iD) (hiD : iD < mk.nDil)
    (hns : mk.ns = a.X.length) (hnc : mk.nc = a.nf) :
    SampleSim (G := G) h0 mk iD M R (mvlSample b xLen mk.nt mk lengths dilations normalize nChannels iD)
      (mvlStep a xLen mk.nt lengths dilations normalize nChannels) := by
  have hlen : ∀ s c n x, aget2 a.X s c = .ok x → aget xLen s = .ok n → n ≤ x.length := by
    intro s c n x hx hn
    rw [row_length hd.nt hx]
    exact hd.le n (List.mem_of_getElem? (aget_eq_ok.1 hn))
  intro minL i m m' o g g' masks h hu hm hst
  unfold mvlStep at hst
  unfold mvlSample
  simp only [hb.samples, hb.phase, hb.nf, hb.y, hb.alpha, hb.pMin, hb.pMax]
  replace hst := RM.bind_eq_ok.1 hst
  obtain ⟨d, g1, e1, hst⟩ := hst
  refine wpm_rand e1 ?_
  replace hst := RM.bind_eq_ok.1 hst
  obtain ⟨l, g2, e2, hst⟩ := hst
  refine wpm_rand e2 ?_
  replace hst := RM.bind_eq_ok.1 hst
  obtain ⟨norm, g3, e3, hst⟩ := hst
  refine wpm_rand e3 ?_
  replace hst := RM.bind_eq_ok.1 hst
  obtain ⟨nc, g4, e4, hst⟩ := hst
  refine wpm_rand e4 ?_
  try simp only at hst
  replace hst := RM.bind_eq_ok.1 hst
  obtain ⟨channels, g5, e5, hst⟩ := hst
  refine wpm_rand e5 ?_
  have hch := choiceNoRep_lt e5
  replace hst := RM.bind_eq_ok.1 hst
  obtain ⟨rows, g6, e6, hst⟩ := hst
  have f6 := ofRes_apply.1 e6
  clear e6
  obtain ⟨f6, rfl⟩ := f6
  have hxl : ∀ s, s < a.X.length → aget xLen s = .ok (xLen.getD s 0) := fun s hs => aget_getD 0 (by rw [hd.len]; exact hs)
  have hrows : rows = (List.range a.X.length).map fun s =>
      whereIdx (vlStop a.phase mk.nt (xLen.getD s 0) l d) fun t => enough a.alpha m norm s t channels := by
    have := mapM_ok (l := List.range a.X.length) (f := fun s => do
      let n ← aget xLen s
      pure (whereIdx (vlStop a.phase mk.nt n l d) fun t => enough a.alpha m norm s t channels)) (g := fun s =>
      whereIdx (vlStop a.phase mk.nt (xLen.getD s 0) l d) fun t => enough a.alpha m norm s t channels)
      (fun s hs => by rw [hxl s (List.mem_range.1 hs)]; rfl)
    rw [this] at f6
    cases f6; rfl
  subst hrows
  have hblock : ∀ (s n : Nat) {Q : List (List Bool) → Heap (Cell K) → Prop}, s < a.X.length →
      Q (channels.map fun c => (List.range (vlStop a.phase mk.nt n l d)).map (m norm s c)) h →
      wpc M R (collect channels fun c => readMask mk norm iD s c (vlStop a.phase mk.nt n l d)) h Q := by
    intro s n Q hs hQ
    refine wpc_collect (ys := fun c => (List.range (vlStop a.phase mk.nt n l d)).map (m norm s c)) (fun c hc => ?_) hQ
    refine wpc_readMask hm hM hiD norm (by rw [hns]; exact hs) (by rw [hnc]; exact hch c hc) (vlStop_le _ _ _ _ _) ?_
    rw [Function.update_self]
    exact ⟨rfl, rfl⟩
  refine wpm_mem ?_
  refine wpc_collect (ys := fun s =>
    (List.range (vlStop a.phase mk.nt (xLen.getD s 0) l d)).any fun t => enough a.alpha m norm s t channels)
    (fun s hs => ?_) ?_
  · rw [wpc_bind]
    refine wpc_ret (hxl s (List.mem_range.1 hs)) ?_
    rw [wpc_bind]
    refine hblock s _ (List.mem_range.1 hs) ?_
    refine ⟨?_, rfl⟩
    rw [any_range, any_range, whereIdx_congr fun t ht => enoughRows_eq ht channels]
  rw [whereIdx_congr (q := fun s => !(((List.range a.X.length).map fun s =>
      whereIdx (vlStop a.phase mk.nt (xLen.getD s 0) l d) fun t => enough a.alpha m norm s t channels).getD s
        []).isEmpty) fun s hs => by
    rw [getD_map_range hs, getD_map_range hs, any_range]]
  split at hst
  · rename_i hpos
    rw [if_pos hpos]
    replace hst := RM.bind_eq_ok.1 hst
    obtain ⟨s, g7, e7, hst⟩ := hst
    refine wpm_rand e7 ?_
    replace hst := RM.bind_eq_ok.1 hst
    obtain ⟨test, g8, e8, hst⟩ := hst
    refine wpm_rand e8 ?_
    replace hst := RM.bind_eq_ok.1 hst
    obtain ⟨n', g9, e9, hst⟩ := hst
    refine wpm_rand e9 ?_
    have f9 := ofRes_apply.1 e9
    clear e9
    obtain ⟨f9, rfl⟩ := f9
    replace hst := RM.bind_eq_ok.1 hst
    obtain ⟨nd, g10, e10, hst⟩ := hst
    refine wpm_rand e10 ?_
    replace hst := RM.bind_eq_ok.1 hst
    obtain ⟨n, g11, e11, hst⟩ := hst
    refine wpm_rand e11 ?_
    have f11 := ofRes_apply.1 e11
    clear e11
    obtain ⟨f11, rfl⟩ := f11
    have hs : s < a.X.length := by
      rw [← hd.len]; exact (List.getElem?_eq_some_iff.1 (aget_eq_ok.1 f11)).1
    refine wpm_mem (hblock s n hs ?_)
    rw [whereIdx_congr fun t ht => enoughRows_eq ht channels]
    replace hst := RM.bind_eq_ok.1 hst
    obtain ⟨index, g12, e12, hst⟩ := hst
    refine wpm_rand e12 ?_
    replace hst := RM.bind_eq_ok.1 hst
    obtain ⟨⟨m1, D, V⟩, g13, e13, hst⟩ := hst
    have f13 := ofRes_apply.1 e13
    clear e13
    obtain ⟨f13, rfl⟩ := f13
    refine wpm_mem ?_
    have hsh : (⟨a.X.length, a.nf, mk.nt⟩ : MaskShape) = ⟨mk.ns, mk.nc, mk.nt⟩ := by rw [hns, hnc]
    rw [hsh] at f13
    have hser : ∀ (s n : Nat), aget xLen s = .ok n → ∀ (c : Nat) (x : List K) (h' : Heap (Cell K)), Unchanged h0 h' →
        (do let x ← aget2 a.X s c; pure (x.take n)) = (.ok x : Res (List K)) →
        wpc M R (readSeries b.X s c n) h' fun r h'' => r = x ∧ h'' = h' := by
      intro s n hn c x h' hu' hx
      obtain ⟨y, hy, hx⟩ := Res.bind_eq_ok.1 hx
      cases hx
      exact wpc_readSeries hb hu' hR hy (hlen _ _ _ _ hy hn) ⟨rfl, rfl⟩
    refine channelLoop_sim hnew hu hm hM hiD (hser s n f11) (hser test n' f9) f13 fun h2 hm2 ho2 => ?_
    replace hst := RM.bind_eq_ok.1 hst
    obtain ⟨thr, g14, e14, hst⟩ := hst
    refine wpm_rand e14 ?_
    cases hst
    exact ⟨rfl, hm2, ho2⟩
  · rename_i hpos
    rw [if_neg hpos]
    cases hst
    exact ⟨rfl, hm, .refl _ _⟩

end

end Convst.Mem
