import Verif.Proofs.FitAll
import Verif.Spec.FitSafe

/-!
# `fit` in any arithmetic: no access outside the arrays

The lemmas of this file do not use the laws of the real numbers.  What they need of the arithmetic is collected
in `DrawSafe` (dilations and `choice_log`) and `PercSafe` (percentiles).
-/

set_option autoImplicit false
set_option linter.unusedSectionVars false

namespace Convst
open Spec

variable {G K L : Type} [Gen G K] [Scalar K] [DecidableEq L]

/-- What the initial draws need of the arithmetic, for series of `n` points: the dilation drawn for a bound
`q < n` is between 1 and `q`, so is `int64(2**log2(q))`, and `choice_log` finds an index. -/
structure DrawSafe (G K : Type) [Gen G K] [Scalar K] (n : Nat) : Prop where
  dil : ∀ q, 1 ≤ q → q < n →
    Wp (G := G) (drawDilation (some (Scalar.log2 (Scalar.ofNat q) : K))) fun d => 1 ≤ d ∧ d ≤ q
  pow : ∀ q, 1 ≤ q → q < n →
    1 ≤ powInt (some (Scalar.log2 (Scalar.ofNat q) : K)) ∧ powInt (some (Scalar.log2 (Scalar.ofNat q) : K)) ≤ q
  cdf : ∀ k, 2 ≤ k → ∀ g : G, ∃ i, firstGe (logCdf k : List K) (Gen.unit g).1 = .ok i ∧ i < k

/-- Percentile `q` of a non-empty array can be computed without leaving the array. -/
def PercSafe (q : K) : Prop := ∀ D : List K, D ≠ [] → ∃ p, percentile D q = .ok p

/-- What an initial draw guarantees in any arithmetic. -/
structure InitSafe (nShp : Nat) (sizes : List Nat) (n : Nat) (lengths dilations : List Nat)
    (normalize : List Bool) : Prop where
  len : lengths.length = nShp
  mem : ∀ l ∈ lengths, l ∈ sizes
  dlen : dilations.length = nShp
  dil : ∀ i, i < nShp → 1 ≤ dilations.getD i 0 ∧ (lengths.getD i 0 - 1) * dilations.getD i 0 ≤ n - 1
  nlen : normalize.length = nShp

theorem choiceLog_safe {n : Nat} (h : DrawSafe G K n) {k m : Nat} (hk : 1 ≤ k) :
    Wp (G := G) (choiceLog k m) fun r => r.length = m ∧ ∀ j ∈ r, j < k := by
  unfold choiceLog
  split
  · refine Wp.mono (Wp.mapM (R := fun _ j => j < k) ?_) ?_
    · intro _ _ g
      obtain ⟨i, h1, h2⟩ := h.cdf k (by omega) g
      refine ⟨i, (Gen.unit g).2, ?_, h2⟩
      rw [RM.bind_apply]
      simp only [unitM, Res.bind_ok, h1, ofRes]
    · intro r hr
      refine ⟨by simpa using hr.length_eq.symm, ?_⟩
      intro j hj
      obtain ⟨i, hi, rfl⟩ := List.mem_iff_getElem.1 hj
      have := (List.forall₂_iff_get.1 hr).2 i (by rw [hr.length_eq]; exact hi) hi
      simpa using this
  · refine Wp.pure ⟨by simp, ?_⟩
    intro j hj
    rw [List.mem_replicate] at hj
    omega

theorem upperBound_some {n l : Nat} (hl : 2 ≤ l) (hn : l ≤ n) :
    (upperBound n l : Option K) = some (Scalar.log2 (Scalar.ofNat (dilBound n l))) := by
  unfold upperBound
  have := dilBound_pos hl hn
  rw [if_neg (by omega)]

theorem dilBound_lt {n l : Nat} (hl : 2 ≤ l) (hn : l ≤ n) : dilBound n l < n := by
  unfold dilBound
  have := Nat.div_le_self (n - 1) (l - 1)
  omega

theorem primeDilation_safe {n : Nat} (h : DrawSafe G K n) {q N : Nat} (hq : 1 ≤ q) (hqn : q < n)
    (hN : 1 ≤ N) :
    Wp (G := G) (drawPrimeDilation (primeUpTo N) (some (Scalar.log2 (Scalar.ofNat q) : K))) fun d =>
      1 ≤ d ∧ d ≤ q := by
  unfold drawPrimeDilation
  obtain ⟨hp1, hp2⟩ := h.pow q hq hqn
  generalize powInt (some (Scalar.log2 (Scalar.ofNat q) : K)) = B at hp1 hp2
  have hmem : ∀ p, p ∈ (primeUpTo N).filter (fun p => decide (p ≤ B)) ↔
      (p ≤ N ∧ isPrime p = true) ∧ p ≤ B := by
    intro p
    rw [List.mem_filter, decide_eq_true_iff]
    unfold primeUpTo
    rw [mem_whereIdx]
    constructor
    · rintro ⟨⟨h1, h2⟩, h3⟩; exact ⟨⟨by omega, h2⟩, h3⟩
    · rintro ⟨⟨h1, h2⟩, h3⟩; exact ⟨⟨by omega, h2⟩, h3⟩
  have h1 := (hmem 1).2 ⟨⟨hN, by rw [Props.C28_is_prime]; exact Or.inr rfl⟩, hp1⟩
  simp only
  generalize (primeUpTo N).filter (fun p => decide (p ≤ B)) = shp at hmem h1
  refine Wp.bind (choiceLog_safe h (List.length_pos_iff.2 (List.ne_nil_of_mem h1))) fun r hr => ?_
  obtain ⟨hr1, hr2⟩ := hr
  refine Wp.bindRes (aget_ok (by omega)) ?_
  have hlt := hr2 _ (List.getElem_mem (by omega : 0 < r.length))
  refine Wp.ofRes (aget_ok hlt) ?_
  obtain ⟨⟨-, h2⟩, h3⟩ := (hmem _).1 (List.getElem_mem hlt)
  rw [Props.C28_is_prime] at h2
  refine ⟨?_, h3.trans hp2⟩
  rcases h2 with h | h
  · exact h.one_lt.le
  · rw [h]

theorem maxBound_mem {b : Option K} {l : List (Option K)} :
    ∃ m, maxBound (b :: l) = .ok m ∧ m ∈ b :: l := by
  refine ⟨_, rfl, ?_⟩
  induction l generalizing b with
  | nil => simp
  | cons c l ih =>
    simp only [List.foldl_cons]
    rcases List.mem_cons.1 (ih (b := _)) with h' | h'
    · rw [h']
      rcases b with _ | b <;> rcases c with _ | c
      · simp
      · simp
      · simp
      · simp only
        split <;> simp
    · exact List.mem_cons_of_mem _ (List.mem_cons_of_mem _ h')

theorem drawDilations_safe {n : Nat} (h : DrawSafe G K n) {lengths : List Nat} (prime : Bool)
    (hne : lengths ≠ []) (hl : ∀ l ∈ lengths, 2 ≤ l ∧ l ≤ n) :
    Wp (G := G) (drawDilations n lengths prime) (List.Forall₂ (fun l d => 1 ≤ d ∧ (l - 1) * d ≤ n - 1) lengths) := by
  have conv : ∀ {f : Option K → RM G Nat} {R : Nat → Nat → Prop},
      (∀ l ∈ lengths, Wp (f (upperBound n l)) (R l)) →
      Wp ((lengths.map (upperBound n)).mapM f) (List.Forall₂ R lengths) := by
    intro f R h
    rw [List.mapM_map]
    exact Wp.mapM h
  unfold drawDilations
  simp only
  cases prime with
  | false =>
    simp only [Bool.false_eq_true, if_false]
    refine conv fun l hll => ?_
    obtain ⟨h1, h2⟩ := hl l hll
    rw [upperBound_some h1 h2]
    refine Wp.mono (h.dil _ (dilBound_pos h1 h2) (dilBound_lt h1 h2)) ?_
    rintro d ⟨h3, h4⟩
    exact ⟨h3, mul_le_of_le_dilBound h4⟩
  | true =>
    simp only [if_true]
    obtain ⟨l0, ls, rfl⟩ := List.exists_cons_of_ne_nil hne
    obtain ⟨mx, e, hm⟩ := maxBound_mem (b := (upperBound n l0 : Option K)) (l := ls.map (upperBound n))
    refine Wp.bindRes e ?_
    rw [← List.map_cons] at hm
    obtain ⟨l1, hl1, rfl⟩ := List.mem_map.1 hm
    have hN : 1 ≤ powInt (upperBound n l1 : Option K) := by
      obtain ⟨h1, h2⟩ := hl l1 hl1
      rw [upperBound_some h1 h2]
      exact (h.pow _ (dilBound_pos h1 h2) (dilBound_lt h1 h2)).1
    refine conv fun l hll => ?_
    obtain ⟨h1, h2⟩ := hl l hll
    rw [upperBound_some h1 h2]
    refine Wp.mono (primeDilation_safe h (dilBound_pos h1 h2) (dilBound_lt h1 h2) hN) ?_
    rintro d ⟨h3, h4⟩
    exact ⟨h3, mul_le_of_le_dilBound h4⟩

theorem units_safe (nShp : Nat) (p : K) : Wp (G := G) ((List.range nShp).mapM fun _ => unitM) fun us =>
    (us.map fun u => Scalar.ltb u p).length = nShp := by
  refine Wp.mono (Wp.mapM (R := fun _ (_ : K) => True) fun _ _ g => ⟨_, _, rfl, trivial⟩) ?_
  intro us hus
  simpa using hus.length_eq.symm

theorem dil_getD {n : Nat} {lengths dilations : List Nat}
    (h : List.Forall₂ (fun l d => 1 ≤ d ∧ (l - 1) * d ≤ n - 1) lengths dilations) :
    dilations.length = lengths.length ∧ ∀ i, i < lengths.length →
      1 ≤ dilations.getD i 0 ∧ (lengths.getD i 0 - 1) * dilations.getD i 0 ≤ n - 1 := by
  refine ⟨h.length_eq.symm, ?_⟩
  intro i hi
  have hi' : i < dilations.length := by rw [← h.length_eq]; exact hi
  have := (List.forall₂_iff_get.1 h).2 i hi hi'
  rw [getD_lt _ hi, getD_lt _ hi']
  simpa using this

variable [LawfulInt G]

theorem uInit_safe {n : Nat} (h : DrawSafe G K n) {nShp : Nat} {sizes : List Nat} (pNorm : K) (prime : Bool)
    (hn : 1 ≤ nShp) (hne : sizes ≠ []) (hs : ∀ l ∈ sizes, 2 ≤ l ∧ l ≤ n) :
    Wp (G := G) (uInit nShp sizes n pNorm prime) fun P =>
      InitSafe nShp sizes n P.lengths P.dilations P.normalize ∧
      P.threshold = List.replicate nShp 0 ∧
      ∃ mx, (∀ l ∈ sizes, l ≤ mx) ∧ P.values = List.replicate nShp (List.replicate mx 0) := by
  unfold uInit
  refine Wp.bind (wp_choiceN hne nShp) fun lengths hlen => ?_
  refine Wp.bind (drawDilations_safe h prime (by
    rw [← List.length_pos_iff]; omega) (fun l hl => hs l (hlen.2 l hl))) fun dils hdil => ?_
  obtain ⟨hd1, hd2⟩ := dil_getD hdil
  obtain ⟨mx, e, h1, h2⟩ := nmax_ok hne
  refine Wp.bindRes e ?_
  refine Wp.bind (units_safe nShp pNorm) fun us hus => ?_
  refine Wp.pure ⟨⟨hlen.1, hlen.2, hd1.trans hlen.1, ?_, hus⟩, rfl, mx, h2, rfl⟩
  intro i hi
  exact hd2 i (by omega)

theorem mInit_safe {n : Nat} (h : DrawSafe G K n) {nShp : Nat} {sizes : List Nat} (pNorm : K) (prime : Bool)
    {mc : Nat} (hn : 1 ≤ nShp) (hne : sizes ≠ []) (hs : ∀ l ∈ sizes, 2 ≤ l ∧ l ≤ n) (hmc : 1 ≤ mc) :
    Wp (G := G) (mInit nShp sizes n pNorm mc prime) fun P =>
      InitSafe nShp sizes n P.lengths P.dilations P.normalize ∧
      P.threshold = List.replicate nShp 0 ∧ P.nChannels.length = nShp ∧
      (∀ c ∈ P.nChannels, 1 ≤ c ∧ c ≤ mc) ∧
      P.channelIds = List.replicate P.nChannels.sum 0 ∧
      P.values = List.replicate (List.zipWith (· * ·) P.lengths P.nChannels).sum 0 := by
  unfold mInit
  refine Wp.bind (wp_choiceN hne nShp) fun lengths hlen => ?_
  refine Wp.bind (drawDilations_safe h prime (by
    rw [← List.length_pos_iff]; omega) (fun l hl => hs l (hlen.2 l hl))) fun dils hdil => ?_
  obtain ⟨hd1, hd2⟩ := dil_getD hdil
  refine Wp.bind (wp_choiceN (a := List.range mc) (by simp; omega) nShp) fun ch hch => ?_
  refine Wp.bind (units_safe nShp pNorm) fun us hus => ?_
  refine Wp.pure ⟨⟨hlen.1, hlen.2, hd1.trans hlen.1, ?_, hus⟩, rfl, by simp [hch.1], ?_, rfl, rfl⟩
  · intro i hi
    exact hd2 i (by omega)
  · intro c hc
    obtain ⟨c', hc', rfl⟩ := List.mem_map.1 hc
    have := hch.2 c' hc'
    rw [List.mem_range] at this
    omega

/-- `u` is a number the generator can draw. -/
def Drawable (G : Type) {K : Type} [Gen G K] (u : K) : Prop := ∃ g : G, u = (Gen.unit g).1

theorem drawThreshold_safe {D : List K} {pMin pMax : K} (hD : D ≠ []) (h0 : PercSafe pMin)
    (h1 : PercSafe pMax) : Wp (G := G) (drawThreshold D pMin pMax) (ThrFrom pMin pMax (Drawable G) D) := by
  obtain ⟨p0, e0⟩ := h0 D hD
  obtain ⟨p1, e1⟩ := h1 D hD
  unfold drawThreshold
  refine Wp.bindRes e0 (Wp.bindRes e1 ?_)
  intro g
  exact ⟨_, _, rfl, p0, p1, _, e0, e1, ⟨g, rfl⟩, rfl⟩

/-! ## The sampling steps -/

/-- Distances computed by `fit` for the window at position `t` of the channels of series `s`, to the windows of
series `test`. -/
def fitDist (len : Nat → Nat) (series : Nat → Nat → List K) (phase : Bool) (P : Par) (multi : Bool) (i : Nat)
    (channels : List Nat) (s t test : Nat) : List K :=
  if multi then
    (List.range (nWin phase (len test) (P.length i) (P.dilation i))).map fun w => channels.foldl (fun a c =>
      a + l1 (seen (P.normalize i) (window phase (series test c) (P.length i) (P.dilation i) w))
        (seen (P.normalize i) (window phase (series s c) (P.length i) (P.dilation i) t))) 0
  else distances phase (P.normalize i) (series test 0)
    (seen (P.normalize i) (window phase (series s 0) (P.length i) (P.dilation i) t)) (P.length i) (P.dilation i)

/-- `v` was read from the training set: its values are the (normalised, when flagged) windows at position `t`
of the chosen channels of one training series, and its threshold satisfies `thr` for the distances to a series
of the same class. -/
def Extracted (ns nf : Nat) (len : Nat → Nat) (series : Nat → Nat → List K) (y : List L) (thr : List K → K → Prop)
    (phase : Bool) (P : Par) (multi : Bool) (nch : Nat → Nat) (i : Nat) (v : Out K) : Prop :=
  ∃ s t, s < ns ∧ t < nWin phase (len s) (P.length i) (P.dilation i) ∧ ChannelsOK multi nf (nch i) v.channels ∧
    (v.values = v.channels.flatMap fun c =>
      seen (P.normalize i) (window phase (series s c) (P.length i) (P.dilation i) t)) ∧
    ∃ test, Compared y s test ∧ thr (fitDist len series phase P multi i v.channels s t test) v.threshold

theorem Extracted.size {ns nf : Nat} {len : Nat → Nat} {series : Nat → Nat → List K} {y : List L}
    {thr : List K → K → Prop} {phase : Bool} {P : Par}
    {multi : Bool} {nch : Nat → Nat} {i : Nat} {v : Out K}
    (h : Extracted ns nf len series y thr phase P multi nch i v) :
    v.values.length = (if multi then nch i else 1) * P.length i ∧
    (multi = true → v.channels.length = nch i ∧ ∀ c ∈ v.channels, c < nf) := by
  obtain ⟨s, t, -, -, hch, hv, -⟩ := h
  have hl : v.values.length = v.channels.length * P.length i := by
    rw [hv, flatMap_length_eq _ _ (fun _ => P.length i) (fun c _ => by rw [seen_length, window_length])]
    simp
  rw [hl]
  unfold ChannelsOK at hch
  cases multi with
  | true => simp only [if_true] at hch ⊢; rw [hch.2.1]; exact ⟨rfl, fun _ => ⟨rfl, hch.2.2⟩⟩
  | false => simp only [Bool.false_eq_true, if_false] at hch ⊢; rw [hch]; simp

theorem readSL {a : FitArgs K L} (h : DataSL a) {s c : Nat} (hs : s < a.X.length)
    (hc : c < a.nf) : aget2 a.X s c = .ok (seriesSL a s c) ∧ (seriesSL a s c).length = a.nt := by
  have h1 : (a.X[s]).length = a.nf := h.nf _ (List.getElem_mem hs)
  have e : seriesSL a s c = a.X[s][c] := by
    show (a.X.getD s []).getD c [] = _
    rw [getD_lt _ hs, getD_lt _ (by omega)]
  refine ⟨?_, ?_⟩
  · unfold aget2
    rw [aget_ok hs, Res.bind_ok, aget_ok (by omega), e]
  · rw [e]; exact h.nt _ (List.getElem_mem hs) _ (List.getElem_mem _)

theorem readVL {a : FitArgs K L} {xLen : List Nat} {n : Nat} (h : DataVL a xLen n)
    {s c : Nat} (hs : s < a.X.length) (hc : c < a.nf) :
    (∃ x, aget2 a.X s c = .ok x ∧ x.take (xLen.getD s 0) = seriesVL a xLen s c) ∧
      (seriesVL a xLen s c).length = xLen.getD s 0 := by
  have h1 : (a.X[s]).length = a.nf := h.nf _ (List.getElem_mem hs)
  have e : seriesVL a xLen s c = (a.X[s][c]).take (xLen.getD s 0) := by
    show ((a.X.getD s []).getD c []).take _ = _
    rw [getD_lt [] hs, getD_lt [] (by omega)]
  refine ⟨⟨a.X[s][c], ?_, e.symm⟩, ?_⟩
  · unfold aget2
    rw [aget_ok hs, Res.bind_ok, aget_ok (by omega)]
  · rw [e, List.length_take, h.nt _ (List.getElem_mem hs) _ (List.getElem_mem _)]
    have hs' : s < xLen.length := by rw [h.len]; exact hs
    have := h.le _ (List.getElem_mem hs')
    rw [getD_lt _ hs']; omega

/-- What a sampling step returns in any arithmetic. -/
def StepSafe (ns nf : Nat) (len : Nat → Nat) (series : Nat → Nat → List K) (y : List L) (thr : List K → K → Prop)
    (phase : Bool) (P : Par) (multi : Bool) (nch : Nat → Nat) (i : Nat) (res : SubMask × Option (Out K)) : Prop :=
  ∀ v, res.2 = some v → Extracted ns nf len series y thr phase P multi nch i v

theorem uslStep_safe {a : FitArgs K L} (hd : DataSL a) (hnf : 1 ≤ a.nf) (h0 : PercSafe a.pMin)
    (h1 : PercSafe a.pMax) {lengths dilations : List Nat} {normalize : List Bool}
    (hP : ParOK lengths dilations normalize a.nt) {i : Nat} (hi : i < lengths.length)
    (nch : Nat → Nat) (minL : Nat) (m : SubMask) :
    Wp (G := G) (uslStep a lengths dilations normalize minL m i)
      (StepSafe a.X.length a.nf (fun _ => a.nt) (seriesSL a) a.y (ThrFrom a.pMin a.pMax (Drawable G)) a.phase (parOf lengths dilations normalize) false
        nch i) := by
  have hpos := hP.pos i hi
  have hroom := hP.room i hi
  unfold uslStep
  refine Wp.bindRes (aget_getD 0 (by rw [hP.dil]; exact hi)) ?_
  refine Wp.bindRes (aget_getD 0 hi) ?_
  refine Wp.bindRes (aget_getD false (by rw [hP.norm]; exact hi)) ?_
  have hstop := vlStop_eq (phase := a.phase) hpos hroom.le (le_refl a.nt)
  unfold vlStop at hstop
  simp only [hstop]
  generalize hl : lengths.getD i 0 = l at *
  generalize hdl : dilations.getD i 0 = d at *
  generalize hnm : normalize.getD i false = norm at *
  have hcand : ∀ s t, (s, t) ∈ ((List.range a.X.length).flatMap fun s =>
      (whereIdx (nWin a.phase a.nt l d) fun t => m norm s 0 t).map fun t => (s, t)) ↔
      s < a.X.length ∧ t < nWin a.phase a.nt l d ∧ m norm s 0 t = true := by
    intro s t
    simp only [List.mem_flatMap, List.mem_range, List.mem_map, Prod.mk.injEq, mem_whereIdx]
    constructor
    · rintro ⟨s', h1, t', ⟨h2, h3⟩, rfl, rfl⟩; exact ⟨h1, h2, h3⟩
    · rintro ⟨h1, h2, h3⟩; exact ⟨s, h1, t, ⟨h2, h3⟩, rfl, rfl⟩
  generalize ((List.range a.X.length).flatMap fun s =>
      (whereIdx (nWin a.phase a.nt l d) fun t => m norm s 0 t).map fun t => (s, t)) = cand at hcand
  split
  · rename_i hne
    have hne' : cand ≠ [] := List.length_pos_iff.1 hne
    refine Wp.bind (wp_choice1 (by simpa using hne')) fun s hs => ?_
    obtain ⟨⟨s', t0⟩, h1', rfl⟩ := List.mem_map.1 hs
    refine Wp.bind (wp_choice1 (a := (cand.filter fun p => p.1 == s').map Prod.snd) ?_)
      fun t ht => ?_
    · intro h
      rw [List.map_eq_nil_iff, List.filter_eq_nil_iff] at h
      exact h _ h1' (by simp)
    obtain ⟨⟨s'', t'⟩, h2, rfl⟩ := List.mem_map.1 ht
    rw [List.mem_filter] at h2
    have hss : s'' = s' := by simpa using h2.2
    subst hss
    obtain ⟨hsl, htl, hmt⟩ := (hcand s'' t').1 h2.1
    simp only
    have hnt : 0 < a.nt := by omega
    obtain ⟨m', e1, hm'⟩ := markLoop_ok (sh := ⟨a.X.length, 1, a.nt⟩) m norm (s := s'') (c := 0)
      (n := a.nt) t' d (alphaSize l a.alpha minL) hsl (by simp) hnt (le_refl _)
    refine Wp.bindRes e1 ?_
    obtain ⟨e2, len2⟩ := readSL hd hsl (by omega : 0 < a.nf)
    refine Wp.bindRes e2 ?_
    refine Wp.bindRes (getSubsequence_ok (by rw [len2]; exact htl)) ?_
    refine Wp.bind (wp_pickOther (by rw [hd.y]; exact hsl)) fun test htest => ?_
    have hcmp : Compared a.y _ test := htest
    obtain ⟨ht1, -, -⟩ := htest
    rw [hd.y] at ht1
    obtain ⟨e3, len3⟩ := readSL hd ht1 (by omega : 0 < a.nf)
    refine Wp.bindRes e3 ?_
    refine Wp.bindRes (Props.C17_dist_vector _ _ _ _ _ _ hpos ?_ ?_) ?_
    · rw [seen_length, window_length]
    · rw [len3]; exact fits_of_lt hroom
    refine Wp.bind (drawThreshold_safe ?_ h0 h1) fun thr hthr => ?_
    · unfold distances
      exact range_map_ne_nil _ (by rw [len3]; exact nWin_pos hroom)
    refine Wp.pure ?_
    rintro v hv
    obtain rfl := Option.some.inj hv
    refine ⟨s'', t', hsl, ?_, by simp [ChannelsOK], ?_, test, hcmp, ?_⟩
    · simpa only [parOf, hl, hdl] using htl
    · simp only [parOf, hl, hdl, hnm, List.flatMap_cons, List.flatMap_nil, List.append_nil]
    · simpa only [fitDist, parOf, hl, hdl, hnm, Bool.false_eq_true, if_false] using hthr
  · refine Wp.pure ?_
    rintro v hv
    cases hv

theorem uvlStep_safe {a : FitArgs K L} {xLen : List Nat} {n : Nat} (hd : DataVL a xLen n)
    (hnf : 1 ≤ a.nf) (h0 : PercSafe a.pMin) (h1 : PercSafe a.pMax) {lengths dilations : List Nat}
    {normalize : List Bool}
    (hP : ParOK lengths dilations normalize n) {i : Nat} (hi : i < lengths.length) {maxLen : Nat}
    (hmax : ∀ s, s < a.X.length → xLen.getD s 0 ≤ maxLen)
    (nch : Nat → Nat) (minL : Nat) (m : SubMask) :
    Wp (G := G) (uvlStep a xLen maxLen lengths dilations normalize minL m i)
      (StepSafe a.X.length a.nf (fun s => xLen.getD s 0) (seriesVL a xLen) a.y (ThrFrom a.pMin a.pMax (Drawable G)) a.phase
        (parOf lengths dilations normalize) false nch i) := by
  have hpos := hP.pos i hi
  have hroom := hP.room i hi
  unfold uvlStep
  refine Wp.bindRes (aget_getD 0 (by rw [hP.dil]; exact hi)) ?_
  refine Wp.bindRes (aget_getD 0 hi) ?_
  refine Wp.bindRes (aget_getD false (by rw [hP.norm]; exact hi)) ?_
  generalize hl : lengths.getD i 0 = l at *
  generalize hdl : dilations.getD i 0 = d at *
  generalize hnm : normalize.getD i false = norm at *
  refine Wp.bindRes (rows_ok hd hpos hroom (fun s t => m norm s 0 t) hmax) ?_
  have hmem := fun s => iMask_mem (ns := a.X.length)
    (w := fun s => whereIdx (nWin a.phase (xLen.getD s 0) l d) fun t => m norm s 0 t) (s := s)
  simp only
  generalize (whereIdx a.X.length fun s => !(List.getD ((List.range a.X.length).map fun s =>
      whereIdx (nWin a.phase (xLen.getD s 0) l d) fun t => m norm s 0 t) s []).isEmpty) = iMask
    at hmem ⊢
  split
  · rename_i hne
    refine Wp.bind (wp_choice1 (List.length_pos_iff.1 hne)) fun s hs => ?_
    obtain ⟨hsl, hw⟩ := (hmem s).1 hs
    obtain ⟨ex, hxn⟩ := hd.xlen hsl
    refine Wp.bindRes ex ?_
    rw [vlStop_eq hpos (by omega) (hmax s hsl)]
    refine Wp.bind (wp_choice1 hw) fun t ht => ?_
    obtain ⟨htl, hmt⟩ := mem_whereIdx.1 ht
    obtain ⟨m', e1, hm'⟩ := markLoop_ok (sh := ⟨a.X.length, 1, maxLen⟩) m norm (s := s) (c := 0)
      (n := xLen.getD s 0) t d (alphaSize l a.alpha minL) hsl (by simp) (by omega) (hmax s hsl)
    refine Wp.bindRes e1 ?_
    obtain ⟨⟨x, e2, hx⟩, len2⟩ := readVL hd hsl (by omega : 0 < a.nf)
    refine Wp.bindRes e2 ?_
    rw [hx]
    refine Wp.bindRes (getSubsequence_ok (by rw [len2]; exact htl)) ?_
    refine Wp.bind (wp_pickOther (by rw [hd.y]; exact hsl)) fun test htest => ?_
    have hcmp : Compared a.y _ test := htest
    obtain ⟨ht1, -, -⟩ := htest
    rw [hd.y] at ht1
    obtain ⟨⟨x', e3, hx'⟩, len3⟩ := readVL hd ht1 (by omega : 0 < a.nf)
    obtain ⟨ex', hxn'⟩ := hd.xlen ht1
    refine Wp.bindRes e3 ?_
    refine Wp.bindRes ex' ?_
    rw [hx']
    refine Wp.bindRes (Props.C17_dist_vector _ _ _ _ _ _ hpos ?_ ?_) ?_
    · rw [seen_length, window_length]
    · rw [len3]; exact fits_of_lt (by omega)
    refine Wp.bind (drawThreshold_safe ?_ h0 h1) fun thr hthr => ?_
    · unfold distances
      exact range_map_ne_nil _ (by rw [len3]; exact nWin_pos (by omega))
    refine Wp.pure ?_
    rintro v hv
    obtain rfl := Option.some.inj hv
    refine ⟨s, t, hsl, ?_, by simp [ChannelsOK], ?_, test, hcmp, ?_⟩
    · simpa only [parOf, hl, hdl] using htl
    · simp only [parOf, hl, hdl, hnm, List.flatMap_cons, List.flatMap_nil, List.append_nil]
    · simpa only [fitDist, parOf, hl, hdl, hnm, Bool.false_eq_true, if_false] using hthr
  · refine Wp.pure ?_
    rintro v hv
    cases hv

/-- The loop over the channels of a multivariate shapelet. -/
theorem channelLoop_safe {sh : MaskShape} {xs xt : Nat → Res (List K)} {S S' : Nat → List K}
    {channels : List Nat} (hc : ∀ c ∈ channels, c < sh.nc)
    {Ts Tt : Nat} (hxs : ∀ c ∈ channels, xs c = .ok (S c) ∧ (S c).length = Ts)
    (hxt : ∀ c ∈ channels, xt c = .ok (S' c) ∧ (S' c).length = Tt)
    (m : SubMask) (norm phase : Bool) {s index l d n : Nat} (size : Int) (hs : s < sh.ns)
    (hl : 1 ≤ l) (hidx : index < nWin phase Ts l d) (hfit : Fits phase Tt l d) (hn : 0 < n)
    (hnt : n ≤ sh.nt) :
    ∃ m', channelLoop sh xs xt channels m norm phase s index l d n size
        (List.replicate (nWin phase Tt l d) 0) =
      .ok (m', (List.range (nWin phase Tt l d)).map (fun w => channels.foldl (fun a c =>
          a + l1 (seen norm (window phase (S' c) l d w)) (seen norm (window phase (S c) l d index))) 0),
        channels.flatMap fun c => seen norm (window phase (S c) l d index)) := by
  unfold channelLoop
  have key := forRange_inv (n := channels.length)
    (s := (m, List.replicate (nWin phase Tt l d) (0 : K),
      List.replicate (channels.length * l) (0 : K), 0))
    (f := fun (st : SubMask × List K × List K × Nat) k => do
      let c ← aget channels k
      let m' ← markLoop sh st.1 norm s c index d n size
      let b3 := st.2.2.2 + l
      let x ← xs c
      let v ← getSubsequence x index l d norm phase
      let x' ← xt c
      let D ← computeShapeletDistVector x' v l d norm phase
      let dist' ← addInto st.2.1 D
      let vals' ← sliceAssign st.2.2.1 st.2.2.2 b3 v
      pure (m', dist', vals', b3))
    (P := fun k st => (st.2.1 = (List.range (nWin phase Tt l d)).map fun w => (channels.take k).foldl (fun a c =>
          a + l1 (seen norm (window phase (S' c) l d w)) (seen norm (window phase (S c) l d index))) 0) ∧
      st.2.2.1 = ((channels.take k).flatMap fun c => seen norm (window phase (S c) l d index)) ++
        List.replicate ((channels.length - k) * l) 0 ∧ st.2.2.2 = k * l)
    (by refine ⟨by simp [List.map_const'], by simp, by simp⟩)
  refine Exists.elim (key ?_) ?_ <;> clear key
  rotate_left
  · rintro ⟨m', dist, vals, a3⟩ ⟨e, h2, h3, h4⟩
    simp only at h2 h3 h4
    refine ⟨m', ?_⟩
    simp only at e ⊢
    rw [e, Res.bind_ok]
    simp [h2, h3, Res.pure_eq]
  · rintro k ⟨m1, dist, vals, a3⟩ hk ⟨h2, h3, h4⟩
    simp only at h2 h3 h4
    have hmem : channels[k] ∈ channels := List.getElem_mem hk
    obtain ⟨m2, e1, hm2⟩ := markLoop_ok m1 norm index d size hs (hc _ hmem) hn hnt
    obtain ⟨e2, len2⟩ := hxs _ hmem
    obtain ⟨e3, len3⟩ := hxt _ hmem
    have e4 := getSubsequence_ok (x := S channels[k]) (norm := norm) (by rw [len2]; exact hidx)
    have e5 := Props.C17_dist_vector (S' channels[k])
      (seen norm (window phase (S channels[k]) l d index)) l d norm phase hl
      (by rw [seen_length, window_length]) (by rw [len3]; exact hfit)
    have hv : (seen norm (window phase (S channels[k]) l d index)).length = l := by
      rw [seen_length, window_length]
    have htake : channels.take (k + 1) = channels.take k ++ [channels[k]] := by
      rw [List.take_add_one, List.getElem?_eq_getElem hk]; rfl
    have hlen : ((channels.take k).flatMap fun c => seen norm (window phase (S c) l d index)).length
        = k * l := by
      rw [List.length_flatMap]
      simp only [seen_length, window_length, List.map_const', List.sum_replicate, smul_eq_mul,
        List.length_take, Nat.min_eq_left hk.le]
    have hrep : List.replicate ((channels.length - k) * l) (0 : K) =
        List.replicate l 0 ++ List.replicate ((channels.length - (k + 1)) * l) 0 := by
      rw [List.replicate_append_replicate]
      congr 1
      have : channels.length - k = channels.length - (k + 1) + 1 := by omega
      rw [this]; ring
    have hDl : (distances phase norm (S' channels[k])
        (seen norm (window phase (S channels[k]) l d index)) l d).length = nWin phase Tt l d := by
      unfold distances
      rw [List.length_map, List.length_range, len3]
    have e6 : addInto dist (distances phase norm (S' channels[k])
        (seen norm (window phase (S channels[k]) l d index)) l d) =
        .ok (List.zipWith (· + ·) dist (distances phase norm (S' channels[k])
        (seen norm (window phase (S channels[k]) l d index)) l d)) := by
      unfold addInto
      rw [if_pos (by rw [h2, hDl]; simp)]
    have e7 : sliceAssign vals a3 (a3 + l) (seen norm (window phase (S channels[k]) l d index)) =
        .ok (((channels.take (k + 1)).flatMap fun c => seen norm (window phase (S c) l d index)) ++
        List.replicate ((channels.length - (k + 1)) * l) 0) := by
      rw [h3, hrep, ← List.append_assoc, sliceAssign_mid (by simp [hv]) (by rw [hlen, h4])
        (by rw [hlen, hv, h4]), htake, List.flatMap_append]
      simp
    refine ⟨(m2, List.zipWith (· + ·) dist (distances phase norm (S' channels[k])
        (seen norm (window phase (S channels[k]) l d index)) l d),
        ((channels.take (k + 1)).flatMap fun c => seen norm (window phase (S c) l d index)) ++
          List.replicate ((channels.length - (k + 1)) * l) 0, (k + 1) * l), ?_, ?_, rfl, rfl⟩
    · simp only [aget_ok hk, Res.bind_ok, e1, e2, e3, e4, e5]
      rw [e6, Res.bind_ok, e7, Res.bind_ok, Res.pure_eq, h4]
      congr 4
      ring
    · simp only [h2]
      unfold distances
      rw [len3, List.zipWith_map, List.zipWith_self, htake]
      simp only [List.foldl_append, List.foldl_cons, List.foldl_nil]

theorem mslStep_safe {a : FitArgs K L} (hd : DataSL a) (h0 : PercSafe a.pMin) (h1 : PercSafe a.pMax)
    {lengths dilations : List Nat} {normalize : List Bool} {nChannels : List Nat}
    (hP : ParOK lengths dilations normalize a.nt) {i : Nat} (hi : i < lengths.length)
    (hnch : nChannels.length = lengths.length) (hnc : ∀ c ∈ nChannels, c ≤ a.nf)
    (minL : Nat) (m : SubMask) :
    Wp (G := G) (mslStep a lengths dilations normalize nChannels minL m i)
      (StepSafe a.X.length a.nf (fun _ => a.nt) (seriesSL a) a.y (ThrFrom a.pMin a.pMax (Drawable G)) a.phase (parOf lengths dilations normalize) true
        (fun i => nChannels.getD i 0) i) := by
  have hpos := hP.pos i hi
  have hroom := hP.room i hi
  have hnci : nChannels.getD i 0 ≤ a.nf := by
    rw [getD_lt _ (by omega)]; exact hnc _ (List.getElem_mem _)
  unfold mslStep
  refine Wp.bindRes (aget_getD 0 (by rw [hP.dil]; exact hi)) ?_
  refine Wp.bindRes (aget_getD 0 hi) ?_
  refine Wp.bindRes (aget_getD false (by rw [hP.norm]; exact hi)) ?_
  refine Wp.bindRes (aget_getD 0 (by rw [hnch]; exact hi)) ?_
  have hstop := vlStop_eq (phase := a.phase) hpos hroom.le (le_refl a.nt)
  have hdim := nWin_dim (phase := a.phase) hpos hroom
  unfold vlStop at hstop
  simp only [hstop]
  generalize hl : lengths.getD i 0 = l at *
  generalize hdl : dilations.getD i 0 = d at *
  generalize hnm : normalize.getD i false = norm at *
  refine Wp.bind (wp_choiceNoRep List.nodup_range (by simpa using hnci)) fun channels hch => ?_
  obtain ⟨hc1, hc2, hc3⟩ := hch
  simp only [List.mem_range] at hc3
  have hCOK : ChannelsOK true a.nf (nChannels.getD i 0) channels := by
    rw [ChannelsOK, if_pos rfl]; exact ⟨hc2, hc1, hc3⟩
  have hcand : ∀ s t, (s, t) ∈ ((List.range a.X.length).flatMap fun s =>
      (whereIdx (nWin a.phase a.nt l d) fun t => enough a.alpha m norm s t channels).map
        fun t => (s, t)) ↔
      s < a.X.length ∧ t < nWin a.phase a.nt l d ∧ enough a.alpha m norm s t channels = true := by
    intro s t
    simp only [List.mem_flatMap, List.mem_range, List.mem_map, Prod.mk.injEq, mem_whereIdx]
    constructor
    · rintro ⟨s', h1, t', ⟨h2, h3⟩, rfl, rfl⟩; exact ⟨h1, h2, h3⟩
    · rintro ⟨h1, h2, h3⟩; exact ⟨s, h1, t, ⟨h2, h3⟩, rfl, rfl⟩
  generalize ((List.range a.X.length).flatMap fun s =>
      (whereIdx (nWin a.phase a.nt l d) fun t => enough a.alpha m norm s t channels).map
        fun t => (s, t)) = cand at hcand
  split
  · rename_i hne
    have hne' : cand ≠ [] := List.length_pos_iff.1 hne
    refine Wp.bindRes hdim ?_
    refine Wp.bind (wp_choice1 (by simpa using hne')) fun s hs => ?_
    obtain ⟨⟨s', t0⟩, h1', rfl⟩ := List.mem_map.1 hs
    refine Wp.bind (wp_choice1 (a := (cand.filter fun p => p.1 == s').map Prod.snd) ?_)
      fun t ht => ?_
    · intro h
      rw [List.map_eq_nil_iff, List.filter_eq_nil_iff] at h
      exact h _ h1' (by simp)
    obtain ⟨⟨s'', t'⟩, h2, rfl⟩ := List.mem_map.1 ht
    rw [List.mem_filter] at h2
    have hss : s'' = s' := by simpa using h2.2
    subst hss
    obtain ⟨hsl, htl, hmt⟩ := (hcand s'' t').1 h2.1
    simp only
    have hnt : 0 < a.nt := by omega
    refine Wp.bind (wp_pickOther (by rw [hd.y]; exact hsl)) fun test htest => ?_
    have hcmp : Compared a.y _ test := htest
    obtain ⟨ht1, -, -⟩ := htest
    rw [hd.y] at ht1
    obtain ⟨m', e1⟩ := channelLoop_safe (sh := ⟨a.X.length, a.nf, a.nt⟩)
      (xs := fun c => aget2 a.X s'' c) (xt := fun c => aget2 a.X test c)
      (S := fun c => seriesSL a s'' c) (S' := fun c => seriesSL a test c)
      (channels := channels) hc3 (Ts := a.nt) (Tt := a.nt) (fun c hc => readSL hd hsl (hc3 c hc))
      (fun c hc => readSL hd ht1 (hc3 c hc)) m norm a.phase (alphaSize l a.alpha minL) hsl hpos htl
      (fits_of_lt hroom) hnt (le_refl _)
    refine Wp.bindRes e1 ?_
    refine Wp.bind (drawThreshold_safe ?_ h0 h1) fun thr hthr => ?_
    · exact range_map_ne_nil _ (nWin_pos hroom)
    refine Wp.pure ?_
    rintro v hv
    obtain rfl := Option.some.inj hv
    refine ⟨s'', t', hsl, ?_, hCOK, ?_, test, hcmp, ?_⟩
    · simpa only [parOf, hl, hdl] using htl
    · simp only [parOf, hl, hdl, hnm]
    · simpa only [fitDist, parOf, hl, hdl, hnm, if_true] using hthr
  · refine Wp.pure ?_
    rintro v hv
    cases hv

theorem mvlStep_safe {a : FitArgs K L} {xLen : List Nat} {n : Nat} (hd : DataVL a xLen n)
    (h0 : PercSafe a.pMin) (h1 : PercSafe a.pMax)
    {lengths dilations : List Nat} {normalize : List Bool} {nChannels : List Nat}
    (hP : ParOK lengths dilations normalize n) {i : Nat} (hi : i < lengths.length)
    (hnch : nChannels.length = lengths.length) (hnc : ∀ c ∈ nChannels, c ≤ a.nf) {maxLen : Nat}
    (hmax : ∀ s, s < a.X.length → xLen.getD s 0 ≤ maxLen) (minL : Nat) (m : SubMask) :
    Wp (G := G) (mvlStep a xLen maxLen lengths dilations normalize nChannels minL m i)
      (StepSafe a.X.length a.nf (fun s => xLen.getD s 0) (seriesVL a xLen) a.y (ThrFrom a.pMin a.pMax (Drawable G)) a.phase
        (parOf lengths dilations normalize) true (fun i => nChannels.getD i 0) i) := by
  have hpos := hP.pos i hi
  have hroom := hP.room i hi
  have hnci : nChannels.getD i 0 ≤ a.nf := by
    rw [getD_lt _ (by omega)]; exact hnc _ (List.getElem_mem _)
  unfold mvlStep
  refine Wp.bindRes (aget_getD 0 (by rw [hP.dil]; exact hi)) ?_
  refine Wp.bindRes (aget_getD 0 hi) ?_
  refine Wp.bindRes (aget_getD false (by rw [hP.norm]; exact hi)) ?_
  refine Wp.bindRes (aget_getD 0 (by rw [hnch]; exact hi)) ?_
  generalize hl : lengths.getD i 0 = l at *
  generalize hdl : dilations.getD i 0 = d at *
  generalize hnm : normalize.getD i false = norm at *
  refine Wp.bind (wp_choiceNoRep List.nodup_range (by simpa using hnci)) fun channels hch => ?_
  obtain ⟨hc1, hc2, hc3⟩ := hch
  simp only [List.mem_range] at hc3
  have hCOK : ChannelsOK true a.nf (nChannels.getD i 0) channels := by
    rw [ChannelsOK, if_pos rfl]; exact ⟨hc2, hc1, hc3⟩
  refine Wp.bindRes (rows_ok hd hpos hroom (fun s t => enough a.alpha m norm s t channels) hmax) ?_
  have hmem := fun s => iMask_mem (ns := a.X.length)
    (w := fun s => whereIdx (nWin a.phase (xLen.getD s 0) l d) fun t =>
      enough a.alpha m norm s t channels) (s := s)
  simp only
  generalize (whereIdx a.X.length fun s => !(List.getD ((List.range a.X.length).map fun s =>
      whereIdx (nWin a.phase (xLen.getD s 0) l d) fun t => enough a.alpha m norm s t channels)
        s []).isEmpty) = iMask at hmem ⊢
  split
  · rename_i hne
    refine Wp.bind (wp_choice1 (List.length_pos_iff.1 hne)) fun s hs => ?_
    obtain ⟨hsl, hw⟩ := (hmem s).1 hs
    obtain ⟨ex, hxn⟩ := hd.xlen hsl
    refine Wp.bind (wp_pickOther (by rw [hd.y]; exact hsl)) fun test htest => ?_
    have hcmp : Compared a.y _ test := htest
    obtain ⟨ht1, -, -⟩ := htest
    rw [hd.y] at ht1
    obtain ⟨ex', hxn'⟩ := hd.xlen ht1
    refine Wp.bindRes ex' ?_
    refine Wp.bindRes (nWin_dim (phase := a.phase) hpos (by omega)) ?_
    refine Wp.bindRes ex ?_
    rw [vlStop_eq hpos (by omega) (hmax s hsl)]
    refine Wp.bind (wp_choice1 hw) fun t ht => ?_
    obtain ⟨htl, hmt⟩ := mem_whereIdx.1 ht
    have hget : ∀ s', s' < a.X.length → ∀ c ∈ channels,
        (do let x ← aget2 a.X s' c; pure (x.take (xLen.getD s' 0)) : Res _) =
          .ok (seriesVL a xLen s' c) ∧
        (seriesVL a xLen s' c).length = xLen.getD s' 0 := by
      intro s' hs' c hc
      obtain ⟨⟨x, e, hx⟩, hlen⟩ := readVL hd hs' (hc3 c hc)
      exact ⟨by rw [e, Res.bind_ok, hx]; rfl, hlen⟩
    obtain ⟨m', e1⟩ := channelLoop_safe (sh := ⟨a.X.length, a.nf, maxLen⟩)
      (xs := fun c => do let x ← aget2 a.X s c; pure (x.take (xLen.getD s 0)))
      (xt := fun c => do let x ← aget2 a.X test c; pure (x.take (xLen.getD test 0)))
      (S := fun c => seriesVL a xLen s c) (S' := fun c => seriesVL a xLen test c)
      (channels := channels) hc3 (Ts := xLen.getD s 0) (Tt := xLen.getD test 0)
      (hget s hsl) (hget test ht1) m norm a.phase (alphaSize l a.alpha minL) hsl hpos htl
      (fits_of_lt (by omega)) (n := xLen.getD s 0) (by omega) (hmax s hsl)
    refine Wp.bindRes e1 ?_
    refine Wp.bind (drawThreshold_safe ?_ h0 h1) fun thr hthr => ?_
    · exact range_map_ne_nil _ (nWin_pos (by omega))
    refine Wp.pure ?_
    rintro v hv
    obtain rfl := Option.some.inj hv
    refine ⟨s, t, hsl, ?_, hCOK, ?_, test, hcmp, ?_⟩
    · simpa only [parOf, hl, hdl] using htl
    · simp only [parOf, hl, hdl, hnm]
    · simpa only [fitDist, parOf, hl, hdl, hnm, if_true] using hthr
  · refine Wp.pure ?_
    rintro v hv
    cases hv

end Convst
