import Verif.Spec.Fit
import Verif.Proofs.Random
import Verif.Props.Invariance

/-! # Lemmas about the pieces of the sampling steps of `fit` -/

set_option autoImplicit false
set_option linter.unusedSectionVars false

namespace Convst
open Spec

section Pure
variable {K : Type} [Scalar K]

theorem readRun_ok {x : List K} {step : Nat → Nat} {l idx : Nat}
    (h : ∀ j, j < l → step^[j] idx < x.length) :
    readRun x step l idx = .ok ((List.range l).map fun j => x.getD (step^[j] idx) 0) := by
  induction l generalizing idx with
  | zero => rfl
  | succ l ih =>
    unfold readRun
    have h0 : idx < x.length := h 0 (by omega)
    rw [aget_getD 0 h0, Res.bind_ok, ih (idx := step idx), Res.bind_ok, Res.pure_eq,
      List.range_succ_eq_map]
    · simp [List.map_map, Function.comp_def, Function.iterate_succ]
    · intro j hj
      have := h (j + 1) (by omega)
      rwa [Function.iterate_succ_apply] at this

theorem iter_add (d j t : Nat) : (fun idx => idx + d)^[j] t = t + j * d := by
  induction j generalizing t with
  | zero => simp
  | succ j ih => rw [Function.iterate_succ_apply, ih]; ring

theorem iter_mod (n d j t : Nat) (ht : t < n) : (fun idx => (idx + d) % n)^[j] t = (t + j * d) % n := by
  induction j generalizing t with
  | zero => simp [Nat.mod_eq_of_lt ht]
  | succ j ih =>
    rw [Function.iterate_succ_apply, ih _ (Nat.mod_lt _ (by omega)), Nat.mod_add_mod]
    congr 1; ring

/-- `get_subsequence` reads the window and normalises it when flagged. -/
theorem getSubsequence_ok {x : List K} {l d t : Nat} {norm phase : Bool}
    (ht : t < nWin phase x.length l d) :
    getSubsequence x t l d norm phase = .ok (seen norm (window phase x l d t)) := by
  cases phase with
  | true =>
    have ht' : t < x.length := by simpa [nWin] using ht
    simp only [getSubsequence, getSubsequencePhase, if_true]
    rw [readRun_ok]
    · simp only [Res.bind_ok, Res.pure_eq, seen, window, pos, if_true]
      simp only [iter_mod x.length d _ t ht']
    · intro j _
      rw [iter_mod x.length d _ t ht']
      exact Nat.mod_lt _ (by omega)
  | false =>
    have ht' : t < x.length - (l - 1) * d := by simpa [nWin] using ht
    simp only [getSubsequence, getSubsequencePlain, Bool.false_eq_true, if_false]
    rw [readRun_ok]
    · simp only [Res.bind_ok, Res.pure_eq, seen, window, pos, Bool.false_eq_true, if_false]
      simp only [iter_add]
    · intro j hj
      rw [iter_add]
      have : j * d ≤ (l - 1) * d := Nat.mul_le_mul_right _ (by omega)
      omega

theorem unmark_ok {sh : MaskShape} {m : SubMask} {norm : Bool} {s c t : Nat} (hs : s < sh.ns)
    (hc : c < sh.nc) (ht : t < sh.nt) : ∃ m', unmark sh m norm s c t = .ok m' ∧
      ∀ n' s' c' t', m' n' s' c' t' = true ↔
        m n' s' c' t' = true ∧ ¬ (n' = norm ∧ s' = s ∧ c' = c ∧ t' = t) := by
  refine ⟨_, by simp only [unmark]; rw [if_pos ⟨hs, hc, ht⟩], ?_⟩
  intro n' s' c' t'
  by_cases h : n' = norm ∧ s' = s ∧ c' = c ∧ t' = t <;> simp [h]

theorem pyMod_ok {a : Int} {n : Nat} (hn : 0 < n) :
    ∃ t : Nat, pyMod a n = .ok t ∧ t < n ∧ (t : Int) = a % n := by
  have h1 := Int.emod_nonneg a (b := (n : Int)) (by omega)
  have h2 := Int.emod_lt_of_pos a (b := (n : Int)) (by omega)
  refine ⟨(a % n).toNat, by unfold pyMod; rw [if_neg (by omega)], by omega, by omega⟩

/-- The mask update loop removes exactly the positions within `size - 1` dilated steps. -/
theorem markLoop_ok {sh : MaskShape} (m : SubMask) (norm : Bool) {s c n : Nat} (index d : Nat)
    (size : Int) (hs : s < sh.ns) (hc : c < sh.nc) (hn : 0 < n) (hnt : n ≤ sh.nt) :
    ∃ m', markLoop sh m norm s c index d n size = .ok m' ∧
      ∀ n' s' c' t', m' n' s' c' t' = true ↔ m n' s' c' t' = true ∧
        ¬ (n' = norm ∧ s' = s ∧ c' = c ∧ ∃ j : Nat, (j : Int) < size ∧
          ((t' : Int) = ((index : Int) - j * d) % n ∨ (t' : Int) = ((index : Int) + j * d) % n)) := by
  unfold markLoop
  have key := forRange_inv (n := size.toNat) (s := m)
    (f := fun m (j : Nat) => do
      let t1 ← pyMod ((index : Int) - (j : Int) * d) n
      let m1 ← unmark sh m norm s c t1
      let t2 ← pyMod ((index : Int) + (j : Int) * d) n
      unmark sh m1 norm s c t2)
    (P := fun k m' => ∀ n' s' c' t', m' n' s' c' t' = true ↔ m n' s' c' t' = true ∧
        ¬ (n' = norm ∧ s' = s ∧ c' = c ∧ ∃ j : Nat, j < k ∧
          ((t' : Int) = ((index : Int) - j * d) % n ∨ (t' : Int) = ((index : Int) + j * d) % n)))
    (by intro n' s' c' t'; simp)
  refine Exists.elim (key ?_) ?_ <;> clear key
  rotate_left
  · rintro m' ⟨h1, h2⟩
    refine ⟨m', h1, ?_⟩
    intro n' s' c' t'
    rw [h2]
    have : ∀ j : Nat, j < size.toNat ↔ (j : Int) < size := by intro j; omega
    simp only [this]
  · intro k m1 hk hm1
    obtain ⟨t1, e1, l1, v1⟩ := pyMod_ok (a := (index : Int) - (k : Int) * d) hn
    obtain ⟨t2, e2, l2, v2⟩ := pyMod_ok (a := (index : Int) + (k : Int) * d) hn
    obtain ⟨m2, e3, h3⟩ := unmark_ok (m := m1) (norm := norm) hs hc (show t1 < sh.nt by omega)
    obtain ⟨m3, e4, h4⟩ := unmark_ok (m := m2) (norm := norm) hs hc (show t2 < sh.nt by omega)
    refine ⟨m3, ?_, ?_⟩
    · simp only [e1, e2, e3, e4, Res.bind_ok]
    · intro n' s' c' t'
      rw [h4, h3, hm1]
      constructor
      · rintro ⟨⟨⟨h5, h6⟩, h7⟩, h8⟩
        refine ⟨h5, ?_⟩
        rintro ⟨rfl, rfl, rfl, j, hj, hjt⟩
        rcases Nat.lt_succ_iff_lt_or_eq.1 hj with hj | rfl
        · exact h6 ⟨rfl, rfl, rfl, j, hj, hjt⟩
        · rcases hjt with h | h
          · exact h7 ⟨rfl, rfl, rfl, by omega⟩
          · exact h8 ⟨rfl, rfl, rfl, by omega⟩
      · rintro ⟨h5, h6⟩
        refine ⟨⟨⟨h5, ?_⟩, ?_⟩, ?_⟩
        · rintro ⟨rfl, rfl, rfl, j, hj, hjt⟩
          exact h6 ⟨rfl, rfl, rfl, j, by omega, hjt⟩
        · rintro ⟨rfl, rfl, rfl, rfl⟩
          exact h6 ⟨rfl, rfl, rfl, k, by omega, Or.inl (by omega)⟩
        · rintro ⟨rfl, rfl, rfl, rfl⟩
          exact h6 ⟨rfl, rfl, rfl, k, by omega, Or.inr (by omega)⟩

theorem vlStop_eq {phase : Bool} {nt n l d : Nat} (hl : 1 ≤ l) (h : (l - 1) * d ≤ n) (hn : n ≤ nt) :
    vlStop phase nt n l d = nWin phase n l d := by
  unfold vlStop
  cases phase with
  | true => simp [nWin, sliceStop, hn]
  | false =>
    have e : (n : Int) - ((l : Int) - 1) * d = ((n - (l - 1) * d : Nat) : Int) := by
      rw [Nat.cast_sub h]; push_cast [Nat.cast_sub hl]; ring
    simp only [nWin, Bool.false_eq_true, if_false, e, sliceStop]
    rw [if_neg (by omega)]
    simp; omega

end Pure

theorem alphaSize_iff {l minL : Nat} {alpha : ℝ} (j : Nat) :
    (j : Int) < alphaSize l alpha minL ↔ j + allowance alpha minL < l := by
  unfold alphaSize allowance
  simp only
  have e : (if Scalar.ltb (1 : ℝ) ((1 - alpha) * Scalar.ofNat minL) then
      (1 - alpha) * Scalar.ofNat minL else 1 : ℝ) = max 1 ((1 - alpha) * (minL : ℝ)) := by
    split
    · rename_i h
      rw [real_ltb, real_ofNat] at h
      rw [max_eq_right h.le]; rfl
    · rename_i h
      rw [real_ltb, not_lt, real_ofNat] at h
      rw [max_eq_left h]
  rw [e, real_trunc, if_pos (le_trans zero_le_one (le_max_left _ _))]
  have : 1 ≤ ⌊max 1 ((1 - alpha) * (minL : ℝ))⌋ := by
    rw [Int.le_floor]; simp
  omega

section RandInt
variable {G K L : Type} [Gen G K] [LawfulInt G] [DecidableEq L]

theorem whereIdx_nodup (n : Nat) (p : Nat → Bool) : (whereIdx n p).Nodup :=
  List.nodup_range.filter _

theorem wp_pickOther {y : List L} {s : Nat} (hs : s < y.length) :
    Wp (G := G) (pickOther y s) fun t => t < y.length ∧ y[t]? = y[s]? ∧
      ((∃ s', s' < y.length ∧ s' ≠ s ∧ y[s']? = y[s]?) → t ≠ s) := by
  unfold pickOther
  refine Wp.bindRes (aget_ok hs) ?_
  have hmem : ∀ t, t ∈ whereIdx y.length (fun i => y[i]? == some y[s]) ↔
      t < y.length ∧ y[t]? = y[s]? := by
    intro t
    rw [mem_whereIdx, beq_iff_eq, List.getElem?_eq_getElem hs]
  have hnd := whereIdx_nodup y.length (fun i => y[i]? == some y[s])
  generalize whereIdx y.length (fun i => y[i]? == some y[s]) = loc at hmem hnd
  have hsl : s ∈ loc := (hmem s).2 ⟨hs, rfl⟩
  simp only
  split
  · rename_i hlen
    have hne : (loc.filter fun i => !(i == s)) ≠ [] := by
      intro h
      rw [List.filter_eq_nil_iff] at h
      have hall : ∀ t ∈ loc, t = s := by
        intro t ht
        have := h t ht
        simpa using this
      match loc, hlen, hnd, hall with
      | a :: b :: l, _, hnd, hall =>
        have h1 := hall a (by simp)
        have h2 := hall b (by simp)
        simp [h1, h2] at hnd
    refine Wp.mono (wp_choice1 hne) ?_
    intro t ht
    rw [List.mem_filter] at ht
    obtain ⟨h1, h2⟩ := (hmem t).1 ht.1
    refine ⟨h1, h2, fun _ => ?_⟩
    simpa using ht.2
  · rename_i hlen
    refine Wp.pure ⟨hs, rfl, ?_⟩
    rintro ⟨s', h1, h2, h3⟩
    exfalso
    have hs' := (hmem s').2 ⟨h1, h3⟩
    match loc, hlen, hsl, hs' with
    | [a], _, hsl, hs' =>
      simp at hsl hs'
      omega
    | _ :: _ :: _, hlen, _, _ => simp at hlen

end RandInt

section Rand
variable {G L : Type} [Gen G ℝ] [LawfulGen G] [DecidableEq L]

theorem wp_drawThreshold {D : List ℝ} {pMin pMax : ℝ} (hD : D ≠ []) (h0 : 0 ≤ pMin)
    (h1 : pMin ≤ pMax) (h2 : pMax ≤ 100) :
    Wp (G := G) (drawThreshold D pMin pMax) fun thr => ∃ p0 p1, percentile D pMin = .ok p0 ∧
      percentile D pMax = .ok p1 ∧ p0 ≤ thr ∧ thr ≤ p1 ∧ (thr < p1 ∨ p0 = p1) := by
  obtain ⟨p0, e0, _⟩ := percentile_ok hD h0 (h1.trans h2)
  obtain ⟨p1, e1, _⟩ := percentile_ok hD (h0.trans h1) h2
  unfold drawThreshold
  refine Wp.bindRes e0 (Wp.bindRes e1 ?_)
  refine Wp.mono (wp_uniform (percentile_mono h0 h1 h2 e0 e1 hD)) ?_
  intro v hv
  exact ⟨p0, p1, e0, e1, hv⟩

end Rand

/-! ## Postcondition of one sampling step -/

/-- What one sampling step does to the mask and what it outputs. -/
def StepPost {L : Type} (T : Train L) (P : Par) (o : Opt) (multi : Bool) (nch : Nat → Nat)
    (minL : Nat) (m : SubMask) (i : Nat) (res : SubMask × Option (Out ℝ)) : Prop :=
  ∃ channels, ChannelsOK multi T.nf (nch i) channels ∧
    ((res.2 = none ∧ res.1 = m ∧
        ∀ s t, s < T.ns → t < nWin o.phase (T.len s) (P.length i) (P.dilation i) →
          ¬ EnoughFree multi o.alpha channels fun c => m (P.normalize i) s c t = false) ∨
     (∃ r v, res.2 = some v ∧ r.channels = channels ∧ r.sample < T.ns ∧
        r.index < nWin o.phase (T.len r.sample) (P.length i) (P.dilation i) ∧
        EnoughFree multi o.alpha channels (fun c => m (P.normalize i) r.sample c r.index = false) ∧
        Sampled T P o i r v ∧
        ∀ n s c t, res.1 n s c t = true ↔ m n s c t = true ∧ ¬ (n = P.normalize i ∧ s = r.sample ∧
          c ∈ r.channels ∧ Near (T.len s) (P.length i) (P.dilation i) (allowance o.alpha minL)
            r.index t)))

/-- Parameters drawn consistently for series of at least `n` points. -/
structure ParOK (lengths dilations : List Nat) (normalize : List Bool) (n : Nat) : Prop where
  dil : dilations.length = lengths.length
  norm : normalize.length = lengths.length
  pos : ∀ i, i < lengths.length → 1 ≤ lengths.getD i 0
  room : ∀ i, i < lengths.length → (lengths.getD i 0 - 1) * dilations.getD i 0 < n

theorem DataSL.get {L : Type} {a : FitArgs ℝ L} (h : DataSL a) {s c : Nat} (hs : s < a.X.length)
    (hc : c < a.nf) : aget2 a.X s c = .ok ((trainSL a).series s c) ∧
      ((trainSL a).series s c).length = a.nt := by
  have h1 : (a.X[s]).length = a.nf := h.nf _ (List.getElem_mem hs)
  have e : (trainSL a).series s c = a.X[s][c] := by
    show (a.X.getD s []).getD c [] = _
    rw [getD_lt _ hs, getD_lt _ (by omega)]
  refine ⟨?_, ?_⟩
  · unfold aget2
    rw [aget_ok hs, Res.bind_ok, aget_ok (by omega), e]
  · rw [e]; exact h.nt _ (List.getElem_mem hs) _ (List.getElem_mem _)

theorem DataVL.get {L : Type} {a : FitArgs ℝ L} {xLen : List Nat} {n : Nat} (h : DataVL a xLen n)
    {s c : Nat} (hs : s < a.X.length) (hc : c < a.nf) :
    (∃ x, aget2 a.X s c = .ok x ∧ x.take (xLen.getD s 0) = (trainVL a xLen).series s c) ∧
      ((trainVL a xLen).series s c).length = xLen.getD s 0 := by
  have h1 : (a.X[s]).length = a.nf := h.nf _ (List.getElem_mem hs)
  have e : (trainVL a xLen).series s c = (a.X[s][c]).take (xLen.getD s 0) := by
    show ((a.X.getD s []).getD c []).take _ = _
    rw [getD_lt [] hs, getD_lt [] (by omega)]
  refine ⟨⟨a.X[s][c], ?_, e.symm⟩, ?_⟩
  · unfold aget2
    rw [aget_ok hs, Res.bind_ok, aget_ok (by omega)]
  · rw [e, List.length_take, h.nt _ (List.getElem_mem hs) _ (List.getElem_mem _)]
    have hs' : s < xLen.length := by rw [h.len]; exact hs
    have := h.le _ (List.getElem_mem hs')
    rw [getD_lt _ hs']; omega

theorem DataVL.xlen {K L : Type} {a : FitArgs K L} {xLen : List Nat} {n : Nat} (h : DataVL a xLen n)
    {s : Nat} (hs : s < a.X.length) : aget xLen s = .ok (xLen.getD s 0) ∧ n ≤ xLen.getD s 0 := by
  have hs' : s < xLen.length := by rw [h.len]; exact hs
  refine ⟨aget_getD 0 hs', ?_⟩
  rw [getD_lt _ hs']
  exact h.ge _ (List.getElem_mem hs')

end Convst
