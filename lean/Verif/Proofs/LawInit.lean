import Verif.Proofs.LawDraws

/-! # Law of the initial parameters of `fit` -/

set_option autoImplicit false
set_option linter.unusedSectionVars false

namespace Convst
open Spec MeasureTheory
open scoped ENNReal

variable {G : Type} [Gen G ℝ] [LawfulGen G] [MeasurableSpace G] {μ : Measure G}

/-! ## Dilations -/

theorem dilOf_eq_iff {q d : Nat} (hq : 2 ≤ q) (hd : 1 ≤ d) {u : ℝ} :
    dilOf q u = d ↔ Real.log d / Real.log q ≤ u ∧ u < Real.log (d + 1) / Real.log q := by
  have hq1 : (1 : ℝ) < q := by exact_mod_cast hq
  have hlq : 0 < Real.log q := Real.log_pos hq1
  have hd0 : (0 : ℝ) < d := by exact_mod_cast hd
  have h2 : 0 < Real.log 2 := Real.log_pos (by norm_num)
  set x := (2 : ℝ) ^ (Real.logb 2 q * u) with hx
  have hx0 : 0 < x := Real.rpow_pos_of_pos (by norm_num) _
  have hlx : Real.log x = Real.log q * u := by
    rw [hx, Real.log_rpow (by norm_num), Real.logb]
    field_simp
  have h1 : dilOf q u = d ↔ (d : ℝ) ≤ x ∧ x < d + 1 := by
    unfold dilOf
    rw [← hx]
    have hf0 : 0 ≤ ⌊x⌋ := Int.floor_nonneg.2 hx0.le
    constructor
    · intro h
      have : ⌊x⌋ = (d : ℤ) := by omega
      rw [Int.floor_eq_iff] at this
      exact_mod_cast this
    · intro h
      have : ⌊x⌋ = (d : ℤ) := by rw [Int.floor_eq_iff]; exact_mod_cast h
      omega
  rw [h1, div_le_iff₀ hlq, lt_div_iff₀ hlq, mul_comm u, ← hlx, Real.log_le_log_iff hd0 hx0,
    Real.log_lt_log_iff hx0 (by linarith)]

theorem prob_drawDilation (hf : Fair G μ) {n l : Nat} (hl : 2 ≤ l) (hn : l ≤ n) (d : Nat) :
    HasProb μ (drawDilation (upperBound n l : Option ℝ)) (· = d) (plainWeight (dilBound n l) d) := by
  have hq := dilBound_pos hl hn
  have hform : (drawDilation (upperBound n l : Option ℝ) : RM G Nat) =
      (unitM >>= fun u => pure (dilOf (dilBound n l) u)) := by
    rw [upperBound_eq hl hn]
    unfold drawDilation
    simp only [uniformM, bind_assoc, pure_bind]
    congr 1
    funext u
    have e : (0 : ℝ) + (Real.logb 2 (dilBound n l) - 0) * u = Real.logb 2 (dilBound n l) * u := by ring
    show pure (Scalar.floor (Scalar.pow2 ((0 : ℝ) + (Real.logb 2 (dilBound n l) - 0) * u))).toNat = _
    rw [e]; rfl
  rw [hform]
  refine HasProb.map (f := fun u => dilOf (dilBound n l) u) ?_
  unfold plainWeight
  have hu : ∀ (g : G) u g', unitM g = .ok (u, g') → 0 ≤ u ∧ u < 1 := by
    intro g u g' h
    obtain ⟨a, g1, e, h1⟩ := wp_unit (G := G) g
    rw [h] at e; cases e; exact h1
  split
  · rename_i h1
    have e1 : dilBound n l = 1 := by omega
    rw [e1]
    simp only [dilOf_one]
    split
    · rename_i hd
      subst hd
      have := unit_between hf (B := fun _ => True) (by simp) (a := 0) (b := 1) (by simp)
        (fun u h0 h1 _ => ⟨h0, h1.le⟩) (le_refl _) (le_refl _)
      rw [sub_zero, ENNReal.ofReal_one] at this
      exact this.congr fun g u g' _ => by simp
    · rename_i hd
      exact HasProb.never fun g u g' _ h => hd h.symm
  · rename_i h1
    have hq2 : 2 ≤ dilBound n l := by omega
    have hq1 : (1 : ℝ) < dilBound n l := by exact_mod_cast hq2
    have hlq : 0 < Real.log (dilBound n l) := Real.log_pos hq1
    split
    · rename_i hd
      have hd0 : (0 : ℝ) < d := by exact_mod_cast hd.1
      have := unit_between hf (B := fun u => Real.log d / Real.log (dilBound n l) ≤ u ∧
          u < Real.log (d + 1) / Real.log (dilBound n l)) measurableSet_Ico
        (a := Real.log d / Real.log (dilBound n l)) (b := Real.log (d + 1) / Real.log (dilBound n l))
        (fun u _ _ h1 h2 => ⟨h1.le, h2⟩) (fun u _ _ h => ⟨h.1, h.2.le⟩)
        (div_nonneg (Real.log_nonneg (by exact_mod_cast hd.1)) hlq.le) (by
          rw [div_le_one hlq]
          exact Real.log_le_log (by linarith) (by exact_mod_cast hd.2))
      rw [← sub_div] at this
      exact this.congr fun g u g' _ => (dilOf_eq_iff hq2 hd.1).symm
    · rename_i hd
      refine HasProb.never fun g u g' h e => hd ?_
      obtain ⟨u0, u1⟩ := hu g u g' h
      rw [← e]
      exact ⟨dilOf_ge hq u0, dilOf_lt hq2 u1⟩

/-! ## Prime dilations -/

theorem logWeights_eq (n : Nat) : (logWeights n : List ℝ) = (List.range n).map logWeight := by
  unfold logWeights logWeight
  refine List.map_congr_left fun i _ => ?_
  have e : (Scalar.ofNat (i + 1) : ℝ) = (i : ℝ) + 1 := by
    show ((i + 1 : Nat) : ℝ) = _
    push_cast; rfl
  show 1 / (2 : ℝ) ^ Real.log (Scalar.ofNat (i + 1)) = _
  rw [e]

theorem sum_range_map (f : Nat → ℝ) (n : Nat) : ((List.range n).map f).sum = ∑ k ∈ Finset.range n, f k := by
  induction n with
  | zero => simp
  | succ n ih => rw [List.range_succ, List.map_append, List.sum_append, Finset.sum_range_succ, ih]; simp

theorem sum_logWeights (n : Nat) : (logWeights n : List ℝ).sum = ∑ k ∈ Finset.range n, logWeight k := by
  rw [logWeights_eq, sum_range_map]

theorem sum_take_logWeights {n j : Nat} (hj : j ≤ n) :
    ((logWeights n : List ℝ).take j).sum = ∑ k ∈ Finset.range j, logWeight k := by
  rw [logWeights_eq, ← List.map_take, List.take_range, min_eq_left hj, sum_range_map]

theorem logWeight_pos (k : Nat) : 0 < logWeight k := by
  unfold logWeight
  exact div_pos one_pos (Real.rpow_pos_of_pos (by norm_num) _)

theorem measurable_logPick (n j : Nat) : MeasurableSet {u : ℝ | LogPick n u j} := by
  unfold LogPick
  refine MeasurableSet.inter ?_ (MeasurableSet.inter ?_ ?_)
  · exact MeasurableSet.const _
  · have : {u : ℝ | ∀ i, i < j → ((logWeights n : List ℝ).take (i + 1)).sum < u * (logWeights n : List ℝ).sum} =
        ⋂ i, ⋂ (_ : i < j), {u : ℝ | ((logWeights n : List ℝ).take (i + 1)).sum < u * (logWeights n : List ℝ).sum} := by
      ext u; simp
    show MeasurableSet {u : ℝ | ∀ i, i < j → _}
    rw [this]
    refine MeasurableSet.iInter fun i => MeasurableSet.iInter fun _ => ?_
    exact measurableSet_lt measurable_const (measurable_id.mul_const _)
  · exact measurableSet_le (measurable_id.mul_const _) measurable_const

theorem logPick_iff {n j : Nat} (hj : j < n) {u : ℝ} (hu : 0 ≤ u) :
    LogPick n u j ↔
      ((∑ k ∈ Finset.range j, logWeight k) < u * ∑ k ∈ Finset.range n, logWeight k ∨ j = 0) ∧
      u * (∑ k ∈ Finset.range n, logWeight k) ≤ ∑ k ∈ Finset.range (j + 1), logWeight k := by
  unfold LogPick
  rw [sum_logWeights, sum_take_logWeights (by omega)]
  constructor
  · rintro ⟨-, h1, h2⟩
    refine ⟨?_, h2⟩
    rcases Nat.eq_zero_or_pos j with h | h
    · exact Or.inr h
    · left
      have := h1 (j - 1) (by omega)
      rw [sum_take_logWeights (by omega), Nat.sub_add_cancel h] at this
      exact this
  · rintro ⟨h1, h2⟩
    refine ⟨hj, fun i hi => ?_, h2⟩
    rw [sum_take_logWeights (by omega)]
    rcases h1 with h1 | h1
    · refine lt_of_le_of_lt ?_ h1
      exact Finset.sum_le_sum_of_subset_of_nonneg (Finset.range_mono (by omega)) fun k _ _ => (logWeight_pos k).le
    · omega

theorem prob_choiceLog (hf : Fair G μ) {n j : Nat} (hj : j < n) :
    HasProb μ (choiceLog n 1 : RM G (List Nat)) (· = [j])
      (ENNReal.ofReal (logWeight j / ∑ k ∈ Finset.range n, logWeight k)) := by
  have hW : 0 < ∑ k ∈ Finset.range n, logWeight k :=
    Finset.sum_pos (fun k _ => logWeight_pos k) ⟨0, by rw [Finset.mem_range]; omega⟩
  unfold choiceLog
  split
  · rename_i hn
    have h1 : HasProb μ (do let u ← unitM; ofRes (firstGe (logCdf n) u) : RM G Nat) (· = j)
        (ENNReal.ofReal (logWeight j / ∑ k ∈ Finset.range n, logWeight k)) := by
      have hp := unit_between hf (B := fun u => LogPick n u j) (measurable_logPick n j)
        (a := (∑ k ∈ Finset.range j, logWeight k) / ∑ k ∈ Finset.range n, logWeight k)
        (b := (∑ k ∈ Finset.range (j + 1), logWeight k) / ∑ k ∈ Finset.range n, logWeight k)
        (by
          intro u h0 _ h1 h2
          rw [logPick_iff hj h0]
          rw [div_lt_iff₀ hW] at h1
          rw [lt_div_iff₀ hW] at h2
          exact ⟨Or.inl h1, h2.le⟩)
        (by
          intro u h0 _ h
          rw [logPick_iff hj h0] at h
          rw [div_le_iff₀ hW, le_div_iff₀ hW]
          refine ⟨?_, h.2⟩
          rcases h.1 with h | h
          · exact h.le
          · subst h; simpa using mul_nonneg h0 hW.le)
        (div_nonneg (Finset.sum_nonneg fun k _ => (logWeight_pos k).le) hW.le)
        (by
          rw [div_le_one hW]
          exact Finset.sum_le_sum_of_subset_of_nonneg (Finset.range_mono (by omega))
            fun k _ _ => (logWeight_pos k).le)
      rw [← sub_div, Finset.sum_range_succ, add_sub_cancel_left] at hp
      have := HasProb.bind (f := fun u => (ofRes (firstGe (logCdf n) u) : RM G Nat)) (E := (· = j))
        (c0 := (pure () : RM G Unit)) (E0 := fun _ => True) hp (HasProb.pure trivial) (by
          intro g u g' A _ hu
          classical
          rw [(firstGe_iff (by omega)).2 hu, ev_pure, if_pos trivial]
          have e : (ofRes (.ok j) : RM G Nat) = pure j := rfl
          rw [e, ev_pure, if_pos rfl]) (by
          intro g u g' A _ hu
          ext g1
          constructor
          · rintro ⟨b, g2, e, rfl, -⟩
            cases hfg : firstGe (logCdf n) u with
            | error x => rw [hfg] at e; cases e
            | ok v =>
              rw [hfg] at e
              cases e
              exact absurd ((firstGe_iff (by omega)).1 hfg) hu
          · intro h; exact absurd h (Set.notMem_empty _))
      simpa using this
    have := HasProb.mapM (μ := μ) (f := fun (_ : Nat) => (do let u ← unitM; ofRes (firstGe (logCdf n) u) : RM G Nat))
      (l := List.range 1) (bs := [j]) (R := fun v w => w = v)
      (w := fun _ _ => ENNReal.ofReal (logWeight j / ∑ k ∈ Finset.range n, logWeight k)) (by simp)
      (by
        intro i h1' h2
        have : i = 0 := by simpa using h2
        subst this
        simpa using h1)
    have e : (List.zipWith (fun (_ : Nat) (_ : Nat) => ENNReal.ofReal (logWeight j / ∑ k ∈ Finset.range n, logWeight k))
        (List.range 1) [j]).prod = ENNReal.ofReal (logWeight j / ∑ k ∈ Finset.range n, logWeight k) := by
      simp [List.range_succ]
    rw [e] at this
    refine this.congr fun g ws g' _ => ?_
    constructor
    · intro h
      cases h with
      | cons h1 h2 => cases h2; rw [h1]
    · rintro rfl; exact .cons rfl .nil
  · rename_i hn
    have hn1 : n = 1 := by omega
    have hj0 : j = 0 := by omega
    subst hn1 hj0
    rw [Finset.sum_range_one, div_self (logWeight_pos 0).ne', ENNReal.ofReal_one]
    exact HasProb.pure rfl

theorem whereIdx_get {n d : Nat} {p : Nat → Bool} (hd : d < n) (hp : p d = true) :
    (whereIdx n p)[Nat.count (fun i => p i = true) d]? = some d := by
  unfold whereIdx
  have e : List.range n = List.range d ++ d :: List.range' (d + 1) (n - (d + 1)) := by
    rw [List.range_eq_range', List.range_eq_range', ← List.range'_succ]
    have : n = d + (n - (d + 1) + 1) := by omega
    conv_lhs => rw [this]
    rw [List.range'_append_1.symm]
    simp
  rw [e, List.filter_append, List.filter_cons, if_pos hp]
  have hc : Nat.count (fun i => p i = true) d = ((List.range d).filter p).length := by
    rw [Nat.count, List.countP_eq_length_filter]
    congr 2
    funext i
    simp
  rw [hc]
  simp

theorem count_isPrime {d : Nat} (hd : d = 1 ∨ d.Prime) :
    Nat.count (fun i => isPrime i = true) d = Nat.primeCounting d := by
  have h : ∀ d, Nat.count (fun i => isPrime i = true) d = Nat.count Nat.Prime d + if 1 < d then 1 else 0 := by
    intro d
    induction d with
    | zero => simp
    | succ d ih =>
      rw [Nat.count_succ, Nat.count_succ, ih]
      rcases Nat.lt_trichotomy d 1 with h | h | h
      · have : d = 0 := by omega
        subst this
        have : ¬ isPrime 0 = true := by rw [Props.C28_is_prime]; simp [Nat.not_prime_zero]
        simp [this, Nat.not_prime_zero]
      · subst h
        have : isPrime 1 = true := by rw [Props.C28_is_prime]; simp
        simp [this, Nat.not_prime_one]
      · have : isPrime d = true ↔ d.Prime := by
          rw [Props.C28_is_prime]
          constructor
          · rintro (h' | h')
            · exact h'
            · omega
          · exact Or.inl
        simp only [this, if_pos h, if_pos (show 1 < d + 1 by omega)]
        omega
  rw [h, Nat.primeCounting, Nat.primeCounting', Nat.count_succ]
  rcases hd with rfl | hd
  · simp [Nat.not_prime_one]
  · rw [if_pos hd.one_lt, if_pos hd]

theorem primeUpTo_length (q : Nat) (hq : 1 ≤ q) : (primeUpTo q).length = Nat.primeCounting q + 1 := by
  have h : ∀ m, (whereIdx (m + 2) isPrime).length = Nat.count Nat.Prime (m + 2) + 1 := by
    intro m
    induction m with
    | zero => decide +kernel
    | succ m ih =>
      have e : whereIdx (m + 1 + 2) isPrime = whereIdx (m + 2) isPrime ++ if isPrime (m + 2) then [m + 2] else [] := by
        unfold whereIdx
        rw [show m + 1 + 2 = (m + 2) + 1 by omega, List.range_succ, List.filter_append]
        congr 1
        by_cases hp : isPrime (m + 2) <;> simp [hp]
      rw [e, List.length_append, ih, show m + 1 + 2 = (m + 2) + 1 by omega, Nat.count_succ (p := Nat.Prime) (n := m + 2)]
      have : isPrime (m + 2) = true ↔ (m + 2).Prime := by
        rw [Props.C28_is_prime]
        constructor
        · rintro (h' | h')
          · exact h'
          · omega
        · exact Or.inl
      by_cases hp : (m + 2).Prime
      · rw [if_pos (this.2 hp), if_pos hp]; simp
      · rw [if_neg (fun h => hp (this.1 h)), if_neg hp]; simp
  have := h (q - 1)
  rw [show q - 1 + 2 = q + 1 by omega] at this
  exact this

theorem primes_filter {q N : Nat} (hN : q ≤ N) : (primeUpTo N).filter (fun p => decide (p ≤ q)) = primeUpTo q := by
  unfold primeUpTo whereIdx
  rw [List.filter_filter]
  have e : List.range (N + 1) = List.range (q + 1) ++ List.range' (q + 1) (N - q) := by
    rw [List.range_eq_range', List.range_eq_range']
    have : N + 1 = q + 1 + (N - q) := by omega
    rw [this, List.range'_append_1.symm]
    simp
  rw [e, List.filter_append]
  have h1 : (List.range' (q + 1) (N - q)).filter (fun a => decide (a ≤ q) && isPrime a) = [] := by
    rw [List.filter_eq_nil_iff]
    intro a ha
    rw [List.mem_range'_1] at ha
    simp; omega
  rw [h1, List.append_nil]
  refine List.filter_congr fun a ha => ?_
  rw [List.mem_range] at ha
  have : a ≤ q := by omega
  simp [this]

theorem prob_drawPrimeDilation (hf : Fair G μ) {n l N : Nat} (hl : 2 ≤ l) (hn : l ≤ n) (hN : dilBound n l ≤ N)
    (d : Nat) : HasProb μ (drawPrimeDilation (primeUpTo N) (upperBound n l : Option ℝ)) (· = d)
      (primeWeight (dilBound n l) d) := by
  classical
  have hq := dilBound_pos hl hn
  rw [upperBound_eq hl hn]
  unfold drawPrimeDilation
  simp only
  rw [powInt_logb hq, primes_filter hN, primeUpTo_length _ hq]
  have hsup : ∀ (g : G) r g', choiceLog (Nat.primeCounting (dilBound n l) + 1) 1 g = .ok (r, g') →
      ∃ j, r = [j] ∧ j < Nat.primeCounting (dilBound n l) + 1 := by
    intro g r g' h
    obtain ⟨a, g1, e, h1, h2⟩ := wp_choiceLog (G := G) (n := Nat.primeCounting (dilBound n l) + 1) (k := 1) (by omega) g
    rw [h] at e
    cases e
    match r, h1 with
    | [j], _ => exact ⟨j, rfl, h2 j (by simp)⟩
  unfold primeWeight
  split
  · rename_i hd
    have hget : (primeUpTo (dilBound n l))[Nat.primeCounting d]? = some d := by
      have := whereIdx_get (n := dilBound n l + 1) (d := d) (p := isPrime) (by omega)
        (by rw [Props.C28_is_prime]; exact hd.1.symm)
      rw [count_isPrime hd.1] at this
      exact this
    have hmono : Nat.primeCounting d ≤ Nat.primeCounting (dilBound n l) := Nat.monotone_primeCounting hd.2
    have h1 := prob_choiceLog hf (n := Nat.primeCounting (dilBound n l) + 1) (j := Nat.primeCounting d) (by omega)
    have := HasProb.bindEq (f := fun c => (do
        let j ← ofRes (aget c 0)
        ofRes (aget (primeUpTo (dilBound n l)) j) : RM G Nat)) (E := (· = d)) h1 (w2 := 1) (by
        rw [ofRes_bind_of_ok (r := aget [Nat.primeCounting d] 0) (a := Nat.primeCounting d) rfl]
        exact HasProb.ofRes (aget_eq_ok.2 hget) rfl) (by
        rintro g0 r g b g' hg hne hb rfl
        obtain ⟨j, rfl, hj⟩ := hsup g0 r g hg
        rw [ofRes_bind_of_ok (r := aget [j] 0) (a := j) rfl] at hb
        apply hne
        cases ha : aget (primeUpTo (dilBound n l)) j with
        | error x => rw [ha] at hb; cases hb
        | ok v =>
          rw [ha] at hb
          cases hb
          rw [aget_eq_ok] at ha
          have hnd : (primeUpTo (dilBound n l)).Nodup := whereIdx_nodup _ _
          have hlt : j < (primeUpTo (dilBound n l)).length := by rw [primeUpTo_length _ hq]; exact hj
          have := (List.nodup_iff_getElem?_ne_getElem?.1 hnd)
          by_contra hc
          have hc : j ≠ Nat.primeCounting b := fun h => hc (by rw [h])
          rcases Nat.lt_or_gt_of_ne hc with h | h
          · exact this j _ h (by rw [primeUpTo_length _ hq]; omega) (ha.trans hget.symm)
          · exact this _ j h hlt (hget.trans ha.symm))
    simpa using this
  · rename_i hd
    refine HasProb.never fun g b g' hb e => hd ?_
    rw [RM.bind_apply, Res.bind_eq_ok] at hb
    obtain ⟨⟨r, g1⟩, h1, hb⟩ := hb
    obtain ⟨j, rfl, hj⟩ := hsup g r g1 h1
    simp only at hb
    rw [ofRes_bind_of_ok (r := aget [j] 0) (a := j) rfl] at hb
    cases ha : aget (primeUpTo (dilBound n l)) j with
    | error x => rw [ha] at hb; cases hb
    | ok v =>
      rw [ha] at hb
      cases hb
      rw [aget_eq_ok] at ha
      have hm := List.mem_of_getElem? ha
      unfold primeUpTo at hm
      rw [mem_whereIdx, Props.C28_is_prime] at hm
      subst e
      exact ⟨hm.2.symm, by omega⟩

theorem prob_drawDilations (hf : Fair G μ) {n : Nat} {lengths ds : List Nat} {prime : Bool} (hne : lengths ≠ [])
    (hl : ∀ l ∈ lengths, 2 ≤ l ∧ l ≤ n) (hlen : lengths.length = ds.length) :
    HasProb μ (drawDilations n lengths prime) (· = ds)
      ((List.zipWith (dilWeight n prime) lengths ds).prod) := by
  have conv : ∀ {f : Option ℝ → RM G Nat} {w : Nat → Nat → ℝ≥0∞},
      (∀ l d, l ∈ lengths → HasProb μ (f (upperBound n l)) (· = d) (w l d)) →
      HasProb μ ((lengths.map (upperBound n)).mapM f) (· = ds) ((List.zipWith w lengths ds).prod) := by
    intro f w h
    rw [List.mapM_map]
    have := HasProb.mapM (μ := μ) (f := fun l => f (upperBound n l)) (l := lengths) (bs := ds)
      (R := fun v w => w = v) (w := w) hlen (fun i h1 h2 => h _ _ (List.getElem_mem h1))
    refine this.congr fun g ws g' _ => ?_
    constructor
    · intro h
      have : List.Forall₂ (fun v w => v = w) ds ws := h.imp fun _ _ h => h.symm
      exact (List.forall₂_eq_eq_eq ▸ this : ds = ws).symm
    · rintro rfl
      exact List.forall₂_same.2 fun _ _ => rfl
  unfold drawDilations
  simp only
  cases prime with
  | false =>
    simp only [Bool.false_eq_true, if_false]
    refine conv fun l d hll => ?_
    unfold dilWeight
    simp only [Bool.false_eq_true, if_false]
    exact prob_drawDilation hf (hl l hll).1 (hl l hll).2 d
  | true =>
    simp only [if_true]
    obtain ⟨q, e, hq1, hq2⟩ := maxBound_ok (qs := lengths.map (dilBound n)) (by simpa using hne) (by
      intro q hq
      obtain ⟨l, hll, rfl⟩ := List.mem_map.1 hq
      exact dilBound_pos (hl l hll).1 (hl l hll).2)
    have hub : (lengths.map (upperBound n) : List (Option ℝ)) =
        (lengths.map (dilBound n)).map fun (q : Nat) => some (Real.logb 2 q) := by
      rw [List.map_map]
      refine List.map_congr_left ?_
      intro l hll
      exact upperBound_eq (hl l hll).1 (hl l hll).2
    rw [ofRes_bind_of_ok (by rw [hub]; exact e)]
    obtain ⟨l0, hl0, rfl⟩ := List.mem_map.1 hq1
    rw [powInt_logb (dilBound_pos (hl l0 hl0).1 (hl l0 hl0).2)]
    refine conv fun l d hll => ?_
    unfold dilWeight
    simp only [if_true]
    exact prob_drawPrimeDilation hf (hl l hll).1 (hl l hll).2 (hq2 _ (List.mem_map.2 ⟨l, hll, rfl⟩)) d

/-! ## All parameters -/

theorem prod_range_map {M : Type} [CommMonoid M] (f : Nat → M) (n : Nat) :
    ((List.range n).map f).prod = ∏ k ∈ Finset.range n, f k := by
  induction n with
  | zero => simp
  | succ n ih => rw [List.range_succ, List.map_append, List.prod_append, Finset.prod_range_succ, ih]; simp

theorem prob_flags (hf : Fair G μ) (p : ℝ) (bs : List Bool) :
    HasProb μ ((List.range bs.length).mapM fun _ => (unitM : RM G ℝ)) (fun us => (us.map fun u => Scalar.ltb u p) = bs)
      ((bs.map (flagWeight p)).prod) := by
  have h := HasProb.mapM (μ := μ) (f := fun (_ : Nat) => (unitM : RM G ℝ)) (l := List.range bs.length) (bs := bs)
    (R := fun b u => Scalar.ltb u p = b) (w := fun _ b => flagWeight p b) (by simp)
    (fun i h1 h2 => prob_flag hf p _)
  have e : List.zipWith (fun (_ : Nat) b => flagWeight p b) (List.range bs.length) bs = bs.map (flagWeight p) := by
    apply List.ext_getElem
    · simp
    · intro i h1 h2; simp
  rw [e] at h
  refine h.congr fun g us g' _ => ?_
  constructor
  · intro h
    clear * - h
    induction h with
    | nil => rfl
    | cons h1 _ ih => rw [List.map_cons, h1, ih]
  · rintro rfl
    rw [List.forall₂_map_left_iff]
    exact List.forall₂_same.2 fun _ _ => rfl

/-- The lists holding the parameters `P`. -/
def Spec.Par.lens (P : Par) : List Nat := (List.range P.n).map P.length
def Spec.Par.dils (P : Par) : List Nat := (List.range P.n).map P.dilation
def Spec.Par.norms (P : Par) : List Bool := (List.range P.n).map P.normalize

theorem choiceN_support {α : Type} {a : List α} {n : Nat} {g g' : G} {r : List α} (h : choiceN a n g = .ok (r, g')) :
    r.length = n ∧ ∀ v ∈ r, v ∈ a := by
  have key : ∀ (l : List Nat) (g : G) (r : List α) (g' : G), (l.mapM fun _ => choice1 (G := G) a) g = .ok (r, g') →
      r.length = l.length ∧ ∀ v ∈ r, v ∈ a := by
    intro l
    induction l with
    | nil => intro g r g' h; cases h; simp
    | cons x l ih =>
      intro g r g' h
      rw [List.mapM_cons, RM.bind_apply, Res.bind_eq_ok] at h
      obtain ⟨⟨v, g1⟩, h1, h⟩ := h
      rw [RM.bind_apply, Res.bind_eq_ok] at h
      obtain ⟨⟨vs, g2⟩, h2, h⟩ := h
      cases h
      obtain ⟨i1, i2⟩ := ih _ _ _ h2
      refine ⟨by simp [i1], ?_⟩
      intro w hw
      rcases List.mem_cons.1 hw with rfl | hw
      · exact choice1_support h1
      · exact i2 w hw
  have := key _ g r g' h
  simpa using this

/-- The weights of the lengths, dilations and flags, regrouped by shapelet. -/
theorem par_prod (sizes : List Nat) (n : Nat) (prime : Bool) (p : ℝ) (P : Par) :
    ((P.lens.map fun v => (sizes.count v / sizes.length : ℝ≥0∞)).prod) *
      ((List.zipWith (dilWeight n prime) P.lens P.dils).prod * ((P.norms.map (flagWeight p)).prod)) =
    ∏ i ∈ Finset.range P.n, lengthWeight sizes (P.length i) *
      dilWeight n prime (P.length i) (P.dilation i) * flagWeight p (P.normalize i) := by
  unfold Spec.Par.lens Spec.Par.dils Spec.Par.norms
  have e : List.zipWith (dilWeight n prime) ((List.range P.n).map P.length) ((List.range P.n).map P.dilation) =
      (List.range P.n).map fun i => dilWeight n prime (P.length i) (P.dilation i) := by
    apply List.ext_getElem
    · simp
    · intro i h1 h2; simp
  rw [e, List.map_map, List.map_map, prod_range_map, prod_range_map, prod_range_map, ← mul_assoc,
    ← Finset.prod_mul_distrib, ← Finset.prod_mul_distrib]
  rfl

/-- The law of the univariate parameters. -/
theorem prob_uInit (hf : Fair G μ) {nShp : Nat} {sizes : List Nat} {n : Nat} (pNorm : ℝ) (prime : Bool)
    (hN : 1 ≤ nShp) (hs : sizes ≠ []) (hb : ∀ l ∈ sizes, 2 ≤ l ∧ l ≤ n) {P : Par} (hP : P.n = nShp) :
    HasProb μ (uInit nShp sizes n pNorm prime : RM G (UShp ℝ))
      (fun Q => Q.lengths = P.lens ∧ Q.dilations = P.dils ∧ Q.normalize = P.norms)
      (∏ i ∈ Finset.range P.n, lengthWeight sizes (P.length i) *
        dilWeight n prime (P.length i) (P.dilation i) * flagWeight pNorm (P.normalize i)) := by
  have hll : P.lens.length = nShp := by simp [Spec.Par.lens, hP]
  have hdl : P.dils.length = nShp := by simp [Spec.Par.dils, hP]
  have hnl : P.norms.length = nShp := by simp [Spec.Par.norms, hP]
  obtain ⟨mx, emx, -⟩ := nmax_ok hs
  unfold uInit
  simp only [ofRes_bind_of_ok emx]
  rw [← par_prod]
  by_cases hmem : ∀ l ∈ P.lens, l ∈ sizes
  · refine HasProb.bindEq (a0 := P.lens) ?_ ?_ ?_
    · have := prob_choiceN hf sizes P.lens
      rwa [hll] at this
    · refine HasProb.bindEq (a0 := P.dils) (prob_drawDilations hf ?_ (fun l hl => hb l (hmem l hl)) (by omega)) ?_ ?_
      · intro h; rw [h] at hll; simp at hll; omega
      · have := prob_flags hf pNorm P.norms
        rw [hnl] at this
        refine HasProb.map (f := fun (us : List ℝ) => (⟨List.replicate nShp (List.replicate mx (0 : ℝ)), P.lens, P.dils,
          List.replicate nShp (0 : ℝ), us.map fun u => Scalar.ltb u pNorm⟩ : UShp ℝ)) ?_
        exact this.congr fun g us g' _ => by simp
      · rintro g0 ds g Q g' - hne hQ ⟨-, h2, -⟩
        rw [RM.bind_apply, Res.bind_eq_ok] at hQ
        obtain ⟨⟨us, g2⟩, -, hQ⟩ := hQ
        cases hQ
        exact hne h2
    · rintro g0 ls g Q g' - hne hQ ⟨h1, -, -⟩
      rw [RM.bind_apply, Res.bind_eq_ok] at hQ
      obtain ⟨⟨ds, g1⟩, -, hQ⟩ := hQ
      simp only at hQ
      rw [RM.bind_apply, Res.bind_eq_ok] at hQ
      obtain ⟨⟨us, g2⟩, -, hQ⟩ := hQ
      cases hQ
      exact hne h1
  · have h0 : (P.lens.map fun v => (sizes.count v / sizes.length : ℝ≥0∞)).prod = 0 := by
      push Not at hmem
      obtain ⟨l, h1, h2⟩ := hmem
      rw [List.prod_eq_zero_iff, List.mem_map]
      exact ⟨l, h1, by rw [List.count_eq_zero.2 h2]; simp⟩
    rw [h0, zero_mul]
    refine HasProb.never ?_
    rintro g Q g' hQ ⟨h1, -, -⟩
    rw [RM.bind_apply, Res.bind_eq_ok] at hQ
    obtain ⟨⟨ls, g0⟩, hls, hQ⟩ := hQ
    simp only at hQ
    rw [RM.bind_apply, Res.bind_eq_ok] at hQ
    obtain ⟨⟨ds, g1⟩, -, hQ⟩ := hQ
    simp only at hQ
    rw [RM.bind_apply, Res.bind_eq_ok] at hQ
    obtain ⟨⟨us, g2⟩, -, hQ⟩ := hQ
    cases hQ
    simp only at h1
    rw [← h1] at hmem
    exact hmem (choiceN_support hls).2

theorem nch_prod {mc : Nat} (nch : Nat → Nat) (n : Nat) (h : ∀ i, i < n → 1 ≤ nch i) :
    ((((List.range n).map fun i => nch i - 1).map fun v =>
      ((List.range mc).count v / (List.range mc).length : ℝ≥0∞)).prod) = ∏ i ∈ Finset.range n, nchWeight mc (nch i) := by
  rw [List.map_map, prod_range_map]
  refine Finset.prod_congr rfl fun i hi => ?_
  have h1 := h i (Finset.mem_range.1 hi)
  simp only [Function.comp_apply, List.length_range]
  unfold nchWeight
  by_cases h2 : nch i ≤ mc
  · rw [if_pos ⟨h1, h2⟩, List.count_eq_one_of_mem List.nodup_range (List.mem_range.2 (by omega))]
    simp
  · rw [if_neg (fun h => h2 h.2), List.count_eq_zero.2 (by rw [List.mem_range]; omega)]
    simp

/-- The law of the multivariate parameters. -/
theorem prob_mInit (hf : Fair G μ) {nShp : Nat} {sizes : List Nat} {n : Nat} (pNorm : ℝ) (prime : Bool) {mc : Nat}
    (hN : 1 ≤ nShp) (hb : ∀ l ∈ sizes, 2 ≤ l ∧ l ≤ n) {P : Par} (hP : P.n = nShp) (nch : Nat → Nat) :
    HasProb μ (mInit nShp sizes n pNorm mc prime : RM G (MShp ℝ))
      (fun Q => Q.lengths = P.lens ∧ Q.dilations = P.dils ∧ Q.normalize = P.norms ∧
        Q.nChannels = (List.range P.n).map nch)
      ((∏ i ∈ Finset.range P.n, lengthWeight sizes (P.length i) *
        dilWeight n prime (P.length i) (P.dilation i) * flagWeight pNorm (P.normalize i)) *
        ∏ i ∈ Finset.range P.n, nchWeight mc (nch i)) := by
  have hll : P.lens.length = nShp := by simp [Spec.Par.lens, hP]
  have hdl : P.dils.length = nShp := by simp [Spec.Par.dils, hP]
  have hnl : P.norms.length = nShp := by simp [Spec.Par.norms, hP]
  have hunfold : ∀ (g : G) Q g', mInit nShp sizes n pNorm mc prime g = .ok (Q, g') → ∃ ls g0 ds g1 ch g2,
      choiceN sizes nShp g = .ok (ls, g0) ∧ drawDilations n ls prime g0 = .ok (ds, g1) ∧
      choiceN (List.range mc) nShp g1 = .ok (ch, g2) ∧ Q.lengths = ls ∧ Q.dilations = ds ∧
      Q.nChannels = ch.map (· + 1) := by
    intro g Q g' hQ
    unfold mInit at hQ
    rw [RM.bind_apply, Res.bind_eq_ok] at hQ
    obtain ⟨⟨ls, g0⟩, hls, hQ⟩ := hQ
    simp only at hQ
    rw [RM.bind_apply, Res.bind_eq_ok] at hQ
    obtain ⟨⟨ds, g1⟩, hds, hQ⟩ := hQ
    simp only at hQ
    rw [RM.bind_apply, Res.bind_eq_ok] at hQ
    obtain ⟨⟨ch, g2⟩, hch, hQ⟩ := hQ
    simp only at hQ
    rw [RM.bind_apply, Res.bind_eq_ok] at hQ
    obtain ⟨⟨us, g3⟩, -, hQ⟩ := hQ
    cases hQ
    exact ⟨ls, g0, ds, g1, ch, g2, hls, hds, hch, rfl, rfl, rfl⟩
  rw [← par_prod]
  by_cases hmem : (∀ l ∈ P.lens, l ∈ sizes) ∧ ∀ i, i < P.n → 1 ≤ nch i
  · obtain ⟨hmem, hnch⟩ := hmem
    rw [← nch_prod nch P.n hnch, mul_assoc, mul_assoc, mul_comm ((P.norms.map (flagWeight pNorm)).prod)]
    unfold mInit
    refine HasProb.bindEq (a0 := P.lens) ?_ ?_ ?_
    · have := prob_choiceN hf sizes P.lens
      rwa [hll] at this
    · refine HasProb.bindEq (a0 := P.dils) (prob_drawDilations hf ?_ (fun l hl => hb l (hmem l hl)) (by omega)) ?_ ?_
      · intro h; rw [h] at hll; simp at hll; omega
      · refine HasProb.bindEq (a0 := (List.range P.n).map fun i => nch i - 1) ?_ ?_ ?_
        · have := prob_choiceN hf (List.range mc) ((List.range P.n).map fun i => nch i - 1)
          have e : ((List.range P.n).map fun i => nch i - 1).length = nShp := by simp [hP]
          rwa [e] at this
        · have := prob_flags hf pNorm P.norms
          rw [hnl] at this
          refine HasProb.map (f := fun (us : List ℝ) => (⟨List.replicate (List.zipWith (· * ·) P.lens
            (((List.range P.n).map fun i => nch i - 1).map (· + 1))).sum (0 : ℝ), P.lens, P.dils,
            List.replicate nShp (0 : ℝ), us.map fun u => Scalar.ltb u pNorm,
            ((List.range P.n).map fun i => nch i - 1).map (· + 1),
            List.replicate (((List.range P.n).map fun i => nch i - 1).map (· + 1)).sum 0⟩ : MShp ℝ)) ?_
          refine this.congr fun g us g' _ => ?_
          have e : (((List.range P.n).map fun i => nch i - 1).map (· + 1)) = (List.range P.n).map nch := by
            rw [List.map_map]
            refine List.map_congr_left fun i hi => ?_
            have := hnch i (List.mem_range.1 hi)
            simp; omega
          simp only [true_and, e, and_true]
        · rintro g0 ch g Q g' - hne hQ ⟨-, -, -, h4⟩
          simp only at hQ
          rw [RM.bind_apply, Res.bind_eq_ok] at hQ
          obtain ⟨⟨us, g2⟩, -, hQ⟩ := hQ
          cases hQ
          apply hne
          simp only at h4
          have : (ch.map (· + 1)).map (· - 1) = ((List.range P.n).map nch).map (· - 1) := by rw [h4]
          rw [List.map_map, List.map_map] at this
          simpa [Function.comp_def] using this
      · rintro g0 ds g Q g' - hne hQ ⟨-, h2, -⟩
        simp only at hQ
        rw [RM.bind_apply, Res.bind_eq_ok] at hQ
        obtain ⟨⟨ch, g2⟩, -, hQ⟩ := hQ
        simp only at hQ
        rw [RM.bind_apply, Res.bind_eq_ok] at hQ
        obtain ⟨⟨us, g3⟩, -, hQ⟩ := hQ
        cases hQ
        exact hne h2
    · rintro g0 ls g Q g' - hne hQ ⟨h1, -, -⟩
      rw [RM.bind_apply, Res.bind_eq_ok] at hQ
      obtain ⟨⟨ds, g1⟩, -, hQ⟩ := hQ
      simp only at hQ
      rw [RM.bind_apply, Res.bind_eq_ok] at hQ
      obtain ⟨⟨ch, g2⟩, -, hQ⟩ := hQ
      simp only at hQ
      rw [RM.bind_apply, Res.bind_eq_ok] at hQ
      obtain ⟨⟨us, g3⟩, -, hQ⟩ := hQ
      cases hQ
      exact hne h1
  · have h0 : (P.lens.map fun v => (sizes.count v / sizes.length : ℝ≥0∞)).prod = 0 ∨
        ∏ i ∈ Finset.range P.n, nchWeight mc (nch i) = 0 := by
      rw [not_and_or] at hmem
      rcases hmem with hmem | hmem
      · left
        push Not at hmem
        obtain ⟨l, h1, h2⟩ := hmem
        rw [List.prod_eq_zero_iff, List.mem_map]
        exact ⟨l, h1, by rw [List.count_eq_zero.2 h2]; simp⟩
      · right
        push Not at hmem
        obtain ⟨i, h1, h2⟩ := hmem
        refine Finset.prod_eq_zero (Finset.mem_range.2 h1) ?_
        unfold nchWeight
        rw [if_neg (fun h => by omega)]
    have h0 : (P.lens.map fun v => (sizes.count v / sizes.length : ℝ≥0∞)).prod *
        ((List.zipWith (dilWeight n prime) P.lens P.dils).prod * (P.norms.map (flagWeight pNorm)).prod) *
        ∏ i ∈ Finset.range P.n, nchWeight mc (nch i) = 0 := by
      rcases h0 with h | h
      · rw [h, zero_mul, zero_mul]
      · rw [h, mul_zero]
    rw [h0]
    refine HasProb.never ?_
    rintro g Q g' hQ ⟨h1, -, -, h4⟩
    obtain ⟨ls, g0, ds, g1, ch, g2, hls, hds, hch, e1, e2, e3⟩ := hunfold g Q g' hQ
    refine hmem ⟨?_, ?_⟩
    · rw [← h1, e1]; exact (choiceN_support hls).2
    · intro i hi
      have : nch i ∈ Q.nChannels := by rw [h4, List.mem_map]; exact ⟨i, List.mem_range.2 hi, rfl⟩
      rw [e3, List.mem_map] at this
      obtain ⟨c, -, e⟩ := this
      omega

end Convst
