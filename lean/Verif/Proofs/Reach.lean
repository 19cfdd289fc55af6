import Verif.Proofs.FitInit

/-!
# Reachable outcomes of random computations

`Script` is a generator that can produce every sequence of draws; `Reach m a` says that some sequence
of draws makes `m` return `a`.
-/

set_option autoImplicit false
set_option linter.unusedSectionVars false

namespace Convst

/-- A generator reading its draws from two arbitrary streams; it can produce every sequence of
draws. -/
structure Script where
  ints : Nat → Nat
  reals : Nat → ℝ

noncomputable instance : Gen Script ℝ where
  randint lo hi g := (lo + g.ints 0 % (hi - lo), ⟨fun n => g.ints (n + 1), g.reals⟩)
  unit g := (Int.fract (g.reals 0), ⟨g.ints, fun n => g.reals (n + 1)⟩)

instance : LawfulGen Script where
  randint_ge _ _ _ _ := Nat.le_add_right _ _
  randint_lt lo hi g h := by
    have := Nat.mod_lt (g.ints 0) (show 0 < hi - lo by omega)
    show lo + g.ints 0 % (hi - lo) < hi
    omega
  unit_nonneg g := Int.fract_nonneg _
  unit_lt g := Int.fract_lt_one _

variable {α β σ : Type}

/-- Some sequence of draws, followed by any further draws, makes `m` return `a`. -/
def Reach (m : RM Script α) (a : α) : Prop := ∀ g', ∃ g, m g = .ok (a, g')

theorem Reach.pure (a : α) : Reach (Pure.pure a) a := fun g' => ⟨g', rfl⟩

theorem Reach.bind {m : RM Script α} {f : α → RM Script β} {a : α} {b : β} (hm : Reach m a)
    (hf : Reach (f a) b) : Reach (m >>= f) b := by
  intro g'
  obtain ⟨g1, h1⟩ := hf g'
  obtain ⟨g, h⟩ := hm g1
  exact ⟨g, by rw [RM.bind_apply, h]; exact h1⟩

theorem Reach.ofRes {r : Res α} {a : α} (h : r = .ok a) : Reach (ofRes r) a :=
  fun g' => ⟨g', by rw [h]; rfl⟩

theorem Reach.bindRes {r : Res α} {a : α} {f : α → RM Script β} {b : β} (h : r = .ok a)
    (hf : Reach (f a) b) : Reach (Convst.ofRes r >>= f) b := Reach.bind (Reach.ofRes h) hf

theorem Reach.mapM {f : α → RM Script β} {l : List α} {bs : List β}
    (h : List.Forall₂ (fun a b => Reach (f a) b) l bs) : Reach (l.mapM f) bs := by
  induction h with
  | nil => rw [List.mapM_nil]; exact Reach.pure _
  | cons h1 _ ih => rw [List.mapM_cons]; exact Reach.bind h1 (Reach.bind ih (Reach.pure _))

/-- Conversely, what a lawful computation returns satisfies its postcondition. -/
theorem Reach.post {m : RM Script α} {a : α} {Q : α → Prop} (h : Reach m a) (hw : Wp m Q) : Q a := by
  obtain ⟨g, hg⟩ := h ⟨fun _ => 0, fun _ => 0⟩
  obtain ⟨b, g', h1, h2⟩ := hw g
  rw [hg] at h1
  cases h1
  exact h2

theorem reach_draw {lo hi j : Nat} (h1 : lo ≤ j) (h2 : j < hi) : Reach (draw lo hi) j := by
  intro g'
  refine ⟨⟨fun n => match n with | 0 => j - lo | n + 1 => g'.ints n, g'.reals⟩, ?_⟩
  unfold draw
  rw [if_pos (by omega)]
  show Except.ok (lo + (j - lo) % (hi - lo), _) = _
  rw [Nat.mod_eq_of_lt (by omega), Nat.add_sub_cancel' h1]

theorem reach_unit {u : ℝ} (h1 : 0 ≤ u) (h2 : u < 1) : Reach unitM u := by
  intro g'
  refine ⟨⟨g'.ints, fun n => match n with | 0 => u | n + 1 => g'.reals n⟩, ?_⟩
  show Except.ok (Int.fract u, _) = _
  rw [Int.fract_eq_self.2 ⟨h1, h2⟩]

theorem reach_choice1 {a : List α} {v : α} (h : v ∈ a) : Reach (choice1 a) v := by
  obtain ⟨j, hj, rfl⟩ := List.mem_iff_getElem.1 h
  unfold choice1
  exact Reach.bind (reach_draw (Nat.zero_le _) hj) (Reach.ofRes (aget_ok hj))

theorem forall₂_of_length {γ δ : Type} {R : γ → δ → Prop} {l : List γ} {r : List δ}
    (hlen : l.length = r.length) (h : ∀ a b, b ∈ r → R a b) : List.Forall₂ R l r := by
  rw [List.forall₂_iff_get]
  exact ⟨hlen, fun i h1 h2 => h _ _ (List.get_mem _ _)⟩

theorem reach_choiceN {a : List α} {n : Nat} {r : List α} (hn : r.length = n)
    (h : ∀ v ∈ r, v ∈ a) : Reach (choiceN a n) r := by
  unfold choiceN
  exact Reach.mapM (forall₂_of_length (by simp [hn]) fun _ b hb => reach_choice1 (h b hb))

theorem reach_uniform {a b v : ℝ} (h0 : a ≤ v) (h1 : v < b ∨ v = a) : Reach (uniformM a b) v := by
  unfold uniformM
  by_cases hab : v = a
  · subst hab
    refine Reach.bind (reach_unit (u := 0) (le_refl _) (by norm_num)) ?_
    have : v + (b - v) * 0 = v := by ring
    have h := Reach.pure (v + (b - v) * 0)
    conv at h => arg 2; rw [this]
    exact h
  · have h1 := h1.resolve_right hab
    have hlt : a < b := lt_of_le_of_lt h0 h1
    have hne : b - a ≠ 0 := by linarith
    refine Reach.bind (reach_unit (u := (v - a) / (b - a)) (div_nonneg (by linarith) (by linarith))
      (by rw [div_lt_one (by linarith)]; linarith)) ?_
    have : a + (b - a) * ((v - a) / (b - a)) = v := by field_simp; ring
    have h := Reach.pure (a + (b - a) * ((v - a) / (b - a)))
    conv at h => arg 2; rw [this]
    exact h

/-! ## The log-weighted choice -/

/-- The draw `u` selects index `j`: it lies between the weights cumulated before and up to `j`. -/
def LogPick (n : Nat) (u : ℝ) (j : Nat) : Prop :=
  j < n ∧ (∀ i, i < j → ((logWeights n : List ℝ).take (i + 1)).sum < u * (logWeights n : List ℝ).sum) ∧
    u * (logWeights n : List ℝ).sum ≤ ((logWeights n : List ℝ).take (j + 1)).sum

theorem firstGe_iff {n : Nat} (hn : 1 ≤ n) {u : ℝ} {j : Nat} :
    firstGe (logCdf n) u = .ok j ↔ LogPick n u j := by
  have hW := logWeights_sum_pos hn
  rw [firstGe_spec]
  unfold LogPick
  constructor
  · rintro ⟨⟨p, h1, h2⟩, h3⟩
    have hj : j < n := by
      by_contra hc
      rw [List.getElem?_eq_none (by rw [logCdf_length]; omega)] at h1; cases h1
    refine ⟨hj, ?_, ?_⟩
    · intro i hi
      have := h3 i _ hi (logCdf_getElem? (by omega))
      rwa [div_lt_iff₀ hW] at this
    · rw [logCdf_getElem? hj] at h1
      cases h1
      rwa [le_div_iff₀ hW] at h2
  · rintro ⟨h1, h2, h3⟩
    refine ⟨⟨_, logCdf_getElem? h1, by rwa [le_div_iff₀ hW]⟩, ?_⟩
    intro i p hi hp
    rw [logCdf_getElem? (by omega)] at hp
    cases hp
    rw [div_lt_iff₀ hW]
    exact h2 i hi

theorem logPick_exists {n j : Nat} (hj : j < n) : ∃ u : ℝ, 0 ≤ u ∧ u < 1 ∧ LogPick n u j := by
  have hn : 1 ≤ n := by omega
  have hW := logWeights_sum_pos hn
  by_cases h0 : j = 0
  · subst h0
    refine ⟨0, le_refl _, by norm_num, hj, by simp, ?_⟩
    rw [zero_mul]
    exact List.sum_nonneg fun w hw => (logWeights_pos n w (List.mem_of_mem_take hw)).le
  · -- any value strictly between the two cumulated weights
    have ha := logCdf_getElem? (n := n) (i := j - 1) (by omega)
    have hb := logCdf_getElem? (n := n) (i := j) hj
    have hlt := logCdf_lt (by omega : j - 1 < j) ha hb
    set a := ((logWeights n : List ℝ).take (j - 1 + 1)).sum / (logWeights n : List ℝ).sum
    set b := ((logWeights n : List ℝ).take (j + 1)).sum / (logWeights n : List ℝ).sum
    have hb1 : b ≤ 1 := by
      rcases Nat.lt_or_ge j (n - 1) with h | h
      · exact (logCdf_lt h hb (logCdf_last hn)).le
      · have : j = n - 1 := by omega
        rw [this, logCdf_last hn] at hb
        exact (Option.some.inj hb).symm.le
    have ha0 : 0 ≤ a := div_nonneg
      (List.sum_nonneg fun w hw => (logWeights_pos n w (List.mem_of_mem_take hw)).le) hW.le
    refine ⟨(a + b) / 2, by linarith, by linarith, ?_⟩
    rw [← firstGe_iff hn, firstGe_spec]
    refine ⟨⟨b, hb, by linarith⟩, ?_⟩
    intro i p hi hp
    rcases Nat.lt_or_ge i (j - 1) with h | h
    · have := logCdf_lt h hp ha; linarith
    · have : i = j - 1 := by omega
      rw [this, ha] at hp
      have := Option.some.inj hp; linarith

theorem reach_choiceLog {n m : Nat} {r : List Nat} (hr : r.length = m) (h : ∀ j ∈ r, j < n) :
    Reach (choiceLog n m) r := by
  unfold choiceLog
  split
  · rename_i hn
    refine Reach.mapM (forall₂_of_length (by simp [hr]) fun _ j hj => ?_)
    obtain ⟨u, h0, h1, h2⟩ := logPick_exists (h j hj)
    exact Reach.bind (reach_unit h0 h1) (Reach.ofRes ((firstGe_iff (by omega)).2 h2))
  · rename_i hn
    have : r = List.replicate m 0 := by
      rw [List.eq_replicate_iff]
      exact ⟨hr, fun j hj => by have := h j hj; omega⟩
    rw [this]
    exact Reach.pure _

/-! ## Dilations -/

/-- Dilations the default scheme can produce: admissible and not the largest admissible one (unless
it is 1). -/
def DilPlain (n l d : Nat) : Prop := 1 ≤ d ∧ ((l - 1) * (d + 1) ≤ n - 1 ∨ d = 1)

/-- Dilations the prime scheme can produce. -/
def DilPrime (n l d : Nat) : Prop := (l - 1) * d ≤ n - 1 ∧ (d = 1 ∨ d.Prime)

theorem reach_drawDilation {n l d : Nat} (hl : 2 ≤ l) (hn : l ≤ n) (hd : DilPlain n l d) :
    Reach (drawDilation (upperBound n l : Option ℝ)) d := by
  have hq := dilBound_pos hl hn
  rw [upperBound_eq hl hn]
  obtain ⟨u, h0, h1, h2⟩ : ∃ u : ℝ, 0 ≤ u ∧ u < 1 ∧ dilOf (dilBound n l) u = d := by
    obtain ⟨h1, h2⟩ := hd
    rcases Nat.lt_or_ge d (dilBound n l) with h | h
    · exact dilOf_surj h1 h
    · have hd1 : d = 1 := by
        rcases h2 with h2 | h2
        · rw [← le_dilBound_iff hl] at h2; omega
        · exact h2
      have hq1 : dilBound n l = 1 := by omega
      exact ⟨0, le_refl _, by norm_num, by rw [hq1, dilOf_one, hd1]⟩
  unfold drawDilation
  simp only [uniformM]
  refine Reach.bind (Reach.bind (reach_unit h0 h1) (Reach.pure _)) ?_
  have e : (0 : ℝ) + (Real.logb 2 (dilBound n l) - 0) * u = Real.logb 2 (dilBound n l) * u := by ring
  have := Reach.pure (dilOf (dilBound n l) u)
  conv at this => arg 2; rw [h2]
  refine Eq.mp ?_ this
  congr 2
  show _ = (Scalar.floor (Scalar.pow2 ((0 : ℝ) + (Real.logb 2 (dilBound n l) - 0) * u))).toNat
  rw [e]; rfl

theorem wp_drawDilation_lt {n l : Nat} (hl : 2 ≤ l) (hn : l ≤ n) {G : Type} [Gen G ℝ] [LawfulGen G] :
    Wp (G := G) (drawDilation (upperBound n l : Option ℝ)) (DilPlain n l) := by
  have hq := dilBound_pos hl hn
  rw [upperBound_eq hl hn]
  unfold drawDilation
  simp only [uniformM]
  refine Wp.bind (P := fun p => ∃ u : ℝ, 0 ≤ u ∧ u < 1 ∧ p = Real.logb 2 (dilBound n l) * u) ?_ ?_
  · refine Wp.bind wp_unit fun u hu => Wp.pure ⟨u, hu.1, hu.2, ?_⟩
    have e : ∀ a b : ℝ, (0 : ℝ) + (a - 0) * b = a * b := by intros; ring
    exact e _ _
  · rintro p ⟨u, h1, h2, rfl⟩
    refine Wp.pure ⟨dilOf_ge hq h1, ?_⟩
    rcases Nat.eq_or_lt_of_le hq with h | h
    · right
      show dilOf (dilBound n l) u = 1
      rw [← h, dilOf_one]
    · left
      rw [← le_dilBound_iff hl]
      exact dilOf_lt h h2

theorem reach_drawPrimeDilation {n l d N : Nat} (hl : 2 ≤ l) (hn : l ≤ n) (hN : dilBound n l ≤ N)
    (hd : DilPrime n l d) : Reach (drawPrimeDilation (primeUpTo N) (upperBound n l : Option ℝ)) d := by
  have hq := dilBound_pos hl hn
  rw [upperBound_eq hl hn]
  unfold drawPrimeDilation
  have hmem : d ∈ (primeUpTo N).filter
      (fun p => decide (p ≤ powInt (some (Real.logb 2 (dilBound n l))))) := by
    obtain ⟨h1, h2⟩ := hd
    rw [← le_dilBound_iff hl] at h1
    rw [List.mem_filter, powInt_logb hq, decide_eq_true_iff]
    unfold primeUpTo
    rw [mem_whereIdx]
    exact ⟨⟨by omega, by rw [Props.C28_is_prime]; exact h2.symm⟩, h1⟩
  simp only
  generalize (primeUpTo N).filter
    (fun p => decide (p ≤ powInt (some (Real.logb 2 (dilBound n l))))) = shp at hmem
  obtain ⟨j, hj, rfl⟩ := List.mem_iff_getElem.1 hmem
  refine Reach.bind (reach_choiceLog (r := [j]) rfl (by simpa using hj)) ?_
  exact Reach.bindRes rfl (Reach.ofRes (aget_ok hj))

theorem reach_drawDilations {n : Nat} {lengths ds : List Nat} {prime : Bool} (hne : lengths ≠ [])
    (hl : ∀ l ∈ lengths, 2 ≤ l ∧ l ≤ n)
    (h : List.Forall₂ (if prime then DilPrime n else DilPlain n) lengths ds) :
    Reach (drawDilations n lengths prime) ds := by
  have conv : ∀ {f : Option ℝ → RM Script Nat} {R : Nat → Nat → Prop},
      (∀ l d, l ∈ lengths → R l d → Reach (f (upperBound n l)) d) → List.Forall₂ R lengths ds →
      Reach ((lengths.map (upperBound n)).mapM f) ds := by
    intro f R h hR
    rw [List.mapM_map]
    refine Reach.mapM ?_
    rw [List.forall₂_iff_get] at hR ⊢
    exact ⟨hR.1, fun i h1 h2 => h _ _ (List.get_mem _ _) (hR.2 i h1 h2)⟩
  unfold drawDilations
  simp only
  cases prime with
  | false =>
    simp only [Bool.false_eq_true, if_false] at h ⊢
    exact conv (fun l d hll hd => reach_drawDilation (hl l hll).1 (hl l hll).2 hd) h
  | true =>
    simp only [if_true] at h ⊢
    obtain ⟨q, e, hq1, hq2⟩ := maxBound_ok (qs := lengths.map (dilBound n)) (by simpa using hne) (by
      intro q hq
      obtain ⟨l, hll, rfl⟩ := List.mem_map.1 hq
      exact dilBound_pos (hl l hll).1 (hl l hll).2)
    have hub : (lengths.map (upperBound n) : List (Option ℝ)) =
        (lengths.map (dilBound n)).map fun (q : Nat) => some (Real.logb 2 q) := by
      rw [List.map_map]
      refine List.map_congr_left ?_
      intro l hll
      exact upperBound_eq (hl l hll).1 (hl l hll).2
    refine Reach.bindRes (by rw [hub]; exact e) ?_
    obtain ⟨l0, hl0, rfl⟩ := List.mem_map.1 hq1
    rw [powInt_logb (dilBound_pos (hl l0 hl0).1 (hl l0 hl0).2)]
    exact conv (fun l d hll hd => reach_drawPrimeDilation (hl l hll).1 (hl l hll).2
      (hq2 _ (List.mem_map.2 ⟨l, hll, rfl⟩)) hd) h

theorem wp_drawDilations_exact {G : Type} [Gen G ℝ] [LawfulGen G] {n : Nat} {lengths : List Nat}
    {prime : Bool} (hne : lengths ≠ []) (hl : ∀ l ∈ lengths, 2 ≤ l ∧ l ≤ n) :
    Wp (G := G) (drawDilations n lengths prime)
      (List.Forall₂ (if prime then DilPrime n else DilPlain n) lengths) := by
  cases prime with
  | true =>
    refine Wp.mono (wp_drawDilations true hne hl) fun ds hds => ?_
    exact hds.imp fun l d h => ⟨h.2.1, h.2.2.1 rfl⟩
  | false =>
    unfold drawDilations
    simp only [Bool.false_eq_true, if_false]
    rw [List.mapM_map]
    exact Wp.mapM fun l hll => wp_drawDilation_lt (hl l hll).1 (hl l hll).2

end Convst
