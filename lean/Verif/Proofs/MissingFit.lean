import Verif.Proofs.Missing
import Verif.Proofs.RoundedFit
import Verif.Spec.MissingFit

/-! # The draws and the thresholds of `fit` on numbers with `NaN` -/

set_option autoImplicit false
set_option linter.unusedSectionVars false

namespace Convst
open Spec Nf

/-- A generator next to numbers with `NaN`: integer draws in range, unit draws are numbers in `[0, 1)`. -/
class LawfulNf (G : Type) [Gen G Nf] : Prop extends LawfulInt G where
  unit_num : ∀ g : G, ∃ v : ℝ, (Gen.unit g).1 = num v ∧ 0 ≤ v ∧ v < 1

theorem nf_eqb (x y : ℝ) : Scalar.eqb (num x) (num y) = decide (x = y) := by
  show decide _ = decide _; congr

theorem nf_eqb_zero (x : Nf) : Scalar.eqb x 0 = true ↔ x = 0 := by
  cases x with
  | nan => exact ⟨fun h => (by cases h), fun h => (by cases h)⟩
  | num x =>
    rw [nf_zero, nf_eqb, decide_eq_true_iff]
    exact ⟨fun h => by rw [h], fun h => by cases h; rfl⟩

theorem nf_ofNat (n : Nat) : (Scalar.ofNat n : Nf) = num n := rfl

theorem eqb_self (x : Nf) : Scalar.eqb x x = true ↔ x ≠ nan := by
  cases x with
  | nan => exact ⟨fun h => (by cases h), fun h => absurd rfl h⟩
  | num x => rw [nf_eqb]; simp

theorem exists_map_num {w : List Nf} (h : nan ∉ w) : ∃ w' : List ℝ, w = w'.map num := by
  induction w with
  | nil => exact ⟨[], rfl⟩
  | cons a w ih =>
    obtain ⟨w', rfl⟩ := ih fun hh => h (by simp [hh])
    cases a with
    | nan => exact absurd (by simp) h
    | num a => exact ⟨a :: w', rfl⟩

theorem nan_notMem_map (w : List ℝ) : nan ∉ w.map num := by
  intro h
  obtain ⟨x, -, hx⟩ := List.mem_map.1 h
  cases hx

/-! ## Draws -/

theorem nf_scumsum (acc : ℝ) (l : List ℝ) : scumsum (num acc) (l.map num) = (scumsum acc l).map num := by
  induction l generalizing acc with
  | nil => rfl
  | cons a l ih => simp only [List.map_cons, scumsum, nf_add, ih]

theorem nf_logWeights (n : Nat) : (logWeights n : List Nf) = (logWeights n : List ℝ).map num := by
  unfold logWeights
  rw [List.map_map]
  apply List.map_congr_left
  intro i _
  exact nf_div (x := 1) (y := (2 : ℝ) ^ (Real.log ((i + 1 : Nat) : ℝ))) (by positivity)

theorem ssum_logWeights_pos {k : Nat} (hk : 1 ≤ k) : 0 < ssum (logWeights k : List ℝ) := by
  have hpos : ∀ x ∈ (logWeights k : List ℝ), 0 < x := by
    intro x hx
    obtain ⟨i, -, rfl⟩ := List.mem_map.1 hx
    show (0 : ℝ) < 1 / (2 : ℝ) ^ (Real.log ((i + 1 : Nat) : ℝ))
    positivity
  have hne : (logWeights k : List ℝ) ≠ [] := range_map_ne_nil _ hk
  unfold ssum
  have key : ∀ (l : List ℝ) (a : ℝ), (∀ x ∈ l, 0 < x) → 0 ≤ a → (l ≠ [] ∨ 0 < a) → 0 < l.foldl (· + ·) a := by
    intro l
    induction l with
    | nil => intro a _ _ h; exact h.resolve_left (by simp)
    | cons b l ih =>
      intro a hl ha _
      have := hl b (by simp)
      exact ih _ (fun x hx => hl x (by simp [hx])) (by linarith) (Or.inr (by linarith))
  exact key _ 0 hpos le_rfl (Or.inl hne)

theorem nf_logCdf {k : Nat} (hk : 1 ≤ k) : (logCdf k : List Nf) = (logCdf k : List ℝ).map num := by
  unfold logCdf
  rw [nf_logWeights, nf_ssum, show (0 : Nf) = num 0 from rfl, nf_scumsum, List.map_map, List.map_map]
  apply List.map_congr_left
  intro a _
  exact nf_div (ssum_logWeights_pos hk).ne'

theorem nf_firstGe (P : List ℝ) (u : ℝ) : firstGe (P.map num) (num u) = firstGe P u := by
  unfold firstGe
  rw [List.length_map]
  congr 2
  funext i
  rw [List.getElem?_map]
  cases P[i]? with
  | none => rfl
  | some p =>
    show Scalar.leb (num u) (num p) = Scalar.leb u p
    rw [leb_num, Bool.eq_iff_iff, real_leb, decide_eq_true_iff]

theorem drawSafe_nf {G : Type} [Gen G Nf] [LawfulNf G] (n : Nat) : DrawSafe G Nf n := by
  refine ⟨?_, ?_, ?_⟩
  · intro q hq _ g
    obtain ⟨v, hv, h0, h1⟩ := LawfulNf.unit_num g
    refine ⟨_, _, rfl, ?_⟩
    have hq1 : (1 : ℝ) ≤ q := by exact_mod_cast hq
    have hl0 : 0 ≤ Real.logb 2 q := Real.logb_nonneg (by norm_num) hq1
    have e : (0 : Nf) + ((Scalar.log2 (Scalar.ofNat q) : Nf) - 0) * (Gen.unit g).1 =
        num (0 + (Real.logb 2 q - 0) * v) := by rw [hv]; rfl
    show 1 ≤ (Scalar.floor (Scalar.pow2 ((0 : Nf) + ((Scalar.log2 (Scalar.ofNat q) : Nf) - 0) *
      (Gen.unit g).1))).toNat ∧ (Scalar.floor (Scalar.pow2 ((0 : Nf) + ((Scalar.log2 (Scalar.ofNat q) : Nf) - 0) *
      (Gen.unit g).1))).toNat ≤ q
    rw [e]
    show 1 ≤ ⌊(2 : ℝ) ^ (0 + (Real.logb 2 q - 0) * v)⌋.toNat ∧ ⌊(2 : ℝ) ^ (0 + (Real.logb 2 q - 0) * v)⌋.toNat ≤ q
    rw [zero_add, sub_zero]
    refine floor_toNat_bounds (Real.one_le_rpow (by norm_num) (mul_nonneg hl0 h0)) ?_
    have : (2 : ℝ) ^ (Real.logb 2 q * v) ≤ (2 : ℝ) ^ (Real.logb 2 q) :=
      Real.rpow_le_rpow_of_exponent_le (by norm_num) (by nlinarith)
    rw [Real.rpow_logb (by norm_num) (by norm_num) (by linarith)] at this
    linarith
  · intro q hq _
    have hq1 : (1 : ℝ) ≤ q := by exact_mod_cast hq
    show 1 ≤ (if 0 ≤ (2 : ℝ) ^ (Real.logb 2 q) then ⌊(2 : ℝ) ^ (Real.logb 2 q)⌋ else _).toNat ∧
      (if 0 ≤ (2 : ℝ) ^ (Real.logb 2 q) then ⌊(2 : ℝ) ^ (Real.logb 2 q)⌋ else _).toNat ≤ q
    rw [if_pos (by positivity), Real.rpow_logb (by norm_num) (by norm_num) (by linarith)]
    exact floor_toNat_bounds hq1 (by linarith)
  · intro k hk g
    obtain ⟨v, hv, h0, h1⟩ := LawfulNf.unit_num g
    rw [hv, nf_logCdf (by omega), nf_firstGe]
    exact firstGe_logCdf (by omega) h1

/-! ## Percentiles -/

theorem nf_ssort (D : List ℝ) : ssort (D.map num) = (ssort D).map num := by
  unfold ssort
  rw [List.map_mergeSort]
  intro a _ b _
  rw [leb_num, Bool.eq_iff_iff, real_leb, decide_eq_true_iff]

theorem nf_smax (D : List ℝ) : smax (D.map num) = Except.map num (smax D) := by
  cases D with
  | nil => rfl
  | cons a D =>
    show Except.ok _ = Except.ok _
    congr 1
    induction D generalizing a with
    | nil => rfl
    | cons b D ih =>
      simp only [List.map_cons, List.foldl_cons]
      have : (if Scalar.ltb (num a) (num b) = true then num b else num a) =
          num (if Scalar.ltb a b = true then b else a) := by
        rw [ltb_num]
        by_cases h : a < b
        · rw [if_pos (by simpa using h), if_pos (by simpa using h)]
        · rw [if_neg (by simpa using h), if_neg (by simpa using h)]
      rw [this]
      exact ih _

theorem nf_maxOrNan (D : List ℝ) : maxOrNan (D.map num) = Except.map num (maxOrNan D) := by
  rw [maxOrNan_real]
  unfold maxOrNan
  rw [nf_smax]
  cases smax D with
  | error e => rfl
  | ok v =>
    show Except.ok _ = Except.ok _
    rw [show (num v - num v : Nf) = num (v - v) from rfl, show (0 : Nf) = num 0 from rfl, nf_eqb, sub_self]
    simp

theorem nf_aget (D : List ℝ) (i : Nat) : aget (D.map num) i = Except.map num (aget D i) := by
  unfold aget
  rw [List.getElem?_map]
  cases D[i]? <;> rfl

theorem nf_percentile (D : List ℝ) (q : ℝ) : percentile (D.map num) (num q) = Except.map num (percentile D q) := by
  rw [percentile_real, percentile_num (fun x hx => (eqb_self x).2 fun h => nan_notMem_map D (h ▸ hx))]
  have e0 : (Scalar.leb (0 : Nf) (num q) && Scalar.leb (num q) (Scalar.ofNat 100)) =
      (Scalar.leb (0 : ℝ) q && Scalar.leb q (Scalar.ofNat 100)) := by
    rw [show (0 : Nf) = num 0 from rfl, nf_ofNat, leb_num, leb_num, Bool.eq_iff_iff]
    simp
  rw [e0]
  split
  · unfold percentileInner
    rw [List.length_map, nf_ssort, nf_maxOrNan, nf_aget]
    split
    · rfl
    · have e1 : Scalar.eqb (num q) (Scalar.ofNat 100 : Nf) = Scalar.eqb q (Scalar.ofNat 100 : ℝ) := by
        rw [nf_ofNat, nf_eqb, Bool.eq_iff_iff]; simp
      rw [e1]
      split
      · rfl
      · have e2 : (1 : Nf) + Scalar.ofNat (D.length - 1) * (num q / Scalar.ofNat 100) =
            num (1 + ((D.length - 1 : Nat) : ℝ) * (q / ((100 : Nat) : ℝ))) := by
          rw [nf_ofNat 100, nf_div (by norm_num)]; rfl
        simp only [e2, nf_aget]
        have e3 : Scalar.floor (num (1 + ((D.length - 1 : Nat) : ℝ) * (q / ((100 : Nat) : ℝ)))) =
            Scalar.floor (1 + Scalar.ofNat (D.length - 1) * (q / Scalar.ofNat 100) : ℝ) := rfl
        rw [e3]
        cases aget (ssort D) (Scalar.floor (1 + Scalar.ofNat (D.length - 1) * (q / Scalar.ofNat 100) : ℝ) - 1).toNat with
        | error e => rfl
        | ok x =>
          cases aget (ssort D) (Scalar.floor (1 + Scalar.ofNat (D.length - 1) * (q / Scalar.ofNat 100) : ℝ)).toNat with
          | error e => rfl
          | ok y => rfl
  · rfl

theorem percentile_nan {D : List Nf} (h : nan ∈ D) {q : ℝ} (h0 : 0 ≤ q) (h1 : q ≤ 100) :
    percentile D (num q) = .ok nan := by
  unfold percentile
  rw [if_pos (by
    rw [show (0 : Nf) = num 0 from rfl, nf_ofNat, leb_num, leb_num]
    simp [h0, h1])]
  cases hf : D.find? fun x => !(Scalar.eqb x x) with
  | none =>
    have := List.find?_eq_none.1 hf nan h
    exact absurd rfl this
  | some x =>
    have h2 := List.find?_some hf
    have : x = nan := by
      by_contra hx
      rw [(eqb_self x).2 hx] at h2
      cases h2
    rw [this]

theorem percSafe_nf {q : ℝ} (h0 : 0 ≤ q) (h1 : q ≤ 100) : PercSafe (num q) := by
  intro D hD
  by_cases h : nan ∈ D
  · exact ⟨_, percentile_nan h h0 h1⟩
  · obtain ⟨D', rfl⟩ := exists_map_num h
    obtain ⟨p, hp, -⟩ := percentile_ok (a := D') (by simpa using hD) h0 h1
    exact ⟨num p, by rw [nf_percentile, hp]; rfl⟩

theorem percentile_nil (q p : Nf) : percentile [] q ≠ .ok p := by
  intro h
  unfold percentile at h
  split at h
  · simp only [List.find?_nil, percentileInner] at h
    rw [if_neg (by simp)] at h
    split at h
    · cases h
    · have hs : ssort ([] : List Nf) = [] := by simp [ssort]
      rw [hs] at h
      cases h
  · cases h

theorem missingThreshold_of {G : Type} [Gen G Nf] [LawfulNf G] {q0 q1 : ℝ} (h0 : 0 ≤ q0) (h01 : q0 ≤ q1)
    (h1 : q1 ≤ 100) {D : List Nf} {th : Nf} (h : ThrFrom (num q0) (num q1) (Drawable G) D th) :
    MissingThreshold q0 q1 D th := by
  obtain ⟨p0, p1, u, e0, e1, ⟨g, hg⟩, ht⟩ := h
  have hne : D ≠ [] := by
    rintro rfl
    exact percentile_nil _ _ e0
  obtain ⟨v, hv, hv0, hv1⟩ := LawfulNf.unit_num g
  refine ⟨?_, ?_⟩
  · intro hn
    rw [percentile_nan hn h0 (h01.trans h1)] at e0
    cases e0
    rw [ht]; rfl
  · rintro D' rfl
    have hne' : D' ≠ [] := by simpa using hne
    obtain ⟨r0, hr0, -⟩ := percentile_ok hne' h0 (h01.trans h1)
    obtain ⟨r1, hr1, -⟩ := percentile_ok hne' (h0.trans h01) h1
    have hle := percentile_mono h0 h01 h1 hr0 hr1 hne'
    rw [nf_percentile, hr0] at e0
    rw [nf_percentile, hr1] at e1
    cases e0; cases e1
    refine ⟨r0, r1, r0 + (r1 - r0) * v, hr0, hr1, ?_, ?_, ?_⟩
    · rw [ht, hg, hv]; rfl
    · nlinarith
    · nlinarith

/-! ## Where the missing distances come from -/

theorem nan_mem_window {phase : Bool} {x : List Nf} {l d i : Nat} :
    nan ∈ window phase x l d i ↔ Hit phase x l d i := by
  refine ⟨?_, window_hit⟩
  intro h
  obtain ⟨j, hj, e⟩ := List.mem_map.1 h
  refine ⟨j, List.mem_range.1 hj, ?_⟩
  rw [List.getD_eq_getElem?_getD] at e
  cases hx : x[pos phase x.length d i j]? with
  | none => rw [hx] at e; cases e
  | some v => rw [hx] at e; exact congrArg some e

theorem nan_mem_seen {norm : Bool} {w : List Nf} : nan ∈ seen norm w ↔ nan ∈ w := by
  refine ⟨?_, mem_seen_nan⟩
  intro h
  by_contra hn
  obtain ⟨w', rfl⟩ := exists_map_num hn
  rw [nf_seen] at h
  exact nan_notMem_map _ h

theorem l1_eq_nan {w v : List Nf} (hl : v.length = w.length) : l1 w v = nan ↔ nan ∈ w ∨ nan ∈ v := by
  constructor
  · intro h
    by_contra hn
    push Not at hn
    obtain ⟨w', rfl⟩ := exists_map_num hn.1
    obtain ⟨v', rfl⟩ := exists_map_num hn.2
    rw [nf_l1] at h
    cases h
  · rintro (h | h)
    · exact l1_nan h v
    · obtain ⟨j, hj, e⟩ := List.getElem_of_mem h
      exact l1_nan_right ⟨j, hl ▸ hj, by rw [List.getElem?_eq_getElem hj, e]⟩

theorem foldl_eq_nan {f : Nat → Nf} {is : List Nat} {a : ℝ} :
    is.foldl (fun s j => s + f j) (num a) = nan ↔ ∃ j ∈ is, f j = nan := by
  constructor
  · intro h
    by_contra hn
    push Not at hn
    have : ∀ (is : List Nat) (a : ℝ), (∀ j ∈ is, f j ≠ nan) →
        ∃ b, is.foldl (fun s j => s + f j) (num a) = num b := by
      intro is
      induction is with
      | nil => intro a _; exact ⟨a, rfl⟩
      | cons j is ih =>
        intro a h
        cases hj : f j with
        | nan => exact absurd hj (h j (by simp))
        | num b =>
          rw [List.foldl_cons, hj, nf_add]
          exact ih _ fun j hj => h j (by simp [hj])
    obtain ⟨b, hb⟩ := this is a hn
    rw [hb] at h
    cases h
  · rintro ⟨j, hj, e⟩
    exact foldl_nan_mem hj e _

theorem nan_mem_distances {phase norm : Bool} {x v : List Nf} {l d : Nat} (hv : v.length = l)
    (hw : 0 < nWin phase x.length l d) :
    nan ∈ distances phase norm x v l d ↔ nan ∈ v ∨ ∃ w, w < nWin phase x.length l d ∧ Hit phase x l d w := by
  unfold distances
  rw [List.mem_map]
  constructor
  · rintro ⟨i, hi, e⟩
    rw [l1_eq_nan (by rw [seen_length, window_length, hv]), nan_mem_seen, nan_mem_window] at e
    rcases e with e | e
    · exact Or.inr ⟨i, List.mem_range.1 hi, e⟩
    · exact Or.inl e
  · rintro (h | ⟨w, hw', h⟩)
    · exact ⟨0, List.mem_range.2 hw, (l1_eq_nan (by rw [seen_length, window_length, hv])).2 (Or.inr h)⟩
    · refine ⟨w, List.mem_range.2 hw', (l1_eq_nan (by rw [seen_length, window_length, hv])).2 (Or.inl ?_)⟩
      rw [nan_mem_seen, nan_mem_window]
      exact h

theorem nan_mem_mDistances {phase : Bool} {S : MShp Nf} {nf : Nat} (hS : MWF S nf) {x : List (List Nf)} {T k : Nat}
    (hk : k < S.lengths.length) (hc : (mChannels S k).length = S.nChannels.getD k 0)
    (hw : 0 < nWin phase T (S.lengths.getD k 0) (S.dilations.getD k 0)) :
    nan ∈ mDistances phase S x T k ↔ ∃ c, c < (mChannels S k).length ∧ (nan ∈ mValues S k c ∨
      ∃ w, w < nWin phase T (S.lengths.getD k 0) (S.dilations.getD k 0) ∧
        Hit phase (x.getD ((mChannels S k).getD c 0) []) (S.lengths.getD k 0) (S.dilations.getD k 0) w) := by
  unfold mDistances
  rw [List.mem_map]
  have key : ∀ i c, c < (mChannels S k).length →
      (l1 (seen (S.normalize.getD k false) (window phase (x.getD ((mChannels S k).getD c 0) [])
        (S.lengths.getD k 0) (S.dilations.getD k 0) i)) (mValues S k c) = nan ↔
      Hit phase (x.getD ((mChannels S k).getD c 0) []) (S.lengths.getD k 0) (S.dilations.getD k 0) i ∨
        nan ∈ mValues S k c) := by
    intro i c hcl
    rw [l1_eq_nan (by rw [seen_length, window_length, mValues_length hS hk (by omega)]), nan_mem_seen, nan_mem_window]
  constructor
  · rintro ⟨i, hi, e⟩
    unfold mDist at e
    rw [show (0 : Nf) = num 0 from rfl, foldl_eq_nan] at e
    obtain ⟨c, hcm, e⟩ := e
    refine ⟨c, List.mem_range.1 hcm, ?_⟩
    rcases (key i c (List.mem_range.1 hcm)).1 e with e | e
    · exact Or.inr ⟨i, List.mem_range.1 hi, e⟩
    · exact Or.inl e
  · rintro ⟨c, hcl, h⟩
    have hfin : ∀ i, i < nWin phase T (S.lengths.getD k 0) (S.dilations.getD k 0) →
        (Hit phase (x.getD ((mChannels S k).getD c 0) []) (S.lengths.getD k 0) (S.dilations.getD k 0) i ∨
          nan ∈ mValues S k c) → ∃ a, a ∈ List.range (nWin phase T (S.lengths.getD k 0) (S.dilations.getD k 0)) ∧
            mDist phase S x k a = nan := by
      intro i hi h
      refine ⟨i, List.mem_range.2 hi, ?_⟩
      unfold mDist
      rw [show (0 : Nf) = num 0 from rfl, foldl_eq_nan]
      exact ⟨c, List.mem_range.2 hcl, (key i c hcl).2 h⟩
    rcases h with h | ⟨w, hw', h⟩
    · exact hfin 0 hw (Or.inr h)
    · exact hfin w hw' (Or.inl h)

/-- Nothing is counted below a threshold which is `NaN`. -/
theorem features_nan_thr (D : List Nf) : (features D nan).2.2 = num 0 := by
  show (Scalar.ofNat (D.countP fun x => Scalar.leb x nan) : Nf) = num 0
  have : D.countP (fun x => Scalar.leb x nan) = 0 := by
    rw [List.countP_eq_zero]
    intro x _
    have : Scalar.leb x nan = false := by cases x <;> rfl
    rw [this]; simp
  rw [this, nf_ofNat]
  simp

/-- When no distance is available, the minimum is `NaN` and the two other features are 0. -/
theorem features_all_nan {D : List Nf} (hne : D ≠ []) (h : ∀ x ∈ D, x = nan) (thr : Nf) :
    features D thr = (nan, num 0, num 0) := by
  have hc : D.countP (fun x => Scalar.leb x thr) = 0 := by
    rw [List.countP_eq_zero]
    intro x hx
    rw [h x hx, show Scalar.leb nan thr = false by cases thr <;> rfl]
    simp
  have hinit : Scalar.eqb (-1 : Nf) (-1) = true := by
    show Scalar.eqb (num (-1)) (-1 : Nf) = true
    rw [eqb_num]; simp
  unfold features
  rw [hc]
  obtain ⟨a, R, rfl⟩ := List.exists_cons_of_ne_nil hne
  have ha := h a (by simp)
  subst ha
  have hs : scanMin (nan :: R) 0 (-1) 0 = (nan, 0) := by
    rw [scanMin, hinit, Bool.or_true, if_pos rfl, scanMin_nan]
  rw [hs, nf_ofNat]
  simp

end Convst
