import Verif.Spec.Missing
import Verif.Proofs.RealFeatures

/-! # Kernels on numbers with `NaN` -/

set_option autoImplicit false
set_option linter.unusedSectionVars false

namespace Convst
open Spec Nf

theorem nf_add (x y : ℝ) : (num x + num y : Nf) = num (x + y) := rfl
theorem nf_sub (x y : ℝ) : (num x - num y : Nf) = num (x - y) := rfl
theorem nf_mul (x y : ℝ) : (num x * num y : Nf) = num (x * y) := rfl
theorem nf_div {x y : ℝ} (h : y ≠ 0) : (num x / num y : Nf) = num (x / y) := by
  show (if y = 0 then nan else num (x / y)) = _
  rw [if_neg h]
theorem nf_abs (x : ℝ) : Scalar.abs (num x) = num |x| := rfl
theorem nf_sqrt {x : ℝ} (h : 0 ≤ x) : Scalar.sqrt (num x) = num (Real.sqrt x) := by
  show (if x < 0 then nan else num (Real.sqrt x)) = _
  rw [if_neg (not_lt.2 h)]
theorem nf_zero : (0 : Nf) = num 0 := rfl
theorem nf_nan_add (x : Nf) : nan + x = nan := rfl
theorem nf_add_nan (x : Nf) : x + nan = nan := by cases x <;> rfl
theorem nf_nan_sub (x : Nf) : nan - x = nan := rfl
theorem nf_sub_nan (x : Nf) : x - nan = nan := by cases x <;> rfl
theorem nf_nan_div (x : Nf) : nan / x = nan := rfl
theorem nf_abs_nan : Scalar.abs nan = nan := rfl

theorem nf_ssum (w : List ℝ) : ssum (w.map num) = num (ssum w) := by
  unfold ssum
  have : ∀ (w : List ℝ) (a : ℝ), (w.map num).foldl (· + ·) (num a) = num (w.foldl (· + ·) a) := by
    intro w
    induction w with
    | nil => intro a; rfl
    | cons b w ih => intro a; simp only [List.map_cons, List.foldl_cons, nf_add]; exact ih _
  exact this w 0

theorem foldl_nan (w : List Nf) : w.foldl (· + ·) nan = nan := by
  induction w with
  | nil => rfl
  | cons b w ih => simpa [nf_nan_add] using ih

theorem ssum_nan {w : List Nf} (h : nan ∈ w) : ssum w = nan := by
  unfold ssum
  have : ∀ (w : List Nf) (a : Nf), nan ∈ w → w.foldl (· + ·) a = nan := by
    intro w
    induction w with
    | nil => intro a h; simp at h
    | cons b w ih =>
      intro a h
      rw [List.foldl_cons]
      rcases List.mem_cons.1 h with h | h
      · rw [← h, nf_add_nan]; exact foldl_nan w
      · exact ih _ h
  exact this w 0 h

theorem nf_mean {w : List ℝ} (h : w ≠ []) : mean (w.map num) = num (mean w) := by
  unfold mean
  rw [nf_ssum, List.length_map]
  have : (w.length : ℝ) ≠ 0 := by
    have := List.length_pos_of_ne_nil h
    positivity
  exact nf_div this

theorem ssum_sq_nonneg (w : List ℝ) (m : ℝ) : 0 ≤ ssum (w.map fun v => (v - m) * (v - m)) := by
  unfold ssum
  have : ∀ (w : List ℝ) (a : ℝ), 0 ≤ a → 0 ≤ (w.map fun v => (v - m) * (v - m)).foldl (· + ·) a := by
    intro w
    induction w with
    | nil => intro a h; exact h
    | cons b w ih => intro a h; exact ih _ (add_nonneg h (mul_self_nonneg _))
  exact this w 0 le_rfl

theorem nf_std {w : List ℝ} (h : w ≠ []) : std (w.map num) = num (std w) := by
  unfold std
  simp only [nf_mean h, List.map_map]
  have e : w.map ((fun v => (v - num (mean w)) * (v - num (mean w))) ∘ num) =
      (w.map fun v => (v - mean w) * (v - mean w)).map num := by
    rw [List.map_map]; rfl
  rw [e, nf_mean (by simpa using h)]
  apply nf_sqrt
  unfold mean
  exact div_nonneg (ssum_sq_nonneg _ _) (Nat.cast_nonneg _)

theorem nf_znorm (w : List ℝ) : znorm (w.map num) = (znorm w).map num := by
  by_cases h : w = []
  · subst h; rfl
  unfold znorm
  simp only [nf_mean h, nf_std h, List.map_map]
  apply List.map_congr_left
  intro a _
  have : std w + (Scalar.eps : ℝ) ≠ 0 := by
    have h1 : 0 ≤ std w := Real.sqrt_nonneg _
    have := real_eps_pos
    positivity
  exact nf_div (x := a - mean w) this

theorem nf_seen (norm : Bool) (w : List ℝ) : seen norm (w.map num) = (seen norm w).map num := by
  cases norm
  · rfl
  · exact nf_znorm w

theorem mem_seen_nan {norm : Bool} {w : List Nf} (h : nan ∈ w) : nan ∈ seen norm w := by
  cases norm
  · exact h
  show nan ∈ znorm w
  unfold znorm
  simp only
  have hm : mean w = nan := by unfold mean; rw [ssum_nan h]; rfl
  refine List.mem_map.2 ⟨nan, h, ?_⟩
  rw [nf_nan_sub, nf_nan_div]

theorem getD_map_num (w : List ℝ) (j : Nat) : (w.map num).getD j (0 : Nf) = num (w.getD j 0) := by
  rw [List.getD_eq_getElem?_getD, List.getD_eq_getElem?_getD, List.getElem?_map]
  cases w[j]? <;> rfl

theorem nf_l1 (w v : List ℝ) : l1 (w.map num) (v.map num) = num (l1 w v) := by
  unfold l1
  rw [List.length_map]
  have : ∀ (is : List Nat) (a : ℝ),
      is.foldl (fun s j => s + Scalar.abs ((w.map num).getD j 0 - (v.map num).getD j 0)) (num a) =
        num (is.foldl (fun s j => s + Scalar.abs (w.getD j 0 - v.getD j 0)) a) := by
    intro is
    induction is with
    | nil => intro a; rfl
    | cons j is ih =>
      intro a
      have e : num a + Scalar.abs ((w.map num).getD j (0 : Nf) - (v.map num).getD j 0) =
          num (a + Scalar.abs (w.getD j 0 - v.getD j 0)) := by
        rw [getD_map_num, getD_map_num]; rfl
      rw [List.foldl_cons, List.foldl_cons, e]
      exact ih _
  exact this _ 0

theorem foldl_add_nan {f : Nat → Nf} (is : List Nat) : is.foldl (fun s j => s + f j) nan = nan := by
  induction is with
  | nil => rfl
  | cons j is ih => simpa [nf_nan_add] using ih

theorem foldl_nan_mem {f : Nat → Nf} {is : List Nat} {j : Nat} (hj : j ∈ is) (h : f j = nan) (a : Nf) :
    is.foldl (fun s j => s + f j) a = nan := by
  induction is generalizing a with
  | nil => simp at hj
  | cons k is ih =>
    rw [List.foldl_cons]
    rcases List.mem_cons.1 hj with rfl | hj
    · rw [h, nf_add_nan]; exact foldl_add_nan is
    · exact ih hj _

theorem l1_nan {w : List Nf} (h : nan ∈ w) (v : List Nf) : l1 w v = nan := by
  obtain ⟨j, hj, e⟩ := List.getElem_of_mem h
  unfold l1
  refine foldl_nan_mem (j := j) (List.mem_range.2 hj) ?_ 0
  rw [List.getD_eq_getElem?_getD, List.getElem?_eq_getElem hj, e]
  rfl

theorem l1_nan_right {w v : List Nf} (h : ∃ j : Nat, j < w.length ∧ v[j]? = some nan) : l1 w v = nan := by
  obtain ⟨j, hj, e⟩ := h
  unfold l1
  refine foldl_nan_mem (j := j) (List.mem_range.2 hj) ?_ 0
  rw [List.getD_eq_getElem?_getD (l := v), e]
  show Scalar.abs (_ - nan) = nan
  rw [nf_sub_nan]; rfl

/-! ## Windows -/

theorem window_hit {phase : Bool} {x : List Nf} {l d i : Nat} (h : Hit phase x l d i) :
    nan ∈ window phase x l d i := by
  obtain ⟨j, hj, e⟩ := h
  refine List.mem_map.2 ⟨j, List.mem_range.2 hj, ?_⟩
  rw [List.getD_eq_getElem?_getD, e]; rfl

theorem window_clean {phase : Bool} {x : List Nf} {z : List ℝ} (hz : Completes z x) {l d i : Nat}
    (h : ¬ Hit phase x l d i) : window phase x l d i = (window phase z l d i).map num := by
  unfold window
  rw [List.map_map]
  apply List.map_congr_left
  intro j hj
  rw [Function.comp_apply, hz.1, List.getD_eq_getElem?_getD, List.getD_eq_getElem?_getD]
  cases e : x[pos phase x.length d i j]? with
  | none =>
    have : z[pos phase x.length d i j]? = none := by
      rw [List.getElem?_eq_none_iff] at e ⊢; rw [hz.1]; exact e
    rw [this]; rfl
  | some v =>
    cases v with
    | nan => exact absurd ⟨j, List.mem_range.1 hj, e⟩ h
    | num v => rw [hz.2 _ _ e]; rfl

/-! ## Features of distances some of which are missing -/

theorem ltb_nan_right (x : Nf) : Scalar.ltb x nan = false := by cases x <;> rfl
theorem eqb_nan : Scalar.eqb nan (-1 : Nf) = false := rfl
theorem scanMin_nan (D : List Nf) (i a : Nat) : scanMin D i nan a = (nan, a) := by
  induction D generalizing i with
  | nil => rfl
  | cons x D ih =>
    rw [scanMin, ltb_nan_right, eqb_nan]
    exact ih _

theorem ltb_num (x y : ℝ) : Scalar.ltb (num x) (num y) = decide (x < y) := by
  show decide _ = decide _; congr
theorem leb_num (x y : ℝ) : Scalar.leb (num x) (num y) = decide (x ≤ y) := by
  show decide _ = decide _; congr
theorem eqb_num (x : ℝ) : Scalar.eqb (num x) (-1 : Nf) = decide (x = -1) := by
  show decide _ = decide _; congr

/-- The scan, started at a number which is not negative. -/
theorem scanMin_num (D : List Nf) (i : Nat) (m : ℝ) (a : Nat) (hm : 0 ≤ m)
    (hD : ∀ v, num v ∈ D → 0 ≤ v) :
    (scanMin D i (num m) a = (num m, a) ∧ ∀ v, num v ∈ D → m ≤ v) ∨
    (∃ (p : Nat) (w : ℝ), scanMin D i (num m) a = (num w, i + p) ∧ D[p]? = some (num w) ∧ w < m ∧
      (∀ v, num v ∈ D → w ≤ v) ∧ ∀ (q : Nat) (v : ℝ), q < p → D[q]? = some (num v) → w < v) := by
  induction D generalizing i m a with
  | nil => left; exact ⟨rfl, by simp⟩
  | cons y D ih =>
    have hD' : ∀ v, num v ∈ D → 0 ≤ v := fun v hv => hD v (by simp [hv])
    have hne : m ≠ -1 := by linarith
    cases y with
    | nan =>
      have e : scanMin (nan :: D) i (num m) a = scanMin D (i + 1) (num m) a := by
        rw [scanMin, eqb_num]; simp [hne, show Scalar.ltb nan (num m) = false from rfl]
      rw [e]
      rcases ih (i + 1) m a hm hD' with ⟨h1, h2⟩ | ⟨p, w, h1, h2, h3, h4, h5⟩
      · left
        refine ⟨h1, fun v hv => ?_⟩
        rcases List.mem_cons.1 hv with h | h
        · cases h
        · exact h2 v h
      · right
        refine ⟨p + 1, w, by rw [h1]; congr 1; omega, by simpa using h2, h3, fun v hv => ?_, ?_⟩
        · rcases List.mem_cons.1 hv with h | h
          · cases h
          · exact h4 v h
        · intro q v hq hv
          cases q with
          | zero => simp at hv
          | succ q => exact h5 q v (by omega) (by simpa using hv)
    | num y =>
      have hy : 0 ≤ y := hD y (by simp)
      by_cases hlt : y < m
      · have e : scanMin (num y :: D) i (num m) a = scanMin D (i + 1) (num y) i := by
          rw [scanMin, ltb_num]; simp [hlt]
        rw [e]
        right
        rcases ih (i + 1) y i hy hD' with ⟨h1, h2⟩ | ⟨p, w, h1, h2, h3, h4, h5⟩
        · refine ⟨0, y, by rw [h1]; rfl, rfl, hlt, fun v hv => ?_, by simp⟩
          rcases List.mem_cons.1 hv with h | h
          · cases h; exact le_rfl
          · exact h2 v h
        · refine ⟨p + 1, w, by rw [h1]; congr 1; omega, by simpa using h2, by linarith, fun v hv => ?_, ?_⟩
          · rcases List.mem_cons.1 hv with h | h
            · cases h; exact h3.le
            · exact h4 v h
          · intro q v hq hv
            cases q with
            | zero => simp at hv; subst hv; exact h3
            | succ q => exact h5 q v (by omega) (by simpa using hv)
      · have e : scanMin (num y :: D) i (num m) a = scanMin D (i + 1) (num m) a := by
          rw [scanMin, ltb_num, eqb_num]; simp [hlt, hne]
        rw [e]
        rcases ih (i + 1) m a hm hD' with ⟨h1, h2⟩ | ⟨p, w, h1, h2, h3, h4, h5⟩
        · left
          refine ⟨h1, fun v hv => ?_⟩
          rcases List.mem_cons.1 hv with h | h
          · cases h; exact not_lt.1 hlt
          · exact h2 v h
        · right
          refine ⟨p + 1, w, by rw [h1]; congr 1; omega, by simpa using h2, h3, fun v hv => ?_, ?_⟩
          · rcases List.mem_cons.1 hv with h | h
            · cases h; linarith [not_lt.1 hlt]
            · exact h4 v h
          · intro q v hq hv
            cases q with
            | zero => simp at hv; subst hv; linarith [not_lt.1 hlt]
            | succ q => exact h5 q v (by omega) (by simpa using hv)

open Classical in
/-- Distances, some of them missing. -/
noncomputable def mask (bad : Nat → Prop) (D : List ℝ) : List Nf :=
  (List.range D.length).map fun i => if bad i then nan else num (D.getD i 0)

theorem mask_length (bad : Nat → Prop) (D : List ℝ) : (mask bad D).length = D.length := by simp [mask]

theorem mask_num {bad : Nat → Prop} {D : List ℝ} {i : Nat} {v : ℝ} :
    (mask bad D)[i]? = some (num v) ↔ D[i]? = some v ∧ ¬ bad i := by
  unfold mask
  rw [List.getElem?_map]
  by_cases hi : i < D.length
  · rw [List.getElem?_range hi, List.getElem?_eq_getElem hi]
    by_cases hb : bad i
    · simp [hb]
    · simp [hb, List.getElem?_eq_getElem hi]
  · rw [List.getElem?_eq_none (by simpa using hi), List.getElem?_eq_none (by simpa using hi)]
    simp

theorem countP_eq_card (p : Nat → Bool) (n : Nat) :
    (List.range n).countP p = ((Finset.range n).filter fun i => p i = true).card := by
  rw [List.countP_eq_length_filter]
  have : ((Finset.range n).filter fun i => p i = true) = ((List.range n).filter p).toFinset := by
    ext i; simp
  rw [this, List.toFinset_card_of_nodup (List.nodup_range.filter _)]

open Classical in
theorem features_mask {D : List ℝ} (hne : D ≠ []) (hD : ∀ x ∈ D, 0 ≤ x) (bad : Nat → Prop) (thr : ℝ) :
    MissingFeatures D bad thr (features (mask bad D) (num thr)) := by
  have hpos := List.length_pos_of_ne_nil hne
  have hnn : ∀ v, num v ∈ mask bad D → 0 ≤ v := by
    intro v hv
    obtain ⟨i, hi, e⟩ := List.getElem_of_mem hv
    have h1 := (mask_num (i := i) (v := v)).1 (by rw [List.getElem?_eq_getElem hi, e])
    exact hD v (List.mem_of_getElem? h1.1)
  obtain ⟨y, R, hR⟩ : ∃ y R, mask bad D = y :: R := by
    cases h : mask bad D with
    | nil => have := mask_length bad D; rw [h] at this; simp at this; omega
    | cons y R => exact ⟨y, R, rfl⟩
  have h0 : (mask bad D)[0]? = some y := by rw [hR]; rfl
  have hc : ∀ thr : ℝ, (mask bad D).countP (fun x => Scalar.leb x (num thr)) =
      ((Finset.range D.length).filter fun q => ¬ bad q ∧ D.getD q 0 ≤ thr).card := by
    intro thr
    unfold mask
    rw [List.countP_map, countP_eq_card]
    congr 1
    apply Finset.filter_congr
    intro i _
    by_cases hb : bad i
    · simp [hb, show Scalar.leb nan (num thr) = false from rfl]
    · simp [hb, leb_num]
  have hinit : Scalar.eqb (-1 : Nf) (-1) = true := by
    show Scalar.eqb (num (-1)) (-1 : Nf) = true
    rw [eqb_num]; simp
  have hs : scanMin (mask bad D) 0 (-1) 0 = scanMin R 1 y 0 := by
    rw [hR, scanMin, hinit]; simp
  refine ⟨?_, ?_, ?_⟩
  · intro hb
    have : y = nan := by
      cases y with
      | nan => rfl
      | num v => exact absurd hb (mask_num.1 h0).2
    subst this
    unfold features
    rw [hs, scanMin_nan]
    refine ⟨rfl, ?_⟩
    show num ((0 : Nat) : ℝ) = num 0
    simp
  · intro hb
    obtain ⟨v, rfl⟩ : ∃ v, y = num v := by
      refine ⟨D.getD 0 0, ?_⟩
      have h1 : (mask bad D)[0]? = some (num (D.getD 0 0)) := by
        rw [mask_num, List.getElem?_eq_getElem hpos, List.getD_eq_getElem?_getD,
          List.getElem?_eq_getElem hpos]
        exact ⟨rfl, hb⟩
      rw [h0] at h1
      exact Option.some.inj h1
    have hv : 0 ≤ v := hnn v (by rw [hR]; simp)
    have hRn : ∀ w, num w ∈ R → 0 ≤ w := fun w hw => hnn w (by rw [hR]; simp [hw])
    have hcons : ∀ q w, D[q]? = some w → ¬ bad q → (num v :: R)[q]? = some (num w) := by
      intro q w h1 h2
      rw [← hR]; exact mask_num.2 ⟨h1, h2⟩
    unfold features
    rw [hs]
    rcases scanMin_num R 1 v 0 hv hRn with ⟨h1, h2⟩ | ⟨p, w, h1, h2, h3, h4, h5⟩
    · rw [h1]
      refine ⟨0, v, rfl, by simp [Scalar.ofNat], (mask_num.1 h0).1, hb, ?_, by simp⟩
      intro q w hq hbq
      have := hcons q w hq hbq
      cases q with
      | zero => simp at this; exact this.le
      | succ q => exact h2 w (List.mem_of_getElem? (by simpa using this))
    · rw [h1]
      have hp := (mask_num (bad := bad) (D := D) (i := 1 + p) (v := w)).1
        (by rw [hR, Nat.add_comm]; simpa using h2)
      refine ⟨1 + p, w, rfl, rfl, hp.1, hp.2, ?_, ?_⟩
      · intro q u hq hbq
        have := hcons q u hq hbq
        cases q with
        | zero => simp at this; linarith
        | succ q => exact h4 u (List.mem_of_getElem? (by simpa using this))
      · intro q u hqp hq hbq
        have := hcons q u hq hbq
        cases q with
        | zero => simp at this; linarith
        | succ q => exact h5 q u (by omega) (by simpa using this)
  · show num _ = _
    rw [hc thr]

/-! ## Distances -/

theorem nf_values (S : UShp ℝ) (k : Nat) : uValues S.nf k = (uValues S k).map num := by
  unfold uValues UShp.nf
  simp only [List.map_take]
  congr 1
  rw [List.getD_eq_getElem?_getD, List.getD_eq_getElem?_getD, List.getElem?_map]
  cases S.values[k]? <;> rfl

theorem nf_threshold (S : UShp ℝ) (k : Nat) : S.nf.threshold.getD k 0 = num (S.threshold.getD k 0) := by
  exact getD_map_num S.threshold k

theorem uDistances_mask (phase : Bool) (S : UShp ℝ) {x : List Nf} {z : List ℝ} (hz : Completes z x) (k : Nat) :
    uDistances phase S.nf x k =
      mask (Hit phase x (S.lengths.getD k 0) (S.dilations.getD k 0)) (uDistances phase S z k) := by
  unfold mask uDistances distances
  rw [List.length_map, List.length_range, nf_values, hz.1]
  apply List.map_congr_left
  intro i hi
  replace hi : i < nWin phase x.length (S.lengths.getD k 0) (S.dilations.getD k 0) := List.mem_range.1 hi
  show l1 (seen (S.normalize.getD k false) (window phase x (S.lengths.getD k 0) (S.dilations.getD k 0) i)) _ = _
  split_ifs with hb
  · exact l1_nan (mem_seen_nan (window_hit hb)) _
  · rw [window_clean hz hb, nf_seen, nf_l1, getD_range_map _ hi]

theorem nf_mChannels (S : MShp ℝ) (k : Nat) : mChannels S.nf k = mChannels S k := rfl

theorem nf_mValues (S : MShp ℝ) (k c : Nat) : mValues S.nf k c = (mValues S k c).map num := by
  unfold mValues
  rw [List.map_take, List.map_drop]
  rfl

/-- A window of one of the channels of the shapelet contains a missing value. -/
def MHit (phase : Bool) (S : MShp ℝ) (x : List (List Nf)) (k i : Nat) : Prop :=
  ∃ c ∈ mChannels S k, Hit phase (x.getD c []) (S.lengths.getD k 0) (S.dilations.getD k 0) i

theorem mDistances_mask (phase : Bool) (S : MShp ℝ) {x : List (List Nf)} {z : List (List ℝ)} {T : Nat}
    (hz : ∀ c, Completes (z.getD c []) (x.getD c [])) (k : Nat) :
    mDistances phase S.nf x T k = mask (MHit phase S x k) (mDistances phase S z T k) := by
  unfold mask mDistances
  rw [List.length_map, List.length_range]
  apply List.map_congr_left
  intro i hi
  replace hi : i < nWin phase T (S.lengths.getD k 0) (S.dilations.getD k 0) := List.mem_range.1 hi
  split_ifs with hb
  · obtain ⟨c, hc, h⟩ := hb
    obtain ⟨j, hj, rfl⟩ := List.getElem_of_mem hc
    unfold mDist
    refine foldl_nan_mem (j := j) (List.mem_range.2 hj) ?_ 0
    apply l1_nan
    apply mem_seen_nan
    rw [nf_mChannels, List.getD_eq_getElem?_getD (l := mChannels S k), List.getElem?_eq_getElem hj]
    exact window_hit h
  · rw [getD_range_map _ hi]
    unfold mDist
    rw [nf_mChannels]
    have : ∀ (is : List Nat) (a : ℝ), (∀ j ∈ is, j < (mChannels S k).length) →
        is.foldl (fun s c => s + l1 (seen (S.nf.normalize.getD k false)
          (window phase (x.getD ((mChannels S k).getD c 0) []) (S.nf.lengths.getD k 0)
            (S.nf.dilations.getD k 0) i)) (mValues S.nf k c)) (num a) =
        num (is.foldl (fun s c => s + l1 (seen (S.normalize.getD k false)
          (window phase (z.getD ((mChannels S k).getD c 0) []) (S.lengths.getD k 0)
            (S.dilations.getD k 0) i)) (mValues S k c)) a) := by
      intro is
      induction is with
      | nil => intro a _; rfl
      | cons j is ih =>
        intro a h
        have hj := h j (by simp)
        have hclean : ¬ Hit phase (x.getD ((mChannels S k).getD j 0) []) (S.lengths.getD k 0)
            (S.dilations.getD k 0) i := by
          intro hh
          refine hb ⟨(mChannels S k).getD j 0, ?_, hh⟩
          rw [List.getD_eq_getElem?_getD, List.getElem?_eq_getElem hj]
          exact List.getElem_mem hj
        simp only [List.foldl_cons]
        have e : l1 (seen (S.nf.normalize.getD k false)
            (window phase (x.getD ((mChannels S k).getD j 0) []) (S.nf.lengths.getD k 0)
              (S.nf.dilations.getD k 0) i)) (mValues S.nf k j) =
            num (l1 (seen (S.normalize.getD k false)
              (window phase (z.getD ((mChannels S k).getD j 0) []) (S.lengths.getD k 0)
                (S.dilations.getD k 0) i)) (mValues S k j)) := by
          show l1 (seen (S.normalize.getD k false)
            (window phase (x.getD ((mChannels S k).getD j 0) []) (S.lengths.getD k 0)
              (S.dilations.getD k 0) i)) (mValues S.nf k j) = _
          rw [window_clean (hz _) hclean, nf_seen, nf_mValues, nf_l1]
        rw [e, nf_add]
        exact ih _ fun j hj => h j (by simp [hj])
    exact this _ 0 fun j hj => List.mem_range.1 hj

end Convst
