import Verif.Proofs.EarlyAbandon
import Verif.Props.Transform

/-! # C109: early abandon gives the same minima -/

set_option autoImplicit false
set_option linter.unusedSectionVars false

namespace Convst.Props

open Convst Spec

/-- **C109.** In exact arithmetic the three functions timed by the script return the same value (or raise the same
error), for every series, every list of values and every order of the windows. -/
theorem C109_same_minimum {shuffle : List Nat → List Nat} (hs : ∀ l, (shuffle l).Perm l) (big : ℝ) (x values : List ℝ) :
    minEA big x values = minPlain big x values ∧ minEARandom shuffle big x values = minPlain big x values :=
  early_same real_beyond keepMin_real_comm hs big x values

/-- **C109.** The same in rounded arithmetic, for every rounding that does not change rounded numbers: the results are
identical numbers, not only close ones. -/
theorem C109_same_minimum_rounded {r : Rounding} (hr : ∀ x, r.rnd (r.rnd x) = r.rnd x) {shuffle : List Nat → List Nat}
    (hs : ∀ l, (shuffle l).Perm l) (big : Fl r) (x values : List (Fl r)) :
    minEA big x values = minPlain big x values ∧ minEARandom shuffle big x values = minPlain big x values :=
  early_same (fl_beyond hr) keepMin_fl_comm hs big x values

/-- **C109.** In particular with the 53 binary digits of `float64` (without overflow and underflow). -/
theorem C109_same_minimum_double {shuffle : List Nat → List Nat} (hs : ∀ l, (shuffle l).Perm l)
    (big : Fl Rounding.double) (x values : List (Fl Rounding.double)) :
    minEA big x values = minPlain big x values ∧ minEARandom shuffle big x values = minPlain big x values :=
  C109_same_minimum_rounded (rndBin_idem 52) hs big x values

/-- **C109.** And with missing values, in the series or among the values of the shapelet. -/
theorem C109_same_minimum_missing {shuffle : List Nat → List Nat} (hs : ∀ l, (shuffle l).Perm l) (big : Nf)
    (x values : List Nf) :
    minEA big x values = minPlain big x values ∧ minEARandom shuffle big x values = minPlain big x values :=
  early_same nf_beyond keepMin_nf_comm hs big x values

theorem foldl_keepMin_real (D : List ℝ) (big : ℝ) : IsLeast (insert big {d | d ∈ D}) (D.foldl keepMin big) := by
  induction D generalizing big with
  | nil => simp [IsLeast, lowerBounds]
  | cons d D ih =>
    rw [List.foldl_cons, keepMin_real]
    obtain ⟨h1, h2⟩ := ih (min big d)
    constructor
    · rcases h1 with h1 | h1
      · rw [h1]
        rcases min_choice big d with h | h
        · left; exact h
        · right; rw [h]; simp
      · right; exact List.mem_cons_of_mem _ h1
    · rintro z (rfl | hz)
      · exact (h2 (Set.mem_insert _ _)).trans (min_le_left _ _)
      · rcases List.mem_cons.1 hz with rfl | hz
        · exact (h2 (Set.mem_insert _ _)).trans (min_le_right _ _)
        · exact h2 (Set.mem_insert_of_mem _ hz)

theorem minPlain_distances {K : Type} [Scalar K] (big : K) {x values : List K} (hv : 1 ≤ values.length)
    (hx : values.length - 1 ≤ x.length) :
    minPlain big x values = .ok ((distances false false x values values.length 1).foldl keepMin big) := by
  rw [minPlain_eq big (strides1DPlain_ok hv (by simpa using hx))]
  congr 2
  simp [winDists, distances, nWin, seen, Function.comp_def]

/-- **C109.** What is returned: the least of the distances of the shapelet to the windows of the series and of the
constant from which the search starts.  A series that is too short by two values or more raises `ValueError`. -/
theorem C109_is_minimum (big : ℝ) {x values : List ℝ} (hv : 1 ≤ values.length) :
    (values.length - 1 ≤ x.length → ∃ m, minPlain big x values = .ok m ∧
      IsLeast (insert big {d | ∃ i, i + values.length ≤ x.length ∧
        d = ∑ j ∈ Finset.range values.length, |x.getD (i + j) 0 - values.getD j 0|}) m) ∧
    (x.length < values.length - 1 → minPlain big x values = .error .valueError) := by
  constructor
  · intro hx
    refine ⟨_, minPlain_distances big hv hx, ?_⟩
    have := foldl_keepMin_real (distances false false x values values.length 1) big
    convert this using 2
    ext d
    simp only [Set.mem_setOf_eq, distances, nWin, List.mem_map, List.mem_range, Bool.false_eq_true, if_false, seen]
    have key : ∀ i, l1 (window false x values.length 1 i) values =
        ∑ j ∈ Finset.range values.length, |x.getD (i + j) 0 - values.getD j 0| := by
      intro i
      unfold l1
      rw [window_length]
      have hwin : ∀ j, j < values.length → (window false x values.length 1 i).getD j 0 = x.getD (i + j) 0 := by
        intro j hj
        simp [window, pos, List.getD_eq_getElem?_getD, List.getElem?_range hj]
      have : ∀ n, n ≤ values.length → (List.range n).foldl
          (fun s j => s + Scalar.abs ((window false x values.length 1 i).getD j 0 - values.getD j 0)) 0 =
          ∑ j ∈ Finset.range n, |x.getD (i + j) 0 - values.getD j 0| := by
        intro n hn
        induction n with
        | zero => simp
        | succ n ih =>
          rw [List.range_succ, List.foldl_append, ih (by omega), Finset.sum_range_succ]
          simp only [List.foldl_cons, List.foldl_nil, real_abs]
          rw [hwin n (by omega)]
      exact this _ le_rfl
    constructor
    · rintro ⟨i, hi, rfl⟩
      exact ⟨i, by omega, key i⟩
    · rintro ⟨i, hi, rfl⟩
      exact ⟨i, by omega, key i⟩
  · intro hx
    unfold minPlain
    rw [strides1DPlain_err hv (by simpa using hx)]
    rfl

/-- **C109.** The minimum that `transform` writes for a shapelet of dilation 1 that is not compared with normalised
windows, without phase invariance, is the one that the functions of the script return, when a distance is below the
constant from which their search starts. -/
theorem C109_minimum_of_transform {X : List (List (List ℝ))} {S : UShp ℝ} (hS : UWF S) (hX : ∀ s ∈ X, s ≠ [])
    (hfit : ∀ s ∈ X, ∀ k, k < S.lengths.length →
      HasWindow false (s.getD 0 []).length (S.lengths.getD k 0) (S.dilations.getD k 0)) (big : ℝ) :
    ∃ M : List (List ℝ), uslApply X S false = .ok M ∧ ∀ (i k : Nat) s, X[i]? = some s → k < S.lengths.length →
      S.dilations.getD k 0 = 1 → S.normalize.getD k false = false →
      (∃ d ∈ uDistances false S (s.getD 0 []) k, d < big) → ∃ row m, M[i]? = some row ∧ row[3 * k]? = some m ∧
        minPlain big (s.getD 0 []) (uValues S k) = .ok m := by
  obtain ⟨M, h1, -, h2⟩ := C01_univariate_same_length_real hS false hX hfit
  refine ⟨M, h1, fun i k s hs hk hd hn hbig => ?_⟩
  obtain ⟨row, e1, -, e2⟩ := h2 i s hs
  obtain ⟨f, e3, -, -, e4⟩ := e2 k hk
  refine ⟨row, f.1, e1, e3, ?_⟩
  have hw := hfit s (List.mem_of_getElem? hs) k hk
  have hl : (uValues S k).length = S.lengths.getD k 0 := by
    unfold uValues
    rw [List.length_take]
    exact min_eq_left (hS.room k hk)
  have hpos := hS.pos k hk
  rw [hd] at hw
  simp only [HasWindow, Bool.false_eq_true, if_false, mul_one] at hw
  rw [minPlain_distances big (by omega) (by omega)]
  have hD : distances false false (s.getD 0 []) (uValues S k) (uValues S k).length 1 =
      uDistances false S (s.getD 0 []) k := by
    unfold uDistances
    rw [hl, hd, hn]
  rw [hD]
  have hleast := foldl_keepMin_real (uDistances false S (s.getD 0 []) k) big
  have hf : IsLeast (insert big {d | d ∈ uDistances false S (s.getD 0 []) k}) f.1 := by
    refine ⟨Set.mem_insert_of_mem _ e4.1.1, ?_⟩
    rintro z (rfl | hz)
    · obtain ⟨d, hd1, hd2⟩ := hbig
      exact (e4.1.2 d hd1).trans hd2.le
    · exact e4.1.2 z hz
  rw [hleast.unique hf]

theorem foldl_keepMin_nf (D : List Nf) (big : ℝ) :
    ∃ m, D.foldl keepMin (Nf.num big) = Nf.num m ∧ IsLeast (insert big {d | Nf.num d ∈ D}) m := by
  induction D generalizing big with
  | nil => exact ⟨big, rfl, by simp [IsLeast, lowerBounds]⟩
  | cons d D ih =>
    rw [List.foldl_cons]
    cases d with
    | nan =>
      rw [keepMin_nan_right]
      obtain ⟨m, h1, h2⟩ := ih big
      refine ⟨m, h1, ?_⟩
      convert h2 using 2
      ext d; simp
    | num d =>
      rw [keepMin_nf]
      obtain ⟨m, h0, h1, h2⟩ := ih (min big d)
      refine ⟨m, h0, ?_, ?_⟩
      · rcases h1 with h1 | h1
        · rw [h1]
          rcases min_choice big d with h | h
          · left; exact h
          · right; rw [h]; simp
        · right; exact List.mem_cons_of_mem _ h1
      · rintro z (rfl | hz)
        · exact (h2 (Set.mem_insert _ _)).trans (min_le_left _ _)
        · rcases List.mem_cons.1 hz with hz | hz
          · cases hz
            exact (h2 (Set.mem_insert _ _)).trans (min_le_right _ _)
          · exact h2 (Set.mem_insert_of_mem _ hz)

/-- **C109.** Missing values: the windows that contain one are passed over, the result is never missing.  (It is the
constant when every window contains one.) -/
theorem C109_missing_passed_over (big : ℝ) {x values : List Nf} (hv : 1 ≤ values.length)
    (hx : values.length - 1 ≤ x.length) :
    ∃ m, minPlain (Nf.num big) x values = .ok (Nf.num m) ∧
      IsLeast (insert big {d | ∃ i, i + values.length ≤ x.length ∧
        l1 (window false x values.length 1 i) values = Nf.num d}) m := by
  obtain ⟨m, h1, h2⟩ := foldl_keepMin_nf (distances false false x values values.length 1) big
  refine ⟨m, by rw [minPlain_distances _ hv hx, h1], ?_⟩
  convert h2 using 2
  ext d
  simp only [Set.mem_setOf_eq, distances, nWin, List.mem_map, List.mem_range, Bool.false_eq_true, if_false, seen]
  constructor
  · rintro ⟨i, hi, h⟩; exact ⟨i, by omega, h⟩
  · rintro ⟨i, hi, h⟩; exact ⟨i, by omega, h⟩

/-! ## The hypotheses are met -/

/-- C109: orders of the windows that are not the natural one. -/
example : ∀ l : List Nat, (l.reverse).Perm l := fun l => l.reverse_perm

/-- C109: a series of four points, a shapelet of two values; the second window is the closest one. -/
example : minEARandom List.reverse (10 ^ 100) [5, 1, 2, 7] [1, 3] = .ok (1 : ℝ) := by
  rw [(C109_same_minimum (fun l => l.reverse_perm) _ _ _).2]
  obtain ⟨m, h1, h2⟩ := (C109_is_minimum (10 ^ 100) (x := [5, 1, 2, 7]) (values := [1, 3]) (by simp)).1 (by simp)
  rw [h1]
  have : IsLeast (insert (10 ^ 100 : ℝ) {d | ∃ i, i + [(1 : ℝ), 3].length ≤ [(5 : ℝ), 1, 2, 7].length ∧
        d = ∑ j ∈ Finset.range [(1 : ℝ), 3].length, |[(5 : ℝ), 1, 2, 7].getD (i + j) 0 - [(1 : ℝ), 3].getD j 0|}) 1 := by
    constructor
    · right
      refine ⟨1, by simp, ?_⟩
      norm_num [Finset.sum_range_succ]
    · rintro z (rfl | ⟨i, hi, rfl⟩)
      · norm_num
      · simp only [List.length_cons, List.length_nil] at hi
        have : i < 3 := by omega
        interval_cases i <;> norm_num [Finset.sum_range_succ]
  rw [h2.unique this]

/-- C109: the hypothesis on the rounding. -/
example : ∀ x, Rounding.double.rnd (Rounding.double.rnd x) = Rounding.double.rnd x := rndBin_idem 52

/-- C109: without it the early abandon could change the result; a rounding that is not idempotent satisfies the other
laws of roundings (halving the relative distance to 1, say), so the hypothesis is not implied by them. -/
example : ¬ ∀ r : Rounding, ∀ x, r.rnd (r.rnd x) = r.rnd x := by
  intro h
  let r : Rounding :=
    { rnd := fun x => if x ≤ 1 then x else x + (x - 1) / 4
      u := 1 / 2
      u_nonneg := by norm_num
      u_lt := by norm_num
      err := fun x => by
        by_cases hx : x ≤ 1
        · simp [hx]
        · simp only [hx, if_false]
          have : 1 < x := not_le.1 hx
          rw [abs_of_nonneg (by linarith), abs_of_pos (by linarith)]
          linarith
      mono := fun x y hxy => by
        by_cases hx : x ≤ 1 <;> by_cases hy : y ≤ 1
        · simp [hx, hy, hxy]
        · simp only [hx, hy, if_true, if_false]; linarith [not_le.1 hy]
        · linarith [not_le.1 hx]
        · simp only [hx, hy, if_false]; linarith
      one := by simp
      exp := id
      log := id
      log2 := id
      pow2 := id
      rpow := fun x _ => x }
  have := h r 2
  norm_num [r] at this

/-- C109: a window with a missing value and one without. -/
example : minPlain (Nf.num 100) [Nf.nan, Nf.num 4, Nf.num 6] [Nf.num 1, Nf.num 5] = .ok (Nf.num 4) := by
  obtain ⟨m, h1, h2⟩ := C109_missing_passed_over 100 (x := [Nf.nan, Nf.num 4, Nf.num 6])
    (values := [Nf.num 1, Nf.num 5]) (by simp) (by simp)
  rw [h1]
  have e0 : l1 (window false [Nf.nan, Nf.num 4, Nf.num 6] 2 1 0) [Nf.num 1, Nf.num 5] = Nf.nan := rfl
  have e1 : l1 (window false [Nf.nan, Nf.num 4, Nf.num 6] 2 1 1) [Nf.num 1, Nf.num 5] = Nf.num (0 + |4 - 1| + |6 - 5|) := rfl
  have : IsLeast (insert (100 : ℝ) {d | ∃ i, i + [Nf.num 1, Nf.num 5].length ≤ [Nf.nan, Nf.num 4, Nf.num 6].length ∧
      l1 (window false [Nf.nan, Nf.num 4, Nf.num 6] [Nf.num 1, Nf.num 5].length 1 i) [Nf.num 1, Nf.num 5] = Nf.num d}) 4 := by
    constructor
    · right
      exact ⟨1, by simp, e1.trans (by norm_num)⟩
    · rintro z (rfl | ⟨i, hi, hd⟩)
      · norm_num
      · simp only [List.length_cons, List.length_nil] at hi hd
        have : i < 2 := by omega
        interval_cases i
        · exact absurd (e0.symm.trans hd) (by simp)
        · have := e1.symm.trans hd
          simp only [Nf.num.injEq] at this
          norm_num at this
          linarith
  rw [h2.unique this]

/-- C109: the comparison with `transform`, for the first series and the first shapelet of C01. -/
example : ∃ M row m, uslApply exX exU false = .ok M ∧ M[0]? = some row ∧ row[0]? = some m ∧
    minPlain (10 ^ 100) [0, 1, 2, 3, 4] [1, 2] = .ok (m : ℝ) := by
  obtain ⟨M, h1, h2⟩ := C109_minimum_of_transform exU_wf (X := exX) exX_ne (by
    intro s hs k hk
    simp [exX] at hs
    simp [exU] at hk
    interval_cases k <;> rcases hs with rfl | rfl <;> simp [exU, HasWindow]) (10 ^ 100)
  obtain ⟨row, m, e1, e2, e3⟩ := h2 0 0 [[0, 1, 2, 3, 4]] rfl (by simp [exU]) rfl rfl
    ⟨0, by
      simp only [uDistances, distances, List.mem_map, List.mem_range]
      refine ⟨1, by simp [nWin, exU], ?_⟩
      simp [exU, seen, window, uValues, l1, pos, List.range_succ], by positivity⟩
  exact ⟨M, row, m, h1, e1, e2, e3⟩

end Convst.Props
