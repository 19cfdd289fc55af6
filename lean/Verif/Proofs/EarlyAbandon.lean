import Verif.Model.EarlyAbandon
import Verif.Model.Rounded
import Verif.Model.Missing
import Verif.Proofs.Windows

/-! # Early abandon: the loops -/

set_option autoImplicit false
set_option linter.unusedSectionVars false

namespace Convst
open Spec

section
variable {K : Type} [Scalar K]

/-- Sums that have passed the value `m` stay there. -/
structure StaysBeyond (Up : K → K → Prop) : Prop where
  start : ∀ m s x : K, Scalar.ltb m (s + Scalar.abs x) = true → Up m (s + Scalar.abs x)
  step : ∀ m s x : K, Up m s → Up m (s + Scalar.abs x)
  notBelow : ∀ m s : K, Up m s → Scalar.ltb s m = false

/-- The sum over the positions `js`, from `s`. -/
def sumFrom (w values : List K) (js : List Nat) (s : K) : K :=
  js.foldl (fun s j => s + Scalar.abs (w.getD j 0 - values.getD j 0)) s

theorem windowSum_ok {w values : List K} {js : List Nat} (h1 : ∀ j ∈ js, j < w.length)
    (h2 : ∀ j ∈ js, j < values.length) (s : K) :
    windowSum w values js s = .ok (sumFrom w values js s) := by
  induction js generalizing s with
  | nil => rfl
  | cons j js ih =>
    rw [windowSum, aget_getD 0 (h1 j (by simp)), Res.bind_ok, aget_getD 0 (h2 j (by simp)), Res.bind_ok,
      ih (fun j hj => h1 j (by simp [hj])) (fun j hj => h2 j (by simp [hj]))]
    rfl

theorem StaysBeyond.sumFrom {Up : K → K → Prop} (hU : StaysBeyond Up) (w values : List K) (js : List Nat) {m s : K}
    (h : Up m s) : Up m (sumFrom w values js s) := by
  induction js generalizing s with
  | nil => exact h
  | cons j js ih => exact ih (hU.step _ _ _ h)

theorem windowSumEA_ok {Up : K → K → Prop} (hU : StaysBeyond Up) {w values : List K} {js : List Nat}
    (h1 : ∀ j ∈ js, j < w.length) (h2 : ∀ j ∈ js, j < values.length) (m s : K) :
    ∃ d, windowSumEA m w values js s = .ok d ∧ (d = sumFrom w values js s ∨
      (Scalar.ltb d m = false ∧ Scalar.ltb (sumFrom w values js s) m = false)) := by
  induction js generalizing s with
  | nil => exact ⟨s, rfl, .inl rfl⟩
  | cons j js ih =>
    rw [windowSumEA, aget_getD 0 (h1 j (by simp)), Res.bind_ok, aget_getD 0 (h2 j (by simp)), Res.bind_ok]
    by_cases hm : Scalar.ltb m (s + Scalar.abs (w.getD j 0 - values.getD j 0)) = true
    · rw [if_pos hm]
      have hu := hU.start _ _ _ hm
      exact ⟨_, rfl, .inr ⟨hU.notBelow _ _ hu, hU.notBelow _ _ (hU.sumFrom w values js hu)⟩⟩
    · rw [if_neg hm]
      exact ih (fun j hj => h1 j (by simp [hj])) (fun j hj => h2 j (by simp [hj])) _

/-- The smaller value, the first one when they cannot be compared. -/
def keepMin (m d : K) : K := if Scalar.ltb d m then d else m

theorem scanWindows_ok {dist : K → List K → Res K} {D : List K → K} {c : List (List K)}
    (hd : ∀ m, ∀ w ∈ c, ∃ d, dist m w = .ok d ∧ keepMin m d = keepMin m (D w)) {is : List Nat}
    (hi : ∀ i ∈ is, i < c.length) (m : K) :
    scanWindows dist c is m = .ok ((is.map fun i => D (c.getD i [])).foldl keepMin m) := by
  induction is generalizing m with
  | nil => rfl
  | cons i is ih =>
    have hi' := hi i (by simp)
    have hmem : c.getD i [] ∈ c := by
      rw [List.getD_eq_getElem?_getD, List.getElem?_eq_getElem hi']; exact List.getElem_mem hi'
    obtain ⟨d, e1, e2⟩ := hd m _ hmem
    rw [scanWindows, aget_getD [] hi', Res.bind_ok, e1, Res.bind_ok, ih (fun i hi2 => hi i (by simp [hi2]))]
    show Except.ok (List.foldl keepMin (keepMin m d) _) = _
    rw [e2]
    rfl

theorem strides_lengths {x : List K} {l d : Nat} {c : List (List K)} (h : strides1DPlain x l d = .ok c) :
    ∀ w ∈ c, w.length = l := by
  unfold strides1DPlain at h
  obtain ⟨n, -, h2⟩ := Res.bind_eq_ok.1 h
  clear h
  rw [mapM_eq_ok] at h2
  generalize List.range n = is at h2
  induction h2 with
  | nil => simp
  | cons hi _ ih =>
    intro w hw
    rcases List.mem_cons.1 hw with rfl | hw
    · rw [mapM_eq_ok] at hi
      simpa using hi.length_eq.symm
    · exact ih w hw

/-- The distances of the windows, in the order of the windows. -/
def winDists (c : List (List K)) (values : List K) : List K := c.map fun w => l1 w values

theorem sumFrom_range {w values : List K} (h : w.length = values.length) :
    sumFrom w values (List.range values.length) 0 = l1 w values := by
  unfold sumFrom l1; rw [h]

theorem map_getD_range {α β : Type} (f : α → β) (a : α) (c : List α) :
    (List.range c.length).map (fun i => f (c.getD i a)) = c.map f := by
  apply List.ext_getElem?
  intro i
  rw [List.getElem?_map, List.getElem?_map]
  by_cases hi : i < c.length
  · rw [List.getElem?_range hi, List.getElem?_eq_getElem hi]
    simp [List.getD_eq_getElem?_getD, List.getElem?_eq_getElem hi]
  · rw [List.getElem?_eq_none (by simpa using hi), List.getElem?_eq_none (by simpa using hi)]
    rfl

theorem minPlain_eq (big : K) {x values : List K} {c : List (List K)} (hc : strides1DPlain x values.length 1 = .ok c) :
    minPlain big x values = .ok ((winDists c values).foldl keepMin big) := by
  unfold minPlain
  rw [hc, Res.bind_ok]
  have hl := strides_lengths hc
  rw [scanWindows_ok (D := fun w => l1 w values) ?_ (by simp), map_getD_range (fun w => l1 w values)]
  · rfl
  · intro m w hw
    refine ⟨_, windowSum_ok (fun j hj => ?_) (fun j hj => List.mem_range.1 hj) 0, by rw [sumFrom_range (hl w hw)]⟩
    rw [hl w hw]; exact List.mem_range.1 hj

theorem minEARandom_eq {Up : K → K → Prop} (hU : StaysBeyond Up)
    (hcomm : ∀ m a b : K, keepMin (keepMin m a) b = keepMin (keepMin m b) a) {shuffle : List Nat → List Nat}
    (hs : ∀ l, (shuffle l).Perm l) (big : K) {x values : List K} {c : List (List K)}
    (hc : strides1DPlain x values.length 1 = .ok c) :
    minEARandom shuffle big x values = .ok ((winDists c values).foldl keepMin big) := by
  unfold minEARandom
  rw [hc, Res.bind_ok]
  have hl := strides_lengths hc
  rw [scanWindows_ok (D := fun w => l1 w values) ?_ ?_]
  · have hp : ((shuffle (List.range c.length)).map fun i => l1 (c.getD i []) values).Perm (winDists c values) := by
      have := (hs (List.range c.length)).map fun i => l1 (c.getD i []) values
      rwa [map_getD_range (fun w => l1 w values)] at this
    have : RightCommutative (keepMin (K := K)) := ⟨hcomm⟩
    rw [hp.foldl_eq]
  · intro m w hw
    obtain ⟨d, e1, e2⟩ := windowSumEA_ok hU (w := w) (values := values) (js := List.range values.length)
      (fun j hj => by rw [hl w hw]; exact List.mem_range.1 hj) (fun j hj => List.mem_range.1 hj) m 0
    refine ⟨d, e1, ?_⟩
    rw [sumFrom_range (hl w hw)] at e2
    rcases e2 with rfl | ⟨e2, e3⟩
    · rfl
    · simp only [keepMin, e2, e3, Bool.false_eq_true, if_false]
  · intro i hi
    exact List.mem_range.1 ((hs _).mem_iff.1 hi)

/-- The three functions give the same result, in an arithmetic with these properties. -/
theorem early_same {Up : K → K → Prop} (hU : StaysBeyond Up)
    (hcomm : ∀ m a b : K, keepMin (keepMin m a) b = keepMin (keepMin m b) a) {shuffle : List Nat → List Nat}
    (hs : ∀ l, (shuffle l).Perm l) (big : K) (x values : List K) :
    minEA big x values = minPlain big x values ∧ minEARandom shuffle big x values = minPlain big x values := by
  have hea : minEA big x values = minEARandom id big x values := rfl
  rw [hea]
  cases hc : strides1DPlain x values.length 1 with
  | error e => constructor <;> (unfold minEARandom minPlain; rw [hc]; rfl)
  | ok c =>
    rw [minPlain_eq big hc, minEARandom_eq hU hcomm (shuffle := id) (fun l => List.Perm.refl l) big hc, minEARandom_eq hU hcomm hs big hc]
    exact ⟨rfl, rfl⟩

end

/-! ## The three arithmetics -/

theorem keepMin_real (m d : ℝ) : keepMin m d = min m d := by
  unfold keepMin
  by_cases h : d < m
  · rw [if_pos ((real_ltb _ _).2 h), min_eq_right h.le]
  · rw [if_neg (fun h' => h ((real_ltb _ _).1 h')), min_eq_left (not_lt.1 h)]

theorem keepMin_real_comm (m a b : ℝ) : keepMin (keepMin m a) b = keepMin (keepMin m b) a := by
  simp only [keepMin_real, min_right_comm]

theorem real_beyond : StaysBeyond (K := ℝ) (fun m s => m < s) where
  start m s x h := (real_ltb _ _).1 h
  step m s x h := by
    show m < s + |x|
    have := abs_nonneg x
    linarith
  notBelow m s h := by simpa using le_of_lt h

theorem keepMin_fl {r : Rounding} (m d : Fl r) : (keepMin m d).val = min m.val d.val := by
  unfold keepMin
  by_cases h : d.val < m.val
  · rw [if_pos ((fl_ltb _ _).2 h), min_eq_right h.le]
  · rw [if_neg (fun h' => h ((fl_ltb _ _).1 h')), min_eq_left (not_lt.1 h)]

theorem keepMin_fl_comm {r : Rounding} (m a b : Fl r) : keepMin (keepMin m a) b = keepMin (keepMin m b) a := by
  have : (keepMin (keepMin m a) b).val = (keepMin (keepMin m b) a).val := by
    simp only [keepMin_fl, min_right_comm]
  exact this

theorem fl_beyond {r : Rounding} (hr : ∀ x, r.rnd (r.rnd x) = r.rnd x) :
    StaysBeyond (K := Fl r) (fun m s => m.val < s.val ∧ r.rnd s.val = s.val) where
  start m s x h := ⟨(fl_ltb _ _).1 h, hr _⟩
  step m s x h := by
    refine ⟨?_, hr _⟩
    show m.val < r.rnd (s.val + |x.val|)
    have h1 : s.val ≤ s.val + |x.val| := by linarith [abs_nonneg x.val]
    have := r.mono h1
    rw [h.2] at this
    linarith [h.1]
  notBelow m s h := by
    rw [← Bool.not_eq_true, fl_ltb]
    exact not_lt.2 h.1.le

theorem nf_ltb {a b : ℝ} : (Scalar.ltb (Nf.num a) (Nf.num b) = true) ↔ a < b := by
  show decide (a < b) = true ↔ _
  exact decide_eq_true_iff

theorem keepMin_nf (m d : ℝ) : keepMin (Nf.num m) (Nf.num d) = Nf.num (min m d) := by
  unfold keepMin
  by_cases h : d < m
  · rw [if_pos (nf_ltb.2 h), min_eq_right h.le]
  · rw [if_neg (fun h' => h (nf_ltb.1 h')), min_eq_left (not_lt.1 h)]

theorem keepMin_nan_left (d : Nf) : keepMin Nf.nan d = Nf.nan := by cases d <;> rfl

theorem keepMin_nan_right (m : Nf) : keepMin m Nf.nan = m := by cases m <;> rfl

theorem keepMin_nf_comm (m a b : Nf) : keepMin (keepMin m a) b = keepMin (keepMin m b) a := by
  cases m with
  | nan => simp only [keepMin_nan_left]
  | num m =>
    cases a with
    | nan => simp only [keepMin_nan_right]
    | num a =>
      cases b with
      | nan => simp only [keepMin_nan_right]
      | num b => simp only [keepMin_nf, min_right_comm]

theorem nf_beyond : StaysBeyond (K := Nf) (fun m s => s = .nan ∨ Scalar.ltb m s = true) where
  start m s x h := .inr h
  step m s x h := by
    cases s with
    | nan => left; cases x <;> rfl
    | num s =>
      cases x with
      | nan => left; rfl
      | num x =>
        right
        cases m with
        | nan => rcases h with h | h <;> simp [Scalar.ltb, Nf.cmp] at h
        | num m =>
          rcases h with h | h
          · cases h
          · have h1 := nf_ltb.1 h
            apply nf_ltb.2
            have := abs_nonneg x
            linarith
  notBelow m s h := by
    rcases h with rfl | h
    · cases m <;> rfl
    · cases s with
      | nan => cases m <;> rfl
      | num s =>
        cases m with
        | nan => rfl
        | num m =>
          rw [← Bool.not_eq_true, nf_ltb]
          exact not_lt.2 (nf_ltb.1 h).le

/-! ## Rounding twice -/

theorem binExp_eq {v : ℝ} {e : Int} (h1 : (2 : ℝ) ^ e ≤ |v|) (h2 : |v| < (2 : ℝ) ^ (e + 1)) : binExp v = e := by
  have hv : v ≠ 0 := by
    rintro rfl
    have : (0 : ℝ) < (2 : ℝ) ^ e := zpow_pos (by norm_num) _
    simp only [abs_zero] at h1
    linarith
  obtain ⟨b1, b2⟩ := binExp_bounds hv
  have k1 : e < binExp v + 1 := (zpow_lt_zpow_iff_right₀ (by norm_num : (1 : ℝ) < 2)).1 (h1.trans_lt b2)
  have k2 : binExp v < e + 1 := (zpow_lt_zpow_iff_right₀ (by norm_num : (1 : ℝ) < 2)).1 (b1.trans_lt h2)
  omega

theorem rndBin_fixed {p : Nat} {e N : Int} (h1 : (2 : ℤ) ^ p ≤ |N|) (h2 : |N| < (2 : ℤ) ^ (p + 1)) :
    rndBin p (N * (2 : ℝ) ^ (e - (p : Int))) = N * (2 : ℝ) ^ (e - (p : Int)) := by
  have hpos : (0 : ℝ) < (2 : ℝ) ^ (e - (p : Int)) := zpow_pos (by norm_num) _
  have k1 : (2 : ℝ) ^ p ≤ |(N : ℝ)| := by exact_mod_cast h1
  have k2 : |(N : ℝ)| < (2 : ℝ) ^ (p + 1) := by exact_mod_cast h2
  have hb : binExp (N * (2 : ℝ) ^ (e - (p : Int))) = e := by
    apply binExp_eq
    · rw [abs_mul, abs_of_pos hpos]
      calc (2 : ℝ) ^ e = (2 : ℝ) ^ p * (2 : ℝ) ^ (e - (p : Int)) := by
            rw [← zpow_natCast, ← zpow_add₀ (by norm_num)]; congr 1; ring
        _ ≤ _ := mul_le_mul_of_nonneg_right k1 hpos.le
    · rw [abs_mul, abs_of_pos hpos]
      calc _ < (2 : ℝ) ^ (p + 1) * (2 : ℝ) ^ (e - (p : Int)) := mul_lt_mul_of_pos_right k2 hpos
        _ = (2 : ℝ) ^ (e + 1) := by
            rw [← zpow_natCast, ← zpow_add₀ (by norm_num)]; congr 1; push_cast; ring
  unfold rndBin
  rw [hb, mul_assoc, ← zpow_add₀ (by norm_num)]
  simp

theorem rndBin_idem (p : Nat) (x : ℝ) : rndBin p (rndBin p x) = rndBin p x := by
  by_cases hx : x = 0
  · subst hx; simp [rndBin]
  obtain ⟨b1, b2⟩ := binExp_bounds hx
  have hpos : (0 : ℝ) < (2 : ℝ) ^ ((p : Int) - binExp x) := zpow_pos (by norm_num) _
  have y1 : ((2 : ℤ) ^ p : ℤ) ≤ |x * (2 : ℝ) ^ ((p : Int) - binExp x)| := by
    rw [abs_mul, abs_of_pos hpos]
    calc (((2 : ℤ) ^ p : ℤ) : ℝ) = (2 : ℝ) ^ binExp x * (2 : ℝ) ^ ((p : Int) - binExp x) := by
          rw [← zpow_add₀ (by norm_num)]; simp
      _ ≤ _ := mul_le_mul_of_nonneg_right b1 hpos.le
  have y2 : |x * (2 : ℝ) ^ ((p : Int) - binExp x)| ≤ ((2 : ℤ) ^ (p + 1) : ℤ) := by
    rw [abs_mul, abs_of_pos hpos]
    calc _ ≤ (2 : ℝ) ^ (binExp x + 1) * (2 : ℝ) ^ ((p : Int) - binExp x) := mul_le_mul_of_nonneg_right b2.le hpos.le
      _ = _ := by
          rw [← zpow_add₀ (by norm_num), show binExp x + 1 + ((p : Int) - binExp x) = ((p + 1 : Nat) : Int) by push_cast; ring,
            zpow_natCast]
          push_cast; rfl
  have e : rndBin p x = (round (x * (2 : ℝ) ^ ((p : Int) - binExp x)) : ℝ) * (2 : ℝ) ^ (binExp x - (p : Int)) := rfl
  rw [e]
  generalize x * (2 : ℝ) ^ ((p : Int) - binExp x) = y at y1 y2
  have n1 : (2 : ℤ) ^ p ≤ |round y| := by
    rcases le_or_gt 0 y with hy | hy
    · rw [abs_of_nonneg hy] at y1
      have := round_le_round y1
      rw [round_intCast] at this
      exact this.trans (le_abs_self _)
    · rw [abs_of_neg hy] at y1
      have := round_le_round (show y ≤ ((-(2 : ℤ) ^ p : ℤ) : ℝ) by push_cast at y1 ⊢; linarith)
      rw [round_intCast] at this
      exact (le_neg.1 this).trans (neg_le_abs _)
  have n2 : |round y| ≤ (2 : ℤ) ^ (p + 1) := by
    rw [abs_le] at y2 ⊢
    constructor
    · have := round_le_round (show ((-(2 : ℤ) ^ (p + 1) : ℤ) : ℝ) ≤ y by push_cast at y2 ⊢; linarith [y2.1])
      rwa [round_intCast] at this
    · have := round_le_round y2.2
      rwa [round_intCast] at this
  rcases n2.lt_or_eq with n2 | n2
  · exact rndBin_fixed n1 n2
  · -- the rounding has carried into the next power of two
    obtain ⟨M, hM, hMa⟩ : ∃ M : Int, round y = 2 * M ∧ |M| = 2 ^ p := by
      rcases abs_eq_abs.1 (n2.trans (abs_of_nonneg (by positivity : (0 : ℤ) ≤ 2 ^ (p + 1))).symm) with h | h
      · exact ⟨2 ^ p, by rw [h]; ring, abs_of_nonneg (by positivity)⟩
      · exact ⟨-2 ^ p, by rw [h]; ring, by rw [abs_neg]; exact abs_of_nonneg (by positivity)⟩
    have hv : ((round y : Int) : ℝ) * (2 : ℝ) ^ (binExp x - (p : Int)) = M * (2 : ℝ) ^ (binExp x + 1 - (p : Int)) := by
      rw [hM, show binExp x + 1 - (p : Int) = (binExp x - (p : Int)) + 1 by ring, zpow_add_one₀ (by norm_num)]
      push_cast; ring
    rw [hv]
    exact rndBin_fixed hMa.ge (by rw [hMa]; exact pow_lt_pow_right₀ (by norm_num) (by omega))

end Convst
