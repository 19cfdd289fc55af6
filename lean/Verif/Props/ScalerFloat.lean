import Verif.Proofs.ScalerFloat
import Verif.Props.Double

/-!
# C119: the scaler of the classifier in floating-point arithmetic
-/

set_option autoImplicit false
set_option linter.unusedSectionVars false

namespace Convst.Props
open Convst Spec

/-- Feature `j` takes two different values on the rows of `X`. -/
def FlVaries {r : Rounding} (X : List (List (Fl r))) (j : Nat) : Prop :=
  ∃ a ∈ X, ∃ b ∈ X, (a.getD j 0).val ≠ (b.getD j 0).val

section
variable {r : Rounding}

theorem kept_fl (X : List (List (Fl r))) (nc j : Nat) :
    (j ∈ whereIdx nc fun j => !(Scalar.eqb (std (colAt X j)) 0)) ↔
      j < nc ∧ ∃ a ∈ X, (a.getD j 0).val ≠ (mean (K := Fl r) (X.map (List.getD · j 0))).val := by
  rw [mem_whereIdx, Bool.not_eq_true', Bool.eq_false_iff, Ne, fl_eqb, fl_zero, std_fl_zero]
  unfold colAt
  constructor
  · rintro ⟨h1, h2⟩
    push Not at h2
    obtain ⟨v, hv, hne⟩ := h2
    obtain ⟨a, ha, rfl⟩ := List.mem_map.1 hv
    exact ⟨h1, a, ha, hne⟩
  · rintro ⟨h1, a, ha, hne⟩
    exact ⟨h1, fun h => hne (h _ (List.mem_map.2 ⟨a, ha, rfl⟩))⟩

/-- **C119.** What fitting the scaler keeps in rounded arithmetic: the features with a value different from
the *computed* mean of the column, in increasing order; `ValueError` when there are none. -/
theorem C119_kept {X : List (List (Fl r))} {nc : Nat} (h : ∀ a ∈ X, a.length = nc) :
    (∃ s, Scaler.fitStandard X nc = .ok s ∧ s.atts.Pairwise (· < ·) ∧
      ∀ j, j ∈ s.atts ↔ j < nc ∧ ∃ a ∈ X, (a.getD j 0).val ≠ (mean (K := Fl r) (X.map (List.getD · j 0))).val) ∨
    (Scaler.fitStandard X nc = .error .valueError ∧
      ∀ j, j < nc → ∀ a ∈ X, (a.getD j 0).val = (mean (K := Fl r) (X.map (List.getD · j 0))).val) := by
  have heq := fitStandard_any h
  simp only at heq
  rw [heq]
  split
  · rename_i hc
    refine Or.inr ⟨rfl, ?_⟩
    intro j hj a ha
    rcases hc with rfl | hc
    · cases ha
    · by_contra hne
      have := (kept_fl X nc j).2 ⟨hj, a, ha, hne⟩
      rw [hc] at this
      cases this
  · exact Or.inl ⟨_, rfl, List.pairwise_lt_range.filter _, kept_fl X nc⟩

/-- **C119.** No information is lost: with any rounding, a feature which takes two different values on the training
rows is kept, and the fit of the scaler succeeds as soon as there is one. -/
theorem C119_varying_kept {X : List (List (Fl r))} {nc : Nat} (h : ∀ a ∈ X, a.length = nc) {j : Nat} (hj : j < nc)
    (hv : FlVaries X j) : ∃ s, Scaler.fitStandard X nc = .ok s ∧ j ∈ s.atts := by
  obtain ⟨a, ha, b, hb, hne⟩ := hv
  rcases C119_kept h with ⟨s, h1, -, h3⟩ | ⟨-, h2⟩
  · refine ⟨s, h1, (h3 j).2 ⟨hj, ?_⟩⟩
    by_contra hc
    push Not at hc
    exact hne ((hc a ha).trans (hc b hb).symm)
  · exact absurd ((h2 j hj a ha).trans (h2 j hj b hb).symm) hne

end

section
variable {F : FloatFormat} {R : Type}

/-- **C119.** Integer features.  In double precision, a feature whose values are integers, not larger than `2⁵³`
divided by the number of rows, is kept exactly when it takes two different values. -/
theorem C119_integer_feature (hD : Double F) {X : List (List (Fl F.r))} {nc : Nat} (h : ∀ a ∈ X, a.length = nc)
    {s : Scaler (Fl F.r)} (hs : Scaler.fitStandard X nc = .ok s) {j : Nat} (hj : j < nc)
    (hint : ∀ a ∈ X, ∃ N : Int, (a.getD j 0).val = N ∧ |N| * X.length ≤ 2 ^ 53) (hn : X.length ≤ 2 ^ 53) :
    j ∈ s.atts ↔ FlVaries X j := by
  constructor
  · intro hmem
    rcases C119_kept h with ⟨s', h1, -, h3⟩ | ⟨h2, -⟩
    · rw [hs] at h1
      cases h1
      obtain ⟨-, a, ha, hne⟩ := (h3 j).1 hmem
      by_contra hc
      apply hne
      have hall : ∀ b ∈ X, b.getD j 0 = a.getD j 0 := by
        intro b hb
        by_contra hne'
        exact hc ⟨b, hb, a, ha, hne'⟩
      have hrep : (X.map (List.getD · j 0)) = List.replicate X.length (a.getD j 0) := by
        rw [List.eq_replicate_iff, List.length_map]
        refine ⟨rfl, ?_⟩
        intro v hv
        obtain ⟨b, hb, rfl⟩ := List.mem_map.1 hv
        exact hall b hb
      rw [hrep]
      obtain ⟨N, hN, hb⟩ := hint a ha
      refine (mean_fl_const (List.length_pos_of_mem ha) (hD.nat hn) ?_).symm
      intro k hk
      rw [hN]
      have := hD.fix (k * N) 0 (by
        rw [abs_mul, abs_of_nonneg (by positivity), mul_comm]
        refine le_trans (mul_le_mul_of_nonneg_left ?_ (abs_nonneg N)) hb
        exact_mod_cast hk)
      simpa using this
    · rw [hs] at h2
      cases h2
  · intro hv
    obtain ⟨s', h1, h2⟩ := C119_varying_kept h hj hv
    rw [hs] at h1
    cases h1
    exact h2

/-- The second and third cells of a shapelet are integers not larger than the number of points. -/
theorem cell_nat (hD : Double F) (phase : Bool) (S : Shapelets (Fl F.r)) {x : Mat (Fl F.r)} (hx : x.WF)
    (hlen : x.len ≤ 2 ^ 53) {k i : Nat} (hk : k < Shapelets.count S) (hi : i = 1 ∨ i = 2) :
    ∃ n : Nat, ((objRow phase S x).getD (3 * k + i) 0).val = n ∧ n ≤ x.len := by
  have key : ∀ (D : List (Fl F.r)) (thr : Fl F.r), D.length ≤ x.len → ∃ n : Nat,
      ((cells (features D thr)).getD i 0).val = n ∧ n ≤ x.len := by
    intro D thr hl
    have hp := scanMin_pos hD D 0 (-1) 0 le_rfl
    have hc := (List.countP_le_length (l := D) (p := fun v => Scalar.leb v thr))
    rcases hi with rfl | rfl
    · refine ⟨(scanMin D 0 (-1) 0).2, hD.nat (by omega), by omega⟩
    · refine ⟨D.countP fun v => Scalar.leb v thr, hD.nat (by omega), by omega⟩
  have hi3 : i < 3 := by omega
  cases S with
  | u S =>
    have e := row_cells (fun k => uFeatures phase S (x.rows.getD 0 []) k) S.lengths.length k i hk hi3
    have e' : (objRow phase (.u S) x)[3 * k + i]? = (cells (uFeatures phase S (x.rows.getD 0 []) k))[i]? := e
    rw [List.getD_eq_getElem?_getD, e', ← List.getD_eq_getElem?_getD]
    refine key _ _ ?_
    rw [uDistances, distances, List.length_map, List.length_range]
    refine (nWin_le _ _ _ _).trans ?_
    rw [List.getD_eq_getElem?_getD]
    cases e : x.rows[0]? with
    | none => simp
    | some row => exact (hx row (List.mem_of_getElem? e)).le
  | m S =>
    have e := row_cells (fun k => mFeatures phase S x.rows x.len k) S.lengths.length k i hk hi3
    have e' : (objRow phase (.m S) x)[3 * k + i]? = (cells (mFeatures phase S x.rows x.len k))[i]? := e
    rw [List.getD_eq_getElem?_getD, e', ← List.getD_eq_getElem?_getD]
    refine key _ _ ?_
    rw [mDistances, List.length_map, List.length_range]
    exact nWin_le _ _ _ _

/-- **C119.** The features of `transform`.  When the scaler is fitted in double precision on the output of `transform`, for
every shapelet the position of the best match and the number of occurrences are kept exactly when they take two different
values on the training series (with fewer than `2⁵³` points in total); a varying least distance is kept. -/
theorem C119_transform (hD : Double F) {o : Rdst (Fl F.r) R} {S : Shapelets (Fl F.r)} (hS : o.shapelets = some S)
    {nf : Nat} (hwf : ShpWF S nf) {X : XIn (Fl F.r)} (hX : X.WF) {xs : List (Mat (Fl F.r))}
    (hxs : samples X = .ok xs) (hnf : ∀ x ∈ xs, x.rows.length = nf)
    (hT : ∀ x ∈ xs, x.len * xs.length ≤ 2 ^ 53) (hn : xs.length ≤ 2 ^ 53) {M : List (List (Fl F.r))}
    (h : o.transform X = .ok M) {s : Scaler (Fl F.r)} (hs : Scaler.fitStandard M (3 * Shapelets.count S) = .ok s)
    {k : Nat} (hk : k < Shapelets.count S) :
    (3 * k + 1 ∈ s.atts ↔ FlVaries M (3 * k + 1)) ∧ (3 * k + 2 ∈ s.atts ↔ FlVaries M (3 * k + 2)) ∧
      (FlVaries M (3 * k) → 3 * k ∈ s.atts) := by
  obtain ⟨rfl, -⟩ := transform_rows hS hwf hX hxs hnf h
  have hlen : ∀ a ∈ xs.map (objRow o.phase S), a.length = 3 * Shapelets.count S := by
    intro a ha
    obtain ⟨x, -, rfl⟩ := List.mem_map.1 ha
    exact objRow_length o.phase S x
  have hint : ∀ i, i = 1 ∨ i = 2 → ∀ a ∈ xs.map (objRow o.phase S), ∃ N : Int,
      (a.getD (3 * k + i) 0).val = N ∧ |N| * (xs.map (objRow o.phase S)).length ≤ 2 ^ 53 := by
    intro i hi a ha
    obtain ⟨x, hx, rfl⟩ := List.mem_map.1 ha
    have hTx := hT x hx
    have h1 : 1 ≤ xs.length := List.length_pos_of_mem hx
    obtain ⟨n, hn1, hn2⟩ := cell_nat hD o.phase S (samples_wf hX hxs x hx)
      (le_trans (Nat.le_mul_of_pos_right _ h1) hTx) hk hi
    refine ⟨n, by rw [hn1]; norm_num, ?_⟩
    rw [abs_of_nonneg (by positivity), List.length_map]
    exact_mod_cast (Nat.mul_le_mul_right _ hn2).trans hTx
  refine ⟨C119_integer_feature hD hlen hs (by omega) (hint 1 (Or.inl rfl)) (by rw [List.length_map]; exact hn),
    C119_integer_feature hD hlen hs (by omega) (hint 2 (Or.inr rfl)) (by rw [List.length_map]; exact hn), ?_⟩
  intro hv
  obtain ⟨s', h1, h2⟩ := C119_varying_kept hlen (show 3 * k < 3 * Shapelets.count S by omega) hv
  rw [hs] at h1
  cases h1
  exact h2

end

/-! ## Constant features that are kept, varying features that are lost -/

/-- The number written `0.1` in double precision. -/
noncomputable def tenth : Fl Rounding.double := Fl.mk ((7205759403792794 : Int) * (2 : ℝ) ^ (-56 : Int))

theorem tenth_mean : (mean [tenth, tenth, tenth]).val = (7205759403792795 : Int) * (2 : ℝ) ^ (-56 : Int) := by
  have hfix := C117_float64.fix
  have e0 : ((0 : Fl Rounding.double) + tenth).val = tenth.val := by
    rw [fl_add, fl_zero, zero_add]
    exact hfix 7205759403792794 (-56) (by norm_num)
  have e1 : ((0 : Fl Rounding.double) + tenth + tenth).val = (7205759403792794 : Int) * (2 : ℝ) ^ (-55 : Int) := by
    rw [fl_add, e0]
    have : tenth.val + tenth.val = (7205759403792794 : Int) * (2 : ℝ) ^ (-55 : Int) := by
      show (7205759403792794 : Int) * (2 : ℝ) ^ (-56 : Int) + (7205759403792794 : Int) * (2 : ℝ) ^ (-56 : Int) = _
      rw [← mul_add, ← two_succ]; norm_num
    rw [this]
    exact hfix 7205759403792794 (-55) (by norm_num)
  have hb : ∀ (x : ℝ) (e : Int), (2 : ℝ) ^ e ≤ x → x < (2 : ℝ) ^ (e + 1) → binExp x = e := by
    intro x e h1 h2
    have : |x| = x := abs_of_pos (lt_of_lt_of_le (two_pos e) h1)
    apply binExp_eq <;> rw [this] <;> assumption
  have e2 : ((0 : Fl Rounding.double) + tenth + tenth + tenth).val =
      (5404319552844596 : Int) * (2 : ℝ) ^ (-54 : Int) := by
    rw [fl_add, e1]
    have : ((7205759403792794 : Int) : ℝ) * (2 : ℝ) ^ (-55 : Int) + tenth.val = 21617278211378382 / 2 ^ 56 := by
      show ((7205759403792794 : Int) : ℝ) * (2 : ℝ) ^ (-55 : Int) + (7205759403792794 : Int) * (2 : ℝ) ^ (-56 : Int) = _
      norm_num
    rw [this]
    show rndBin 52 _ = _
    unfold rndBin
    rw [hb (21617278211378382 / 2 ^ 56) (-2) (by norm_num) (by norm_num)]
    have : round ((21617278211378382 : ℝ) / 2 ^ 56 * (2 : ℝ) ^ (((52 : Nat) : Int) - (-2))) = 5404319552844596 := by
      rw [round_eq, Int.floor_eq_iff]
      norm_num
    rw [this]
    norm_num
  have e3 : (mean [tenth, tenth, tenth]).val =
      Rounding.double.rnd (((0 : Fl Rounding.double) + tenth + tenth + tenth).val / Rounding.double.rnd (3 : Nat)) := rfl
  have h3 : Rounding.double.rnd (3 : Nat) = 3 := by
    have := C117_float64.nat (n := 3) (by norm_num)
    exact this.trans (by norm_num)
  rw [e3, e2, h3]
  show rndBin 52 _ = _
  have : ((5404319552844596 : Int) : ℝ) * (2 : ℝ) ^ (-54 : Int) / 3 = 21617278211378384 / 3 / 2 ^ 56 := by norm_num
  rw [this]
  unfold rndBin
  rw [hb (21617278211378384 / 3 / 2 ^ 56) (-4) (by norm_num) (by norm_num)]
  have : round ((21617278211378384 : ℝ) / 3 / 2 ^ 56 * (2 : ℝ) ^ (((52 : Nat) : Int) - (-4))) = 7205759403792795 := by
    rw [round_eq, Int.floor_eq_iff]
    norm_num
  rw [this]
  norm_num

/-- **C119.** "The constant features are dropped" is violated: on three rows holding `0.1` the only feature is kept, and
the fit does not raise, because the computed mean is not `0.1`. -/
theorem C119_constant_kept :
    ¬ FlVaries [[tenth], [tenth], [tenth]] 0 ∧
      ∃ s, Scaler.fitStandard [[tenth], [tenth], [tenth]] 1 = .ok s ∧ s.atts = [0] := by
  constructor
  · rintro ⟨a, ha, b, hb, hne⟩
    simp only [List.mem_cons, List.not_mem_nil, or_false, or_self] at ha hb
    rw [ha, hb] at hne
    exact hne rfl
  · have key : ∃ a ∈ [[tenth], [tenth], [tenth]],
        (a.getD 0 0).val ≠ (mean (K := Fl Rounding.double) ([[tenth], [tenth], [tenth]].map (List.getD · 0 0))).val := by
      refine ⟨[tenth], by simp, ?_⟩
      show tenth.val ≠ (mean [tenth, tenth, tenth]).val
      rw [tenth_mean]
      show (7205759403792794 : Int) * (2 : ℝ) ^ (-56 : Int) ≠ _
      intro h
      have := mul_right_cancel₀ (two_pos (-56)).ne' h
      norm_num at this
    rcases C119_kept (X := [[tenth], [tenth], [tenth]]) (nc := 1) (by simp) with ⟨s, h1, h2, h3⟩ | ⟨-, h2⟩
    · refine ⟨s, h1, ?_⟩
      have hmem : 0 ∈ s.atts := (h3 0).2 ⟨by omega, key⟩
      have hall : ∀ j ∈ s.atts, j = 0 := fun j hj => by have := ((h3 j).1 hj).1; omega
      cases hs : s.atts with
      | nil => rw [hs] at hmem; cases hmem
      | cons a l =>
        rw [hs] at hall h2
        have ha := hall a (by simp)
        subst ha
        cases l with
        | nil => rfl
        | cons b l =>
          have hb := hall b (by simp)
          subst hb
          rw [List.pairwise_cons] at h2
          exact absurd (h2.1 0 (by simp)) (by omega)
    · obtain ⟨a, ha, hne⟩ := key
      exact absurd (h2 0 (by omega) a ha) hne

/-- **C119.** "No information is lost" is violated in a bounded range: a feature with the values 0 and `2⁻⁶⁰⁰` is dropped,
because the squares of its deviations underflow to 0; here the fit raises `ValueError` as nothing is left. -/
theorem C119_tiny_dropped :
    Scaler.fitStandard [[(.fin 0 : Ieee .float64)], [.fin ((2 : ℝ) ^ (-600 : Int))]] 1 = .error .valueError := by
  have hD := C117_float64
  have hrnd : ∀ (N : Int) (e : Int), |N| ≤ 2 ^ 53 → (2 : ℝ) ^ (-1022 : Int) ≤ |(N : ℝ) * (2 : ℝ) ^ e| →
      FloatFormat.float64.rnd (N * (2 : ℝ) ^ e) = N * (2 : ℝ) ^ e := by
    intro N e h1 h2
    rw [hD.normal _ h2]; exact hD.fix N e h1
  have h0 : FloatFormat.float64.rnd 0 = 0 := by
    have := FloatFormat.float64.rnd_nat 0
    rw [Nat.cast_zero] at this
    rw [this]; exact FloatFormat.float64.r.zero
  have ov : ∀ x : ℝ, |x| ≤ 1 → (Ieee.over x : Ieee .float64) = .fin x := by
    intro x hx
    apply over_fin
    rw [hD.top]
    calc |x| ≤ 1 := hx
      _ = (2 : ℝ) ^ (0 : Int) := by norm_num
      _ < _ := two_lt (by norm_num)
  have hle1 : ∀ e : Int, e ≤ 0 → (2 : ℝ) ^ e ≤ 1 := by
    intro e he
    calc (2 : ℝ) ^ e ≤ (2 : ℝ) ^ (0 : Int) := two_le he
      _ = 1 := by norm_num
  set b : ℝ := (2 : ℝ) ^ (-600 : Int) with hb
  have hbp : 0 < b := two_pos _
  have r1 : FloatFormat.float64.rnd b = b := by
    have := hrnd 1 (-600) (by norm_num) (by
      rw [Int.cast_one, one_mul, abs_of_pos (two_pos _)]; exact two_le (by norm_num))
    rwa [Int.cast_one, one_mul] at this
  have hhalf : b / 2 = (2 : ℝ) ^ (-601 : Int) := by
    rw [hb, show (-600 : Int) = -601 + 1 by norm_num, two_succ]; ring
  have r2 : FloatFormat.float64.rnd (b / 2) = b / 2 := by
    rw [hhalf]
    have := hrnd 1 (-601) (by norm_num) (by
      rw [Int.cast_one, one_mul, abs_of_pos (two_pos _)]; exact two_le (by norm_num))
    rwa [Int.cast_one, one_mul] at this
  have r3 : FloatFormat.float64.rnd (-(b / 2)) = -(b / 2) := by
    rw [hhalf]
    have := hrnd (-1) (-601) (by norm_num) (by
      rw [Int.cast_neg, Int.cast_one, neg_one_mul, abs_neg, abs_of_pos (two_pos _)]; exact two_le (by norm_num))
    rwa [Int.cast_neg, Int.cast_one, neg_one_mul] at this
  have r4 : FloatFormat.float64.rnd (b / 2 * (b / 2)) = 0 := by
    rw [hhalf, ← two_add]
    have hbe : binExp ((2 : ℝ) ^ (-601 + -601 : Int)) = -1202 := by
      apply binExp_eq <;> rw [abs_of_pos (two_pos _)]
      · exact two_le (by norm_num)
      · exact two_lt (by norm_num)
    show rndSub 52 (-1074) _ = 0
    unfold rndSub
    rw [hbe, if_neg (by norm_num)]
    have hz : round ((2 : ℝ) ^ (-601 + -601 : Int) * (2 : ℝ) ^ (-(-1074) : Int)) = 0 := by
      rw [← two_add, round_eq, Int.floor_eq_zero_iff, Set.mem_Ico]
      have h1 := two_pos (-601 + -601 + - -1074)
      have h2 : (2 : ℝ) ^ (-601 + -601 + - -1074 : Int) < (2 : ℝ) ^ (-1 : Int) := two_lt (by norm_num)
      have h3 : (2 : ℝ) ^ (-1 : Int) = 1 / 2 := by norm_num
      rw [h3] at h2
      constructor <;> linarith
    rw [hz]; simp
  have n2 : (Scalar.ofNat 2 : Ieee .float64) = .fin 2 := by
    have := hD.ofNat (n := 2) (by norm_num)
    rw [this]; norm_num
  have add : ∀ x y : ℝ, (Ieee.fin x + Ieee.fin y : Ieee .float64) = Ieee.over (FloatFormat.float64.rnd (x + y)) :=
    fun _ _ => rfl
  have sub : ∀ x y : ℝ, (Ieee.fin x - Ieee.fin y : Ieee .float64) = Ieee.over (FloatFormat.float64.rnd (x + -y)) :=
    fun _ _ => rfl
  have mul : ∀ x y : ℝ, (Ieee.fin x * Ieee.fin y : Ieee .float64) = Ieee.over (FloatFormat.float64.rnd (x * y)) :=
    fun _ _ => rfl
  have div : ∀ x : ℝ, (Ieee.fin x / Ieee.fin 2 : Ieee .float64) = Ieee.over (FloatFormat.float64.rnd (x / 2)) := by
    intro x
    show (if (2 : ℝ) = 0 then _ else _) = _
    rw [if_neg (by norm_num)]
  have z0 : (Ieee.over 0 : Ieee .float64) = .fin 0 := ov 0 (by simp)
  have hb1 : |b| ≤ 1 := by rw [abs_of_pos hbp]; exact hle1 _ (by norm_num)
  have hb2 : |b / 2| ≤ 1 := by rw [hhalf, abs_of_pos (two_pos _)]; exact hle1 _ (by norm_num)
  have hmean : mean [(.fin 0 : Ieee .float64), .fin b] = .fin (b / 2) := by
    show ((Ieee.fin 0 + Ieee.fin 0) + Ieee.fin b) / Scalar.ofNat 2 = _
    rw [n2, add, add_zero, h0, z0, add, zero_add, r1, ov b hb1, div, r2, ov _ hb2]
  have hstd : std [(.fin 0 : Ieee .float64), .fin b] = .fin 0 := by
    unfold std
    simp only
    rw [hmean]
    have e : [(.fin 0 : Ieee .float64), .fin b].map (fun v => (v - .fin (b / 2)) * (v - .fin (b / 2))) =
        [.fin 0, .fin 0] := by
      simp only [List.map_cons, List.map_nil]
      rw [sub, zero_add, r3, ov _ (by rwa [abs_neg]), mul, neg_mul_neg, r4, z0, sub, show b + -(b / 2) = b / 2 by ring, r2,
        ov _ hb2, mul, r4, z0]
    rw [e]
    have : mean [(.fin 0 : Ieee .float64), .fin 0] = .fin 0 := by
      show ((Ieee.fin 0 + Ieee.fin 0) + Ieee.fin 0) / Scalar.ofNat 2 = _
      rw [n2, add, add_zero, h0, z0, add, zero_add, h0, z0, div, zero_div, h0, z0]
    rw [this]
    show (if (0 : ℝ) < 0 then _ else Ieee.over (FloatFormat.float64.rnd (Real.sqrt 0))) = _
    rw [if_neg (lt_irrefl _), Real.sqrt_zero, h0, z0]
  have heq := fitStandard_any (X := [[(.fin 0 : Ieee .float64)], [.fin b]]) (nc := 1) (by simp)
  simp only at heq
  rw [heq, if_pos]
  right
  rw [List.eq_nil_iff_forall_not_mem]
  intro j hj
  obtain ⟨h1, h2⟩ := mem_whereIdx.1 hj
  have : j = 0 := by omega
  subst this
  have e : colAt [[(.fin 0 : Ieee .float64)], [.fin b]] 0 = [.fin 0, .fin b] := rfl
  rw [e, hstd] at h2
  have e2 : Scalar.eqb (.fin 0 : Ieee .float64) 0 = true := (ieee_eqb_zero _).2 rfl
  rw [e2] at h2
  cases h2

/-! ## Concrete cases -/

/-- Two rows with the features 3, 5 and 4, 5. -/
noncomputable def twoRows : List (List (Fl FloatFormat.float64.r)) :=
  [[Fl.mk (3 : Int), Fl.mk (5 : Int)], [Fl.mk (4 : Int), Fl.mk (5 : Int)]]

theorem twoRows_mem {a : List (Fl FloatFormat.float64.r)} (h : a ∈ twoRows) :
    a = [Fl.mk (3 : Int), Fl.mk (5 : Int)] ∨ a = [Fl.mk (4 : Int), Fl.mk (5 : Int)] := by
  rcases List.mem_cons.1 h with h | h
  · exact Or.inl h
  · exact Or.inr (List.mem_singleton.1 h)

/-- The hypotheses of `C119_varying_kept` and `C119_integer_feature` are met; here the first feature varies and the
second one does not. -/
example : ∃ s, Scaler.fitStandard twoRows 2 = .ok s ∧ 0 ∈ s.atts ∧ 1 ∉ s.atts := by
  have hlen : ∀ a ∈ twoRows, a.length = 2 := by
    intro a ha
    rcases twoRows_mem ha with rfl | rfl <;> rfl
  obtain ⟨s, h1, h2⟩ := C119_varying_kept hlen (show 0 < 2 by omega)
    ⟨_, List.mem_cons_self, _, List.mem_cons_of_mem _ List.mem_cons_self, by
      show ((3 : Int) : ℝ) ≠ (4 : Int)
      norm_num⟩
  refine ⟨s, h1, h2, ?_⟩
  rw [C119_integer_feature C117_float64 hlen h1 (show 1 < 2 by omega) ?_ (show 2 ≤ 2 ^ 53 by norm_num)]
  · rintro ⟨a, ha, b, hb, hne⟩
    rcases twoRows_mem ha with rfl | rfl <;> rcases twoRows_mem hb with rfl | rfl <;> exact hne rfl
  · intro a ha
    refine ⟨5, ?_, show |(5 : Int)| * (2 : Nat) ≤ 2 ^ 53 by norm_num⟩
    rcases twoRows_mem ha with rfl | rfl <;> rfl

end Convst.Props
