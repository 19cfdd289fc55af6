import Verif.Proofs.Double
import Verif.Props.Ieee
import Verif.Props.IeeeFit
import Verif.Props.RoundedZ

/-!
# C117: `transform` in double precision on data of moderate magnitude
-/

set_option autoImplicit false
set_option linter.unusedSectionVars false

namespace Convst.Props
open Convst Spec

variable {R : Type} {F : FloatFormat}

/-! ## `float64` is double precision -/

theorem binExp_ge {x : ℝ} {e : Int} (h : (2 : ℝ) ^ e ≤ |x|) : e ≤ binExp x := by
  have hx : x ≠ 0 := by
    rintro rfl
    rw [abs_zero] at h
    linarith [two_pos e]
  obtain ⟨-, h2⟩ := binExp_bounds hx
  have : (2 : ℝ) ^ e < (2 : ℝ) ^ (binExp x + 1) := lt_of_le_of_lt h h2
  have := (zpow_lt_zpow_iff_right₀ (by norm_num : (1 : ℝ) < 2)).1 this
  omega

/-- **C117.** `float64`, with the rounding of `FloatFormat.float64` (to the nearest, ties upwards), is double
precision in the sense of the specification. -/
theorem C117_float64 : Double FloatFormat.float64 where
  fix N e hN := by
    show rndBin 52 _ = _
    by_cases h0 : N = 0
    · subst h0; simp [rndBin]
    by_cases h53 : |N| = 2 ^ 53
    · -- a power of two, up to the sign
      have hN' : (N : ℝ) * (2 : ℝ) ^ e = (N / 2 ^ 53 : Int) * (2 : ℝ) ^ (e + 53) := by
        rcases abs_choice N with h | h
        · rw [← h, h53, add_comm, two_add]; norm_num
        · have : N = -2 ^ 53 := by rw [← h53, h]; ring
          rw [this, add_comm, two_add]; norm_num
      have hb : binExp (N * (2 : ℝ) ^ e) = e + 53 := by
        have ha : |(N : ℝ) * (2 : ℝ) ^ e| = (2 : ℝ) ^ (e + 53) := by
          rw [abs_mul, abs_of_pos (two_pos e), ← Int.cast_abs, h53, add_comm, two_add]; norm_num
        apply binExp_eq
        · rw [ha]
        · rw [ha]; exact two_lt (by omega)
      exact rndBin_fine (q := e + 53) _ hN' (by rw [hb]; omega)
    · refine rndBin_fine (q := e) N rfl ?_
      have hx : (N : ℝ) * (2 : ℝ) ^ e ≠ 0 := mul_ne_zero (by exact_mod_cast h0) (two_pos e).ne'
      obtain ⟨h1, -⟩ := binExp_bounds hx
      have hlt : |N| < 2 ^ 53 := lt_of_le_of_ne hN h53
      have h2 : |(N : ℝ) * (2 : ℝ) ^ e| < (2 : ℝ) ^ (53 + e) := by
        rw [abs_mul, abs_of_pos (two_pos e), two_add]
        apply mul_lt_mul_of_pos_right _ (two_pos e)
        have : ((|N| : Int) : ℝ) < ((2 ^ 53 : Int) : ℝ) := by exact_mod_cast hlt
        rw [Int.cast_abs] at this
        refine this.trans_le (le_of_eq ?_)
        norm_num
      have := (zpow_lt_zpow_iff_right₀ (by norm_num : (1 : ℝ) < 2)).1 (lt_of_le_of_lt h1 h2)
      push_cast
      omega
  digits x e h := by
    have hb := binExp_ge h
    obtain ⟨n, hn⟩ := Int.eq_ofNat_of_zero_le (show 0 ≤ binExp x - e by omega)
    refine ⟨round (x * (2 : ℝ) ^ (((52 : Nat) : Int) - binExp x)) * 2 ^ n, ?_⟩
    show rndBin 52 x = _
    unfold rndBin
    rw [show binExp x - ((52 : Nat) : Int) = n + (e - 52) by push_cast; omega, two_add, zpow_natCast]
    push_cast; ring
  normal x h := by
    have hb := binExp_ge h
    show rndSub 52 (-1074) x = rndBin 52 x
    unfold rndSub
    rw [if_pos (by push_cast; omega)]
  top := by
    show (2 : ℝ) ^ 1024 = _
    rw [← zpow_natCast]; norm_num
  small x h := by
    show |rndSub 52 (-1074) x| ≤ _
    obtain ⟨h1, h2⟩ := abs_le.1 h
    unfold rndSub
    split
    · have e1 : rndBin 52 ((2 : ℝ) ^ (-1022 : Int)) = (2 : ℝ) ^ (-1022 : Int) := rndBin_pow _
      have e2 : rndBin 52 (-(2 : ℝ) ^ (-1022 : Int)) = -(2 : ℝ) ^ (-1022 : Int) := by
        have hb : binExp (-(2 : ℝ) ^ (-1022 : Int)) = -1022 := by
          apply binExp_eq <;> rw [abs_neg, abs_of_pos (two_pos _)]
          exact two_lt (by norm_num)
        exact rndBin_fine (q := -1022) (-1) (by push_cast; ring) (by rw [hb]; norm_num)
      refine abs_le.2 ⟨?_, ?_⟩
      · rw [← e2]; exact rndBin_mono 52 h1
      · rw [← e1]; exact rndBin_mono 52 h2
    · have e : (2 : ℝ) ^ (-1022 : Int) * (2 : ℝ) ^ (-(-1074) : Int) = 2 ^ 52 := by
        rw [← two_add, ← zpow_natCast]; norm_num
      have hy1 : x * (2 : ℝ) ^ (-(-1074) : Int) ≤ 2 ^ 52 := by
        rw [← e]; exact mul_le_mul_of_nonneg_right h2 (two_pos _).le
      have hy2 : -2 ^ 52 ≤ x * (2 : ℝ) ^ (-(-1074) : Int) := by
        rw [← e, ← neg_mul]; exact mul_le_mul_of_nonneg_right h1 (two_pos _).le
      set v := x * (2 : ℝ) ^ (-(-1074) : Int)
      have hr : |round v| ≤ 2 ^ 52 := by
        rw [round_eq, abs_le]
        constructor
        · rw [Int.le_floor]; push_cast; linarith
        · rw [← Int.lt_add_one_iff, Int.floor_lt]; push_cast; linarith
      have hr' : |(round v : ℝ)| ≤ 2 ^ 52 := by exact_mod_cast hr
      rw [abs_mul, abs_of_pos (two_pos _)]
      calc |(round v : ℝ)| * (2 : ℝ) ^ (-1074 : Int) ≤ 2 ^ 52 * (2 : ℝ) ^ (-1074 : Int) :=
            mul_le_mul_of_nonneg_right hr' (two_pos _).le
        _ = (2 : ℝ) ^ (52 : Int) * (2 : ℝ) ^ (-1074 : Int) := by norm_num
        _ = _ := by rw [← two_add]; norm_num
  sign x h := rndSub_nonneg h
  least := by
    rintro x ⟨N, hN⟩
    exact Mult.ge ⟨N, hN⟩

/-! ## The range makes no difference -/

/-- **C117.** Normalisation.  A window of up to `2⁴⁰` points of moderate magnitude is normalised in double precision
exactly as if the range of the numbers were unbounded: no intermediate result (mean, deviations, their squares, the
square root, the quotients) overflows or underflows, and no value of the result exceeds `2⁴⁰⁰`. -/
theorem C117_normalised_window (hD : Double F) {w : List (Fl F.r)} (hw : ∀ a ∈ w, Moderate F a.val)
    (hl : w.length ≤ 2 ^ 40) (hne : w ≠ []) :
    znorm (w.map Fl.ieee) = ((znorm w).map Fl.ieee : List (Ieee F)) ∧ ∀ a ∈ znorm w, Mild F a.val := by
  obtain ⟨h1, h2⟩ := hD.znorm (fun a ha => hD.moderate (hw a ha)) hl hne
  exact ⟨h1, fun a ha => (h2 a ha).mono (f := 400) (by norm_num)⟩

/-- **C117.** `transform`, every kind of input, shapelets normalised or not.  On series of moderate magnitude, with
shapelets whose values do not exceed `2⁴⁰⁰`, the output in double precision consists of finite numbers, and they are
the ones computed with an unbounded range. -/
theorem C117_transform (hD : Double F) {o : Rdst (Fl F.r) R} {o' : Rdst (Ieee F) R} (hph : o'.phase = o.phase)
    {S : Shapelets (Fl F.r)} (hS : o.shapelets = some S) (hS' : o'.shapelets = some (shpIeee S)) {nf : Nat}
    (hwf : ShpWF S nf) (hmild : MildShapelets S) {X : XIn (Fl F.r)} {X' : XIn (Ieee F)}
    (hX : X.WF) (hX' : X'.WF) {xs : List (Mat (Fl F.r))} (hxs : samples X = .ok xs)
    (hxs' : samples X' = .ok (xs.map matIeee)) (hnf : ∀ x ∈ xs, x.rows.length = nf)
    (hval : ∀ x ∈ xs, ModerateSeries x) {M : List (List (Fl F.r))} {M' : List (List (Ieee F))}
    (h : o.transform X = .ok M) (h' : o'.transform X' = .ok M') :
    M' = M.map fun row => row.map fun a => Ieee.fin a.val := by
  have hnf' : ∀ x ∈ xs.map (matIeee (F := F)), x.rows.length = nf := by
    intro x hx
    obtain ⟨y, hy, rfl⟩ := List.mem_map.1 hx
    simpa [matIeee] using hnf y hy
  have hwf' : ShpWF (shpIeee S) nf := by
    cases S with
    | u S => exact ieee_uwf hwf
    | m S => exact ieee_mwf hwf
  obtain ⟨rfl, -⟩ := transform_rows hS hwf hX hxs hnf h
  obtain ⟨rfl, -⟩ := transform_rows hS' hwf' hX' hxs' hnf' h'
  rw [List.map_map, List.map_map]
  apply List.map_congr_left
  intro x hx
  rw [Function.comp_apply, Function.comp_apply, hph]
  have hxw := samples_wf hX hxs x hx
  obtain ⟨hT, hmod⟩ := hval x hx
  have hrow : ∀ c, ∀ a ∈ x.rows.getD c [], Moderate F a.val := by
    intro c a ha
    rw [List.getD_eq_getElem?_getD] at ha
    cases e : x.rows[c]? with
    | none => rw [e] at ha; simp at ha
    | some row => rw [e] at ha; exact hmod row (List.mem_of_getElem? e) a ha
  cases S with
  | u S =>
    show uRow o.phase S.ieee ((matIeee x).rows.getD 0 []) = (uRow o.phase S (x.rows.getD 0 [])).map _
    unfold uRow
    rw [List.map_flatMap, show S.ieee.lengths.length = S.lengths.length from rfl]
    apply List.flatMap_congr
    intro k hk
    replace hk := List.mem_range.1 hk
    have e : (matIeee x).rows.getD 0 [] = (x.rows.getD 0 []).map (Fl.ieee (F := F)) := getD_map_rows _ _
    have hlen : (x.rows.getD 0 []).length ≤ 2 ^ 40 := by
      rw [List.getD_eq_getElem?_getD]
      cases e : x.rows[0]? with
      | none => simp
      | some row => exact (hxw row (List.mem_of_getElem? e)).le.trans hT
    rw [e]
    unfold uFeatures
    rw [hD.uDistances o.phase S (hrow 0) (hmild.2 k hk) ?_, ieee_threshold]
    · refine hD.features ?_ (S.threshold.getD k 0)
      simp only [uDistances, distances, List.length_map, List.length_range]
      exact (nWin_le _ _ _ _).trans hlen
    · intro a ha
      have hmem := List.mem_of_mem_take ha
      have hk' : k < S.values.length := by rw [hwf.values]; exact hk
      rw [getD_lt _ hk'] at hmem
      exact hmild.1 _ (List.getElem_mem hk') a hmem
  | m S =>
    show mRow o.phase S.ieee (matIeee x).rows (matIeee x).len = (mRow o.phase S x.rows x.len).map _
    unfold mRow
    rw [List.map_flatMap, show S.ieee.lengths.length = S.lengths.length from rfl]
    apply List.flatMap_congr
    intro k hk
    replace hk := List.mem_range.1 hk
    unfold mFeatures
    rw [ieee_mthreshold]
    have hd := hD.mDistances o.phase S (T := x.len) hmod (hmild.2 k hk).1 (hmild.2 k hk).2 fun c a ha =>
      hmild.1 a (List.mem_of_mem_drop (List.mem_of_mem_take ha))
    have hd' : mDistances o.phase S.ieee (matIeee x).rows (matIeee x).len k =
      (mDistances o.phase S x.rows x.len k).map (Fl.ieee (F := F)) := hd
    rw [hd']
    refine hD.features ?_ (S.threshold.getD k 0)
    simp only [mDistances, List.length_map, List.length_range]
    exact (nWin_le _ _ _ _).trans hT

/-- **C117.** Accuracy of the features of normalised shapelets, in the arithmetic the code runs in: the output in double
precision consists of finite numbers, and the cells of every normalised shapelet are the exact ones up to the relative
error `g` and the absolute error `normSlack g B σ` of the distances (`B` bounds the values of the windows and `σ` is
below their standard deviations). -/
theorem C117_accuracy (hD : Double F) {o : Rdst (Fl F.r) R} {o' : Rdst (Ieee F) R} (hph : o'.phase = o.phase)
    {S : Shapelets (Fl F.r)} (hS : o.shapelets = some S) (hS' : o'.shapelets = some (shpIeee S)) {nf : Nat}
    (hnf1 : 1 ≤ nf) (hwf : ShpWF S nf) (hmild : MildShapelets S) {X : XIn (Fl F.r)} {X' : XIn (Ieee F)}
    (hX : X.WF) (hX' : X'.WF) {xs : List (Mat (Fl F.r))} (hxs : samples X = .ok xs)
    (hxs' : samples X' = .ok (xs.map matIeee)) (hnf : ∀ x ∈ xs, x.rows.length = nf)
    (hval : ∀ x ∈ xs, ModerateSeries x) {M : List (List (Fl F.r))} {M' : List (List (Ieee F))}
    (h : o.transform X = .ok M) (h' : o'.transform X' = .ok M') :
    ∃ E : List (List ℝ), o.exact.transform X.exact = .ok E ∧ E.length = xs.length ∧ M'.length = xs.length ∧
      ∀ (i : Nat) x row row', xs[i]? = some x → E[i]? = some row → M'[i]? = some row' →
        ∃ vals : List ℝ, row' = vals.map Ieee.fin ∧
          ∀ k, k < shpCount S.exact → shpNorm S.exact k = true → 0 < shpLength S.exact k →
            HasWindow o.phase x.len (shpLength S.exact k) (shpDilation S.exact k) →
            ∀ B σ g : ℝ, 0 ≤ B → 0 ≤ σ →
              (∀ i, i < nWin o.phase x.len (shpLength S.exact k) (shpDilation S.exact k) →
                ∀ c, c < (shpChannels S.exact k).length →
                  (∀ v ∈ shpWindow o.phase S.exact x.rows k c i, |v| ≤ B) ∧
                  σ ≤ std (shpWindow o.phase S.exact x.rows k c i)) →
              (1 - F.r.u)⁻¹ ^ (shpLength S.exact k + (shpChannels S.exact k).length + 9) ≤ 1 + g →
              NearAt F.r g (normSlack g B σ S.exact k) (shpDistances o.phase S.exact x.rows x.len k)
                (shpThreshold S.exact k) k row vals := by
  have key := C117_transform hD hph hS hS' hwf hmild hX hX' hxs hxs' hnf hval h h'
  rcases C96_transform hS hnf1 hwf hX hxs hnf with ⟨e, h1, -⟩ | ⟨E, M1, h1, h2, h3, h4, h5⟩
  · rw [h] at h1; cases h1
  rw [h] at h2
  cases h2
  refine ⟨E, h1, h3, by rw [key, List.length_map, h4], ?_⟩
  intro i x row row' hx hr hr'
  rw [key, List.getElem?_map] at hr'
  cases hm : M[i]? with
  | none => rw [hm] at hr'; cases hr'
  | some vals =>
    rw [hm] at hr'
    cases hr'
    refine ⟨vals, rfl, ?_⟩
    exact h5 i x row vals hx hr hm

/-! ## A concrete case -/

theorem moderate_nat {n : Nat} (h : n ≤ 2 ^ 53) : Moderate FloatFormat.float64 n := by
  refine ⟨C117_float64.nat h, ?_, ?_⟩
  · by_cases h0 : n = 0
    · left; simp [h0]
    · right
      have h1 : (1 : ℝ) ≤ n := by exact_mod_cast Nat.one_le_iff_ne_zero.2 h0
      rw [abs_of_nonneg (by positivity)]
      refine le_trans ?_ h1
      calc (2 : ℝ) ^ (-247 : Int) ≤ (2 : ℝ) ^ (0 : Int) := two_le (by norm_num)
        _ = 1 := by norm_num
  · rw [abs_of_nonneg (by positivity)]
    have h1 : (n : ℝ) ≤ ((2 ^ 53 : Nat) : ℝ) := by exact_mod_cast h
    push_cast at h1
    calc (n : ℝ) ≤ (2 : ℝ) ^ (53 : Int) := by exact_mod_cast h1
      _ ≤ _ := two_le (by norm_num)

/-- The hypotheses of `C117_transform` are met by the series `0, 1, 3` and one normalised shapelet. -/
example {o : Rdst (Fl FloatFormat.float64.r) R} {o' : Rdst (Ieee .float64) R} (hph : o'.phase = o.phase)
    (ht : o.transformType = .uni) (ht' : o'.transformType = .uni) (hS : o.shapelets = some (.u (infU .float64 true)))
    (hS' : o'.shapelets = some (.u (infU .float64 true).ieee)) :
    ∃ M, o.transform (.array .float64 ⟨[[[Fl.mk (0 : Nat), Fl.mk (1 : Nat), Fl.mk (3 : Nat)]]], 1, 3⟩) = .ok M ∧
      o'.transform (.array .float64 ⟨[[[.fin (0 : Nat), .fin (1 : Nat), .fin (3 : Nat)]]], 1, 3⟩) =
        .ok (M.map fun row => row.map fun a => Ieee.fin a.val) := by
  have w1 : (XIn.array DType.float64
      (⟨[[[Fl.mk (0 : Nat), Fl.mk (1 : Nat), Fl.mk (3 : Nat)]]], 1, 3⟩ : Arr3 (Fl FloatFormat.float64.r))).WF := by
    intro s hs
    simp only [List.mem_cons, List.not_mem_nil, or_false] at hs
    subst hs
    exact ⟨rfl, by intro r hr; simp at hr; subst hr; rfl⟩
  have w2 : (XIn.array DType.float64
      (⟨[[[.fin (0 : Nat), .fin (1 : Nat), .fin (3 : Nat)]]], 1, 3⟩ : Arr3 (Ieee .float64))).WF := by
    intro s hs
    simp only [List.mem_cons, List.not_mem_nil, or_false] at hs
    subst hs
    exact ⟨rfl, by intro r hr; simp at hr; subst hr; rfl⟩
  have h1 := transform_array_uni ht hS (infU_wf true) w1 (by simp) (by simp) (by simp)
    (by intro k hk; simp [infU] at hk; subst hk; simp [infU])
  have h2 := transform_array_uni ht' hS' (ieee_uwf (infU_wf true)) w2 (by simp) (by simp) (by simp)
    (by intro k hk; simp [infU, UShp.ieee] at hk; subst hk; simp [infU, UShp.ieee])
  refine ⟨_, h1, ?_⟩
  rw [h2]
  refine congrArg Except.ok (C117_transform C117_float64 (S := .u (infU .float64 true)) (nf := 1) hph hS hS'
    (infU_wf true) ?_ w1 w2 (xs := [⟨[[Fl.mk (0 : Nat), Fl.mk (1 : Nat), Fl.mk (3 : Nat)]], 3⟩]) rfl rfl (by simp) ?_ h1 h2)
  · refine ⟨?_, ?_⟩
    · intro v hv a ha
      simp [infU] at hv
      subst hv
      simp at ha
      subst ha
      have := C117_float64.mild (moderate_nat (n := 1) (by norm_num))
      simpa using this
    · intro k hk
      simp [infU] at hk
      subst hk
      simp [infU]
  · intro x hx
    simp at hx
    subst hx
    refine ⟨by norm_num, ?_⟩
    intro row hrow a ha
    simp only [List.mem_cons, List.not_mem_nil, or_false] at hrow
    subst hrow
    simp only [List.mem_cons, List.not_mem_nil, or_false] at ha
    rcases ha with rfl | rfl | rfl
    · have : Moderate FloatFormat.float64 0 := by simpa using moderate_nat (n := 0) (by norm_num)
      exact this
    · have : Moderate FloatFormat.float64 1 := by simpa using moderate_nat (n := 1) (by norm_num)
      exact this
    · exact moderate_nat (n := 3) (by norm_num)

end Convst.Props
