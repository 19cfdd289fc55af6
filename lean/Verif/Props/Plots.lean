import Verif.Props.PlotUtils
import Verif.Props.EndToEnd

/-!
# Pairwise plots (C59, C73)
-/

set_option autoImplicit false
set_option linter.unusedSectionVars false

namespace Convst.Props

open Convst

/-! ## C59 -/

section
variable {N D : Type} [LinearOrder N]

/-- **C59.** For `margin ≥ 0` the displayed win, draw and loss counts sum to the number of datasets. -/
theorem C59_partition {margin : ℝ} (hm : 0 ≤ margin) (x y : List ℝ) (hl : x.length = y.length) :
    (winDrawLoss margin x y).1 + (winDrawLoss margin x y).2.1 + (winDrawLoss margin x y).2.2 = x.length := by
  unfold winDrawLoss
  simp only
  have : ∀ p : List (ℝ × ℝ), (p.countP fun q => Scalar.ltb (q.1 + margin) q.2) +
      (p.countP fun q => Scalar.leb q.1 (q.2 + margin) && Scalar.leb (q.2 - margin) q.1) +
      (p.countP fun q => Scalar.ltb q.2 (q.1 - margin)) = p.length := by
    intro p
    induction p with
    | nil => rfl
    | cons q p ih =>
      simp only [List.countP_cons, List.length_cons, real_ltb, real_leb, Bool.and_eq_true] at ih ⊢
      have key : (if q.1 + margin < q.2 then 1 else 0) + (if q.1 ≤ q.2 + margin ∧ q.2 - margin ≤ q.1 then 1 else 0) +
          (if q.2 < q.1 - margin then 1 else 0) = 1 := by
        by_cases h1 : q.1 + margin < q.2
        · rw [if_pos h1, if_neg (by intro h; linarith [h.2]), if_neg (by linarith)]
        · by_cases h2 : q.2 < q.1 - margin
          · rw [if_neg h1, if_neg (by intro h; linarith [h.1]), if_pos h2]
          · rw [if_neg h1, if_pos ⟨by linarith, by linarith⟩, if_neg h2]
      omega
  rw [this, List.length_zip, hl, min_self]

/-- **C59.** Every dataset counts in the right place: a win when the baseline is better by more than the
margin, a loss when the competitor is, a draw otherwise. -/
theorem C59_counts (margin : ℝ) (x y : List ℝ) :
    (winDrawLoss margin x y).1 = (x.zip y).countP (fun q => decide (margin < q.2 - q.1)) ∧
    (winDrawLoss margin x y).2.1 = (x.zip y).countP (fun q => decide (|q.1 - q.2| ≤ margin)) ∧
    (winDrawLoss margin x y).2.2 = (x.zip y).countP (fun q => decide (margin < q.1 - q.2)) := by
  unfold winDrawLoss
  refine ⟨?_, ?_, ?_⟩
  · apply List.countP_congr
    intro q _
    simp only [real_ltb, decide_eq_true_eq]
    constructor <;> intro h <;> linarith
  · apply List.countP_congr
    intro q _
    simp only [real_leb, Bool.and_eq_true, decide_eq_true_eq, abs_le]
    constructor <;> rintro ⟨h1, h2⟩ <;> constructor <;> linarith
  · apply List.countP_congr
    intro q _
    simp only [real_ltb, decide_eq_true_eq]
    constructor <;> intro h <;> linarith

/-- **C59.** Exchanging competitor and baseline exchanges wins and losses. -/
theorem C59_symmetric (margin : ℝ) (x y : List ℝ) :
    winDrawLoss margin y x = ((winDrawLoss margin x y).2.2, (winDrawLoss margin x y).2.1, (winDrawLoss margin x y).1) := by
  obtain ⟨a1, a2, a3⟩ := C59_counts margin x y
  obtain ⟨b1, b2, b3⟩ := C59_counts margin y x
  have hz : y.zip x = (x.zip y).map Prod.swap := by
    apply List.ext_getElem (by simp [Nat.min_comm])
    intro i h1 h2
    simp
  have e : ∀ a b : Nat × Nat × Nat, a.1 = b.1 → a.2.1 = b.2.1 → a.2.2 = b.2.2 → a = b := by
    rintro ⟨_, _, _⟩ ⟨_, _, _⟩ rfl rfl rfl; rfl
  apply e
  · rw [b1, a3, hz, List.countP_map]; rfl
  · rw [b2, a2, hz, List.countP_map]
    apply List.countP_congr
    intro q _
    simp [abs_sub_comm]
  · rw [b3, a1, hz, List.countP_map]; rfl

/-- **C59 (violated for a negative margin).** A dataset with equal scores counts as a win and as a loss. -/
theorem C59_negative_margin {margin : ℝ} (hm : margin < 0) (a : ℝ) : winDrawLoss margin [a] [a] = (1, 0, 1) := by
  obtain ⟨h1, h2, h3⟩ := C59_counts margin [a] [a]
  have e : ∀ a b : Nat × Nat × Nat, a.1 = b.1 → a.2.1 = b.2.1 → a.2.2 = b.2.2 → a = b := by
    rintro ⟨_, _, _⟩ ⟨_, _, _⟩ rfl rfl rfl; rfl
  apply e
  · rw [h1]; simp [hm]
  · rw [h2]; simp [hm]
  · rw [h3]; simp [hm]

example : winDrawLoss (1 / 10 : ℝ) [1, 2, 3] [2, 2, 1] = (1, 1, 1) := by
  obtain ⟨h1, h2, h3⟩ := C59_counts (1 / 10) [1, 2, 3] [2, 2, 1]
  have e : ∀ a b : Nat × Nat × Nat, a.1 = b.1 → a.2.1 = b.2.1 → a.2.2 = b.2.2 → a = b := by
    rintro ⟨_, _, _⟩ ⟨_, _, _⟩ rfl rfl rfl; rfl
  apply e
  · rw [h1]; norm_num [List.zip, List.countP_cons]
  · rw [h2]; norm_num [List.zip, List.countP_cons, abs_of_nonneg, abs_of_nonpos]
  · rw [h3]; norm_num [List.zip, List.countP_cons]

/-! ## C73: layout and content of the pairwise plot -/

theorem gridShape_ok {nc : Nat} {k : Int} : (∃ r, gridShape nc k = .ok r) ↔ 1 ≤ nc ∧ 1 ≤ k := by
  unfold gridShape
  constructor
  · rintro ⟨r, h⟩
    split at h
    · split at h
      · cases h
      · omega
    · split at h
      · cases h
      · split at h
        · cases h
        · split at h
          · cases h
          · omega
  · rintro ⟨h1, h2⟩
    split
    · rw [if_neg (by omega)]; exact ⟨_, rfl⟩
    · rw [if_neg (by omega), if_neg (by omega), if_neg (by omega)]; exact ⟨_, rfl⟩

/-- With at least one competitor and one column, and not more than one competitor in a single column, every
competitor `i` has an axes of its own. -/
theorem axes_ok {nc : Nat} {k : Int} (h1 : 1 ≤ nc) (h2 : 1 ≤ k) (h3 : k = 1 → nc = 1) :
    ∃ nrows ncols, gridShape nc k = .ok (nrows, ncols) ∧ 1 ≤ ncols ∧ nc ≤ nrows * ncols ∧ (ncols : Int) ≤ k ∧
      nrows * ncols < nc + ncols ∧
      ∀ i < nc, axesOf (subplots nrows ncols) nrows ncols i = .ok (i / ncols, i % ncols) := by
  unfold gridShape
  by_cases hlt : (nc : Int) < k
  · rw [if_pos hlt, if_neg (by omega)]
    refine ⟨1, nc, rfl, h1, by omega, by omega, by omega, ?_⟩
    intro i hi
    unfold axesOf subplots
    rw [if_neg (by omega), Nat.div_eq_of_lt hi, Nat.mod_eq_of_lt hi]
    by_cases hn : nc = 1
    · subst hn
      obtain rfl : i = 0 := by omega
      rfl
    · rw [if_neg hn, if_neg (by omega), if_pos rfl]
      simp [Axes.get1, hi]
  · rw [if_neg hlt, if_neg (by omega), if_neg (by omega), if_neg (by omega)]
    obtain ⟨c, rfl⟩ : ∃ c : Nat, k = c := ⟨k.toNat, by omega⟩
    simp only [Int.toNat_natCast]
    have hc : 1 ≤ c := by omega
    have hcn : c ≤ nc := by omega
    have hdm := Nat.div_add_mod (nc + c - 1) c
    have hml := Nat.mod_lt (nc + c - 1) (by omega : 0 < c)
    have hcomm : (nc + c - 1) / c * c = c * ((nc + c - 1) / c) := Nat.mul_comm _ _
    refine ⟨_, _, rfl, hc, by omega, by omega, by omega, ?_⟩
    intro i hi
    have hr1 : 1 ≤ (nc + c - 1) / c := by
      rw [Nat.le_div_iff_mul_le (by omega)]; omega
    have hir : i / c < (nc + c - 1) / c := by
      rw [Nat.div_lt_iff_lt_mul (by omega)]; omega
    have him : i % c < c := Nat.mod_lt _ (by omega)
    unfold axesOf subplots
    by_cases hr : (nc + c - 1) / c > 1
    · rw [if_pos hr]
      have hc2 : c ≠ 1 := by
        rintro rfl
        have := h3 rfl
        subst this
        simp at hr
      rw [if_neg (fun h => by have := h.1; omega), if_neg (by omega), if_neg hc2]
      simp [Axes.get2, hir, him]
    · have hr' : (nc + c - 1) / c = 1 := by omega
      rw [if_neg hr]
      have h0 : i / c = 0 := by rw [hr'] at hir; exact Nat.lt_one_iff.1 hir
      by_cases hc1 : c = 1
      · subst hc1
        rw [if_pos rfl, if_pos ⟨hr', rfl⟩, h0, Nat.mod_one]
        rfl
      · rw [if_neg hc1, if_neg (by omega), if_pos hr', h0]
        simp [Axes.get1, him]

/-- The column with a given name. -/
def HasColumn (df : Table N D ℝ) (c : N) (x : List ℝ) : Prop := (df.cols.find? fun q => decide (q.1 = c)) = some (c, x)

theorem columnOf_ok {df : Table N D ℝ} {c : N} {x : List ℝ} (h : HasColumn df c x) : columnOf df c = .ok x := by
  unfold columnOf
  rw [show (df.cols.find? fun q => decide (q.1 = c)) = some (c, x) from h]

theorem hasColumn_of_mem {df : Table N D ℝ} {c : N} (h : c ∈ df.cols.map (·.1)) : ∃ x, HasColumn df c x := by
  unfold HasColumn
  cases hf : df.cols.find? fun q => decide (q.1 = c) with
  | none =>
    obtain ⟨q, hq, rfl⟩ := List.mem_map.1 h
    have := List.find?_eq_none.1 hf q hq
    simp at this
  | some q =>
    have := List.find?_some hf
    simp only [decide_eq_true_eq] at this
    exact ⟨q.2, by rw [← this]⟩

theorem mem_competitors {df : Table N D ℝ} {b c : N} :
    c ∈ competitors df b ↔ c ∈ df.cols.map (·.1) ∧ c ≠ b := by
  unfold competitors
  rw [List.mem_filter, mem_uniques]
  simp

/-- **C73.** For every table with the baseline and at least one other column, every margin, threshold and
`max_ncols ≥ 1` — except `max_ncols = 1` with more than one competitor — the plot is drawn: one panel for
each other column, in the order of their names, no two in the same place, at most `max_ncols` per row; the
panel of a competitor shows its scores against those of the baseline, the three counts, and the names of
exactly the datasets whose scores differ by more than `show_names_above`. -/
theorem C73_pairwise_plot (df : Table N D ℝ) (baseline : N) {y : List ℝ} (hb : HasColumn df baseline y)
    (margin above : ℝ) {k : Int} (hk : 1 ≤ k) (hnc : 1 ≤ (competitors df baseline).length)
    (h1 : k = 1 → (competitors df baseline).length = 1) :
    ∃ panels, pairwisePlot df baseline margin above k = .ok panels ∧
      panels.map (·.comp) = competitors df baseline ∧
      (panels.map (·.place)).Nodup ∧
      ∀ p ∈ panels, (p.place.2 : Int) < k ∧ ∃ x, HasColumn df p.comp x ∧ p.points = x.zip y ∧
        p.wdl = winDrawLoss margin x y ∧
        p.names = (df.index.zip (x.zip y)).filterMap fun r =>
          if above < |r.2.1 - r.2.2| then some r.1 else none := by
  obtain ⟨nrows, ncols, hg, hc1, hle, hck, -, hax⟩ := axes_ok hnc hk h1
  have hcol : ∀ c ∈ competitors df baseline, ∃ x, HasColumn df c x :=
    fun c hc => hasColumn_of_mem (mem_competitors.1 hc).1
  choose! col hcol using hcol
  set cs := competitors df baseline with hcs
  have hmap : cs.zipIdx.mapM (fun ci => do
      let place ← axesOf (subplots nrows ncols) nrows ncols ci.2
      let x ← columnOf df ci.1
      let y ← columnOf df baseline
      pure (⟨ci.1, place, x.zip y, winDrawLoss margin x y, shownNames above df.index x y⟩ : Panel N D ℝ)) =
      .ok (cs.zipIdx.map fun ci => ⟨ci.1, (ci.2 / ncols, ci.2 % ncols), (col ci.1).zip y,
        winDrawLoss margin (col ci.1) y, shownNames above df.index (col ci.1) y⟩) := by
    apply mapM_ok
    rintro ⟨c, i⟩ hci
    obtain ⟨-, hi, hc⟩ := List.mem_zipIdx hci
    simp only [Nat.zero_add] at hi
    simp only
    have hcm : c ∈ cs := by rw [hc]; exact List.getElem_mem _
    rw [hax i hi, Res.bind_ok, columnOf_ok (hcol _ hcm), Res.bind_ok, columnOf_ok hb, Res.bind_ok]
    rfl
  refine ⟨cs.zipIdx.map fun ci => ⟨ci.1, (ci.2 / ncols, ci.2 % ncols), (col ci.1).zip y,
    winDrawLoss margin (col ci.1) y, shownNames above df.index (col ci.1) y⟩, ?_, ?_, ?_, ?_⟩
  · unfold pairwisePlot
    simp only
    rw [hg, Res.bind_ok]
    exact hmap
  · rw [List.map_map]
    simp [Function.comp_def]
  · rw [List.map_map]
    have e : cs.zipIdx.map ((fun p : Panel N D ℝ => p.place) ∘ fun ci => ⟨ci.1, (ci.2 / ncols, ci.2 % ncols),
        (col ci.1).zip y, winDrawLoss margin (col ci.1) y, shownNames above df.index (col ci.1) y⟩) =
        (List.range cs.length).map fun i => (i / ncols, i % ncols) := by
      apply List.ext_getElem (by simp)
      intro i h1 h2
      simp
    rw [e]
    apply List.Nodup.map _ List.nodup_range
    intro a b hab
    rw [Prod.mk.injEq] at hab
    rw [← Nat.div_add_mod a ncols, ← Nat.div_add_mod b ncols, hab.1, hab.2]
  · intro p hp
    obtain ⟨⟨c, i⟩, hci, rfl⟩ := List.mem_map.1 hp
    obtain ⟨-, hi, hc⟩ := List.mem_zipIdx hci
    have hcm : c ∈ cs := by rw [hc]; exact List.getElem_mem _
    simp only
    refine ⟨?_, _, hcol _ hcm, rfl, rfl, ?_⟩
    · have := Nat.mod_lt i (by omega : 0 < ncols)
      omega
    · generalize col _ = x
      unfold shownNames
      split
      · apply List.filterMap_congr
        intro r _
        simp [real_ltb]
      · rename_i hany
        symm
        rw [List.filterMap_eq_nil_iff]
        intro r hr
        rw [if_neg]
        intro hlt
        apply hany
        rw [List.any_eq_true]
        exact ⟨r.2, (List.of_mem_zip hr).2, by simpa [real_leb] using hlt.le⟩

/-- **C73 (violated for a single column).** With `max_ncols = 1` and more than one competitor the plot is
never drawn: `plt.subplots` returns a one-dimensional array, which is indexed with two indices. -/
theorem C73_single_column (df : Table N D ℝ) (baseline : N) (margin above : ℝ)
    (h : 2 ≤ (competitors df baseline).length) : pairwisePlot df baseline margin above 1 = .error .indexError := by
  unfold pairwisePlot
  simp only
  have hg : gridShape (competitors df baseline).length 1 = .ok ((competitors df baseline).length, 1) := by
    unfold gridShape
    rw [if_neg (by omega), if_neg (by omega), if_neg (by omega), if_neg (by omega)]
    simp
  rw [hg, Res.bind_ok]
  obtain ⟨c, cs, hcs⟩ := List.exists_cons_of_ne_nil (l := competitors df baseline) (by
    intro h0; rw [h0] at h; simp at h)
  rw [hcs] at h ⊢
  simp only [List.zipIdx_cons, List.mapM_cons]
  unfold axesOf subplots
  rw [if_pos (by omega), if_neg (by omega), if_neg (by omega), if_pos rfl]
  rfl

/-- **C73.** Without competitors, or with `max_ncols ≤ 0`, nothing is drawn. -/
theorem C73_no_panels (df : Table N D ℝ) (baseline : N) (margin above : ℝ) (k : Int)
    (h : k ≤ 0 ∨ competitors df baseline = []) : ∃ e, pairwisePlot df baseline margin above k = .error e := by
  unfold pairwisePlot
  simp only
  cases hg : gridShape (competitors df baseline).length k with
  | error e => exact ⟨e, rfl⟩
  | ok r =>
    obtain ⟨h1, h2⟩ := gridShape_ok.1 ⟨r, hg⟩
    rcases h with h | h
    · omega
    · rw [h] at h1; simp at h1

/-- **C73.** A baseline that is not a column of the table: every column is a competitor, and the first panel raises
`KeyError`. -/
theorem C73_unknown_baseline (df : Table N D ℝ) (baseline : N) (h : baseline ∉ df.cols.map (·.1)) (hne : df.cols ≠ [])
    (margin above : ℝ) {k : Int} (hk : 1 ≤ k) (h1 : k = 1 → (competitors df baseline).length = 1) :
    (∀ c, c ∈ competitors df baseline ↔ c ∈ df.cols.map (·.1)) ∧
      pairwisePlot df baseline margin above k = .error .keyError := by
  have hmem : ∀ c, c ∈ competitors df baseline ↔ c ∈ df.cols.map (·.1) := fun c => by
    rw [mem_competitors]
    exact ⟨fun hc => hc.1, fun hc => ⟨hc, fun he => h (he ▸ hc)⟩⟩
  refine ⟨hmem, ?_⟩
  obtain ⟨q, qs, hq⟩ := List.exists_cons_of_ne_nil hne
  have hcne : competitors df baseline ≠ [] := by
    intro h0
    have := (hmem q.1).2 (by rw [hq]; simp)
    rw [h0] at this
    simp at this
  obtain ⟨nrows, ncols, hg, -, -, -, -, hax⟩ := axes_ok (List.length_pos_iff.2 hcne) hk h1
  have hb : columnOf df baseline = .error .keyError := by
    unfold columnOf
    have : (df.cols.find? fun c => decide (c.1 = baseline)) = none := by
      rw [List.find?_eq_none]
      intro c hc
      simp only [decide_eq_true_eq]
      rintro rfl
      exact h (List.mem_map_of_mem hc)
    rw [this]
  unfold pairwisePlot
  simp only
  rw [hg, Res.bind_ok]
  obtain ⟨c, cs, hcs⟩ := List.exists_cons_of_ne_nil hcne
  obtain ⟨x, hx⟩ := hasColumn_of_mem ((hmem c).1 (by rw [hcs]; simp))
  have h0 := hax 0 (List.length_pos_iff.2 hcne)
  rw [hcs]
  simp only [List.zipIdx_cons, List.mapM_cons]
  rw [h0, Res.bind_ok, columnOf_ok hx, Res.bind_ok, hb]
  rfl

/-- C73: an unknown baseline. -/
example : pairwisePlot (⟨[0, 1], [(1, [1, 2]), (3, [1, 1])]⟩ : Table Nat Nat ℝ) 2 0 1 2 = .error .keyError :=
  (C73_unknown_baseline (⟨[0, 1], [(1, [1, 2]), (3, [1, 1])]⟩ : Table Nat Nat ℝ) 2 (by simp) (by simp) 0 1 (by omega)
    (by omega)).2

/-- C73: two competitors. -/
example : ∃ panels : List (Panel Nat Nat ℝ),
    pairwisePlot ⟨[0, 1], [(1, [1, 2]), (2, [3, 4]), (3, [1, 1])]⟩ 2 0 1 2 = .ok panels ∧ panels.length = 2 := by
  have hu : competitors (⟨[0, 1], [(1, [1, 2]), (2, [3, 4]), (3, [1, 1])]⟩ : Table Nat Nat ℝ) 2 = [1, 3] := by
    apply List.Perm.eq_of_pairwise (le := (· < ·)) (fun x y _ _ h1 h2 => absurd (h1.trans h2) (lt_irrefl x))
      ((uniques_sorted _).filter _) (by decide)
    refine (List.perm_ext_iff_of_nodup ((uniques_nodup _).filter _) (by decide)).2 fun c => ?_
    rw [show c ∈ List.filter (fun x => decide (x ≠ 2)) _ ↔ _ from mem_competitors]
    simp
    omega
  obtain ⟨ps, h, hc, -⟩ := C73_pairwise_plot (⟨[0, 1], [(1, [1, 2]), (2, [3, 4]), (3, [1, 1])]⟩ : Table Nat Nat ℝ) 2
    (y := [3, 4]) (by simp [HasColumn]) 0 1 (k := 2) (by omega) (by rw [hu]; simp) (by omega)
  refine ⟨ps, h, ?_⟩
  rw [← List.length_map (f := fun p : Panel Nat Nat ℝ => p.comp), hc, hu]
  rfl

end
end Convst.Props
