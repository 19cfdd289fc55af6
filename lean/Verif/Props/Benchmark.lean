import Verif.Spec.Benchmark

/-!
# C97: interrupted and resumed benchmarks
-/

set_option autoImplicit false
set_option linter.unusedSectionVars false

namespace Convst.Props
open Convst Spec

variable {K D M : Type} [Scalar K]

/-! ## The loop -/

theorem fileAfter_cases {T : Type} (file : Option T) (ws : List T) (w : Nat) :
    fileAfter file ws w = file ∨ ∃ t ∈ ws, fileAfter file ws w = some t := by
  unfold fileAfter
  cases h : (ws.take w).getLast? with
  | none => exact Or.inl rfl
  | some t => exact Or.inr ⟨t, List.mem_of_mem_take (List.mem_of_getLast? h), rfl⟩

/-- Everything the loop writes: the table with some rows after `i` replaced. -/
theorem loop_writes {ω : Evals K} (grid : List (D × M)) :
    ∀ (i : Nat) (t : List (BenchRow K D M)), ∀ t' ∈ (benchLoop ω grid i t).1,
      t'.length = t.length ∧ ∀ (j : Nat) row', t'[j]? = some row' → t[j]? = some row' ∨
        (i ≤ j ∧ ∃ row d m s, t[j]? = some row ∧ row.todo = true ∧ grid[j - i]? = some (d, m) ∧ ω j = .ok s ∧
          row' = benchFill d m s) := by
  induction grid with
  | nil => intro i t t' h; simp [benchLoop] at h
  | cons dm grid ih =>
    obtain ⟨d, m⟩ := dm
    intro i t t' h
    unfold benchLoop at h
    cases ht : t[i]? with
    | none => simp only [ht] at h; simp at h
    | some row =>
      simp only [ht] at h
      cases hto : row.todo with
      | false =>
        simp only [hto, Bool.false_eq_true, if_false] at h
        obtain ⟨h1, h2⟩ := ih (i + 1) t t' h
        refine ⟨h1, fun j row' hj => ?_⟩
        rcases h2 j row' hj with h3 | ⟨h3, row0, d', m', s, h4, h5, h6, h7⟩
        · exact Or.inl h3
        · refine Or.inr ⟨by omega, row0, d', m', s, h4, h5, ?_, h7⟩
          rw [show j - i = (j - (i + 1)) + 1 by omega]
          exact h6
      | true =>
        simp only [hto, if_true] at h
        cases hω : ω i with
        | error e => simp only [hω] at h; simp at h
        | ok s =>
          simp only [hω, List.mem_cons] at h
          have hi : i < t.length := (List.getElem?_eq_some_iff.1 ht).1
          have base : ∀ (j : Nat) row', (t.set i (benchFill d m s))[j]? = some row' → t[j]? = some row' ∨
              (j = i ∧ row' = benchFill d m s) := by
            intro j row' hj
            rcases eq_or_ne i j with rfl | hne
            · rw [List.getElem?_set_self hi, Option.some.injEq] at hj
              exact Or.inr ⟨rfl, hj.symm⟩
            · rw [List.getElem?_set_ne hne] at hj
              exact Or.inl hj
          have here : ∀ (j : Nat) row', j = i → row' = benchFill d m s → t[j]? = some row' ∨
              (i ≤ j ∧ ∃ row0 d' m' s', t[j]? = some row0 ∧ row0.todo = true ∧
                ((d, m) :: grid)[j - i]? = some (d', m') ∧ ω j = .ok s' ∧ row' = benchFill d' m' s') := by
            intro j row' e1 e2
            subst e1
            refine Or.inr ⟨le_rfl, row, d, m, s, ht, hto, ?_, hω, e2⟩
            rw [Nat.sub_self]; rfl
          rcases h with rfl | h
          · refine ⟨List.length_set, fun j row' hj => ?_⟩
            rcases base j row' hj with h1 | ⟨h1, h2⟩
            · exact Or.inl h1
            · exact here j row' h1 h2
          · obtain ⟨h1, h2⟩ := ih (i + 1) _ t' h
            refine ⟨h1.trans List.length_set, fun j row' hj => ?_⟩
            rcases h2 j row' hj with h3 | ⟨h3, row0, d', m', s', h4, h5, h6, h7⟩
            · rcases base j row' h3 with h4 | ⟨h4, h5⟩
              · exact Or.inl h4
              · exact here j row' h4 h5
            · rw [List.getElem?_set_ne (by omega)] at h4
              refine Or.inr ⟨by omega, row0, d', m', s', h4, h5, ?_, h7⟩
              rw [show j - i = (j - (i + 1)) + 1 by omega]
              exact h6

theorem fileAfter_length {T : Type} (t : T) (ws : List T) :
    fileAfter (some t) ws ws.length = some (ws.getLast?.getD t) := by
  unfold fileAfter
  rw [List.take_length]
  cases ws.getLast? <;> rfl

/-- A loop that reaches the end has visited every row: those which were to be computed are. -/
theorem loop_end {ω : Evals K} (grid : List (D × M)) :
    ∀ (i : Nat) (t : List (BenchRow K D M)), (benchLoop ω grid i t).2 = none →
      (∀ j, j < i → ((benchLoop ω grid i t).1.getLast?.getD t)[j]? = t[j]?) ∧
      ∀ j, i ≤ j → j < i + grid.length → ∃ row, t[j]? = some row ∧
          (row.todo = false → ((benchLoop ω grid i t).1.getLast?.getD t)[j]? = some row) ∧
          (row.todo = true → ∃ d m s, grid[j - i]? = some (d, m) ∧ ω j = .ok s ∧
            ((benchLoop ω grid i t).1.getLast?.getD t)[j]? = some (benchFill d m s)) := by
  induction grid with
  | nil =>
    intro i t _
    refine ⟨fun j _ => rfl, fun j h1 h2 => ?_⟩
    simp only [List.length_nil] at h2
    omega
  | cons dm grid ih =>
    obtain ⟨d, m⟩ := dm
    intro i t h
    unfold benchLoop at h ⊢
    cases ht : t[i]? with
    | none => simp only [ht] at h; cases h
    | some row =>
      simp only [ht] at h ⊢
      have hi : i < t.length := (List.getElem?_eq_some_iff.1 ht).1
      cases hto : row.todo with
      | false =>
        simp only [hto, Bool.false_eq_true, if_false] at h ⊢
        obtain ⟨h1, h2⟩ := ih (i + 1) t h
        refine ⟨fun j hj => h1 j (by omega), fun j hj1 hj2 => ?_⟩
        rcases eq_or_ne i j with rfl | hne
        · refine ⟨row, ht, fun _ => ?_, fun hc => ?_⟩
          · rw [h1 i (by omega)]; exact ht
          · rw [hto] at hc; cases hc
        · simp only [List.length_cons] at hj2
          obtain ⟨row', a1, a2, a3⟩ := h2 j (by omega) (by omega)
          refine ⟨row', a1, a2, fun hc => ?_⟩
          obtain ⟨d', m', s, b1, b2, b3⟩ := a3 hc
          refine ⟨d', m', s, ?_, b2, b3⟩
          rw [show j - i = (j - (i + 1)) + 1 by omega]
          exact b1
      | true =>
        simp only [hto, if_true] at h ⊢
        cases hω : ω i with
        | error e => simp only [hω] at h; cases h
        | ok s =>
          simp only [hω] at h ⊢
          obtain ⟨h1, h2⟩ := ih (i + 1) (t.set i (benchFill d m s)) h
          have e : ((t.set i (benchFill d m s) :: (benchLoop ω grid (i + 1) (t.set i (benchFill d m s))).1).getLast?.getD
              t) = ((benchLoop ω grid (i + 1) (t.set i (benchFill d m s))).1.getLast?.getD
              (t.set i (benchFill d m s))) := by
            rw [List.getLast?_cons]
            rfl
          rw [e]
          refine ⟨fun j hj => ?_, fun j hj1 hj2 => ?_⟩
          · rw [h1 j (by omega), List.getElem?_set_ne (by omega)]
          · rcases eq_or_ne i j with rfl | hne
            · refine ⟨row, ht, fun hc => ?_, fun _ => ⟨d, m, s, ?_, hω, ?_⟩⟩
              · rw [hto] at hc; cases hc
              · rw [Nat.sub_self]; rfl
              · rw [h1 i (by omega), List.getElem?_set_self hi]
            · simp only [List.length_cons] at hj2
              obtain ⟨row', a1, a2, a3⟩ := h2 j (by omega) (by omega)
              rw [List.getElem?_set_ne hne] at a1
              refine ⟨row', a1, a2, fun hc => ?_⟩
              obtain ⟨d', m', s', b1, b2, b3⟩ := a3 hc
              refine ⟨d', m', s', ?_, b2, b3⟩
              rw [show j - i = (j - (i + 1)) + 1 by omega]
              exact b1

theorem init_todo (hz : Scalar.eqb (0 : K) 0 = true) : (BenchRow.init : BenchRow K D M).todo = true := hz

theorem finished_iff (row : BenchRow K D M) : Finished row ↔ row.todo = false := by
  unfold Finished BenchRow.todo
  cases row.accMean <;> simp

theorem not_finished_iff (row : BenchRow K D M) : ¬ Finished row ↔ row.todo = true := by
  rw [finished_iff]; simp

theorem seriesMean_spec (x : List K) : seriesMean x = sampleMean x := by
  cases x <;> rfl

theorem seriesStd_spec (x : List K) : seriesStd x = sampleStd x := by
  rcases x with _ | ⟨a, _ | ⟨b, x⟩⟩
  · rfl
  · rfl
  · unfold seriesStd
    rw [if_neg (by simp)]
    rfl

theorem rowOf_iff (d : D) (m : M) (s : BenchScores K) (row : BenchRow K D M) :
    RowOf d m s row ↔ row = benchFill d m s := by
  unfold RowOf benchFill
  rw [seriesMean_spec, seriesMean_spec, seriesStd_spec, seriesStd_spec]
  constructor
  · rintro ⟨h1, h2, h3, h4, h5, h6⟩
    rw [← h1, ← h2, ← h3, ← h4, ← h5, ← h6]
  · rintro rfl
    exact ⟨rfl, rfl, rfl, rfl, rfl, rfl⟩

/-- **C97.** The rows of the table are ordered by dataset, then by model. -/
theorem C97_row_numbers (names : List D) (models : List M) :
    (benchGrid names models).length = names.length * models.length ∧
    ∀ i j d m, names[i]? = some d → models[j]? = some m →
      (benchGrid names models)[i * models.length + j]? = some (d, m) := by
  induction names with
  | nil => exact ⟨by simp [benchGrid], by simp⟩
  | cons d0 names ih =>
    have e : benchGrid (d0 :: names) models = models.map (fun m => (d0, m)) ++ benchGrid names models := rfl
    rw [e]
    refine ⟨?_, ?_⟩
    · rw [List.length_append, ih.1, List.length_map, List.length_cons]; ring
    · intro i j d m hd hm
      have hj : j < models.length := (List.getElem?_eq_some_iff.1 hm).1
      cases i with
      | zero =>
        simp only [List.getElem?_cons_zero, Option.some.injEq] at hd
        subst hd
        rw [Nat.zero_mul, Nat.zero_add, List.getElem?_append_left (by simpa using hj), List.getElem?_map, hm]
        rfl
      | succ i =>
        rw [List.getElem?_cons_succ] at hd
        have h1 : (i + 1) * models.length + j = models.length + (i * models.length + j) := by ring
        rw [h1, List.getElem?_append_right (by simp), List.length_map, Nat.add_sub_cancel_left]
        exact ih.2 i j d m hd hm

/-- **C97.** The means and deviations of a row, in exact arithmetic. -/
theorem C97_mean_and_deviation {x : List ℝ} (h : 2 ≤ x.length) : ∃ m s : ℝ, sampleMean x = some m ∧
    sampleStd x = some s ∧ m * x.length = x.sum ∧ 0 ≤ s ∧
    s ^ 2 * ((x.length : ℝ) - 1) = (x.map fun v => (v - m) ^ 2).sum := by
  rcases x with _ | ⟨a, _ | ⟨b, x⟩⟩
  · simp at h
  · simp at h
  have hs : ∀ l : List ℝ, l.foldl (· + ·) 0 = l.sum := fun l => (List.sum_eq_foldl).symm
  generalize hx : a :: b :: x = y at *
  have hn : (2 : ℝ) ≤ y.length := by exact_mod_cast h
  have e1 : sampleMean y = some (y.sum / y.length) := by
    rw [← hs]; subst hx; simp [sampleMean]
  have e2 : sampleStd y = some (Real.sqrt ((y.map fun v => (v - y.sum / y.length) * (v - y.sum / y.length)).sum /
      ((y.length - 1 : Nat) : ℝ))) := by
    rw [← hs, ← hs]; subst hx; simp only [sampleStd, real_ofNat]; rfl
  refine ⟨_, _, e1, e2, by field_simp, Real.sqrt_nonneg _, ?_⟩
  have hc : ((y.length - 1 : Nat) : ℝ) = (y.length : ℝ) - 1 := by
    rw [Nat.cast_sub (by omega)]; norm_num
  have h0 : 0 ≤ (y.map fun v => (v - y.sum / y.length) * (v - y.sum / y.length)).sum := by
    apply List.sum_nonneg
    intro z hz
    obtain ⟨v, -, rfl⟩ := List.mem_map.1 hz
    exact mul_self_nonneg _
  rw [hc, Real.sq_sqrt (by apply div_nonneg h0; linarith)]
  have : ((y.length : ℝ) - 1) ≠ 0 := by linarith
  rw [div_mul_cancel₀ _ this]
  simp only [pow_two]

example : ∃ m s : ℝ, sampleMean [1, 2, (6 : ℝ)] = some m ∧ sampleStd [1, 2, (6 : ℝ)] = some s ∧ m * 3 = 9 := by
  obtain ⟨m, s, h1, h2, h3, -⟩ := C97_mean_and_deviation (x := [1, 2, (6 : ℝ)]) (by simp)
  refine ⟨m, s, h1, h2, ?_⟩
  norm_num at h3
  exact h3

/-! ## Histories -/

/-- **C97.** Whenever the runs are killed, the file holds the right number of rows, and every row is either the
initial one or the result of its own dataset and model. -/
theorem C97_rows {grid : List (D × M)} {ωs : List (Evals K)} {file : Option (List (BenchRow K D M))}
    (h : Interrupted grid ωs file) (t : List (BenchRow K D M)) (ht : file = some t) :
    t.length = grid.length ∧
    ∀ (i : Nat) row, t[i]? = some row → row = BenchRow.init ∨ HoldsResult grid ωs i row := by
  induction h generalizing t with
  | first ω w =>
    have key : ∀ t' ∈ (benchRun grid false ω none).1, t'.length = grid.length ∧
        ∀ (i : Nat) row, t'[i]? = some row → row = BenchRow.init ∨ HoldsResult grid [ω] i row := by
      intro t' ht'
      have ini : ∀ (i : Nat) (row : BenchRow K D M), (benchInit grid.length)[i]? = some row →
          row = BenchRow.init := fun i row hi => List.eq_of_mem_replicate (List.mem_of_getElem? hi)
      simp only [benchRun, Bool.false_eq_true, if_false, List.mem_cons] at ht'
      rcases ht' with rfl | ht'
      · exact ⟨List.length_replicate, fun i row hi => Or.inl (ini i row hi)⟩
      · obtain ⟨h1, h2⟩ := loop_writes grid 0 _ t' ht'
        refine ⟨h1.trans List.length_replicate, fun i row hi => ?_⟩
        rcases h2 i row hi with h3 | ⟨-, _, d, m, s, -, -, h4, h5, h6⟩
        · exact Or.inl (ini i row h3)
        · exact Or.inr ⟨d, m, s, ω, h4, by simp, h5, (rowOf_iff _ _ _ _).2 h6⟩
    rcases fileAfter_cases none (benchRun grid false ω none).1 w with h1 | ⟨t', h1, h2⟩
    · rw [h1] at ht; cases ht
    · rw [h2, Option.some.injEq] at ht
      subst ht
      exact key _ h1
  | @resume ωs file h ω w ih =>
    have weak : ∀ i row, HoldsResult grid ωs i row → HoldsResult (K := K) (D := D) (M := M) grid (ω :: ωs) i row := by
      rintro i row ⟨d, m, s, ω', a, b, c⟩
      exact ⟨d, m, s, ω', a, by simp [b], c⟩
    rcases fileAfter_cases file (benchRun grid true ω file).1 w with h1 | ⟨t', h1, h2⟩
    · rw [h1] at ht
      obtain ⟨a, b⟩ := ih t ht
      exact ⟨a, fun i row hi => (b i row hi).imp id (weak i row)⟩
    · rw [h2, Option.some.injEq] at ht
      subst ht
      cases file with
      | none => simp [benchRun] at h1
      | some t0 =>
        obtain ⟨a, b⟩ := ih t0 rfl
        obtain ⟨c1, c2⟩ := loop_writes grid 0 t0 t' h1
        refine ⟨c1.trans a, fun i row hi => ?_⟩
        rcases c2 i row hi with h3 | ⟨-, _, d, m, s, -, -, h4, h5, h6⟩
        · exact (b i row h3).imp id (weak i row)
        · exact Or.inr ⟨d, m, s, ω, h4, by simp, h5, (rowOf_iff _ _ _ _).2 h6⟩

/-- **C97.** Results are not lost: a resumed run, killed at any time, keeps every row with an accuracy other than
`0` and `nan` that it found in the file. -/
theorem C97_finished_rows_kept (grid : List (D × M)) (t : List (BenchRow K D M)) (ω : Evals K) (w : Nat)
    (i : Nat) (row : BenchRow K D M) (hi : t[i]? = some row) (hdone : Finished row) :
    ∃ t', fileAfter (some t) (benchRun grid true ω (some t)).1 w = some t' ∧ t'[i]? = some row := by
  rw [finished_iff] at hdone
  rcases fileAfter_cases (some t) (benchRun grid true ω (some t)).1 w with h | ⟨t', h1, h2⟩
  · exact ⟨t, h, hi⟩
  · refine ⟨t', h2, ?_⟩
    obtain ⟨c1, c2⟩ := loop_writes grid 0 t t' h1
    have hlt : i < t'.length := by rw [c1]; exact (List.getElem?_eq_some_iff.1 hi).1
    rcases c2 i _ (List.getElem?_eq_getElem hlt) with h3 | ⟨-, row0, _, _, _, h4, h5, -⟩
    · rw [List.getElem?_eq_getElem hlt, ← h3, hi]
    · rw [hi, Option.some.injEq] at h4
      subst h4
      rw [hdone] at h5
      cases h5

/-- **C97.** Results are not computed twice: a resumed run does not depend on the evaluations of rows with an
accuracy other than `0` and `nan`. -/
theorem C97_finished_rows_skipped (grid : List (D × M)) (t : List (BenchRow K D M)) (ω ω' : Evals K)
    (h : ∀ (i : Nat) row, t[i]? = some row → ¬ Finished row → ω i = ω' i) :
    benchRun grid true ω (some t) = benchRun grid true ω' (some t) := by
  have key : ∀ (g : List (D × M)) (i : Nat) (t' : List (BenchRow K D M)),
      (∀ (j : Nat) row, i ≤ j → t'[j]? = some row → row.todo = true → ω j = ω' j) →
      benchLoop ω g i t' = benchLoop ω' g i t' := by
    intro g
    induction g with
    | nil => intro i t' _; rfl
    | cons dm g ih =>
      obtain ⟨d, m⟩ := dm
      intro i t' hj
      unfold benchLoop
      cases ht : t'[i]? with
      | none => rfl
      | some row =>
        simp only
        cases hto : row.todo with
        | false =>
          simp only [Bool.false_eq_true, if_false]
          exact ih (i + 1) t' fun j row hj1 => hj j row (by omega)
        | true =>
          simp only [if_true]
          rw [← hj i row le_rfl ht hto]
          cases ω i with
          | error e => rfl
          | ok s =>
            simp only
            rw [ih (i + 1) _ fun j row hj1 hj2 => hj j row (by omega) (by
              rwa [List.getElem?_set_ne (by omega)] at hj2)]
  exact key grid 0 t fun j row _ hj ht => h j row hj ((not_finished_iff row).2 ht)

/-- **C97.** A resumed run that reaches its end, after any number of interruptions at any time, leaves a complete
table: every row holds the result of its own dataset and model from one of the runs, and the rows that had a
result before the last run still have it, the others (`nan` or `0`) have the result of the last run. -/
theorem C97_complete (hz : Scalar.eqb (0 : K) 0 = true) {grid : List (D × M)} {ωs : List (Evals K)}
    {file : Option (List (BenchRow K D M))} (h : Interrupted grid ωs file) (ω : Evals K)
    (hend : (benchRun grid true ω file).2 = none) :
    ∃ t', fileAfter file (benchRun grid true ω file).1 (benchRun grid true ω file).1.length = some t' ∧
      t'.length = grid.length ∧
      ∀ i, i < grid.length → ∃ row, t'[i]? = some row ∧ HoldsResult grid (ω :: ωs) i row ∧
        ∀ t row0, file = some t → t[i]? = some row0 →
          (Finished row0 → row = row0) ∧ (¬ Finished row0 → HoldsResult grid [ω] i row) := by
  cases file with
  | none => simp [benchRun] at hend
  | some t =>
    obtain ⟨h1, h2⟩ := C97_rows h t rfl
    have h' := Interrupted.resume h ω (benchRun grid true ω (some t)).1.length
    have hlast := fileAfter_length t (benchRun grid true ω (some t)).1
    refine ⟨_, hlast, (C97_rows h' _ hlast).1, fun i hi => ?_⟩
    obtain ⟨-, e2⟩ := loop_end (ω := ω) grid 0 t hend
    obtain ⟨row0, a1, a2, a3⟩ := e2 i (Nat.zero_le _) (by omega)
    cases hto : row0.todo with
    | false =>
      refine ⟨row0, a2 hto, ?_, ?_⟩
      · rcases h2 i row0 a1 with rfl | ⟨d, m, s, ω', b1, b2, b3⟩
        · rw [init_todo hz] at hto; cases hto
        · exact ⟨d, m, s, ω', b1, by simp [b2], b3⟩
      · intro t2 row2 e1 e2
        cases e1
        rw [a1, Option.some.injEq] at e2
        exact ⟨fun _ => e2, fun hn => absurd ((finished_iff row2).2 (e2 ▸ hto)) hn⟩
    | true =>
      obtain ⟨d, m, s, b1, b2, b3⟩ := a3 hto
      refine ⟨_, b3, ⟨d, m, s, ω, b1, by simp, b2, (rowOf_iff _ _ _ _).2 rfl⟩, ?_⟩
      intro t2 row2 e1 e2
      cases e1
      rw [a1, Option.some.injEq] at e2
      subst e2
      exact ⟨fun e3 => absurd e3 ((not_finished_iff row0).2 hto),
        fun _ => ⟨d, m, s, ω, b1, by simp, b2, (rowOf_iff _ _ _ _).2 rfl⟩⟩

theorem loop_no_error (ω : Evals K) (hω : ∀ i, ∃ s, ω i = .ok s) (g : List (D × M)) :
    ∀ (i : Nat) (t : List (BenchRow K D M)), i + g.length ≤ t.length → (benchLoop ω g i t).2 = none := by
  induction g with
  | nil => intro i t _; rfl
  | cons dm g ih =>
    obtain ⟨d, m⟩ := dm
    intro i t hl
    simp only [List.length_cons] at hl
    unfold benchLoop
    rw [List.getElem?_eq_getElem (by omega)]
    obtain ⟨s, hs⟩ := hω i
    simp only [hs]
    split
    · exact ih (i + 1) _ (by rw [List.length_set]; omega)
    · exact ih (i + 1) _ (by omega)

/-- **C97.** A resumed run reaches its end when every evaluation succeeds. -/
theorem C97_reaches_end {grid : List (D × M)} {ωs : List (Evals K)} {t : List (BenchRow K D M)}
    (h : Interrupted grid ωs (some t)) (ω : Evals K) (hω : ∀ i, ∃ s, ω i = .ok s) :
    (benchRun grid true ω (some t)).2 = none :=
  loop_no_error ω hω grid 0 t (by rw [(C97_rows h t rfl).1]; omega)

/-- The uninterrupted run, when the evaluation of row `i` gives `f i`. -/
theorem uninterrupted (hz : Scalar.eqb (0 : K) 0 = true) (grid : List (D × M)) (f : Nat → BenchScores K) :
    (benchRun grid false (fun i => .ok (f i)) none).2 = none ∧
    ∃ t, (benchRun grid false (fun i => .ok (f i)) none).1.getLast? = some t ∧ t.length = grid.length ∧
      ∀ i d m, grid[i]? = some (d, m) → t[i]? = some (benchFill d m (f i)) := by
  have h1 := loop_no_error (fun i => .ok (f i)) (fun i => ⟨f i, rfl⟩) grid 0
    (benchInit (K := K) (D := D) (M := M) grid.length) (by simp [benchInit])
  refine ⟨h1, (benchLoop (fun i => .ok (f i)) grid 0 (benchInit grid.length)).1.getLast?.getD
    (benchInit grid.length), ?_, ?_, ?_⟩
  · simp only [benchRun, Bool.false_eq_true, if_false]
    exact List.getLast?_cons
  · cases hl : (benchLoop (fun i => .ok (f i)) grid 0 (benchInit grid.length)).1.getLast? with
    | none => simp [benchInit]
    | some t =>
      have := (loop_writes grid 0 (benchInit grid.length) t (List.mem_of_getLast? hl)).1
      simpa [benchInit] using this
  · intro i d m hi
    have hlt : i < grid.length := (List.getElem?_eq_some_iff.1 hi).1
    obtain ⟨-, e2⟩ := loop_end (ω := fun i => .ok (f i)) grid 0 _ h1
    obtain ⟨row, a1, -, a3⟩ := e2 i (Nat.zero_le _) (by omega)
    have hrow : row = BenchRow.init := List.eq_of_mem_replicate (List.mem_of_getElem? a1)
    obtain ⟨d', m', s, b1, b2, b3⟩ := a3 (by rw [hrow]; exact init_todo hz)
    rw [Nat.sub_zero, hi, Option.some.injEq, Prod.mk.injEq] at b1
    obtain ⟨rfl, rfl⟩ := b1
    cases b2
    exact b3

/-- **C97.** When the evaluations are reproducible, the table after any number of interruptions and a last run
that reaches its end is the table of a run without interruptions. -/
theorem C97_same_table (hz : Scalar.eqb (0 : K) 0 = true) {grid : List (D × M)} (f : Nat → BenchScores K)
    {ωs : List (Evals K)} {file : Option (List (BenchRow K D M))} (h : Interrupted grid ωs file)
    (hf : ∀ ω ∈ ωs, ∀ i s, ω i = .ok s → s = f i) (ω : Evals K) (hω : ∀ i s, ω i = .ok s → s = f i)
    (hend : (benchRun grid true ω file).2 = none) :
    fileAfter file (benchRun grid true ω file).1 (benchRun grid true ω file).1.length =
      (benchRun grid false (fun i => .ok (f i)) none).1.getLast? := by
  obtain ⟨t', h1, h2, h3⟩ := C97_complete hz h ω hend
  obtain ⟨-, t, g1, g2, g3⟩ := uninterrupted (D := D) (M := M) hz grid f
  rw [h1, g1, Option.some.injEq]
  apply List.ext_getElem? 
  intro i
  rcases Nat.lt_or_ge i grid.length with hi | hi
  · obtain ⟨row, a1, ⟨d, m, s, ω', b1, b2, b3, b4⟩, -⟩ := h3 i hi
    rw [rowOf_iff] at b4
    rw [a1, g3 i d m b1, b4]
    have : s = f i := by
      rcases List.mem_cons.1 b2 with rfl | b2
      · exact hω i s b3
      · exact hf ω' b2 i s b3
    rw [this]
  · rw [List.getElem?_eq_none (by omega), List.getElem?_eq_none (by omega)]

/-! ## What resuming does not do -/

/-- **C97**, violation: a dataset on which a model always raises blocks every later row, however often the script
is resumed. -/
theorem C97_violated_failing_dataset (hz : Scalar.eqb (0 : K) 0 = true) {grid : List (D × M)}
    {ωs : List (Evals K)} {file : Option (List (BenchRow K D M))} (h : Interrupted grid ωs file) {i₀ : Nat}
    (hi₀ : i₀ < grid.length) (hf : ∀ ω ∈ ωs, ∃ e, ω i₀ = .error e) :
    (∀ t, file = some t → ∀ j, i₀ ≤ j → j < grid.length → t[j]? = some BenchRow.init) ∧
    ∀ ω : Evals K, (∃ e, ω i₀ = .error e) → (benchRun grid true ω file).2 ≠ none := by
  -- nothing is written at or after the row that fails
  have key : ∀ (ω : Evals K), (∃ e, ω i₀ = .error e) → ∀ (g : List (D × M)) (i : Nat)
      (t : List (BenchRow K D M)), i ≤ i₀ → t[i₀]? = some BenchRow.init →
      ∀ t' ∈ (benchLoop ω g i t).1, ∀ j, i₀ ≤ j → t'[j]? = t[j]? := by
    intro ω hω g
    induction g with
    | nil => intro i t _ _ t' ht'; simp [benchLoop] at ht'
    | cons dm g ih =>
      obtain ⟨d, m⟩ := dm
      intro i t hi ht t' ht' j hj
      unfold benchLoop at ht'
      cases hr : t[i]? with
      | none => simp only [hr] at ht'; simp at ht'
      | some row =>
        simp only [hr] at ht'
        rcases eq_or_lt_of_le hi with rfl | hlt
        · rw [ht, Option.some.injEq] at hr
          subst hr
          obtain ⟨e, he⟩ := hω
          simp only [init_todo hz, if_true, he] at ht'
          simp at ht'
        · cases hto : row.todo with
          | false =>
            simp only [hto, Bool.false_eq_true, if_false] at ht'
            exact ih (i + 1) t (by omega) ht t' ht' j hj
          | true =>
            simp only [hto, if_true] at ht'
            cases ho : ω i with
            | error e => simp only [ho] at ht'; simp at ht'
            | ok s =>
              simp only [ho, List.mem_cons] at ht'
              rcases ht' with rfl | ht'
              · rw [List.getElem?_set_ne (by omega)]
              · rw [ih (i + 1) _ (by omega) (by rwa [List.getElem?_set_ne (by omega)]) t' ht' j hj,
                  List.getElem?_set_ne (by omega)]
  have main : ∀ t, file = some t → ∀ j, i₀ ≤ j → j < grid.length → t[j]? = some BenchRow.init := by
    induction h with
    | first ω w =>
      intro t ht j hj1 hj2
      have hω := hf ω (by simp)
      have ini : ∀ j, j < grid.length → (benchInit (K := K) (D := D) (M := M) grid.length)[j]? =
          some BenchRow.init := by
        intro j hj
        simp [benchInit, List.getElem?_replicate, hj]
      rcases fileAfter_cases none (benchRun grid false ω none).1 w with h1 | ⟨t', h1, h2⟩
      · rw [h1] at ht; cases ht
      · rw [h2, Option.some.injEq] at ht
        subst ht
        simp only [benchRun, Bool.false_eq_true, if_false, List.mem_cons] at h1
        rcases h1 with rfl | h1
        · exact ini j hj2
        · rw [key ω hω grid 0 _ (Nat.zero_le _) (ini i₀ hi₀) t' h1 j hj1]
          exact ini j hj2
    | @resume ωs file h ω w ih =>
      have ih' := ih fun ω' hω' => hf ω' (by simp [hω'])
      intro t ht j hj1 hj2
      rcases fileAfter_cases file (benchRun grid true ω file).1 w with h1 | ⟨t', h1, h2⟩
      · rw [h1] at ht
        exact ih' t ht j hj1 hj2
      · rw [h2, Option.some.injEq] at ht
        subst ht
        cases file with
        | none => simp [benchRun] at h1
        | some t0 =>
          rw [key ω (hf ω (by simp)) grid 0 t0 (Nat.zero_le _) (ih' t0 rfl i₀ le_rfl hi₀) t' h1 j hj1]
          exact ih' t0 rfl j hj1 hj2
  refine ⟨main, fun ω hω hend => ?_⟩
  cases file with
  | none => simp [benchRun] at hend
  | some t =>
    obtain ⟨-, e2⟩ := loop_end (ω := ω) grid 0 t hend
    obtain ⟨row, a1, -, a3⟩ := e2 i₀ (Nat.zero_le _) (by omega)
    rw [main t rfl i₀ le_rfl hi₀, Option.some.injEq] at a1
    obtain ⟨d, m, s, -, b2, -⟩ := a3 (by rw [← a1]; exact init_todo hz)
    obtain ⟨e, he⟩ := hω
    rw [he] at b2
    cases b2

/-- **C97**, violation: writing the file is not atomic.  If a run is killed while it writes, so that only the
first rows reach the disk, no resumed run reaches its end. -/
theorem C97_violated_kill_during_write (grid : List (D × M)) (t : List (BenchRow K D M)) (j : Nat)
    (hj : j < grid.length) (ω : Evals K) : (benchRun grid true ω (some (t.take j))).2 ≠ none := by
  intro hend
  obtain ⟨-, e2⟩ := loop_end (ω := ω) grid 0 (t.take j) hend
  obtain ⟨row, a1, -⟩ := e2 j (Nat.zero_le _) (by omega)
  rw [List.getElem?_eq_none (by rw [List.length_take]; omega)] at a1
  cases a1

/-- **C97**, violation: the rows are found by their number, not by their names.  Resuming a completed table with
other models or other datasets evaluates nothing, ends normally and leaves the old table. -/
theorem C97_violated_other_models (grid : List (D × M)) (t : List (BenchRow K D M)) (ω : Evals K)
    (hl : grid.length ≤ t.length) (hdone : ∀ row ∈ t, Finished row) :
    benchRun grid true ω (some t) = ([], none) := by
  replace hdone : ∀ row ∈ t, row.todo = false := fun row hr => (finished_iff row).1 (hdone row hr)
  have key : ∀ (g : List (D × M)) (i : Nat), i + g.length ≤ t.length → benchLoop ω g i t = ([], none) := by
    intro g
    induction g with
    | nil => intro i _; rfl
    | cons dm g ih =>
      obtain ⟨d, m⟩ := dm
      intro i hi
      simp only [List.length_cons] at hi
      unfold benchLoop
      rw [List.getElem?_eq_getElem (by omega)]
      simp only [hdone _ (List.getElem_mem (show i < t.length by omega)), Bool.false_eq_true, if_false]
      exact ih (i + 1) (by omega)
  exact key grid 0 (by omega)

/-! ## Examples -/

theorem real_eqb_zero : Scalar.eqb (0 : ℝ) 0 = true := by simp

/-- Two datasets, two models; the first run is killed after two rows, the second before it writes anything
(its third row fails anyway), the third reaches its end. -/
example : ∃ t, Interrupted (K := ℝ) (benchGrid ["Coffee", "Beef"] ["R_DST", "R_DST_Ensemble"])
      [fun i => if i = 2 then .error .valueError else .ok ⟨[1 / 2], [3]⟩, fun _ => .ok ⟨[1 / 2], [3]⟩] (some t) ∧
    fileAfter (some t) (benchRun (benchGrid ["Coffee", "Beef"] ["R_DST", "R_DST_Ensemble"]) true
        (fun _ => .ok ⟨[1 / 2], [3]⟩) (some t)).1
        (benchRun (benchGrid ["Coffee", "Beef"] ["R_DST", "R_DST_Ensemble"]) true
        (fun _ => .ok ⟨[1 / 2], [3]⟩) (some t)).1.length =
      (benchRun (K := ℝ) (benchGrid ["Coffee", "Beef"] ["R_DST", "R_DST_Ensemble"]) false
        (fun _ => .ok ⟨[1 / 2], [3]⟩) none).1.getLast? := by
  have h1 := Interrupted.first (K := ℝ) (grid := benchGrid ["Coffee", "Beef"] ["R_DST", "R_DST_Ensemble"])
    (fun _ => .ok ⟨[1 / 2], [3]⟩) 3
  have h2 := Interrupted.resume h1 (fun i => if i = 2 then .error .valueError else .ok ⟨[1 / 2], [3]⟩) 0
  have e : ∃ t, fileAfter none (benchRun (K := ℝ) (benchGrid ["Coffee", "Beef"] ["R_DST", "R_DST_Ensemble"]) false
      (fun _ => .ok ⟨[1 / 2], [3]⟩) none).1 3 = some t := by
    unfold fileAfter benchRun
    simp only [Bool.false_eq_true, if_false, List.take_succ_cons, List.getLast?_cons]
    exact ⟨_, rfl⟩
  obtain ⟨t, ht⟩ := e
  rw [ht] at h2
  have e2 : fileAfter (some t) (benchRun (benchGrid ["Coffee", "Beef"] ["R_DST", "R_DST_Ensemble"]) true
      (fun i => if i = 2 then .error .valueError else .ok ⟨[1 / 2], [3]⟩) (some t)).1 0 = some t := rfl
  rw [e2] at h2
  refine ⟨t, h2, ?_⟩
  refine C97_same_table real_eqb_zero (fun _ => ⟨[1 / 2], [3]⟩) h2 ?_ (fun _ => .ok ⟨[1 / 2], [3]⟩) ?_
    (C97_reaches_end h2 _ fun _ => ⟨_, rfl⟩)
  · intro ω hω i s hs
    simp only [List.mem_cons, List.not_mem_nil, or_false] at hω
    rcases hω with rfl | rfl
    · simp only at hs
      split at hs
      · cases hs
      · cases hs; rfl
    · cases hs; rfl
  · intro i s hs
    cases hs; rfl

/-- A completed table of one model, resumed with another one. -/
example (ω : Evals ℝ) : benchRun [("Coffee", "Rocket")] true ω
    (some [benchFill "Coffee" "R_DST" ⟨[1 / 2, 1], [3, 4]⟩]) = ([], none) :=
  C97_violated_other_models _ _ ω le_rfl (by
    simp only [List.mem_singleton, forall_eq, finished_iff]
    simp [benchFill, BenchRow.todo, seriesMean, mean, ssum]
    norm_num)

end Convst.Props
