import Verif.Model.PlotUtils
import Verif.Proofs.Experiments
import Verif.Proofs.ZNorm

/-! # Lemmas about the statistical comparison -/

set_option autoImplicit false
set_option linter.unusedSectionVars false

namespace Convst

/-! ## Holm's loop -/

section
variable {N : Type}

theorem holmLoop_data (alpha : ℝ) (k i : Nat) (vs : List (PVal N ℝ)) :
    (holmLoop alpha k i vs).map (fun v => (v.c1, v.c2, v.p)) = vs.map fun v => (v.c1, v.c2, v.p) := by
  induction vs generalizing i with
  | nil => rfl
  | cons v vs ih =>
    unfold holmLoop
    split
    · simp [ih]
    · rfl

theorem holmLoop_length (alpha : ℝ) (k i : Nat) (vs : List (PVal N ℝ)) :
    (holmLoop alpha k i vs).length = vs.length := by
  have := congrArg List.length (holmLoop_data alpha k i vs)
  simpa using this

theorem holmLoop_sig (alpha : ℝ) (k i : Nat) (vs : List (PVal N ℝ)) (h0 : ∀ v ∈ vs, v.sig = false) (j : Nat)
    (v : PVal N ℝ) (hv : (holmLoop alpha k i vs)[j]? = some v) :
    v.sig = true ↔ ∀ q u, q ≤ j → vs[q]? = some u → u.p ≤ alpha / ((k - (i + q) : Nat) : ℝ) := by
  induction vs generalizing i j with
  | nil => simp [holmLoop] at hv
  | cons a vs ih =>
    unfold holmLoop at hv
    have ha := h0 a (by simp)
    by_cases hle : a.p ≤ alpha / ((k - i : Nat) : ℝ)
    · rw [if_pos (by simpa using hle)] at hv
      cases j with
      | zero =>
        simp only [List.getElem?_cons_zero, Option.some.injEq] at hv
        subst hv
        simp only [true_iff]
        intro q u hq hu
        obtain rfl : q = 0 := by omega
        simp only [List.getElem?_cons_zero, Option.some.injEq] at hu
        subst hu
        simpa using hle
      | succ j =>
        rw [List.getElem?_cons_succ] at hv
        rw [ih (i + 1) (fun v hv => h0 v (by simp [hv])) j hv]
        constructor
        · intro h q u hq hu
          cases q with
          | zero =>
            simp only [List.getElem?_cons_zero, Option.some.injEq] at hu
            subst hu
            simpa using hle
          | succ q =>
            rw [List.getElem?_cons_succ] at hu
            have := h q u (by omega) hu
            rwa [show i + (q + 1) = i + 1 + q by omega]
        · intro h q u hq hu
          have := h (q + 1) u (by omega) (by rwa [List.getElem?_cons_succ])
          rwa [show i + 1 + q = i + (q + 1) by omega]
    · rw [if_neg (by simpa using hle)] at hv
      have hf : v.sig = false := h0 v (List.mem_of_getElem? hv)
      constructor
      · rw [hf]; simp
      · intro h
        exact absurd (by simpa using h 0 a (by omega) rfl) hle

end

/-! ## Pairs -/

section
variable {α : Type}

theorem mem_pairsOf [LinearOrder α] {l : List α} (hs : l.Pairwise (· < ·)) {a b : α} :
    (a, b) ∈ pairsOf l ↔ a ∈ l ∧ b ∈ l ∧ a < b := by
  induction l with
  | nil => simp [pairsOf]
  | cons x l ih =>
    rw [List.pairwise_cons] at hs
    rw [pairsOf, List.mem_append, ih hs.2]
    constructor
    · rintro (h | ⟨h1, h2, h3⟩)
      · obtain ⟨y, hy, he⟩ := List.mem_map.1 h
        rw [Prod.mk.injEq] at he
        obtain ⟨rfl, rfl⟩ := he
        exact ⟨by simp, by simp [hy], hs.1 _ hy⟩
      · exact ⟨by simp [h1], by simp [h2], h3⟩
    · rintro ⟨h1, h2, h3⟩
      rcases List.mem_cons.1 h1 with rfl | h1
      · rcases List.mem_cons.1 h2 with rfl | h2
        · exact absurd h3 (lt_irrefl _)
        · exact Or.inl (List.mem_map.2 ⟨b, h2, rfl⟩)
      · rcases List.mem_cons.1 h2 with rfl | h2
        · exact absurd h3 (lt_asymm (hs.1 _ (by assumption)))
        · exact Or.inr ⟨h1, h2, h3⟩

theorem pairsOf_nodup [LinearOrder α] {l : List α} (hs : l.Pairwise (· < ·)) : (pairsOf l).Nodup := by
  induction l with
  | nil => exact List.nodup_nil
  | cons x l ih =>
    have hs' := hs
    rw [List.pairwise_cons] at hs
    rw [pairsOf, List.nodup_append]
    refine ⟨?_, ih hs.2, ?_⟩
    · exact List.Nodup.map (fun a b h => (Prod.mk.inj h).2) (hs.2.imp ne_of_lt)
    · rintro ⟨a, b⟩ h1 ⟨c, d⟩ h2 he
      rw [he] at h1
      obtain ⟨y, hy, h1⟩ := List.mem_map.1 h1
      rw [Prod.mk.injEq] at h1
      have h2 := ((mem_pairsOf hs.2).1 h2).1
      rw [← h1.1] at h2
      exact absurd (hs.1 _ h2) (lt_irrefl _)

theorem pairsOf_length (l : List α) : (pairsOf l).length = l.length * (l.length - 1) / 2 := by
  have h : 2 * (pairsOf l).length = l.length * (l.length - 1) := by
    induction l with
    | nil => rfl
    | cons x l ih =>
      simp only [pairsOf, List.length_append, List.length_map, List.length_cons]
      cases hl : l.length with
      | zero => simp [hl] at ih ⊢; simp [ih]
      | succ n =>
        rw [hl] at ih
        simp only [Nat.add_sub_cancel] at ih ⊢
        linarith [ih, show (n + 1 + 1) * (n + 1) = (n + 1) * n + 2 * (n + 1) by ring]
  omega

end

/-! ## Ranks in one column -/

/-- Indices of the entries equal to `v` in a descending list: a block after the greater ones. -/
theorem where_eq_block (s : List ℝ) (hs : s.Pairwise (· ≥ ·)) (v : ℝ) :
    (List.range s.length).filter (fun i => Scalar.eqb (s.getD i 0) v) =
      List.range' (s.countP fun u => decide (v < u)) (s.countP fun u => decide (u = v)) := by
  induction s with
  | nil => rfl
  | cons a s ih =>
    rw [List.pairwise_cons] at hs
    rw [List.length_cons, List.range_succ_eq_map, List.filter_cons]
    have hshift : (List.map Nat.succ (List.range s.length)).filter (fun i => Scalar.eqb ((a :: s).getD i 0) v) =
        (List.range' (s.countP fun u => decide (v < u)) (s.countP fun u => decide (u = v))).map Nat.succ := by
      rw [List.filter_map, ← ih hs.2]
      rfl
    rw [hshift]
    have hmap : ∀ g e, (List.range' g e).map Nat.succ = List.range' (g + 1) e := by
      intro g e
      rw [List.range'_eq_map_range, List.range'_eq_map_range, List.map_map]
      apply List.map_congr_left
      intro i _
      simp only [Function.comp_apply, Nat.succ_eq_add_one]
      omega
    rw [hmap]
    simp only [List.getD_cons_zero, real_eqb, decide_eq_true_eq, List.countP_cons]
    rcases lt_trichotomy a v with hlt | heq | hgt
    · have h0 : s.countP (fun u => decide (u = v)) = 0 := by
        rw [List.countP_eq_zero]
        intro u hu
        have := hs.1 u hu
        simp only [decide_eq_true_eq]
        intro h; subst h; linarith
      rw [h0]
      simp [hlt.ne]
    · have h0 : s.countP (fun u => decide (v < u)) = 0 := by
        rw [List.countP_eq_zero]
        intro u hu
        have := hs.1 u hu
        simp only [decide_eq_true_eq, not_lt]
        linarith
      rw [h0]
      simp only [heq, if_true, lt_irrefl, if_false, Nat.add_zero]
      rw [List.range'_succ]
    · simp [hgt.ne', hgt]

theorem sum_block (g e : Nat) :
    ((List.range' g e).map fun i => (((i + 1 : Nat)) : ℝ)).sum = e * g + e * (e + 1) / 2 := by
  induction e with
  | zero => simp
  | succ e ih =>
    rw [List.range'_concat, List.map_append, List.sum_append, ih]
    simp only [List.map_cons, List.map_nil, List.sum_cons, List.sum_nil]
    push_cast
    ring

theorem mergeSort_ge (l : List ℝ) : (l.mergeSort fun a b => Scalar.leb b a).Pairwise (· ≥ ·) := by
  have := List.pairwise_mergeSort (le := fun a b : ℝ => Scalar.leb b a)
    (by intro a b c; simp only [real_leb]; intro h1 h2; exact le_trans h2 h1)
    (by intro a b; simp only [real_leb, Bool.or_eq_true]; exact le_total _ _) l
  simpa using this

/-- The average rank: the number of greater entries plus the mean position among the equal ones. -/
theorem avgRank_eq (col : List ℝ) {v : ℝ} (hv : v ∈ col) :
    avgRank col v = (col.countP fun u => decide (v < u)) + ((col.countP fun u => decide (u = v)) + 1 : ℝ) / 2 := by
  unfold avgRank whereIdx
  simp only
  rw [where_eq_block _ (mergeSort_ge col)]
  have hp := List.mergeSort_perm col fun a b => Scalar.leb b a
  rw [hp.countP_eq, hp.countP_eq, ssum_eq_sum]
  simp only [real_ofNat]
  rw [sum_block, List.length_range']
  have : 0 < col.countP fun u => decide (u = v) := by
    rw [List.countP_pos_iff]
    exact ⟨v, hv, by simp⟩
  have : (0 : ℝ) < (col.countP fun u => decide (u = v) : Nat) := by exact_mod_cast this
  field_simp

theorem countP_two (l : List ℝ) (v : ℝ) :
    (l.countP fun u => decide (v < u)) + (l.countP fun u => decide (u = v)) +
      (l.countP fun u => decide (u < v)) = l.length := by
  induction l with
  | nil => rfl
  | cons a l ih =>
    simp only [List.countP_cons, decide_eq_true_eq, List.length_cons]
    rcases lt_trichotomy a v with h | h | h
    · simp [h, h.ne, not_lt.2 h.le]; omega
    · simp [h]; omega
    · simp [h, h.ne', not_lt.2 h.le]; omega

theorem avgRank_bounds (col : List ℝ) {v : ℝ} (hv : v ∈ col) : 1 ≤ avgRank col v ∧ avgRank col v ≤ col.length := by
  rw [avgRank_eq col hv]
  have h1 : 0 < col.countP fun u => decide (u = v) := by
    rw [List.countP_pos_iff]
    exact ⟨v, hv, by simp⟩
  have h2 := countP_two col v
  have h1' : (1 : ℝ) ≤ (col.countP fun u => decide (u = v) : Nat) := by exact_mod_cast h1
  have h2' : ((col.countP fun u => decide (v < u) : Nat) : ℝ) + (col.countP fun u => decide (u = v) : Nat) +
      (col.countP fun u => decide (u < v) : Nat) = (col.length : ℝ) := by exact_mod_cast h2
  have h3 : (0 : ℝ) ≤ (col.countP fun u => decide (v < u) : Nat) := Nat.cast_nonneg _
  have h4 : (0 : ℝ) ≤ (col.countP fun u => decide (u < v) : Nat) := Nat.cast_nonneg _
  constructor <;> linarith

theorem sum_countP_swap {α β : Type} (P : α → β → Bool) (l : List α) (l' : List β) :
    (l.map fun v => l'.countP (P v)).sum = (l'.map fun u => l.countP fun v => P v u).sum := by
  induction l with
  | nil => simp
  | cons a l ih =>
    rw [List.map_cons, List.sum_cons, ih]
    clear ih
    induction l' with
    | nil => simp
    | cons b l' ih =>
      simp only [List.map_cons, List.sum_cons, List.countP_cons] at ih ⊢
      omega

/-- The ranks in a column sum to `m(m+1)/2`. -/
theorem sum_ranks (col : List ℝ) :
    (col.map fun v => avgRank col v).sum = (col.length : ℝ) * (col.length + 1) / 2 := by
  have e1 : (col.map fun v => avgRank col v) =
      col.map fun v => ((col.countP fun u => decide (v < u) : Nat) : ℝ) +
        (((col.countP fun u => decide (u = v) : Nat) : ℝ) + 1) / 2 :=
    List.map_congr_left fun v hv => avgRank_eq col hv
  have hsplit : ∀ l : List ℝ, (l.map fun v => ((col.countP fun u => decide (v < u) : Nat) : ℝ) +
        (((col.countP fun u => decide (u = v) : Nat) : ℝ) + 1) / 2).sum =
      ((l.map fun v => col.countP fun u => decide (v < u)).sum : Nat) +
        (((l.map fun v => col.countP fun u => decide (u = v)).sum : Nat) + (l.length : ℝ)) / 2 := by
    intro l
    induction l with
    | nil => simp
    | cons a l ih =>
      simp only [List.map_cons, List.sum_cons, ih, List.length_cons]
      push_cast
      ring
  rw [e1, hsplit]
  have hs := sum_countP_swap (fun v u : ℝ => decide (v < u)) col col
  have ht : ∀ l : List ℝ, (l.map fun v => col.countP fun u => decide (v < u)).sum +
      (l.map fun v => col.countP fun u => decide (u = v)).sum +
      (l.map fun v => col.countP fun u => decide (u < v)).sum = l.length * col.length := by
    intro l
    induction l with
    | nil => simp
    | cons a l ih =>
      simp only [List.map_cons, List.sum_cons, List.length_cons]
      have := countP_two col a
      rw [Nat.add_mul, ← ih]
      omega
  have ht := ht col
  rw [← hs] at ht
  have ht' : (((col.map fun v => col.countP fun u => decide (v < u)).sum : Nat) : ℝ) +
      ((col.map fun v => col.countP fun u => decide (u = v)).sum : Nat) +
      ((col.map fun v => col.countP fun u => decide (v < u)).sum : Nat) = (col.length : ℝ) * col.length := by
    exact_mod_cast ht
  linarith

/-! ## The matrix of accuracies -/

theorem sum_sum_swap {α β : Type} (f : α → β → ℝ) (l : List α) (l' : List β) :
    (l.map fun a => (l'.map fun b => f a b).sum).sum = (l'.map fun b => (l.map fun a => f a b).sum).sum := by
  induction l with
  | nil => simp
  | cons a l ih =>
    rw [List.map_cons, List.sum_cons, ih, ← List.sum_map_add]
    rfl

theorem sum_map_div' {α : Type} (f : α → ℝ) (c : ℝ) (l : List α) :
    (l.map fun a => f a / c).sum = (l.map f).sum / c := by
  induction l with
  | nil => simp
  | cons a l ih => rw [List.map_cons, List.sum_cons, ih, List.map_cons, List.sum_cons]; ring

theorem meanRanks_sum (M : List (List ℝ)) {n : Nat} (hn : 1 ≤ n) :
    (meanRanks M n).sum = (M.length : ℝ) * (M.length + 1) / 2 := by
  unfold meanRanks
  simp only [mean_eq, List.length_map, List.length_range]
  rw [sum_map_div', sum_sum_swap]
  have : ((List.range n).map fun j => (M.map fun row => avgRank (M.map fun r => r.getD j 0) (row.getD j 0)).sum) =
      (List.range n).map fun _ => (M.length : ℝ) * (M.length + 1) / 2 := by
    apply List.map_congr_left
    intro j _
    have := sum_ranks (M.map fun r => r.getD j 0)
    rw [List.map_map, List.length_map] at this
    exact this
  rw [this, List.map_const', List.sum_replicate, List.length_range, nsmul_eq_mul]
  have : (n : ℝ) ≠ 0 := by exact_mod_cast (by omega : n ≠ 0)
  field_simp

theorem mean_bounds {l : List ℝ} (hl : l ≠ []) {a b : ℝ} (h : ∀ x ∈ l, a ≤ x ∧ x ≤ b) : a ≤ mean l ∧ mean l ≤ b := by
  rw [mean_eq]
  have hpos : (0 : ℝ) < l.length := by exact_mod_cast List.length_pos_of_ne_nil hl
  have : a * l.length ≤ l.sum ∧ l.sum ≤ b * l.length := by
    clear hpos hl
    induction l with
    | nil => simp
    | cons x l ih =>
      obtain ⟨h1, h2⟩ := ih fun y hy => h y (by simp [hy])
      obtain ⟨h3, h4⟩ := h x (by simp)
      simp only [List.sum_cons, List.length_cons]
      push_cast
      constructor <;> nlinarith
  rw [le_div_iff₀ hpos, div_le_iff₀ hpos]
  exact this

theorem meanRanks_bounds (M : List (List ℝ)) {n : Nat} (hn : 1 ≤ n) :
    ∀ v ∈ meanRanks M n, 1 ≤ v ∧ v ≤ M.length := by
  intro v hv
  obtain ⟨row, hr, rfl⟩ := List.mem_map.1 hv
  apply mean_bounds
  · intro h
    have := congrArg List.length h
    simp at this
    omega
  · intro x hx
    obtain ⟨j, hj, rfl⟩ := List.mem_map.1 hx
    have := avgRank_bounds (M.map fun r => r.getD j 0) (v := row.getD j 0) (List.mem_map.2 ⟨row, hr, rfl⟩)
    rwa [List.length_map] at this

/-! ## Grouping of the rows -/

section
variable {N D : Type} [LinearOrder N] [LinearOrder D]

theorem mem_rowsOf {df : List (PerfRow N D ℝ)} {c : N} {r : PerfRow N D ℝ} :
    r ∈ rowsOf df c ↔ r ∈ df ∧ r.clf = c := by
  unfold rowsOf
  rw [List.mem_filter, decide_eq_true_eq]

theorem foldl_max_spec (l : List Nat) (a : Nat) : a ≤ l.foldl max a ∧ (∀ x ∈ l, x ≤ l.foldl max a) ∧
    (l.foldl max a = a ∨ l.foldl max a ∈ l) := by
  induction l generalizing a with
  | nil => simp
  | cons b l ih =>
    obtain ⟨h1, h2, h3⟩ := ih (max a b)
    rw [List.foldl_cons]
    refine ⟨(le_max_left _ _).trans h1, ?_, ?_⟩
    · intro x hx
      rcases List.mem_cons.1 hx with rfl | hx
      · exact (le_max_right _ _).trans h1
      · exact h2 x hx
    · rcases h3 with h3 | h3
      · rcases max_choice a b with h | h
        · left; rw [h3, h]
        · right; rw [h3, h]; simp
      · right; simp [h3]

/-- The classifiers compared: those that occur and of which no classifier has more rows. -/
theorem mem_tested {df : List (PerfRow N D ℝ)} {c : N} :
    c ∈ testedClassifiers df ↔ (∃ r ∈ df, r.clf = c) ∧ ∀ c', (rowsOf df c').length ≤ (rowsOf df c).length := by
  unfold testedClassifiers
  rw [List.mem_filter, mem_uniques, decide_eq_true_eq, List.mem_map]
  obtain ⟨-, h2, h3⟩ := foldl_max_spec ((uniques (df.map (·.clf))).map fun c => (rowsOf df c).length) 0
  have hle : ∀ c', (rowsOf df c').length ≤ maxCount df := by
    intro c'
    by_cases hc : c' ∈ uniques (df.map (·.clf))
    · exact h2 _ (List.mem_map.2 ⟨c', hc, rfl⟩)
    · have : rowsOf df c' = [] := by
        rw [List.eq_nil_iff_forall_not_mem]
        intro r hr
        obtain ⟨h, he⟩ := mem_rowsOf.1 hr
        exact hc (mem_uniques.2 (List.mem_map.2 ⟨r, h, he⟩))
      rw [this]
      simp
  constructor
  · rintro ⟨h1, h⟩
    exact ⟨h1, fun c' => h ▸ hle c'⟩
  · rintro ⟨h1, h⟩
    refine ⟨h1, le_antisymm (hle c) ?_⟩
    rcases h3 with h3 | h3
    · show maxCount df ≤ _
      unfold maxCount
      rw [h3]
      exact Nat.zero_le _
    · obtain ⟨c', -, he⟩ := List.mem_map.1 h3
      show maxCount df ≤ _
      unfold maxCount
      rw [← he]
      exact h c'

theorem tested_count {df : List (PerfRow N D ℝ)} {c : N} (h : c ∈ testedClassifiers df) :
    (rowsOf df c).length = maxCount df := by
  unfold testedClassifiers at h
  simpa using (List.mem_filter.1 h).2

theorem tested_sorted (df : List (PerfRow N D ℝ)) : (testedClassifiers df).Pairwise (· < ·) :=
  (uniques_sorted _).filter _

theorem tested_nodup (df : List (PerfRow N D ℝ)) : (testedClassifiers df).Nodup :=
  (tested_sorted df).imp ne_of_lt

/-- The rows of some classifiers, grouped. -/
theorem filter_perm_groups (df : List (PerfRow N D ℝ)) {cs : List N} (hnd : cs.Nodup) :
    (df.filter fun r => decide (r.clf ∈ cs)).Perm (cs.flatMap (rowsOf df)) := by
  induction cs with
  | nil => simp
  | cons c cs ih =>
    rw [List.nodup_cons] at hnd
    have hp := List.filter_append_perm (fun r : PerfRow N D ℝ => decide (r.clf = c))
      (df.filter fun r => decide (r.clf ∈ c :: cs))
    refine hp.symm.trans ?_
    rw [List.flatMap_cons, List.filter_filter, List.filter_filter]
    have e1 : df.filter (fun r => decide (r.clf = c) && decide (r.clf ∈ c :: cs)) = rowsOf df c := by
      unfold rowsOf
      apply List.filter_congr
      intro r _
      by_cases h : r.clf = c <;> simp [h]
    have e2 : df.filter (fun r => (!decide (r.clf = c)) && decide (r.clf ∈ c :: cs)) =
        df.filter fun r => decide (r.clf ∈ cs) := by
      apply List.filter_congr
      intro r _
      by_cases h : r.clf = c
      · simp [h, hnd.1]
      · simp [h]
    rw [e1, e2]
    exact (ih hnd.2).append_left _

theorem sortedPerf_perm (df : List (PerfRow N D ℝ)) :
    (sortedPerf df).Perm ((testedClassifiers df).flatMap (rowsOf df)) :=
  (List.mergeSort_perm _ _).trans (filter_perm_groups df (tested_nodup df))

theorem sortedPerf_length (df : List (PerfRow N D ℝ)) :
    (sortedPerf df).length = (testedClassifiers df).length * maxCount df := by
  rw [(sortedPerf_perm df).length_eq]
  have : ∀ cs : List N, (∀ c ∈ cs, (rowsOf df c).length = maxCount df) →
      (cs.flatMap (rowsOf df)).length = cs.length * maxCount df := by
    intro cs
    induction cs with
    | nil => simp
    | cons c cs ih =>
      intro h
      rw [List.flatMap_cons, List.length_append, ih fun x hx => h x (by simp [hx]), h c (by simp), List.length_cons]
      ring
  exact this _ fun c hc => tested_count hc

theorem reshape2_length {α : Type} {a : List α} {m n : Nat} {M : List (List α)} (h : reshape2 a m n = .ok M) :
    M.length = m := by
  unfold reshape2 at h
  split at h
  · cases h
    simp
  · cases h

/-- Outcome of the rank computation. -/
theorem averageRanks_cases (df : List (PerfRow N D ℝ)) :
    ∃ M, reshape2 ((sortedPerf df).map (·.acc)) (testedClassifiers df).length (maxCount df) = .ok M ∧
      averageRanks df = if (uniques ((sortedPerf df).map (·.ds))).length = maxCount df then
        .ok (sortRanks ((testedClassifiers df).zip (meanRanks M (maxCount df)))) else .error .valueError := by
  have h : reshape2 ((sortedPerf df).map (·.acc)) (testedClassifiers df).length (maxCount df) = .ok _ :=
    if_pos (by rw [List.length_map, sortedPerf_length])
  refine ⟨_, h, ?_⟩
  unfold averageRanks
  simp only
  rw [h, Res.bind_ok]
  rfl

theorem sortRanks_perm (rs : List (N × ℝ)) : (sortRanks rs).Perm rs := List.mergeSort_perm _ _

theorem sortRanks_sorted (rs : List (N × ℝ)) : (sortRanks rs).Pairwise fun a b => b.2 ≤ a.2 := by
  have := List.pairwise_mergeSort (le := fun a b : N × ℝ => Scalar.leb b.2 a.2)
    (by intro a b c; simp only [real_leb]; intro h1 h2; exact le_trans h2 h1)
    (by intro a b; simp only [real_leb, Bool.or_eq_true]; exact le_total _ _) rs
  unfold sortRanks
  simpa using this

theorem rowLe_sorted (l : List (PerfRow N D ℝ)) : (l.mergeSort rowLe).Pairwise fun a b => rowLe a b = true := by
  apply List.pairwise_mergeSort
  · intro a b c
    unfold rowLe
    simp only [decide_eq_true_eq]
    rintro (h1 | ⟨h1, h1'⟩) (h2 | ⟨h2, h2'⟩)
    · exact Or.inl (h1.trans h2)
    · exact Or.inl (h2 ▸ h1)
    · exact Or.inl (h1 ▸ h2)
    · exact Or.inr ⟨h1.trans h2, h1'.trans h2'⟩
  · intro a b
    unfold rowLe
    simp only [Bool.or_eq_true, decide_eq_true_eq]
    rcases lt_trichotomy a.clf b.clf with h | h | h
    · exact Or.inl (Or.inl h)
    · rcases le_total a.ds b.ds with h' | h'
      · exact Or.inl (Or.inr ⟨h, h'⟩)
      · exact Or.inr (Or.inr ⟨h.symm, h'⟩)
    · exact Or.inr (Or.inl h)

theorem rowLe_antisymm {a b : PerfRow N D ℝ} (h1 : rowLe a b = true) (h2 : rowLe b a = true) :
    a.clf = b.clf ∧ a.ds = b.ds := by
  unfold rowLe at h1 h2
  simp only [decide_eq_true_eq] at h1 h2
  rcases h1 with h1 | ⟨h1, h1'⟩
  · rcases h2 with h2 | ⟨h2, -⟩
    · exact absurd h2 (lt_asymm h1)
    · exact absurd h2.symm h1.ne
  · rcases h2 with h2 | ⟨-, h2'⟩
    · exact absurd h1.symm h2.ne
    · exact ⟨h1, le_antisymm h1' h2'⟩

/-- Cutting the concatenation of rows of equal length. -/
theorem reshape2_flatten {α : Type} (L : List (List α)) {n : Nat} (h : ∀ l ∈ L, l.length = n) :
    reshape2 L.flatten L.length n = .ok L := by
  have hlen : ∀ L : List (List α), (∀ l ∈ L, l.length = n) → L.flatten.length = L.length * n := by
    intro L
    induction L with
    | nil => simp
    | cons l L ih =>
      intro h
      rw [List.flatten_cons, List.length_append, ih fun x hx => h x (by simp [hx]), h l (by simp), List.length_cons]
      ring
  unfold reshape2
  rw [if_pos (hlen L h)]
  congr 1
  induction L with
  | nil => rfl
  | cons l L ih =>
    have hl := h l (by simp)
    rw [List.length_cons, List.range_succ_eq_map, List.map_cons, List.map_map]
    congr 1
    · rw [Nat.zero_mul, List.drop_zero, List.flatten_cons, ← hl, List.take_left]
    · refine Eq.trans ?_ (ih fun x hx => h x (by simp [hx]))
      apply List.map_congr_left
      intro i _
      simp only [Function.comp_apply, Nat.succ_eq_add_one, List.flatten_cons]
      rw [show (i + 1) * n = l.length + i * n by rw [hl]; ring, ← List.drop_drop, List.drop_left]

end
end Convst
