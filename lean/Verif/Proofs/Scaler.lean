import Verif.Model.InputTransformers
import Verif.Proofs.ZNorm

/-! # Helper lemmas for the scalers and input transformers -/

set_option autoImplicit false
set_option linter.unusedSectionVars false

namespace Convst

/-- Column `j` of a matrix. -/
def colOf (X : List (List ℝ)) (j : Nat) : List ℝ := X.map fun r => r.getD j 0

theorem pyGet_ok {α : Type} {a : List α} {i : Nat} (h : i < a.length) : pyGet a i = .ok a[i] := by
  simp [pyGet, h]

theorem pyGet_error {α : Type} {a : List α} {i : Nat} (h : a.length ≤ i) :
    pyGet a i = .error .indexError := by
  simp [pyGet, h]

theorem column_ok {X : List (List ℝ)} {j : Nat} (h : ∀ r ∈ X, j < r.length) :
    column X j = .ok (colOf X j) := by
  unfold column colOf
  apply mapM_ok
  intro r hr
  rw [pyGet_ok (h r hr), getD_lt _ (h r hr)]

theorem std_eq_zero_iff (c : List ℝ) : std c = 0 ↔ ∀ a ∈ c, ∀ b ∈ c, a = b := by
  rcases List.eq_nil_or_concat c with rfl | ⟨L, b, hc⟩
  · simp [std, mean, ssum]
  have hne : c ≠ [] := by rw [hc]; simp
  have hl : (0 : ℝ) < c.length := by exact_mod_cast List.length_pos_iff.2 hne
  have hvar : std c = 0 ↔ var c = 0 := by
    constructor
    · intro h; rw [← std_sq, h, mul_zero]
    · intro h; rw [std_eq, h, Real.sqrt_zero]
  rw [hvar]
  constructor
  · intro h
    have hsum : (c.map fun v => (v - mean c) * (v - mean c)).sum = 0 := by
      unfold var at h
      rcases div_eq_zero_iff.1 h with h' | h'
      · exact h'
      · exact absurd h' hl.ne'
    have hz : ∀ v ∈ c, v = mean c := by
      intro v hv
      have hle : (v - mean c) * (v - mean c) ≤ (c.map fun v => (v - mean c) * (v - mean c)).sum := by
        apply List.single_le_sum
        · intro x hx
          obtain ⟨u, _, rfl⟩ := List.mem_map.1 hx
          exact mul_self_nonneg _
        · exact List.mem_map.2 ⟨v, hv, rfl⟩
      rw [hsum] at hle
      have : (v - mean c) = 0 := by nlinarith [mul_self_nonneg (v - mean c)]
      linarith
    intro a ha b' hb
    rw [hz a ha, hz b' hb]
  · intro h
    obtain ⟨a, ha⟩ := List.exists_mem_of_ne_nil c hne
    have hrep : c = List.replicate c.length a := List.eq_replicate_of_mem fun b' hb => h b' hb a ha
    have hmean : mean c = a := by
      rw [mean_eq]
      have : c.sum = c.length * a := by
        conv_lhs => rw [hrep]
        simp
      rw [this]; field_simp
    unfold var
    have : (c.map fun v => (v - mean c) * (v - mean c)).sum = 0 := by
      apply List.sum_eq_zero
      intro x hx
      obtain ⟨v, hv, rfl⟩ := List.mem_map.1 hx
      rw [hmean, h v hv a ha]; ring
    rw [this]; simp

theorem usefullAtts_ok {X : List (List ℝ)} {nc : Nat} (h : ∀ r ∈ X, r.length = nc) :
    usefullAtts X nc = .ok (whereIdx nc fun j => !(Scalar.eqb (std (colOf X j)) 0)) := by
  unfold usefullAtts
  rw [mapM_ok (g := fun j => std (colOf X j))]
  · rw [Res.bind_ok, Res.pure_eq]
    congr 1
    apply List.filter_congr
    intro j hj
    have hj' := List.mem_range.1 hj
    simp [hj']
  · intro j hj
    have hj' := List.mem_range.1 hj
    rw [column_ok (fun r hr => by rw [h r hr]; exact hj')]
    rfl

theorem takeIds_in {α : Type} {a : List α} {ids : List Nat} (d : α) (h : ∀ i ∈ ids, i < a.length) :
    takeIds a ids = .ok (ids.map fun i => a.getD i d) := by
  unfold takeIds
  apply mapM_ok
  intro i hi
  have := h i hi
  simp [this]

theorem selectCols_ok {X : List (List ℝ)} {atts : List Nat}
    (h : ∀ r ∈ X, ∀ j ∈ atts, j < r.length) :
    selectCols X atts = .ok (X.map fun r => atts.map fun j => r.getD j 0) := by
  unfold selectCols
  apply mapM_ok
  intro r hr
  exact takeIds_in 0 (h r hr)

theorem colOf_select (X : List (List ℝ)) (atts : List Nat) {k : Nat} (hk : k < atts.length) :
    colOf (X.map fun r => atts.map fun j => r.getD j 0) k = colOf X atts[k] := by
  unfold colOf
  rw [List.map_map]
  apply List.map_congr_left
  intro r _
  simp [hk]

/-- The attributes of a fitted standard scaler. -/
theorem fitStandard_eq {X : List (List ℝ)} {nc : Nat} (h : ∀ r ∈ X, r.length = nc) :
    let atts := whereIdx nc fun j => !(Scalar.eqb (std (colOf X j)) 0)
    Scaler.fitStandard X nc = if X = [] ∨ atts = [] then .error .valueError
      else .ok ⟨atts, atts.map fun j => mean (colOf X j),
        atts.map fun j => handleZero (std (colOf X j))⟩ := by
  intro atts
  unfold Scaler.fitStandard
  rw [usefullAtts_ok h, Res.bind_ok]
  have hatts : ∀ r ∈ X, ∀ j ∈ atts, j < r.length := by
    intro r hr j hj
    rw [h r hr]; exact (mem_whereIdx.1 hj).1
  rw [selectCols_ok hatts, Res.bind_ok]
  simp only [List.length_map, List.length_eq_zero_iff]
  split
  · rfl
  · have hcols : (List.range atts.length).mapM (fun j =>
        column (X.map fun r => atts.map fun j => r.getD j 0) j) =
        (.ok (atts.map (colOf X)) : Res _) := by
      rw [mapM_ok (g := fun k => colOf (X.map fun r => atts.map fun j => r.getD j 0) k)]
      · congr 1
        apply List.ext_getElem (by simp)
        intro k h1 h2
        rw [List.length_map] at h2
        rw [List.getElem_map, List.getElem_range, colOf_select X atts h2, List.getElem_map]
      · intro k hk
        apply column_ok
        intro r hr
        obtain ⟨r', _, rfl⟩ := List.mem_map.1 hr
        simpa using List.mem_range.1 hk
    rw [hcols]
    simp [List.map_map, Function.comp_def]
    rfl

theorem fitMinMax_eq {X : List (List ℝ)} {nc : Nat} (h : ∀ r ∈ X, r.length = nc) :
    let atts := whereIdx nc fun j => !(Scalar.eqb (std (colOf X j)) 0)
    Scaler.fitMinMax X nc = if X = [] ∨ atts = [] then .error .valueError
      else .ok ⟨atts,
        atts.map fun j => 0 - minOf (colOf X j) *
          (1 / handleZero (maxOf (colOf X j) - minOf (colOf X j))),
        atts.map fun j => 1 / handleZero (maxOf (colOf X j) - minOf (colOf X j))⟩ := by
  intro atts
  unfold Scaler.fitMinMax
  rw [usefullAtts_ok h, Res.bind_ok]
  have hatts : ∀ r ∈ X, ∀ j ∈ atts, j < r.length := by
    intro r hr j hj
    rw [h r hr]; exact (mem_whereIdx.1 hj).1
  rw [selectCols_ok hatts, Res.bind_ok]
  simp only [List.length_map, List.length_eq_zero_iff]
  split
  · rfl
  · have hcols : (List.range atts.length).mapM (fun j =>
        column (X.map fun r => atts.map fun j => r.getD j 0) j) =
        (.ok (atts.map (colOf X)) : Res _) := by
      rw [mapM_ok (g := fun k => colOf (X.map fun r => atts.map fun j => r.getD j 0) k)]
      · congr 1
        apply List.ext_getElem (by simp)
        intro k h1 h2
        rw [List.length_map] at h2
        rw [List.getElem_map, List.getElem_range, colOf_select X atts h2, List.getElem_map]
      · intro k hk
        apply column_ok
        intro r hr
        obtain ⟨r', _, rfl⟩ := List.mem_map.1 hr
        simpa using List.mem_range.1 hk
    rw [hcols]
    simp only [Res.bind_ok, Res.pure_eq, List.map_map, Function.comp_def, Except.ok.injEq,
      Scaler.mk.injEq]
    refine ⟨rfl, ?_, trivial⟩
    rw [List.zipWith_map, List.zipWith_self]

theorem zip_row (f : ℝ → ℝ × ℝ → ℝ) (atts : List Nat) (r : List ℝ) (o s : Nat → ℝ) :
    List.zipWith f (atts.map fun j => r.getD j 0) ((atts.map o).zip (atts.map s)) =
      atts.map fun j => f (r.getD j 0) (o j, s j) := by
  induction atts with
  | nil => rfl
  | cons a atts ih => simp only [List.map_cons, List.zip_cons_cons, List.zipWith_cons_cons, ih]

theorem minOf_le {c : List ℝ} {v : ℝ} (hv : v ∈ c) : minOf c ≤ v ∧ minOf c ∈ c := by
  match c, hv with
  | a :: t, hv =>
    unfold minOf
    have key : ∀ (t : List ℝ) (a : ℝ),
        let m := t.foldl (fun m v => if Scalar.ltb v m then v else m) a
        (m ≤ a ∧ ∀ v ∈ t, m ≤ v) ∧ (m = a ∨ m ∈ t) := by
      intro t
      induction t with
      | nil => intro a; simp
      | cons b t ih =>
        intro a
        obtain ⟨⟨h1, h2⟩, h3⟩ := ih (if Scalar.ltb b a then b else a)
        simp only [List.foldl_cons, real_ltb] at h1 h2 h3 ⊢
        split at h1 <;> rename_i hc <;> simp only [hc, if_true, if_false] at h1 h2 h3 ⊢
        · refine ⟨⟨by linarith, ?_⟩, ?_⟩
          · intro v hv
            rcases List.mem_cons.1 hv with rfl | hv
            · exact h1
            · exact h2 v hv
          · rcases h3 with h3 | h3
            · right; rw [h3]; simp
            · right; simp [h3]
        · refine ⟨⟨h1, ?_⟩, ?_⟩
          · intro v hv
            rcases List.mem_cons.1 hv with rfl | hv
            · linarith [not_lt.1 hc]
            · exact h2 v hv
          · rcases h3 with h3 | h3
            · left; exact h3
            · right; simp [h3]
    obtain ⟨⟨h1, h2⟩, h3⟩ := key t a
    refine ⟨?_, ?_⟩
    · rcases List.mem_cons.1 hv with rfl | hv
      · exact h1
      · exact h2 v hv
    · rcases h3 with h3 | h3
      · exact List.mem_cons.2 (.inl h3)
      · exact List.mem_cons.2 (.inr h3)

theorem le_maxOf {c : List ℝ} {v : ℝ} (hv : v ∈ c) : v ≤ maxOf c ∧ maxOf c ∈ c := by
  match c, hv with
  | a :: t, hv =>
    unfold maxOf
    have key : ∀ (t : List ℝ) (a : ℝ),
        let m := t.foldl (fun m v => if Scalar.ltb m v then v else m) a
        (a ≤ m ∧ ∀ v ∈ t, v ≤ m) ∧ (m = a ∨ m ∈ t) := by
      intro t
      induction t with
      | nil => intro a; simp
      | cons b t ih =>
        intro a
        obtain ⟨⟨h1, h2⟩, h3⟩ := ih (if Scalar.ltb a b then b else a)
        simp only [List.foldl_cons, real_ltb] at h1 h2 h3 ⊢
        split at h1 <;> rename_i hc <;> simp only [hc, if_true, if_false] at h1 h2 h3 ⊢
        · refine ⟨⟨by linarith, ?_⟩, ?_⟩
          · intro v hv
            rcases List.mem_cons.1 hv with rfl | hv
            · exact h1
            · exact h2 v hv
          · rcases h3 with h3 | h3
            · right; rw [h3]; simp
            · right; simp [h3]
        · refine ⟨⟨h1, ?_⟩, ?_⟩
          · intro v hv
            rcases List.mem_cons.1 hv with rfl | hv
            · linarith [not_lt.1 hc]
            · exact h2 v hv
          · rcases h3 with h3 | h3
            · left; exact h3
            · right; simp [h3]
    obtain ⟨⟨h1, h2⟩, h3⟩ := key t a
    refine ⟨?_, ?_⟩
    · rcases List.mem_cons.1 hv with rfl | hv
      · exact h1
      · exact h2 v hv
    · rcases h3 with h3 | h3
      · exact List.mem_cons.2 (.inl h3)
      · exact List.mem_cons.2 (.inr h3)

end Convst
