import Verif.Proofs.Scaler

/-!
# The scaler in any arithmetic
-/

set_option autoImplicit false
set_option linter.unusedSectionVars false

namespace Convst

section
variable {K : Type} [Scalar K]

/-- Column `j` of a matrix. -/
def colAt (X : List (List K)) (j : Nat) : List K := X.map fun r => r.getD j 0

theorem column_any {X : List (List K)} {j : Nat} (h : ∀ r ∈ X, j < r.length) : column X j = .ok (colAt X j) := by
  unfold column colAt
  apply mapM_ok
  intro r hr
  rw [pyGet_ok (h r hr), getD_lt _ (h r hr)]

theorem usefullAtts_any {X : List (List K)} {nc : Nat} (h : ∀ r ∈ X, r.length = nc) :
    usefullAtts X nc = .ok (whereIdx nc fun j => !(Scalar.eqb (std (colAt X j)) 0)) := by
  unfold usefullAtts
  rw [mapM_ok (g := fun j => std (colAt X j))]
  · rw [Res.bind_ok, Res.pure_eq]
    congr 1
    apply List.filter_congr
    intro j hj
    have hj' := List.mem_range.1 hj
    simp [hj']
  · intro j hj
    have hj' := List.mem_range.1 hj
    rw [column_any (fun r hr => by rw [h r hr]; exact hj')]
    rfl

theorem selectCols_any {X : List (List K)} {atts : List Nat} (h : ∀ r ∈ X, ∀ j ∈ atts, j < r.length) :
    selectCols X atts = .ok (X.map fun r => atts.map fun j => r.getD j 0) := by
  unfold selectCols
  apply mapM_ok
  intro r hr
  exact takeIds_in 0 (h r hr)

theorem colAt_select (X : List (List K)) (atts : List Nat) {k : Nat} (hk : k < atts.length) :
    colAt (X.map fun r => atts.map fun j => r.getD j 0) k = colAt X atts[k] := by
  unfold colAt
  rw [List.map_map]
  apply List.map_congr_left
  intro r _
  simp [hk]

theorem fitStandard_any {X : List (List K)} {nc : Nat} (h : ∀ r ∈ X, r.length = nc) :
    let atts := whereIdx nc fun j => !(Scalar.eqb (std (colAt X j)) 0)
    Scaler.fitStandard X nc = if X = [] ∨ atts = [] then .error .valueError
      else .ok ⟨atts, atts.map fun j => mean (colAt X j), atts.map fun j => handleZero (std (colAt X j))⟩ := by
  intro atts
  unfold Scaler.fitStandard
  rw [usefullAtts_any h, Res.bind_ok]
  have hatts : ∀ r ∈ X, ∀ j ∈ atts, j < r.length := by
    intro r hr j hj
    rw [h r hr]; exact (mem_whereIdx.1 hj).1
  rw [selectCols_any hatts, Res.bind_ok]
  simp only [List.length_map, List.length_eq_zero_iff]
  split
  · rfl
  · have hcols : (List.range atts.length).mapM (fun j =>
        column (X.map fun r => atts.map fun j => r.getD j 0) j) = (.ok (atts.map (colAt X)) : Res _) := by
      rw [mapM_ok (g := fun k => colAt (X.map fun r => atts.map fun j => r.getD j 0) k)]
      · congr 1
        apply List.ext_getElem (by simp)
        intro k h1 h2
        rw [List.length_map] at h2
        rw [List.getElem_map, List.getElem_range, colAt_select X atts h2, List.getElem_map]
      · intro k hk
        apply column_any
        intro r hr
        obtain ⟨r', _, rfl⟩ := List.mem_map.1 hr
        simpa using List.mem_range.1 hk
    rw [hcols]
    simp [List.map_map, Function.comp_def]
    rfl

theorem transformStandard_any {nc : Nat} {s : Scaler K} {Z : List (List K)} (hZ : ∀ r ∈ Z, r.length = nc)
    (hs : ∀ j ∈ s.atts, j < nc) :
    s.transformStandard Z = .ok (Z.map fun r => standardRow s.offset s.scale (s.atts.map fun j => r.getD j 0)) := by
  unfold Scaler.transformStandard
  rw [selectCols_any (fun r hr j hj => by rw [hZ r hr]; exact hs j hj), Res.bind_ok, Res.pure_eq, List.map_map]
  rfl

theorem standardRow_mem {atts : List Nat} {f g : Nat → K} {row : Nat → K} {a : K}
    (h : a ∈ standardRow (atts.map f) (atts.map g) (atts.map row)) : ∃ j ∈ atts, a = (row j - f j) / g j := by
  unfold standardRow at h
  induction atts with
  | nil => simp at h
  | cons j atts ih =>
    simp only [List.map_cons, List.zip_cons_cons, List.zipWith_cons_cons, List.mem_cons] at h
    rcases h with rfl | h
    · exact ⟨j, by simp, rfl⟩
    · obtain ⟨i, hi, e⟩ := ih h
      exact ⟨i, by simp [hi], e⟩

theorem colAt_mem {X : List (List K)} {nc j : Nat} (h : ∀ r ∈ X, r.length = nc) (hj : j < nc) {a : K}
    (ha : a ∈ colAt X j) : ∃ r ∈ X, a ∈ r := by
  obtain ⟨r, hr, rfl⟩ := List.mem_map.1 ha
  refine ⟨r, hr, ?_⟩
  beta_reduce
  rw [getD_lt _ (by rw [h r hr]; exact hj)]
  exact List.getElem_mem _

end

end Convst
