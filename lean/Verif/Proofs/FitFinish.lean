import Verif.Proofs.FitInit

/-! # Storing and compacting the shapelets -/

set_option autoImplicit false
set_option linter.unusedSectionVars false

namespace Convst
open Spec

section Generic
variable {α β : Type}

theorem set_range_map (n i : Nat) (f : Nat → α) (v : α) :
    ((List.range n).map f).set i v = (List.range n).map (Function.update f i v) := by
  apply List.ext_getElem?
  intro k
  rw [List.getElem?_set]
  by_cases hk : i = k
  · subst hk
    by_cases hn : i < n
    · simp [hn]
    · simp [hn]
  · rw [if_neg hk]
    by_cases hn : k < n
    · simp [List.getElem?_map, List.getElem?_range hn, Function.update_of_ne (Ne.symm hk)]
    · simp [hn]

theorem compress_range (n : Nat) (p : Nat → Bool) (f : Nat → α) :
    compress ((List.range n).map p) ((List.range n).map f) = ((List.range n).filter p).map f := by
  unfold compress
  rw [List.zip_map', List.filter_map, List.map_map]
  rfl

theorem eq_range_map (a : List α) (d : α) : a = (List.range a.length).map fun i => a.getD i d := by
  apply List.ext_getElem?
  intro k
  by_cases hk : k < a.length
  · rw [List.getElem?_map, List.getElem?_range hk, Option.map_some, getD_lt _ hk,
      List.getElem?_eq_getElem hk]
  · rw [List.getElem?_eq_none (by omega), List.getElem?_eq_none (by simp; omega)]

theorem compress_range' {n : Nat} (p : Nat → Bool) (a : List α) (d : α) (ha : a.length = n) :
    compress ((List.range n).map p) a = ((List.range n).filter p).map fun i => a.getD i d := by
  subst ha
  conv_lhs => rw [eq_range_map a d]
  rw [List.length_map, List.length_range, compress_range]

end Generic

/-! ## Univariate -/

variable {K : Type} [Scalar K]

/-- Row of the output array for what was stored. -/
def uRowOf (mx l : Nat) (o : Option (Out K)) : List K :=
  match o with
  | some o => o.values ++ List.replicate (mx - l) 0
  | none => List.replicate mx 0

/-- Threshold cell for what was stored. -/
def thrOf (o : Option (Out K)) : K :=
  match o with
  | some o => o.threshold
  | none => 0

/-- The univariate output arrays as a function of what has been stored. -/
def uTarget (lengths : List Nat) (mx : Nat) (S : Nat → Option (Option (Out K))) :
    List (List K) × List K :=
  ((List.range lengths.length).map fun i => uRowOf mx (lengths.getD i 0) (S i).join,
    (List.range lengths.length).map fun i => thrOf (S i).join)

theorem uWrite_ok {lengths : List Nat} {mx : Nat} (hmx : ∀ l ∈ lengths, l ≤ mx)
    (S : Nat → Option (Option (Out K))) (i : Nat) (v : Option (Out K)) (hi : i < lengths.length)
    (hS : S i = none) (hv : ∀ o, v = some o → o.values.length = lengths.getD i 0) :
    uWrite lengths (uTarget lengths mx S) i v =
      .ok (uTarget lengths mx (Function.update S i (some v))) := by
  have hupd : ∀ (β : Type) (f : Nat → Option (Out K) → β),
      (fun k => f k ((Function.update S i (some v)) k).join) =
        Function.update (fun k => f k (S k).join) i (f i v) := by
    intro β f
    funext k
    by_cases hk : k = i
    · subst hk; simp
    · simp [Function.update_of_ne hk]
  cases v with
  | none =>
    simp only [uWrite]
    congr 1
    unfold uTarget
    rw [hupd _ (fun k o => uRowOf mx (lengths.getD k 0) o), hupd _ (fun _ o => thrOf o)]
    congr 1
    · congr 1
      symm
      apply Function.update_eq_self_iff.2
      simp [hS]
    · congr 1
      symm
      apply Function.update_eq_self_iff.2
      simp [hS]
  | some o =>
    have hl := hv o rfl
    have hlm : lengths.getD i 0 ≤ mx := by
      rw [getD_lt _ hi]; exact hmx _ (List.getElem_mem hi)
    simp only [uWrite, uTarget]
    rw [aset_ok (by simpa using hi), Res.bind_ok, aget_range_map hi, Res.bind_ok,
      aget_getD 0 hi, Res.bind_ok]
    have hrow : uRowOf mx (lengths.getD i 0) (S i).join = List.replicate mx 0 := by
      simp [hS, uRowOf]
    rw [hrow, sliceAssign_ok (by omega) (by simpa using hlm), Res.bind_ok,
      aset_ok (by simpa using hi), Res.bind_ok, Res.pure_eq, set_range_map, set_range_map,
      hupd _ (fun k o => uRowOf mx (lengths.getD k 0) o), hupd _ (fun _ o => thrOf o)]
    simp only [uRowOf, thrOf, List.take_zero, List.nil_append, List.drop_replicate, hl, zero_add]

theorem keepNonZero_row (heq : ∀ x : K, Scalar.eqb x 0 = true ↔ x = 0) (mx l : Nat) (o : Option (Out K)) :
    (!((uRowOf mx l o).all fun v => Scalar.eqb v 0)) = true ↔
      ∃ v, o = some v ∧ ∃ x ∈ v.values, x ≠ 0 := by
  rw [Bool.not_eq_true', ← Bool.not_eq_true, List.all_eq_true]
  cases o with
  | none =>
    simp only [uRowOf, heq]
    simp
  | some o =>
    simp only [uRowOf, heq, List.mem_append, List.mem_replicate, Option.some.injEq,
      exists_eq_left']
    push Not
    constructor
    · rintro ⟨x, hx | hx, h⟩
      · exact ⟨x, hx, h⟩
      · exact absurd hx.2 h
    · rintro ⟨x, hx, h⟩
      exact ⟨x, Or.inl hx, h⟩

theorem uFinish_from (heq : ∀ x : K, Scalar.eqb x 0 = true ↔ x = 0) {P : UShp K} {mx : Nat} (hmx : ∀ l ∈ P.lengths, l ≤ mx)
    (hdil : P.dilations.length = P.lengths.length) (hnorm : P.normalize.length = P.lengths.length)
    {out : Nat → Option (Out K)}
    (hout : ∀ i v, i < P.lengths.length → out i = some v → v.values.length = P.lengths.getD i 0)
    (hpos : ∀ i, i < P.lengths.length → 1 ≤ P.lengths.getD i 0) :
    let S := uFinish P (uTarget P.lengths mx fun i =>
      if i < P.lengths.length then some (out i) else none)
    ∃ kept, UFrom (parOf P.lengths P.dilations P.normalize) out kept S ∧ UWF S := by
  intro S
  set n := P.lengths.length with hn
  set q : Nat → Bool := fun i => !((uRowOf mx (P.lengths.getD i 0) (out i)).all fun v =>
    Scalar.eqb v 0) with hq
  set kept := (List.range n).filter q with hkept
  have htgt : uTarget P.lengths mx (fun i => if i < P.lengths.length then some (out i) else none) =
      ((List.range n).map fun i => uRowOf mx (P.lengths.getD i 0) (out i),
        (List.range n).map fun i => thrOf (out i)) := by
    unfold uTarget
    rw [← hn]
    congr 1
    · refine List.map_congr_left ?_
      intro i hi
      rw [List.mem_range] at hi
      simp [hi]
    · refine List.map_congr_left ?_
      intro i hi
      rw [List.mem_range] at hi
      simp [hi]
  have hS : S = ⟨kept.map fun i => uRowOf mx (P.lengths.getD i 0) (out i),
      kept.map fun i => P.lengths.getD i 0, kept.map fun i => P.dilations.getD i 0,
      kept.map fun i => thrOf (out i), kept.map fun i => P.normalize.getD i false⟩ := by
    show uFinish P _ = _
    unfold uFinish
    rw [htgt]
    have hk : keepNonZero ((List.range n).map fun i => uRowOf mx (P.lengths.getD i 0) (out i)) =
        (List.range n).map q := by
      unfold keepNonZero
      rw [List.map_map]; rfl
    simp only [hk]
    rw [compress_range, compress_range, compress_range' q P.lengths 0 hn.symm,
      compress_range' q P.dilations 0 hdil, compress_range' q P.normalize false hnorm]
  have hmem : ∀ i, i ∈ kept ↔ i < n ∧ ∃ v, out i = some v ∧ ∃ x ∈ v.values, x ≠ 0 := by
    intro i
    rw [hkept, List.mem_filter, List.mem_range, keepNonZero_row heq]
  have hmap : ∀ {α : Type} (f : Nat → α) (k i : Nat), kept[k]? = some i →
      (kept.map f)[k]? = some (f i) := by
    intro α f k i h; rw [List.getElem?_map, h]; rfl
  have hvals : ∀ k i : Nat, kept[k]? = some i → ∃ v, out i = some v ∧ uValues S k = v.values ∧
      S.threshold[k]? = some v.threshold := by
    intro k i hk
    obtain ⟨hi, v, hv, _⟩ := (hmem i).1 (List.mem_of_getElem? hk)
    refine ⟨v, hv, ?_, ?_⟩
    · unfold uValues
      rw [hS]
      simp only
      rw [getD_some (hmap _ k i hk), getD_some (hmap _ k i hk), hv]
      simp only [uRowOf]
      rw [← hout i v hi hv, List.take_left]
    · rw [hS]
      simp only
      rw [hmap _ k i hk, hv]
      rfl
  refine ⟨kept, ⟨List.pairwise_lt_range.filter _, hmem, by rw [hS]; simp, ?_, ?_, ?_, hvals⟩, ?_⟩
  · intro k i hk; rw [hS]; exact hmap _ k i hk
  · intro k i hk; rw [hS]; exact hmap _ k i hk
  · intro k i hk; rw [hS]; exact hmap _ k i hk
  · have hk0 : ∀ k, k < kept.length → ∃ i, kept[k]? = some i ∧ i < n := by
      intro k hk
      exact ⟨kept[k], List.getElem?_eq_getElem hk, ((hmem _).1 (List.getElem_mem hk)).1⟩
    refine ⟨by rw [hS]; simp, by rw [hS]; simp, by rw [hS]; simp, by rw [hS]; simp, ?_, ?_⟩
    · intro k hk
      rw [hS] at hk ⊢
      simp only [List.length_map] at hk ⊢
      obtain ⟨i, h1, h2⟩ := hk0 k hk
      rw [getD_some (hmap _ k i h1)]
      exact hpos i h2
    · intro k hk
      rw [hS] at hk ⊢
      simp only [List.length_map] at hk ⊢
      obtain ⟨i, h1, h2⟩ := hk0 k hk
      rw [getD_some (hmap _ k i h1), getD_some (hmap _ k i h1)]
      have hlm : P.lengths.getD i 0 ≤ mx := by
        rw [getD_lt _ h2]; exact hmx _ (List.getElem_mem h2)
      cases ho : out i with
      | none => simpa [uRowOf] using hlm
      | some v =>
        have := hout i v h2 ho
        simp only [uRowOf, List.length_append, List.length_replicate]
        omega

end Convst
