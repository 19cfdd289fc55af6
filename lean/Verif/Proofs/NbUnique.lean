import Verif.Model.NumbaUtils
import Verif.Proofs.Basics
import Mathlib.Data.List.Lex

/-! # Helper lemmas for `nb_unique` -/

set_option autoImplicit false
set_option linter.unusedSectionVars false

namespace Convst

/-! ## Conjunction along an axis -/

theorem cell_fold (vs : List Bool) (idx : Nat) (out : List Bool) (b : Bool)
    (h : out[idx]? = some b) :
    vs.foldlM (init := out) (fun out v2 => do
      let o ← aget out idx
      aset out idx (v2 && o)) = (.ok (out.set idx (b && vs.all id)) : Res (List Bool)) := by
  have hlt : idx < out.length := by
    by_contra hc
    rw [List.getElem?_eq_none (by omega)] at h
    cases h
  induction vs generalizing out b with
  | nil =>
    have : out.set idx b = out := by
      rw [List.getElem?_eq_getElem hlt] at h
      rw [← Option.some.inj h]; simp
    simp [this]
  | cons v vs ih =>
    rw [List.foldlM_cons, aget_eq_ok.2 h, Res.bind_ok, aset_ok hlt, Res.bind_ok,
      ih (out.set idx (v && b)) (v && b) (by simp [hlt]) (by simpa using hlt)]
    simp only [List.set_set, List.all_cons, id]
    congr 2
    cases v <;> cases b <;> simp

theorem npAllAxis1_ok {arr : List (List Bool)} (h : ∀ r ∈ arr, 2 ≤ r.length) :
    npAllAxis1 arr = .ok (arr.map fun r => r.all id) := by
  unfold npAllAxis1
  have h1 : (arr.mapM fun r => do
      let a ← aget r 0
      let b ← aget r 1
      pure (a && b)) = (.ok (arr.map fun r => (r.take 2).all id) : Res (List Bool)) := by
    apply mapM_ok
    intro r hr
    have := h r hr
    match r, this with
    | a :: b :: t, _ => simp [aget]
  rw [h1, Res.bind_ok]
  obtain ⟨s, hs, hp⟩ := forRange_inv (n := arr.length)
    (s := arr.map fun r => (r.take 2).all id)
    (f := fun out idx => do
      let r ← aget arr idx
      (r.drop 2).foldlM (init := out) fun out v2 => do
        let o ← aget out idx
        aset out idx (v2 && o))
    (P := fun i out => out = (arr.take i).map (fun r => r.all id) ++
      (arr.drop i).map fun r => (r.take 2).all id)
    (by simp) (by
    intro i out hi hout
    have hget : out[i]? = some ((arr[i].take 2).all id) := by
      rw [hout, List.getElem?_append_right (by simp)]
      simp [Nat.min_eq_left (Nat.le_of_lt hi), hi]
    refine ⟨out.set i (((arr[i].take 2).all id) && ((arr[i].drop 2).all id)), ?_, ?_⟩
    · rw [aget_ok hi, Res.bind_ok]
      exact cell_fold _ _ _ _ hget
    · have hcell : (((arr[i].take 2).all id) && ((arr[i].drop 2).all id)) = arr[i].all id := by
        rw [← List.all_append, List.take_append_drop]
      rw [hcell, hout, List.set_append_right _ _ (by simp)]
      have hd : arr.drop i = arr[i] :: arr.drop (i + 1) := (List.getElem_cons_drop hi).symm
      rw [hd]
      simp only [List.length_map, List.length_take, Nat.min_eq_left (Nat.le_of_lt hi), Nat.sub_self,
        List.map_cons, List.set_cons_zero]
      rw [List.take_add_one, List.getElem?_eq_getElem hi]
      simp only [Option.toList_some, List.map_append, List.map_cons, List.map_nil,
        List.append_assoc, List.cons_append, List.nil_append])
  rw [hs, hp]; simp

variable {α : Type} [LinearOrder α]

/-! ## Stable argsort -/

theorem argsortStable_perm (keys : List α) :
    (argsortStable keys).Perm (List.range keys.length) := by
  have := (List.mergeSort_perm keys.zipIdx fun p q => decide (p.1 ≤ q.1)).map Prod.snd
  refine this.trans (List.Perm.of_eq ?_)
  rw [List.zipIdx_map_snd, List.range_eq_range']

theorem nodup_no_swap {β : Type} {l : List β} {a b : β} (hn : l.Nodup) (h1 : [a, b].Sublist l)
    (h2 : [b, a].Sublist l) : False := by
  induction l with
  | nil => cases h1
  | cons c l ih =>
    rw [List.nodup_cons] at hn
    rcases List.sublist_cons_iff.1 h1 with h1 | ⟨r, hr, h1⟩
    · rcases List.sublist_cons_iff.1 h2 with h2 | ⟨r', hr', h2⟩
      · exact ih hn.2 h1 h2
      · simp only [List.cons.injEq] at hr'
        exact hn.1 (hr'.1 ▸ h1.subset (by simp))
    · simp only [List.cons.injEq] at hr
      rcases List.sublist_cons_iff.1 h2 with h2 | ⟨r', hr', h2⟩
      · exact hn.1 (hr.1 ▸ h2.subset (by simp))
      · simp only [List.cons.injEq] at hr'
        have := h1.subset (by rw [← hr.2]; simp : b ∈ r)
        rw [hr'.1] at this
        exact hn.1 this

theorem pair_sublist_or {β : Type} {l : List β} {a b : β} (ha : a ∈ l) (hb : b ∈ l) (hne : a ≠ b) :
    [a, b].Sublist l ∨ [b, a].Sublist l := by
  induction l with
  | nil => cases ha
  | cons c l ih =>
    rcases List.mem_cons.1 ha with rfl | ha'
    · rcases List.mem_cons.1 hb with rfl | hb'
      · exact absurd rfl hne
      · exact .inl (List.Sublist.cons_cons _ (List.singleton_sublist.2 hb'))
    · rcases List.mem_cons.1 hb with rfl | hb'
      · exact .inr (List.Sublist.cons_cons _ (List.singleton_sublist.2 ha'))
      · exact (ih ha' hb').imp (fun h => h.cons _) (fun h => h.cons _)

/-- Earlier elements of a sorted argsort have a smaller key, or the same key and a smaller index. -/
theorem zipSort_pairwise (keys : List α) :
    (keys.zipIdx.mergeSort fun p q => decide (p.1 ≤ q.1)).Pairwise fun p q =>
      p.1 < q.1 ∨ (p.1 = q.1 ∧ p.2 < q.2) := by
  set le : α × Nat → α × Nat → Bool := fun p q => decide (p.1 ≤ q.1) with hle
  have htr : ∀ a b c : α × Nat, le a b = true → le b c = true → le a c = true := by
    intro a b c h1 h2
    simp only [hle, decide_eq_true_eq] at *
    exact h1.trans h2
  have htot : ∀ a b : α × Nat, (le a b || le b a) = true := by
    intro a b
    simp only [hle, Bool.or_eq_true, decide_eq_true_eq]
    exact le_total _ _
  have hs := List.pairwise_mergeSort htr htot keys.zipIdx
  have hidx : keys.zipIdx.Pairwise fun p q => p.2 < q.2 := by
    have : (keys.zipIdx.map Prod.snd).Pairwise (· < ·) := by
      rw [List.zipIdx_map_snd, ← List.range_eq_range']
      exact List.pairwise_lt_range
    exact List.pairwise_map.1 this
  have hnd : keys.zipIdx.Nodup := hidx.imp fun h heq => by rw [heq] at h; exact absurd h (lt_irrefl _)
  have hnd' : (keys.zipIdx.mergeSort le).Nodup := (List.mergeSort_perm _ _).nodup_iff.2 hnd
  rw [List.pairwise_iff_forall_sublist]
  intro p q hpq
  have h1 : p.1 ≤ q.1 := by
    have := List.pairwise_iff_forall_sublist.1 hs hpq
    simpa [hle] using this
  rcases lt_or_eq_of_le h1 with h | h
  · exact .inl h
  · refine .inr ⟨h, ?_⟩
    have hp : p ∈ keys.zipIdx := (List.mergeSort_perm _ _).mem_iff.1 (hpq.subset (by simp))
    have hq : q ∈ keys.zipIdx := (List.mergeSort_perm _ _).mem_iff.1 (hpq.subset (by simp))
    have hne : p ≠ q := by
      intro heq
      have := hnd'.sublist hpq
      simp [heq] at this
    rcases pair_sublist_or hp hq hne with h' | h'
    · exact List.pairwise_iff_forall_sublist.1 hidx h'
    · exfalso
      have := List.pair_sublist_mergeSort htr htot (a := q) (b := p)
        (by simp [hle, h]) h'
      exact nodup_no_swap hnd' hpq this

theorem argsortStable_pairwise (keys : List α) :
    (argsortStable keys).Pairwise fun i j =>
      ∀ (hi : i < keys.length) (hj : j < keys.length),
        keys[i] < keys[j] ∨ (keys[i] = keys[j] ∧ i < j) := by
  unfold argsortStable
  rw [List.pairwise_map]
  refine List.Pairwise.imp_of_mem ?_ (zipSort_pairwise keys)
  intro p q hp hq h hi hj
  have hp' : p ∈ keys.zipIdx := (List.mergeSort_perm _ _).mem_iff.1 hp
  have hq' : q ∈ keys.zipIdx := (List.mergeSort_perm _ _).mem_iff.1 hq
  have e1 : keys[p.2] = p.1 := by
    have := List.mem_zipIdx' hp'; exact this.2.symm
  have e2 : keys[q.2] = q.1 := by
    have := List.mem_zipIdx' hq'; exact this.2.symm
  rw [e1, e2]; exact h

/-! ## The radix sort -/

theorem range_map_getD {β : Type} (S : List β) (d : β) :
    (List.range S.length).map (fun k => S.getD k d) = S := by
  apply List.ext_getElem (by simp)
  intro i h1 h2
  simp [h2]

theorem gather_map {β γ : Type} {S : List β} (f : β → γ) (d : β) {ids : List Nat}
    (h : ∀ k ∈ ids, k < S.length) :
    gather (S.map f) ids = .ok ((ids.map fun k => S.getD k d).map f) := by
  unfold gather
  rw [mapM_ok (g := fun k => f (S.getD k d))]
  · simp
  · intro k hk
    have := h k hk
    rw [aget_ok (by simpa using this)]
    simp [this]

/-- Order of (row, position) pairs seen from column `i` on. -/
def RadixRel (i : Nat) (p q : List α × Nat) : Prop :=
  p.1.drop i < q.1.drop i ∨ (p.1.drop i = q.1.drop i ∧ p.2 < q.2)

theorem radix_step {S : List (List α × Nat)} {i c : Nat} (hi : i < c)
    (hlen : ∀ p ∈ S, p.1.length = c) (hS : S.Pairwise (RadixRel (i + 1))) :
    ∃ (S' : List (List α × Nat)) (key : List α), (S.map Prod.fst).mapM (fun r => aget r i) = .ok key ∧
      gather (S.map Prod.fst) (argsortStable key) = .ok (S'.map Prod.fst) ∧
      gather (S.map Prod.snd) (argsortStable key) = .ok (S'.map Prod.snd) ∧
      S'.Perm S ∧ S'.Pairwise (RadixRel i) := by
  have hkey : ∀ p ∈ S, i < p.1.length := fun p hp => by rw [hlen p hp]; exact hi
  obtain ⟨key, hk, hkl, hkv⟩ : ∃ key : List α,
      (S.map Prod.fst).mapM (fun r => aget r i) = .ok key ∧ key.length = S.length ∧
      ∀ (k : Nat) (h : k < S.length) (h' : k < key.length),
        S[k].1.drop i = key[k] :: S[k].1.drop (i + 1) := by
    clear hS hlen
    induction S with
    | nil => exact ⟨[], by simp, rfl, fun k h => absurd h (by simp)⟩
    | cons p S ih =>
      obtain ⟨key, h1, h2, h3⟩ := ih (fun q hq => hkey q (by simp [hq]))
      have hp := hkey p (by simp)
      refine ⟨p.1[i] :: key, ?_, by simp [h2], ?_⟩
      · rw [List.map_cons, List.mapM_cons, aget_ok hp, Res.bind_ok, h1]; rfl
      · intro k hk hk'
        cases k with
        | zero => simp
        | succ k => exact h3 k (by simpa using hk) (by simpa using hk')
  have hperm := argsortStable_perm key
  have hlt : ∀ k ∈ argsortStable key, k < S.length := fun k hk' => by
    have := hperm.mem_iff.1 hk'
    rw [List.mem_range, hkl] at this; exact this
  refine ⟨(argsortStable key).map fun k => S.getD k ([], 0), key, hk, gather_map _ _ hlt,
    gather_map _ _ hlt, ?_, ?_⟩
  · rw [hkl] at hperm
    have := hperm.map fun k => S.getD k ([], 0)
    rwa [range_map_getD] at this
  · rw [List.pairwise_map]
    refine List.Pairwise.imp_of_mem ?_ (argsortStable_pairwise key)
    intro a b ha hb h
    have ha' := hlt a ha
    have hb' := hlt b hb
    have h := h (by omega) (by omega)
    rw [getD_lt _ ha', getD_lt _ hb']
    unfold RadixRel
    rw [hkv a ha' (by omega), hkv b hb' (by omega)]
    rcases h with h | ⟨h, hab⟩
    · exact .inl (List.Lex.rel h)
    · have hrel := List.pairwise_iff_getElem.1 hS a b ha' hb' hab
      rw [h]
      rcases hrel with h' | ⟨h', h''⟩
      · exact .inl (List.Lex.cons h')
      · exact .inr ⟨by rw [h'], h''⟩

theorem radix_loop {k c : Nat} (hk : k ≤ c) {S : List (List α × Nat)}
    (hlen : ∀ p ∈ S, p.1.length = c) (hS : S.Pairwise (RadixRel k)) :
    ∃ S' : List (List α × Nat),
      ((List.range k).reverse).foldlM sortByColumn (S.map Prod.fst, S.map Prod.snd) = (.ok (S'.map Prod.fst, S'.map Prod.snd) : Res _) ∧
      S'.Perm S ∧ S'.Pairwise (RadixRel 0) := by
  induction k generalizing S with
  | zero => exact ⟨S, by simp, .refl _, hS⟩
  | succ k ih =>
    obtain ⟨S1, key, h1, h2, h3, h4, h5⟩ := radix_step (by omega) hlen hS
    obtain ⟨S2, h6, h7, h8⟩ := ih (by omega) (fun p hp => hlen p (h4.mem_iff.1 hp)) h5
    refine ⟨S2, ?_, h7.trans h4, h8⟩
    rw [List.range_succ, List.reverse_append, List.reverse_singleton, List.singleton_append,
      List.foldlM_cons]
    have : sortByColumn (S.map Prod.fst, S.map Prod.snd) k =
        .ok (S1.map Prod.fst, S1.map Prod.snd) := by
      unfold sortByColumn
      simp only [h1, Res.bind_ok, h2, h3, Res.pure_eq]
    rw [this, Res.bind_ok]
    exact h6

/-! ## Boundaries of the runs -/

/-- The positions starting a run of equal rows. -/
def isStart (D : List (List α)) (j : Nat) : Bool := j == 0 || !(D[j - 1]? == D[j]?)

theorem zipWith_all_eq {r s : List α} (h : r.length = s.length) :
    (List.zipWith (fun a b => decide (a = b)) r s).all id = decide (r = s) := by
  induction r generalizing s with
  | nil => cases s <;> simp_all
  | cons a r ih =>
    cases s with
    | nil => simp at h
    | cons b s =>
      simp only [List.length_cons, Nat.add_right_cancel_iff] at h
      simp [ih h]

theorem range_filter_succ (n : Nat) (p : Nat → Bool) (h0 : p 0 = true) :
    whereIdx (n + 1) p = 0 :: (whereIdx n fun i => p (i + 1)).map (· + 1) := by
  unfold whereIdx
  rw [List.range_succ_eq_map, List.filter_cons, if_pos h0, List.filter_map]
  rfl

theorem whereIdx_congr {n : Nat} {p q : Nat → Bool} (h : ∀ i, i < n → p i = q i) :
    whereIdx n p = whereIdx n q :=
  List.filter_congr fun i hi => h i (List.mem_range.1 hi)

theorem nonzeroRows_eq (m : List (List Bool)) (h : ∀ r ∈ m, r.length ≤ 1) :
    nonzeroRows m = whereIdx m.length fun i => (m.getD i []).any id := by
  unfold nonzeroRows whereIdx
  have h1 : ∀ p ∈ m.zipIdx, ((p.1.filter id).map fun _ => p.2) =
      if p.1.any id then [p.2] else [] := by
    intro p hp
    have := h p.1 (by have := List.mem_zipIdx' hp; rw [this.2]; exact List.getElem_mem _)
    rcases hr : p.1 with _ | ⟨b, _ | ⟨b', t⟩⟩
    · simp
    · cases b <;> simp
    · rw [hr] at this; simp at this
  rw [List.flatMap_congr h1]
  have h2 : List.range m.length = m.zipIdx.map Prod.snd := by
    rw [List.zipIdx_map_snd, List.range_eq_range']
  rw [h2, List.filter_map]
  have h3 : m.zipIdx.filter ((fun i => (m.getD i []).any id) ∘ Prod.snd) =
      m.zipIdx.filter fun p => p.1.any id := by
    apply List.filter_congr
    intro p hp
    have := List.mem_zipIdx' hp
    simp [this.2, this.1]
  rw [h3]
  generalize m.zipIdx = z
  induction z with
  | nil => rfl
  | cons p z ih =>
    rw [List.flatMap_cons, ih, List.filter_cons]
    split <;> simp

theorem eqRows_length (D : List (List α)) : (eqRows D).length = D.length - 1 := by
  simp [eqRows]

theorem eqRows_get {D : List (List α)} {i : Nat} (h : i < D.length - 1) :
    (eqRows D)[i]'(by rw [eqRows_length]; exact h) =
      List.zipWith (fun a b => decide (a = b)) (D[i]'(by omega)) (D[i + 1]'(by omega)) := by
  simp [eqRows]

theorem eqRows_row {D : List (List α)} {c : Nat} (hD : ∀ r ∈ D, r.length = c) :
    ∀ r ∈ eqRows D, r.length = c := by
  intro r hr
  obtain ⟨i, hi, rfl⟩ := List.getElem_of_mem hr
  rw [eqRows_length] at hi
  rw [eqRows_get hi]
  simp [hD _ (List.getElem_mem _)]

theorem eqRows_all {D : List (List α)} {c i : Nat} (hD : ∀ r ∈ D, r.length = c)
    (h : i < D.length - 1) :
    ((eqRows D).getD i []).all id = (D[i]? == D[i + 1]?) := by
  rw [getD_lt _ (by rw [eqRows_length]; exact h), eqRows_get h,
    zipWith_all_eq (by rw [hD _ (List.getElem_mem _), hD _ (List.getElem_mem _)]),
    List.getElem?_eq_getElem (by omega : i < D.length),
    List.getElem?_eq_getElem (by omega : i + 1 < D.length)]
  simp [beq_eq_decide]

/-- Both ways of finding the run boundaries. -/
theorem additional_eq {D : List (List α)} {c : Nat} (hD : ∀ r ∈ D, r.length = c) :
    additionalUniques D c =
      .ok ((whereIdx (D.length - 1) fun i => isStart D (i + 1)).map (· + 1)) := by
  have hst : ∀ i, i < D.length - 1 → isStart D (i + 1) = !((eqRows D).getD i []).all id := by
    intro i hi
    rw [eqRows_all hD hi]
    simp [isStart]
  unfold additionalUniques
  split
  · rename_i hc
    rw [npAllAxis1_ok (fun r hr => by rw [eqRows_row hD r hr]; omega), Res.bind_ok]
    simp only [List.length_map, eqRows_length, Res.pure_eq]
    congr 2
    apply whereIdx_congr
    intro i hi
    rw [hst i hi, List.getElem?_map, List.getElem?_eq_getElem (by rw [eqRows_length]; exact hi),
      getD_lt _ (by rw [eqRows_length]; exact hi)]
    rw [Option.map_some]
    generalize List.all _ id = b
    cases b <;> rfl
  · rename_i hc
    rw [nonzeroRows_eq]
    · simp only [List.length_map, eqRows_length, Res.pure_eq]
      congr 2
      apply whereIdx_congr
      intro i hi
      have hi' : i < (eqRows D).length := by rw [eqRows_length]; exact hi
      rw [hst i hi, getD_lt _ hi', getD_lt _ (by simpa using hi'), List.getElem_map, List.any_map,
        List.not_all_eq_any_not]
      rfl
    · intro r hr
      obtain ⟨r', hr', rfl⟩ := List.mem_map.1 hr
      rw [List.length_map, eqRows_row hD r' hr']
      omega

/-! ## Runs of a sorted list -/

section Runs
variable {D : List (List α)}

theorem start_lt (hD : D.Pairwise (· ≤ ·)) {i j : Nat} (hij : i < j) (hj : j < D.length)
    (hs : isStart D j = true) : D[i] < D[j] := by
  have h1 : D[i] ≤ D[j - 1] := by
    rcases Nat.lt_or_ge i (j - 1) with h | h
    · exact List.pairwise_iff_getElem.1 hD i (j - 1) (by omega) (by omega) h
    · have : i = j - 1 := by omega
      subst this; exact le_refl _
  have h2 : D[j - 1] ≤ D[j] := List.pairwise_iff_getElem.1 hD (j - 1) j (by omega) hj (by omega)
  have h3 : D[j - 1] ≠ D[j] := by
    simp only [isStart, Bool.or_eq_true, beq_iff_eq, Bool.not_eq_true'] at hs
    rcases hs with h | h
    · omega
    · rw [List.getElem?_eq_getElem (by omega : j - 1 < D.length),
        List.getElem?_eq_getElem hj] at h
      intro heq
      rw [heq] at h
      simp at h
  exact lt_of_le_of_lt h1 (lt_of_le_of_ne h2 h3)

/-- Between a start and the next one the row does not change. -/
theorem run_const {i : Nat} : ∀ (j : Nat) (_ : i ≤ j) (hj : j < D.length),
    (∀ k, i < k → k ≤ j → isStart D k = false) → D[j] = D[i]'(by omega) := by
  intro j
  induction j with
  | zero =>
    intro hij _ _
    have : i = 0 := by omega
    subst this; rfl
  | succ j ih =>
    intro hij hj h
    rcases Nat.lt_or_ge i (j + 1) with hlt | hge
    · have h1 := h (j + 1) hlt (le_refl _)
      simp only [isStart, Bool.or_eq_false_iff, Bool.not_eq_false', Nat.add_sub_cancel] at h1
      rw [List.getElem?_eq_getElem (by omega : j < D.length), List.getElem?_eq_getElem hj] at h1
      have h2 : D[j] = D[j + 1] := by simpa using h1.2
      rw [← h2]
      exact ih (by omega) (by omega) fun k hk1 hk2 => h k hk1 (by omega)
    · have : i = j + 1 := by omega
      subst this; rfl

theorem starts_sorted (n : Nat) (p : Nat → Bool) : (whereIdx n p).Pairwise (· < ·) :=
  List.pairwise_lt_range.filter _

/-- The first position of a value is a start. -/
theorem exists_start {r : List α} (hr : r ∈ D) :
    ∃ j, ∃ hj : j < D.length, D[j] = r ∧ isStart D j = true := by
  have hlt : D.idxOf r < D.length := List.idxOf_lt_length_iff.2 hr
  refine ⟨D.idxOf r, hlt, List.getElem_idxOf hlt, ?_⟩
  simp only [isStart, Bool.or_eq_true, beq_iff_eq, Bool.not_eq_true']
  by_cases h0 : D.idxOf r = 0
  · exact .inl h0
  · right
    rw [List.getElem?_eq_getElem hlt, List.getElem_idxOf hlt,
      List.getElem?_eq_getElem (by omega : D.idxOf r - 1 < D.length)]
    have : D[D.idxOf r - 1] ≠ r := by
      have := List.not_of_lt_findIdx (p := (· == r)) (xs := D) (i := D.idxOf r - 1)
        (by unfold List.idxOf at h0 ⊢; omega)
      simpa using this
    simpa using this

theorem starts_rows_sorted (hD : D.Pairwise (· ≤ ·)) :
    ((whereIdx D.length (isStart D)).map fun j => D.getD j []).Pairwise (· < ·) := by
  rw [List.pairwise_map]
  refine List.Pairwise.imp_of_mem ?_ (starts_sorted _ _)
  intro i j hi hj hij
  obtain ⟨hi1, -⟩ := mem_whereIdx.1 hi
  obtain ⟨hj1, hj2⟩ := mem_whereIdx.1 hj
  rw [getD_lt _ hi1, getD_lt _ hj1]
  exact start_lt hD hij hj1 hj2

theorem starts_rows_mem (r : List α) :
    r ∈ ((whereIdx D.length (isStart D)).map fun j => D.getD j []) ↔ r ∈ D := by
  simp only [List.mem_map, mem_whereIdx]
  constructor
  · rintro ⟨j, ⟨hj, -⟩, rfl⟩
    rw [getD_lt _ hj]; exact List.getElem_mem _
  · intro hr
    obtain ⟨j, hj, h1, h2⟩ := exists_start hr
    exact ⟨j, ⟨hj, h2⟩, by rw [getD_lt _ hj, h1]⟩

theorem count_range {β : Type} [BEq β] [LawfulBEq β] {L : List β} {r : β} {i k : Nat} (hik : i ≤ k)
    (hk : k ≤ L.length) (h : ∀ j (hj : j < L.length), L[j] = r ↔ i ≤ j ∧ j < k) :
    L.count r = k - i := by
  have hsplit : L = L.take i ++ ((L.drop i).take (k - i) ++ L.drop k) := by
    conv_lhs => rw [← List.take_append_drop i L, ← List.take_append_drop (k - i) (L.drop i)]
    rw [List.drop_drop, Nat.add_sub_cancel' hik]
  rw [hsplit, List.count_append, List.count_append]
  have h1 : (L.take i).count r = 0 := by
    rw [List.count_eq_zero]
    intro hm
    obtain ⟨j, hj, hjr⟩ := List.getElem_of_mem hm
    rw [List.length_take] at hj
    rw [List.getElem_take] at hjr
    have := (h j (by omega)).1 hjr
    omega
  have h2 : (L.drop k).count r = 0 := by
    rw [List.count_eq_zero]
    intro hm
    obtain ⟨j, hj, hjr⟩ := List.getElem_of_mem hm
    rw [List.length_drop] at hj
    rw [List.getElem_drop] at hjr
    have := (h (k + j) (by omega)).1 hjr
    omega
  have h3 : ((L.drop i).take (k - i)).count r = k - i := by
    have : (L.drop i).take (k - i) = List.replicate (k - i) r := by
      apply List.ext_getElem
      · simp; omega
      · intro j hj1 hj2
        rw [List.length_replicate] at hj2
        rw [List.getElem_take, List.getElem_drop, List.getElem_replicate]
        exact (h (i + j) (by omega)).2 ⟨by omega, by omega⟩
    rw [this, List.count_replicate_self]
  omega

/-- Multiplicity of the row at a start, given the next boundary. -/
theorem run_count (hD : D.Pairwise (· ≤ ·)) {i k : Nat} (hi : i < D.length) (hik : i < k)
    (hk : k ≤ D.length) (hbound : k = D.length ∨ isStart D k = true)
    (hno : ∀ m, i < m → m < k → isStart D m = false) (hs : isStart D i = true) :
    D.count D[i] = k - i := by
  apply count_range (le_of_lt hik) hk
  intro j hj
  constructor
  · intro heq
    constructor
    · by_contra hlt
      have := start_lt hD (by omega : j < i) hi hs
      rw [heq] at this; exact lt_irrefl _ this
    · by_contra hge
      rcases hbound with hb | hb
      · omega
      · have h1 := start_lt hD hik (by omega) hb
        have h2 : D[k]'(by omega) ≤ D[j] := by
          rcases Nat.lt_or_ge k j with h | h
          · exact List.pairwise_iff_getElem.1 hD k j (by omega) hj h
          · have : k = j := by omega
            subst this; exact le_refl _
        rw [heq] at h2
        exact absurd (lt_of_lt_of_le h1 h2) (lt_irrefl _)
  · rintro ⟨h1, h2⟩
    exact run_const j h1 hj fun m hm1 hm2 => hno m hm1 (by omega)

/-- The differences of consecutive starts are the multiplicities. -/
theorem run_counts (hD : D.Pairwise (· ≤ ·)) (h0 : 0 < D.length) :
    List.zipWith (· - ·) ((whereIdx D.length (isStart D)).drop 1 ++ [D.length])
      (whereIdx D.length (isStart D)) =
    (whereIdx D.length (isStart D)).map fun j => D.count (D.getD j []) := by
  set I := whereIdx D.length (isStart D) with hI
  have hIs : I.Pairwise (· < ·) := starts_sorted _ _
  have hIpos : 0 < I.length := List.length_pos_of_mem (a := 0) (mem_whereIdx.2 ⟨h0, rfl⟩)
  apply List.ext_getElem
  · simp; omega
  · intro t ht1 ht2
    rw [List.length_map] at ht2
    rw [List.getElem_zipWith, List.getElem_map]
    obtain ⟨hj1, hj2⟩ := mem_whereIdx.1 (List.getElem_mem ht2)
    rw [getD_lt _ hj1]
    symm
    by_cases hlast : t + 1 < I.length
    · have hn : (I.drop 1 ++ [D.length])[t]'(by simp; omega) = I[t + 1] := by
        rw [List.getElem_append_left (by simp; omega)]
        simp
      rw [hn]
      have hlt := List.pairwise_iff_getElem.1 hIs t (t + 1) ht2 hlast (by omega)
      obtain ⟨hk1, hk2⟩ := mem_whereIdx.1 (List.getElem_mem hlast)
      refine run_count hD hj1 hlt (le_of_lt hk1) (.inr hk2) ?_ hj2
      intro m hm1 hm2
      by_contra hm
      rw [Bool.not_eq_false] at hm
      have hmem : m ∈ I := mem_whereIdx.2 ⟨by omega, hm⟩
      obtain ⟨u, hu, rfl⟩ := List.getElem_of_mem hmem
      rcases Nat.lt_or_ge u (t + 1) with hu1 | hu1
      · rcases Nat.lt_or_ge u t with hu2 | hu2
        · have := List.pairwise_iff_getElem.1 hIs u t hu ht2 hu2; omega
        · have : u = t := by omega
          subst this; omega
      · rcases Nat.lt_or_ge (t + 1) u with hu2 | hu2
        · have := List.pairwise_iff_getElem.1 hIs (t + 1) u hlast hu hu2; omega
        · have : u = t + 1 := by omega
          subst this; omega
    · have hn : (I.drop 1 ++ [D.length])[t]'(by simp; omega) = D.length := by
        rw [List.getElem_append_right (by simp; omega)]
        simp
      rw [hn]
      refine run_count hD hj1 hj1 (le_refl _) (.inl rfl) ?_ hj2
      intro m hm1 hm2
      by_contra hm
      rw [Bool.not_eq_false] at hm
      have hmem : m ∈ I := mem_whereIdx.2 ⟨by omega, hm⟩
      obtain ⟨u, hu, rfl⟩ := List.getElem_of_mem hmem
      rcases Nat.lt_or_ge u t with hu2 | hu2
      · have := List.pairwise_iff_getElem.1 hIs u t hu ht2 hu2; omega
      · have : u = t := by omega
        subst this; omega

end Runs

/-! ## First positions -/

theorem idxOf_eq_of_first {β : Type} [BEq β] [LawfulBEq β] {L : List β} {r : β} {o : Nat}
    (ho : o < L.length) (hr : L[o] = r) (hmin : ∀ k (hk : k < L.length), L[k] = r → o ≤ k) :
    L.idxOf r = o := by
  have hmem : r ∈ L := hr ▸ List.getElem_mem ho
  have hlt : L.idxOf r < L.length := List.idxOf_lt_length_iff.2 hmem
  apply le_antisymm
  · by_contra hc
    have := List.not_of_lt_findIdx (p := (· == r)) (xs := L) (i := o)
      (by unfold List.idxOf at hc; omega)
    simp [hr] at this
  · exact hmin _ hlt (List.getElem_idxOf hlt)

theorem start_idx {S : List (List α × Nat)} {input : List (List α)}
    (hperm : S.Perm input.zipIdx) (hS : S.Pairwise (RadixRel 0)) {j : Nat} (hj : j < S.length)
    (hs : isStart (S.map Prod.fst) j = true) :
    S[j].2 = input.idxOf S[j].1 := by
  have hmem : S[j] ∈ input.zipIdx := hperm.mem_iff.1 (List.getElem_mem hj)
  obtain ⟨ho, hr⟩ := List.mem_zipIdx' hmem
  symm
  refine idxOf_eq_of_first ho hr.symm ?_
  intro k hk hkr
  have hmem' : (S[j].1, k) ∈ input.zipIdx := by
    rw [← hkr]
    rw [List.mk_mem_zipIdx_iff_getElem?]
    simp [hk]
  obtain ⟨j', hj', heq⟩ := List.getElem_of_mem (hperm.mem_iff.2 hmem')
  have hle : (S.map Prod.fst).Pairwise (· ≤ ·) := by
    rw [List.pairwise_map]
    refine hS.imp ?_
    rintro p q (h | ⟨h, -⟩)
    · simpa using le_of_lt h
    · simp only [List.drop_zero] at h; rw [h]
  rcases lt_trichotomy j j' with h | h | h
  · have := List.pairwise_iff_getElem.1 hS j j' hj hj' h
    rw [heq] at this
    rcases this with h' | ⟨-, h'⟩
    · exact absurd h' (by simp)
    · exact le_of_lt h'
  · subst h; rw [heq]
  · have := start_lt hle h (by simpa using hj) hs
    simp only [List.getElem_map, heq, lt_self_iff_false] at this

end Convst
