import Verif.Proofs.Basics

/-! # `combinations1d` computes the distinct pairs in order of first occurrence -/

set_option autoImplicit false

namespace Convst

/-- Distinct elements in order of first occurrence. -/
def firstOcc {α : Type} [DecidableEq α] (z : List α) : List α :=
  z.foldl (fun acc a => if a ∈ acc then acc else acc ++ [a]) []

section
variable {α : Type} [DecidableEq α]

theorem firstOcc_snoc (z : List α) (a : α) :
    firstOcc (z ++ [a]) = if a ∈ firstOcc z then firstOcc z else firstOcc z ++ [a] := by
  unfold firstOcc; rw [List.foldl_append]; rfl

@[simp] theorem firstOcc_nil : firstOcc ([] : List α) = [] := rfl

theorem mem_firstOcc {z : List α} {a : α} : a ∈ firstOcc z ↔ a ∈ z := by
  induction z using List.reverseRecOn generalizing a with
  | nil => simp
  | append_singleton z b ih =>
    rw [firstOcc_snoc]
    split
    · rename_i h
      rw [ih, List.mem_append, List.mem_singleton]
      constructor
      · exact Or.inl
      · rintro (h' | h')
        · exact h'
        · rw [h']; exact ih.1 h
    · simp [ih]

theorem nodup_firstOcc (z : List α) : (firstOcc z).Nodup := by
  induction z using List.reverseRecOn with
  | nil => simp
  | append_singleton z b ih =>
    rw [firstOcc_snoc]
    split
    · exact ih
    · rename_i h
      rw [List.nodup_append]
      refine ⟨ih, by simp, ?_⟩
      intro a ha b' hb'
      simp only [List.mem_singleton] at hb'
      subst hb'
      intro hc; subst hc; exact h ha

theorem firstOcc_pairwise (z : List α) :
    (firstOcc z).Pairwise fun a b => z.idxOf a < z.idxOf b := by
  induction z using List.reverseRecOn with
  | nil => simp
  | append_singleton z b ih =>
    have key : (firstOcc z).Pairwise fun a c => (z ++ [b]).idxOf a < (z ++ [b]).idxOf c := by
      refine ih.imp_of_mem ?_
      intro a c ha hc h
      rw [List.idxOf_append_of_mem (mem_firstOcc.1 ha), List.idxOf_append_of_mem (mem_firstOcc.1 hc)]
      exact h
    rw [firstOcc_snoc]
    split
    · exact key
    · rename_i hb
      rw [List.pairwise_append]
      refine ⟨key, by simp, ?_⟩
      intro a ha c hc
      simp only [List.mem_singleton] at hc
      subst hc
      have ha' := mem_firstOcc.1 ha
      rw [List.idxOf_append_of_mem ha',
        List.idxOf_append_of_notMem (fun h => hb (mem_firstOcc.2 h))]
      have := List.idxOf_lt_length_of_mem ha'
      omega

end

theorem mem_uniqueSorted {x : List Nat} {a : Nat} : a ∈ uniqueSorted x ↔ a ∈ x := by
  simp [uniqueSorted, List.mem_dedup, List.mem_mergeSort]

/-- Position found by `firstEq`. -/
def posOf (u : List Nat) (v : Nat) : Nat :=
  match firstEq u v with
  | .ok p => p
  | .error _ => 0

theorem firstEq_ok {u : List Nat} {v : Nat} (h : v ∈ u) :
    firstEq u v = .ok (posOf u v) ∧ u[posOf u v]? = some v := by
  obtain ⟨i, hi, rfl⟩ := List.getElem_of_mem h
  have hne : (whereIdx u.length fun j => u[j]? == some u[i]) ≠ [] := by
    intro hc
    have : i ∈ whereIdx u.length fun j => u[j]? == some u[i] :=
      mem_whereIdx.2 ⟨hi, by simp [hi]⟩
    rw [hc] at this; simp at this
  have hlen := List.length_pos_iff.2 hne
  have hmem := List.getElem_mem hlen
  rw [mem_whereIdx] at hmem
  have h1 : firstEq u u[i] = .ok ((whereIdx u.length fun j => u[j]? == some u[i])[0]) := by
    unfold firstEq; rw [aget_ok hlen]
  have h2 : posOf u u[i] = (whereIdx u.length fun j => u[j]? == some u[i])[0] := by
    unfold posOf; rw [h1]
  rw [h2]
  exact ⟨h1, by simpa using hmem.2⟩

theorem posOf_inj {u : List Nat} {v w : Nat} (hv : v ∈ u) (hw : w ∈ u)
    (h : posOf u v = posOf u w) : v = w := by
  have h1 := (firstEq_ok hv).2
  have h2 := (firstEq_ok hw).2
  rw [h, h2] at h1
  exact (Option.some.inj h1).symm

theorem posOf_lt {u : List Nat} {v : Nat} (hv : v ∈ u) : posOf u v < u.length := by
  have := (firstEq_ok hv).2
  exact (List.getElem?_eq_some_iff.1 this).1

theorem count_set_false {r : List Bool} {j : Nat} (h : r[j]? = some true) :
    (r.set j false).count true + 1 = r.count true := by
  induction r generalizing j with
  | nil => simp at h
  | cons a r ih =>
    cases j with
    | zero => simp at h; subst h; simp
    | succ j =>
      simp only [List.getElem?_cons_succ] at h
      have := ih h
      simp only [List.set_cons_succ, List.count_cons]
      omega

theorem countTrue_set {m : List (List Bool)} {i j : Nat} {r : List Bool} (hi : m[i]? = some r)
    (hj : r[j]? = some true) : countTrue (m.set i (r.set j false)) + 1 = countTrue m := by
  induction m generalizing i with
  | nil => simp at hi
  | cons a m ih =>
    cases i with
    | zero =>
      simp at hi; subst hi
      have := count_set_false hj
      simp only [countTrue, List.set_cons_zero, List.map_cons, List.sum_cons]; omega
    | succ i =>
      simp only [List.getElem?_cons_succ] at hi
      have := ih hi
      simp only [countTrue, List.set_cons_succ, List.map_cons, List.sum_cons] at *; omega

theorem aset2_false_count {m m' : List (List Bool)} {i j : Nat} (hg : aget2 m i j = .ok true)
    (hs : aset2 m i j false = .ok m') : countTrue m' + 1 = countTrue m := by
  obtain ⟨r, hr, hj⟩ := aget2_eq_ok.1 hg
  unfold aset2 at hs
  have hjl := (List.getElem?_eq_some_iff.1 hj).1
  have hil := (List.getElem?_eq_some_iff.1 hr).1
  rw [aget_eq_ok.2 hr, Res.bind_ok, aset_ok hjl, Res.bind_ok, aset_ok hil] at hs
  cases hs
  exact countTrue_set hr hj

theorem countTrue_zero {m : List (List Bool)} (h : ∀ i j, aget2 m i j ≠ .ok true) :
    countTrue m = 0 := by
  unfold countTrue
  rw [List.sum_eq_zero_iff_forall_eq_nat]
  intro c hc
  obtain ⟨r, hr, rfl⟩ := List.mem_map.1 hc
  rw [List.count_eq_zero]
  intro ht
  obtain ⟨i, hi, rfl⟩ := List.getElem_of_mem hr
  obtain ⟨j, hj, hjt⟩ := List.getElem_of_mem ht
  exact h i j (aget2_eq_ok.2 ⟨m[i], by simp [hi], by simp [hj, hjt]⟩)

theorem combinations1d_eq {x y : List Nat} (hxy : x.length = y.length) :
    combinations1d x y = .ok (firstOcc (x.zip y)) := by
  set z := x.zip y with hz
  set ux := uniqueSorted x
  set uy := uniqueSorted y
  have hzl : z.length = x.length := by simp [hz, hxy]
  have getz : ∀ i, (hi : i < x.length) → z[i]? = some (x[i], y[i]'(hxy ▸ hi)) := by
    intro i hi
    rw [List.getElem?_eq_some_iff]
    exact ⟨by omega, by simp [hz]⟩
  have memx : ∀ a b, (a, b) ∈ z → a ∈ ux ∧ b ∈ uy := fun a b h =>
    ⟨mem_uniqueSorted.2 (List.of_mem_zip h).1, mem_uniqueSorted.2 (List.of_mem_zip h).2⟩
  have take_succ : ∀ i, (hi : i < x.length) →
      z.take (i + 1) = z.take i ++ [(x[i], y[i]'(hxy ▸ hi))] := by
    intro i hi
    rw [List.take_add_one, getz i hi]; rfl
  have zmem : ∀ i, (hi : i < x.length) → (x[i], y[i]'(hxy ▸ hi)) ∈ z := fun i hi =>
    List.mem_of_getElem? (getz i hi)
  unfold combinations1d
  -- first loop
  obtain ⟨m1, hm1, hP1⟩ := forRange_inv (n := x.length)
    (f := fun (m : List (List Bool)) i => (do
      let xi ← aget x i
      let yi ← aget y i
      let p ← firstEq ux xi
      let q ← firstEq uy yi
      aset2 m p q true : Res _))
    (s := List.replicate ux.length (List.replicate uy.length false))
    (P := fun i m => Rect m ux.length uy.length ∧ ∀ p q, aget2 m p q = .ok true ↔
      ∃ a b, (a, b) ∈ z.take i ∧ posOf ux a = p ∧ posOf uy b = q)
    (by
      refine ⟨⟨by simp, fun r hr => by rw [List.eq_of_mem_replicate hr]; simp⟩, ?_⟩
      intro p q
      rw [aget2_eq_ok]
      constructor
      · rintro ⟨r, hr, hq⟩
        have h1 := List.eq_of_mem_replicate (List.mem_of_getElem? hr)
        rw [h1] at hq
        have := List.eq_of_mem_replicate (List.mem_of_getElem? hq)
        cases this
      · rintro ⟨a, b, h, _⟩; simp at h)
    (by
      rintro i m hi ⟨hr, hm⟩
      have hi' : i < y.length := hxy ▸ hi
      obtain ⟨hax, hby⟩ := memx _ _ (zmem i hi)
      obtain ⟨m', h1, h2, h3⟩ := aset2_ok (v := true) hr (posOf_lt hax) (posOf_lt hby)
      refine ⟨m', ?_, h2, ?_⟩
      · rw [aget_ok hi, Res.bind_ok, aget_ok hi', Res.bind_ok, (firstEq_ok hax).1, Res.bind_ok,
          (firstEq_ok hby).1, Res.bind_ok, h1]
      · intro p q
        rw [h3, take_succ i hi]
        split
        · rename_i hpq
          simp only [true_iff]
          exact ⟨x[i], y[i], by simp, hpq.1.symm, hpq.2.symm⟩
        · rename_i hpq
          rw [hm]
          constructor
          · rintro ⟨a, b, h, h'⟩; exact ⟨a, b, by simp [h], h'⟩
          · rintro ⟨a, b, h, hp, hq⟩
            rcases List.mem_append.1 h with h | h
            · exact ⟨a, b, h, hp, hq⟩
            · simp only [List.mem_singleton, Prod.mk.injEq] at h
              exact absurd ⟨by rw [← hp, h.1], by rw [← hq, h.2]⟩ hpq)
  obtain ⟨hr1, hm1'⟩ := hP1
  simp only [ux, uy] at hm1
  simp only [hm1, Res.bind_ok]
  obtain ⟨⟨m2, comb, ic⟩, hm2, hP2⟩ := forRange_inv (n := x.length)
    (f := fun (st : List (List Bool) × List (Nat × Nat) × Nat) i => (do
      let xi ← aget x i
      let yi ← aget y i
      let p ← firstEq ux xi
      let q ← firstEq uy yi
      let b ← aget2 st.1 p q
      if b then
        let comb' ← aset st.2.1 st.2.2 (xi, yi)
        let m' ← aset2 st.1 p q false
        pure (m', comb', st.2.2 + 1)
      else
        pure (st.1, st.2.1, st.2.2) : Res _))
    (s := (m1, List.replicate (countTrue m1) ((0 : Nat), (0 : Nat)), 0))
    (P := fun i st => Rect st.1 ux.length uy.length ∧
      (∀ p q, aget2 st.1 p q = .ok true ↔
        ∃ a b, (a, b) ∈ z ∧ (a, b) ∉ z.take i ∧ posOf ux a = p ∧ posOf uy b = q) ∧
      st.2.1 = firstOcc (z.take i) ++ List.replicate (countTrue st.1) (0, 0) ∧
      st.2.2 = (firstOcc (z.take i)).length)
    (by
      refine ⟨hr1, ?_, by simp, by simp⟩
      intro p q
      rw [hm1', ← hzl, List.take_length]
      simp)
    (by
      rintro i ⟨m, comb, ic⟩ hi ⟨hr, hm, hcomb, hic⟩
      have hi' : i < y.length := hxy ▸ hi
      obtain ⟨hax, hby⟩ := memx _ _ (zmem i hi)
      simp only at hr hm hcomb hic
      obtain ⟨b, hb⟩ := hr.get (posOf_lt hax) (posOf_lt hby)
      simp only [aget_ok hi, aget_ok hi', (firstEq_ok hax).1, (firstEq_ok hby).1, Res.bind_ok, hb]
      have uniq : ∀ a c, (a, c) ∈ z → posOf ux a = posOf ux x[i] → posOf uy c = posOf uy y[i] →
          (a, c) = (x[i], y[i]) := by
        intro a c hac h1 h2
        obtain ⟨ha, hc⟩ := memx _ _ hac
        rw [posOf_inj ha hax h1, posOf_inj hc hby h2]
      cases b with
      | false =>
        have hin : (x[i], y[i]) ∈ z.take i := by
          by_contra hc
          have := (hm (posOf ux x[i]) (posOf uy y[i])).2 ⟨_, _, zmem i hi, hc, rfl, rfl⟩
          rw [hb] at this; cases this
        have hocc : firstOcc (z.take (i + 1)) = firstOcc (z.take i) := by
          rw [take_succ i hi, firstOcc_snoc, if_pos (mem_firstOcc.2 hin)]
        refine ⟨(m, comb, ic), by simp, hr, ?_, by simp [hocc, hcomb], by simp [hocc, hic]⟩
        intro p q
        rw [hm]
        have : ∀ ab, ab ∈ z.take (i + 1) ↔ ab ∈ z.take i := by
          intro ab
          rw [take_succ i hi, List.mem_append, List.mem_singleton]
          constructor
          · rintro (h | h)
            · exact h
            · rw [h]; exact hin
          · exact Or.inl
        simp only [this]
      | true =>
        obtain ⟨a, c, hac, hnot, hpa, hqc⟩ := (hm _ _).1 hb
        have heq := uniq a c hac hpa hqc
        rw [heq] at hnot
        have hocc : firstOcc (z.take (i + 1)) = firstOcc (z.take i) ++ [(x[i], y[i])] := by
          rw [take_succ i hi, firstOcc_snoc, if_neg (fun h => hnot (mem_firstOcc.1 h))]
        obtain ⟨m', h1, h2, h3⟩ := aset2_ok (v := false) hr (posOf_lt hax) (posOf_lt hby)
        have hcount := aset2_false_count hb h1
        have hlt : ic < comb.length := by rw [hcomb, hic]; simp; omega
        simp only [if_true, aset_ok hlt, Res.bind_ok, h1, Res.pure_eq]
        refine ⟨_, rfl, h2, ?_, ?_, by simp [hocc, hic]⟩
        · intro p q
          rw [h3, take_succ i hi]
          split
          · rename_i hpq
            constructor
            · intro h; cases h
            · rintro ⟨a, c, hac, hn, hp, hq⟩
              exfalso; apply hn
              rw [uniq a c hac (by rw [hp, hpq.1]) (by rw [hq, hpq.2])]
              simp
          · rename_i hpq
            rw [hm]
            constructor
            · rintro ⟨a, c, hac, hn, hp, hq⟩
              refine ⟨a, c, hac, ?_, hp, hq⟩
              rw [List.mem_append, List.mem_singleton]
              rintro (h | h)
              · exact hn h
              · simp only [Prod.mk.injEq] at h
                exact hpq ⟨by rw [← hp, h.1], by rw [← hq, h.2]⟩
            · rintro ⟨a, c, hac, hn, hp, hq⟩
              exact ⟨a, c, hac, fun h => hn (List.mem_append_left _ h), hp, hq⟩
        · simp only [hocc, hcomb, hic]
          rw [← hcount, List.replicate_succ, List.set_append_right _ _ (le_refl _)]
          simp)
  obtain ⟨_, hm2', hcomb, _⟩ := hP2
  simp only [ux, uy] at hm2
  have hzero : countTrue m2 = 0 := by
    apply countTrue_zero
    intro p q hpq
    obtain ⟨a, b, h, hn, _⟩ := (hm2' p q).1 hpq
    rw [← hzl, List.take_length] at hn
    exact hn h
  rw [← hzl, List.take_length] at hcomb
  simp only at hcomb
  rw [hzero] at hcomb
  simp only [List.replicate_zero, List.append_nil] at hcomb
  simp only [Res.pure_eq] at hm2 ⊢
  rw [hm2, Res.bind_ok, hcomb]

end Convst
