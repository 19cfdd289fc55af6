import Verif.Model.Experiments
import Verif.Proofs.Classifiers

/-! # Lemmas about resampling -/

set_option autoImplicit false
set_option linter.unusedSectionVars false

namespace Convst

section
variable {L : Type} [LinearOrder L]

theorem mem_uniques {y : List L} {l : L} : l ∈ uniques y ↔ l ∈ y := by
  unfold uniques
  rw [List.mem_dedup, (List.mergeSort_perm y _).mem_iff]

theorem uniques_nodup (y : List L) : (uniques y).Nodup := List.nodup_dedup _

theorem uniques_sorted (y : List L) : (uniques y).Pairwise (· < ·) := by
  have h1 : (uniques y).Pairwise (· ≤ ·) := by
    unfold uniques
    refine List.Pairwise.sublist (List.dedup_sublist _) ?_
    have := List.pairwise_mergeSort (le := fun a b : L => decide (a ≤ b))
      (by intro a b c; simp only [decide_eq_true_eq]; exact le_trans)
      (by intro a b; simp only [Bool.or_eq_true, decide_eq_true_eq]; exact le_total _ _) y
    simpa using this
  have h2 := uniques_nodup y
  exact (h1.and h2).imp fun h => lt_of_le_of_ne h.1 h.2

theorem uniques_eq_iff {a b : List L} : uniques a = uniques b ↔ ∀ l, l ∈ a ↔ l ∈ b := by
  constructor
  · intro h l
    rw [← mem_uniques, h, mem_uniques]
  · intro h
    have hp : (uniques a).Perm (uniques b) := (List.perm_ext_iff_of_nodup (uniques_nodup a) (uniques_nodup b)).2
      (by intro l; rw [mem_uniques, mem_uniques]; exact h l)
    exact hp.eq_of_pairwise (fun x y _ _ h1 h2 => absurd (h1.trans h2) (lt_irrefl x)) (uniques_sorted a)
      (uniques_sorted b)

theorem uniqueCounts_congr {a b : List L} (h : ∀ l, a.count l = b.count l) : uniqueCounts a = uniqueCounts b := by
  have hu : uniques a = uniques b := by
    rw [uniques_eq_iff]
    intro l
    rw [← List.count_pos_iff, ← List.count_pos_iff, h]
  unfold uniqueCounts
  rw [hu]
  exact List.map_congr_left fun l _ => h l

end

section
variable {α β : Type}

theorem takeIds_filterMap {a : List α} {ids : List Nat} (h : ∀ i ∈ ids, i < a.length) :
    takeIds a ids = .ok (ids.filterMap fun i => a[i]?) ∧ (ids.filterMap fun i => a[i]?).length = ids.length := by
  induction ids with
  | nil => exact ⟨rfl, rfl⟩
  | cons i ids ih =>
    obtain ⟨h1, h2⟩ := ih fun j hj => h j (by simp [hj])
    have hi := h i (by simp)
    unfold takeIds at h1 ⊢
    rw [List.mapM_cons, List.getElem?_eq_getElem hi]
    simp only [Res.bind_ok, h1]
    refine ⟨?_, ?_⟩
    · rw [List.filterMap_cons_some (b := a[i]) (by rw [List.getElem?_eq_getElem hi])]
      rfl
    · rw [List.filterMap_cons_some (b := a[i]) (by rw [List.getElem?_eq_getElem hi])]
      simp [h2]

theorem zip_filterMap {X : List α} {Y : List β} (hl : X.length = Y.length) {ids : List Nat}
    (h : ∀ i ∈ ids, i < X.length) :
    (ids.filterMap fun i => X[i]?).zip (ids.filterMap fun i => Y[i]?) = ids.filterMap fun i => (X.zip Y)[i]? := by
  induction ids with
  | nil => rfl
  | cons i ids ih =>
    have hi := h i (by simp)
    have hiY : i < Y.length := by omega
    have hiZ : i < (X.zip Y).length := by simp; omega
    rw [List.filterMap_cons_some (b := X[i]) (by rw [List.getElem?_eq_getElem hi]),
      List.filterMap_cons_some (b := Y[i]) (by rw [List.getElem?_eq_getElem hiY]),
      List.filterMap_cons_some (b := (X.zip Y)[i]) (by rw [List.getElem?_eq_getElem hiZ]), List.zip_cons_cons,
      ih fun j hj => h j (by simp [hj])]
    simp

theorem whereIdx_filterMap (a : List α) (p : α → Bool) :
    (whereIdx a.length fun i => (a[i]?).any p).filterMap (fun i => a[i]?) = a.filter p := by
  induction a using List.reverseRecOn with
  | nil => rfl
  | append_singleton a x ih =>
    unfold whereIdx at ih ⊢
    have h1 : ((List.range a.length).filter fun i => ((a ++ [x])[i]?).any p) =
        (List.range a.length).filter fun i => (a[i]?).any p := by
      apply List.filter_congr
      intro i hi
      rw [List.getElem?_append_left (List.mem_range.1 hi)]
    have h2 : ((List.range a.length).filter fun i => (a[i]?).any p).filterMap (fun i => (a ++ [x])[i]?) =
        ((List.range a.length).filter fun i => (a[i]?).any p).filterMap (fun i => a[i]?) := by
      apply List.filterMap_congr
      intro i hi
      rw [List.getElem?_append_left (List.mem_range.1 (List.mem_filter.1 hi).1)]
    rw [List.length_append, List.length_singleton, List.range_succ, List.filter_append, List.filterMap_append, h1,
      h2, ih, List.filter_append]
    congr 1
    have hx : (a ++ [x])[a.length]? = some x := by simp
    cases hp : p x with
    | true => simp [hp]
    | false => simp [hp]

end

section
variable {α L : Type} [LinearOrder L]

theorem labelIdx_filterMap {X : List α} {Y : List L} (hl : X.length = Y.length) (l : L) :
    (labelIdx Y l).filterMap (fun i => (X.zip Y)[i]?) = (X.zip Y).filter fun p => p.2 == l := by
  have hlen : (X.zip Y).length = Y.length := by simp; omega
  rw [← whereIdx_filterMap, hlen]
  congr 1
  unfold labelIdx whereIdx
  apply List.filter_congr
  intro i hi
  have hi := List.mem_range.1 hi
  rw [List.getElem?_eq_getElem hi, List.getElem?_eq_getElem (by omega)]
  simp only [Option.any_some, List.getElem_zip]
  rw [Bool.eq_iff_iff]
  simp

theorem labelIdx_length (Y : List L) (l : L) : (labelIdx Y l).length = Y.count l := by
  have h := labelIdx_filterMap (X := Y) rfl l
  have h2 := (takeIds_filterMap (a := Y.zip Y) (ids := labelIdx Y l) (by
    intro i hi
    have := (mem_whereIdx.1 hi).1
    simpa using this)).2
  rw [← h2, h, List.count_eq_length_filter]
  clear h h2
  induction Y with
  | nil => rfl
  | cons y Y ih =>
    simp only [List.zip_cons_cons, List.filter_cons]
    split
    · simp [ih]
    · exact ih

/-- One turn of the loop. -/
theorem resampleStep_ok {X : List α} {Y : List L} (hl : X.length = Y.length) {f : List Nat → List Nat}
    (hf : ∀ l, (f l).Perm l) (l : L) {n : Nat} (hn : n ≤ Y.count l) {s : Split α L}
    (h1 : s.trainX.length = s.trainY.length) (h2 : s.testX.length = s.testY.length) :
    ∃ s', resampleStep X Y f l n s = .ok s' ∧ s'.trainX.length = s'.trainY.length ∧
      s'.testX.length = s'.testY.length ∧
      (s'.trainX.zip s'.trainY ++ s'.testX.zip s'.testY).Perm
        ((s.trainX.zip s.trainY ++ s.testX.zip s.testY) ++ (X.zip Y).filter fun p => p.2 == l) ∧
      s'.trainY = s.trainY ++ List.replicate n l ∧
      s'.testY = s.testY ++ List.replicate (Y.count l - n) l := by
  set I := f (labelIdx Y l) with hI
  have hperm : I.Perm (labelIdx Y l) := hf _
  have hIn : ∀ i ∈ I, i < Y.length ∧ Y[i]? = some l := by
    intro i hi
    rw [hperm.mem_iff] at hi
    have := mem_whereIdx.1 hi
    exact ⟨this.1, by simpa using this.2⟩
  have hIlen : I.length = Y.count l := by rw [hperm.length_eq, labelIdx_length]
  have ht : ∀ i ∈ I.take n, i < Y.length ∧ Y[i]? = some l := fun i hi => hIn i (List.mem_of_mem_take hi)
  have hd : ∀ i ∈ I.drop n, i < Y.length ∧ Y[i]? = some l := fun i hi => hIn i (List.mem_of_mem_drop hi)
  have hrep : ∀ ids : List Nat, (∀ i ∈ ids, i < Y.length ∧ Y[i]? = some l) →
      (ids.filterMap fun i => Y[i]?) = List.replicate ids.length l := by
    intro ids
    induction ids with
    | nil => intro _; rfl
    | cons i ids ih =>
      intro h
      rw [List.filterMap_cons_some (b := l) (h i (by simp)).2, ih fun j hj => h j (by simp [hj])]
      rfl
  have e1 := takeIds_filterMap (a := X) (ids := I.take n) fun i hi => by rw [hl]; exact (ht i hi).1
  have e2 := takeIds_filterMap (a := X) (ids := I.drop n) fun i hi => by rw [hl]; exact (hd i hi).1
  have e3 := takeIds_filterMap (a := Y) (ids := I.take n) fun i hi => (ht i hi).1
  have e4 := takeIds_filterMap (a := Y) (ids := I.drop n) fun i hi => (hd i hi).1
  refine ⟨⟨s.trainX ++ (I.take n).filterMap (fun i => X[i]?), s.trainY ++ (I.take n).filterMap (fun i => Y[i]?),
    s.testX ++ (I.drop n).filterMap (fun i => X[i]?), s.testY ++ (I.drop n).filterMap (fun i => Y[i]?)⟩,
    ?_, ?_, ?_, ?_, ?_, ?_⟩
  · unfold resampleStep
    simp only [← hI, e1.1, e2.1, e3.1, e4.1, Res.bind_ok]
    rfl
  · simp only [List.length_append, e1.2, e3.2, h1]
  · simp only [List.length_append, e2.2, e4.2, h2]
  · simp only
    rw [List.zip_append h1, List.zip_append h2, zip_filterMap hl (fun i hi => by rw [hl]; exact (ht i hi).1),
      zip_filterMap hl (fun i hi => by rw [hl]; exact (hd i hi).1)]
    have hall : ((I.take n).filterMap (fun i => (X.zip Y)[i]?) ++ (I.drop n).filterMap (fun i => (X.zip Y)[i]?)).Perm
        ((X.zip Y).filter fun p => p.2 == l) := by
      rw [← List.filterMap_append, List.take_append_drop, ← labelIdx_filterMap hl]
      exact hperm.filterMap _
    refine List.Perm.trans ?_ (List.Perm.append_left _ hall)
    simp only [List.append_assoc]
    refine List.Perm.append_left _ ?_
    rw [← List.append_assoc, ← List.append_assoc]
    exact List.Perm.append_right _ List.perm_append_comm
  · simp only
    rw [hrep _ ht, List.length_take, hIlen, Nat.min_eq_left hn]
  · simp only
    rw [hrep _ hd, List.length_drop, hIlen]

/-- The loop over the labels. -/
theorem resample_loop {X : List α} {Y trY : List L} (hl : X.length = Y.length)
    {shuffles : Nat → List Nat → List Nat} (hf : ∀ k l, (shuffles k l).Perm l) (cnt : Nat → Nat)
    (hle : ∀ l, trY.count l ≤ Y.count l)
    (ps : List (L × Nat)) (hnd : (ps.map (·.1)).Nodup) (hc : ∀ p ∈ ps, cnt p.2 = trY.count p.1) (s : Split α L)
    (h1 : s.trainX.length = s.trainY.length) (h2 : s.testX.length = s.testY.length) :
    ∃ s', ps.foldlM (init := s) (fun s p => resampleStep X Y (shuffles p.2) p.1 (cnt p.2) s) = .ok s' ∧
      s'.trainX.length = s'.trainY.length ∧ s'.testX.length = s'.testY.length ∧
      (s'.trainX.zip s'.trainY ++ s'.testX.zip s'.testY).Perm
        ((s.trainX.zip s.trainY ++ s.testX.zip s.testY) ++
          (X.zip Y).filter fun p => decide (p.2 ∈ ps.map (·.1))) ∧
      ∀ l, s'.trainY.count l = s.trainY.count l + (if l ∈ ps.map (·.1) then trY.count l else 0) ∧
        s'.testY.count l = s.testY.count l + (if l ∈ ps.map (·.1) then Y.count l - trY.count l else 0) := by
  induction ps generalizing s with
  | nil => exact ⟨s, rfl, h1, h2, by simp, by simp⟩
  | cons p ps ih =>
    rw [List.map_cons, List.nodup_cons] at hnd
    have hcp := hc p (by simp)
    obtain ⟨s1, e1, k1, k2, kp, ky1, ky2⟩ := resampleStep_ok hl (hf p.2) p.1 (n := cnt p.2)
      (by rw [hcp]; exact hle _) h1 h2
    obtain ⟨s', e2, m1, m2, mp, mc⟩ := ih hnd.2 (fun q hq => hc q (by simp [hq])) s1 k1 k2
    refine ⟨s', by rw [List.foldlM_cons, e1, Res.bind_ok]; exact e2, m1, m2, ?_, ?_⟩
    · refine mp.trans ((List.Perm.append_right _ kp).trans ?_)
      rw [List.append_assoc]
      refine List.Perm.append_left _ ?_
      have hdis : ∀ q : α × L, q.2 == p.1 → ¬ decide (q.2 ∈ ps.map (·.1)) = true := by
        intro q hq
        rw [beq_iff_eq] at hq
        rw [decide_eq_true_eq, hq]
        exact hnd.1
      clear mp mc e1 e2 kp
      induction X.zip Y with
      | nil => simp
      | cons q Q ihq =>
        by_cases hq1 : q.2 = p.1
        · have hn : q.2 ∉ ps.map (·.1) := by rw [hq1]; exact hnd.1
          rw [List.filter_cons_of_pos (by simpa using hq1), List.filter_cons_of_neg (by simpa using hn),
            List.filter_cons_of_pos (by simp [hq1]), List.cons_append]
          exact List.Perm.cons q ihq
        · by_cases hq2 : q.2 ∈ ps.map (·.1)
          · rw [List.filter_cons_of_neg (by simpa using hq1), List.filter_cons_of_pos (by simpa using hq2),
              List.filter_cons_of_pos (by rw [decide_eq_true_eq, List.map_cons]; exact List.mem_cons_of_mem _ hq2)]
            exact List.perm_middle.trans (List.Perm.cons q ihq)
          · rw [List.filter_cons_of_neg (by simpa using hq1), List.filter_cons_of_neg (by simpa using hq2),
              List.filter_cons_of_neg (by
                rw [decide_eq_true_eq, List.map_cons, List.mem_cons]
                rintro (h | h)
                · exact hq1 h
                · exact hq2 h)]
            exact ihq
    · intro l
      obtain ⟨c1, c2⟩ := mc l
      rw [c1, c2, ky1, ky2, List.count_append, List.count_append, List.count_replicate, List.count_replicate, hcp]
      by_cases hlp : l = p.1
      · have hn : l ∉ ps.map (·.1) := by rw [hlp]; exact hnd.1
        rw [if_neg hn, if_neg hn, hlp]
        simp
      · have hne : (p.1 == l) = false := by simpa using fun h : p.1 = l => hlp h.symm
        have hm : l ∈ (p :: ps).map (·.1) ↔ l ∈ ps.map (·.1) := by
          rw [List.map_cons, List.mem_cons]
          exact or_iff_right hlp
        simp only [hne, Bool.false_eq_true, if_false, Nat.add_zero, hm]
        exact ⟨trivial, trivial⟩

end
end Convst
