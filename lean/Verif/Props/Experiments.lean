import Verif.Proofs.Experiments
import Verif.Props.RidgeFit
import Verif.Props.InputTransformers

/-!
# Resampling, splits and loaders (C55, C56, C65)
-/

set_option autoImplicit false
set_option linter.unusedSectionVars false

namespace Convst.Props

open Convst Spec

/-! ## C55: stratified resampling -/

section
variable {α L : Type} [LinearOrder L]

/-- **C55.** For every pair of splits and every effect of the shuffles: if the two splits have the same
set of labels, `_resample` returns new splits that together hold exactly the given labelled series, each
once, with the same number of series of each label in the training and in the test split as before; the
assertions do not fail.  Otherwise it raises `AssertionError`. -/
theorem C55_resample {trX teX : List α} {trY teY : List L} (h1 : trX.length = trY.length)
    (h2 : teX.length = teY.length) {shuffles : Nat → List Nat → List Nat} (hs : ∀ k l, (shuffles k l).Perm l) :
    ((∀ l, l ∈ trY ↔ l ∈ teY) → ∃ s, resample trX trY teX teY shuffles = .ok s ∧
      s.trainX.length = s.trainY.length ∧ s.testX.length = s.testY.length ∧
      (s.trainX.zip s.trainY ++ s.testX.zip s.testY).Perm (trX.zip trY ++ teX.zip teY) ∧
      ∀ l, s.trainY.count l = trY.count l ∧ s.testY.count l = teY.count l) ∧
    (¬ (∀ l, l ∈ trY ↔ l ∈ teY) → resample trX trY teX teY shuffles = .error .assertion) := by
  constructor
  · intro hsame
    have hu : uniques trY = uniques teY := uniques_eq_iff.2 hsame
    have hlen : (trX ++ teX).length = (trY ++ teY).length := by simp [h1, h2]
    have hmap : (uniques trY).zipIdx.map (·.1) = uniques trY := by simp
    obtain ⟨s, e, k1, k2, kp, kc⟩ := resample_loop (trY := trY) hlen hs
      (fun k => (uniqueCounts trY).getD k 0) (by intro l; simp) (uniques trY).zipIdx
      (by rw [hmap]; exact uniques_nodup _) (by
        intro p hp
        obtain ⟨-, hlt, hval⟩ := List.mem_zipIdx hp
        simp only [Nat.sub_zero, Nat.zero_add] at hlt hval
        unfold uniqueCounts
        rw [getD_lt _ (by simpa using hlt), List.getElem_map, hval]) (⟨[], [], [], []⟩ : Split α L) rfl rfl
    have hcount : ∀ l, s.trainY.count l = trY.count l ∧ s.testY.count l = teY.count l := by
      intro l
      obtain ⟨c1, c2⟩ := kc l
      simp only [hmap, mem_uniques] at c1 c2
      rw [c1, c2, List.count_append]
      by_cases hl : l ∈ trY
      · simp [hl]
      · have hl' : l ∉ teY := fun h => hl ((hsame l).2 h)
        simp [hl, List.count_eq_zero.2 hl, List.count_eq_zero.2 hl']
    refine ⟨s, ?_, k1, k2, ?_, hcount⟩
    · unfold resample
      simp only
      rw [if_pos hu, e, Res.bind_ok, if_pos (uniqueCounts_congr fun l => (hcount l).1),
        if_pos (uniqueCounts_congr fun l => (hcount l).2)]
      rfl
    · refine kp.trans ?_
      rw [List.zip_append h1, hmap]
      simp only [List.zip_nil_left, List.append_nil, List.nil_append]
      rw [List.filter_eq_self.2]
      intro p hp
      rw [decide_eq_true_eq, mem_uniques]
      rcases List.mem_append.1 hp with h | h
      · exact (List.of_mem_zip h).2
      · exact (hsame _).2 (List.of_mem_zip h).2
  · intro hne
    unfold resample
    simp only
    rw [if_neg (fun h => hne (uniques_eq_iff.1 h))]

/-- **C55.** Consequences for one resample: the sizes of the splits are kept. -/
theorem C55_sizes {trX teX : List α} {trY teY : List L} (h1 : trX.length = trY.length)
    (h2 : teX.length = teY.length) {shuffles : Nat → List Nat → List Nat} (hs : ∀ k l, (shuffles k l).Perm l)
    {s : Split α L} (h : resample trX trY teX teY shuffles = .ok s) :
    s.trainX.length = trX.length ∧ s.testX.length = teX.length ∧ s.trainY.Perm trY ∧ s.testY.Perm teY := by
  have hsame : ∀ l, l ∈ trY ↔ l ∈ teY := by
    by_contra hn
    rw [(C55_resample h1 h2 hs).2 hn] at h
    cases h
  obtain ⟨s', e, k1, k2, -, kc⟩ := (C55_resample h1 h2 hs).1 hsame
  rw [h, Except.ok.injEq] at e
  subst e
  have p1 : s.trainY.Perm trY := List.perm_iff_count.2 fun l => (kc l).1
  have p2 : s.testY.Perm teY := List.perm_iff_count.2 fun l => (kc l).2
  exact ⟨by rw [k1, p1.length_eq, h1], by rw [k2, p2.length_eq, h2], p1, p2⟩

/-- C55: two classes, the shuffles reverse the indices. -/
example : ∃ s, resample ["a", "b", "c"] [(0 : Nat), 1, 0] ["d", "e"] [1, 0] (fun _ => List.reverse) = .ok s ∧
    s.trainY.count 0 = 2 := by
  obtain ⟨s, h, -, -, -, hc⟩ := (C55_resample (trX := ["a", "b", "c"]) (trY := [(0 : Nat), 1, 0])
    (teX := ["d", "e"]) (teY := [1, 0]) rfl rfl (shuffles := fun _ => List.reverse)
    (fun _ l => List.reverse_perm l)).1 (by intro l; simp; tauto)
  exact ⟨s, h, (hc 0).1⟩

/-- **C55.** Every fold of `cross_validate_UCR_UEA` holds all the series once, with the label counts of
the original split; the first fold is the original split. -/
theorem C55_folds {trX teX : List α} {trY teY : List L} (h1 : trX.length = trY.length)
    (h2 : teX.length = teY.length) {shuffles : Nat → Nat → List Nat → List Nat}
    (hs : ∀ i k l, (shuffles i k l).Perm l) (hsame : ∀ l, l ∈ trY ↔ l ∈ teY) (i : Nat) :
    ∃ s, cvSplit trX trY teX teY shuffles i = .ok s ∧ s.trainX.length = s.trainY.length ∧
      s.testX.length = s.testY.length ∧
      (s.trainX.zip s.trainY ++ s.testX.zip s.testY).Perm (trX.zip trY ++ teX.zip teY) ∧
      (∀ l, s.trainY.count l = trY.count l ∧ s.testY.count l = teY.count l) ∧
      (i = 0 → s = ⟨trX, trY, teX, teY⟩) := by
  unfold cvSplit
  by_cases hi : i = 0
  · rw [if_pos hi]
    exact ⟨_, rfl, h1, h2, List.Perm.refl _, fun l => ⟨rfl, rfl⟩, fun _ => rfl⟩
  · rw [if_neg hi]
    obtain ⟨s, e, k1, k2, kp, kc⟩ := (C55_resample h1 h2 (hs i)).1 hsame
    exact ⟨s, e, k1, k2, kp, kc, fun h => absurd h hi⟩

end

/-! ## C56: index recovery for the grid search -/

section
variable {L : Type} [LinearOrder L]

/-- Two series share a channel: they agree at all time points of some common channel. -/
def ShareChannel (x z : List (List ℝ)) : Prop := ∃ (c : Nat) (r : List ℝ), x[c]? = some r ∧ z[c]? = some r

theorem allEq_iff (a b : List ℝ) :
    (a.length == b.length && (a.zip b).all fun q => Scalar.eqb q.1 q.2) = true ↔ a = b := by
  rw [Bool.and_eq_true, beq_iff_eq, List.all_eq_true]
  constructor
  · rintro ⟨hl, h⟩
    apply List.ext_getElem hl
    intro i h1 h2
    have := h (a[i], b[i]) (by
      rw [List.mem_iff_getElem]
      exact ⟨i, by simp; omega, by simp⟩)
    simpa using this
  · rintro rfl
    refine ⟨rfl, fun q hq => ?_⟩
    obtain ⟨i, h1, rfl⟩ := List.getElem_of_mem hq
    simp

theorem sharesChannel_iff (x z : List (List ℝ)) : sharesChannel x z = true ↔ ShareChannel x z := by
  unfold sharesChannel ShareChannel
  rw [List.any_eq_true]
  constructor
  · rintro ⟨p, hp, h⟩
    rw [allEq_iff] at h
    obtain ⟨i, hi, he⟩ := List.getElem_of_mem hp
    rw [List.length_zip] at hi
    rw [List.getElem_zip] at he
    refine ⟨i, p.1, ?_, ?_⟩
    · rw [List.getElem?_eq_getElem (by omega), ← he]
    · rw [List.getElem?_eq_getElem (by omega), h, ← he]
  · rintro ⟨c, r, h1, h2⟩
    rw [List.getElem?_eq_some_iff] at h1 h2
    obtain ⟨l1, e1⟩ := h1
    obtain ⟨l2, e2⟩ := h2
    refine ⟨(x[c], z[c]), ?_, (allEq_iff _ _).2 (by simp [e1, e2])⟩
    rw [List.mem_iff_getElem]
    exact ⟨c, by rw [List.length_zip]; omega, by simp⟩

/-- **C56.** What the lookup returns: the first series that shares a channel with the given one. -/
theorem C56_lookup (X : List (List (List ℝ))) (z : List (List ℝ)) :
    (∀ i, lookup X z = .ok i ↔ (∃ x, X[i]? = some x ∧ ShareChannel x z) ∧
      ∀ j x, j < i → X[j]? = some x → ¬ ShareChannel x z) ∧
    (lookup X z = .error .indexError ↔ ∀ x ∈ X, ¬ ShareChannel x z) := by
  unfold lookup
  cases h : X.findIdx? fun x => sharesChannel x z with
  | some i =>
    rw [List.findIdx?_eq_some_iff_getElem] at h
    obtain ⟨hi, hp, hmin⟩ := h
    rw [sharesChannel_iff] at hp
    constructor
    · intro j
      simp only [Except.ok.injEq]
      constructor
      · rintro rfl
        refine ⟨⟨_, List.getElem?_eq_getElem hi, hp⟩, ?_⟩
        intro j x hj hx
        rw [← sharesChannel_iff]
        have := hmin j hj
        rw [List.getElem?_eq_getElem (by omega), Option.some.injEq] at hx
        rw [← hx]
        simpa using this
      · rintro ⟨⟨x, hx, hs⟩, hj⟩
        rcases lt_trichotomy i j with hlt | heq | hgt
        · exact absurd hp (hj i _ hlt (List.getElem?_eq_getElem hi))
        · exact heq
        · have := hmin j hgt
          rw [List.getElem?_eq_getElem (by omega), Option.some.injEq] at hx
          rw [hx] at this
          rw [← sharesChannel_iff] at hs
          simp [hs] at this
    · simp only [reduceCtorEq, false_iff, not_forall, not_not]
      exact ⟨_, List.getElem_mem hi, hp⟩
  | none =>
    rw [List.findIdx?_eq_none_iff] at h
    have hn : ∀ x ∈ X, ¬ ShareChannel x z := by
      intro x hx
      rw [← sharesChannel_iff, h x hx]
      simp
    constructor
    · intro i
      simp only [reduceCtorEq, false_iff, not_and]
      rintro ⟨x, hx, hs⟩
      exact absurd hs (hn x (List.mem_of_getElem? hx))
    · simpa using hn

theorem shareChannel_refl {x : List (List ℝ)} (h : x ≠ []) : ShareChannel x x := by
  obtain ⟨r, x', rfl⟩ := List.exists_cons_of_ne_nil h
  exact ⟨0, r, rfl, rfl⟩

/-- **C56 (partial: no two series share a channel).** When no two series of the dataset share a channel,
the indices of every fold are right: the `j`-th training (test) index is that of the `j`-th series of the
training (test) split, and together they are all the indices, each once. -/
theorem C56_folds_partial {trX teX : List (List (List ℝ))} {trY teY : List L} (h1 : trX.length = trY.length)
    (h2 : teX.length = teY.length) {shuffles : Nat → Nat → List Nat → List Nat}
    (hs : ∀ i k l, (shuffles i k l).Perm l) (hsame : ∀ l, l ∈ trY ↔ l ∈ teY)
    (hne : ∀ x ∈ trX ++ teX, x ≠ [])
    (hdist : (trX ++ teX).Pairwise fun x z => ¬ ShareChannel x z) (i : Nat) :
    ∃ s tr te, cvSplit trX trY teX teY shuffles i = .ok s ∧ gridSplit trX trY teX teY shuffles i = .ok (tr, te) ∧
      tr.map (fun j => (trX ++ teX)[j]?) = s.trainX.map some ∧
      te.map (fun j => (trX ++ teX)[j]?) = s.testX.map some ∧
      (tr ++ te).Perm (List.range (trX.length + teX.length)) := by
  obtain ⟨s, hsp, k1, k2, kp, -, -⟩ := C55_folds h1 h2 hs hsame i
  have hX : (s.trainX ++ s.testX).Perm (trX ++ teX) := by
    have := kp.map Prod.fst
    rwa [List.map_append, List.map_append, List.map_fst_zip k1.le, List.map_fst_zip k2.le,
      List.map_fst_zip h1.le, List.map_fst_zip h2.le] at this
  have hlook : ∀ z ∈ trX ++ teX, ∃ j, lookup (trX ++ teX) z = .ok j ∧ (trX ++ teX)[j]? = some z := by
    intro z hz
    obtain ⟨j, hj, he⟩ := List.getElem_of_mem hz
    refine ⟨j, ?_, by rw [List.getElem?_eq_getElem hj, he]⟩
    rw [(C56_lookup (trX ++ teX) z).1]
    refine ⟨⟨z, by rw [List.getElem?_eq_getElem hj, he], shareChannel_refl (hne z hz)⟩, ?_⟩
    intro q x hq hx
    rw [List.pairwise_iff_getElem] at hdist
    have := hdist q j (by omega) hj hq
    rw [List.getElem?_eq_getElem (by omega), Option.some.injEq] at hx
    rwa [he, hx] at this
  have hmap : ∀ zs : List (List (List ℝ)), (∀ z ∈ zs, z ∈ trX ++ teX) →
      ∃ js, zs.mapM (lookup (trX ++ teX)) = .ok js ∧ js.map (fun j => (trX ++ teX)[j]?) = zs.map some := by
    intro zs
    induction zs with
    | nil => intro _; exact ⟨[], rfl, rfl⟩
    | cons z zs ih =>
      intro h
      obtain ⟨j, hj, hg⟩ := hlook z (h z (by simp))
      obtain ⟨js, hjs, hgs⟩ := ih fun x hx => h x (by simp [hx])
      refine ⟨j :: js, ?_, by rw [List.map_cons, List.map_cons, hg, hgs]⟩
      rw [List.mapM_cons, hj, Res.bind_ok, hjs, Res.bind_ok]
      rfl
  obtain ⟨tr, htr, gtr⟩ := hmap s.trainX fun z hz => hX.mem_iff.1 (List.mem_append_left _ hz)
  obtain ⟨te, hte, gte⟩ := hmap s.testX fun z hz => hX.mem_iff.1 (List.mem_append_right _ hz)
  refine ⟨s, tr, te, hsp, ?_, gtr, gte, ?_⟩
  · unfold gridSplit sklearnSplit
    rw [hsp, Res.bind_ok, htr, Res.bind_ok, hte, Res.bind_ok]
    rfl
  · have hall : (tr ++ te).map (fun j => (trX ++ teX)[j]?) = (s.trainX ++ s.testX).map some := by
      rw [List.map_append, List.map_append, gtr, gte]
    have hnd : (trX ++ teX).Nodup := hdist.imp_of_mem fun {a b} ha _ h hab => by
      subst hab
      exact h (shareChannel_refl (hne a ha))
    have hnd2 : (tr ++ te).Nodup := by
      apply List.Nodup.of_map (fun j => (trX ++ teX)[j]?)
      rw [hall]
      exact (hX.nodup_iff.2 hnd).map (Option.some_injective _)
    have hlt : ∀ j ∈ tr ++ te, j < (trX ++ teX).length := by
      intro j hj
      have : (trX ++ teX)[j]? ∈ (s.trainX ++ s.testX).map some := by
        rw [← hall]
        exact List.mem_map_of_mem hj
      obtain ⟨x, -, hx⟩ := List.mem_map.1 this
      exact (List.getElem?_eq_some_iff.1 hx.symm).1
    have hlen : (tr ++ te).length = trX.length + teX.length := by
      have := congrArg List.length hall
      rw [List.length_map, List.length_map, hX.length_eq] at this
      rw [this, List.length_append]
    apply List.perm_of_nodup_nodup_toFinset_eq hnd2 List.nodup_range
    apply Finset.eq_of_subset_of_card_le
    · intro j hj
      rw [List.mem_toFinset] at hj
      simpa using hlt j hj
    · rw [List.toFinset_card_of_nodup hnd2, List.toFinset_card_of_nodup List.nodup_range, hlen, List.length_range]

/-- **C56 (violated).** With two equal series, one per split, the same index is in the training and in the
test fold, and the other series is in neither. -/
theorem C56_duplicates :
    gridSplit [[[(1 : ℝ), 2]]] [(0 : Nat)] [[[1, 2]]] [0] (fun _ _ l => l) 0 = .ok ([0], [0]) := by
  have h : ∀ i, lookup ([[[(1 : ℝ), 2]]] ++ [[[1, 2]]]) [[1, 2]] = .ok i ↔ i = 0 := by
    have h0 : lookup ([[[(1 : ℝ), 2]]] ++ [[[1, 2]]]) [[1, 2]] = .ok 0 := by
      rw [(C56_lookup _ _).1]
      exact ⟨⟨[[1, 2]], rfl, shareChannel_refl (by simp)⟩, fun j x hj => absurd hj (by omega)⟩
    intro i
    rw [h0, Except.ok.injEq]
    exact eq_comm
  have h0 := (h 0).2 rfl
  unfold gridSplit cvSplit sklearnSplit
  rw [if_pos rfl, Res.bind_ok]
  simp only [List.mapM_cons, List.mapM_nil, h0, Res.bind_ok]
  rfl

/-- **C56 (violated).** One common channel is enough, even for different series. -/
theorem C56_common_channel :
    gridSplit [[[(1 : ℝ), 2], [3, 3]]] [(0 : Nat)] [[[1, 2], [4, 4]]] [0] (fun _ _ l => l) 0 = .ok ([0], [0]) := by
  have h0 : ∀ z : List (List ℝ), z[0]? = some [1, 2] →
      lookup ([[[(1 : ℝ), 2], [3, 3]]] ++ [[[1, 2], [4, 4]]]) z = .ok 0 := by
    intro z hz
    rw [(C56_lookup _ _).1]
    exact ⟨⟨[[1, 2], [3, 3]], rfl, 0, [1, 2], rfl, hz⟩, fun j x hj => absurd hj (by omega)⟩
  unfold gridSplit cvSplit sklearnSplit
  rw [if_pos rfl, Res.bind_ok]
  simp only [List.mapM_cons, List.mapM_nil, h0 _ (show [[(1 : ℝ), 2], [3, 3]][0]? = some [1, 2] from rfl),
    h0 _ (show [[(1 : ℝ), 2], [4, 4]][0]? = some [1, 2] from rfl), Res.bind_ok]
  rfl

/-- C56: a dataset without common channels. -/
example : ∃ s tr te, cvSplit [[[(1 : ℝ), 2]], [[5, 5]]] [(0 : Nat), 1] [[[3, 2]], [[7, 5]]] [1, 0]
      (fun _ _ l => l) 1 = .ok s ∧
    gridSplit [[[(1 : ℝ), 2]], [[5, 5]]] [(0 : Nat), 1] [[[3, 2]], [[7, 5]]] [1, 0] (fun _ _ l => l) 1 =
      .ok (tr, te) ∧ (tr ++ te).Perm (List.range 4) := by
  obtain ⟨s, tr, te, h1, h2, -, -, h3⟩ := C56_folds_partial (trX := [[[(1 : ℝ), 2]], [[5, 5]]])
    (trY := [(0 : Nat), 1]) (teX := [[[3, 2]], [[7, 5]]]) (teY := [1, 0]) rfl rfl
    (shuffles := fun _ _ l => l) (fun _ _ l => List.Perm.refl l) (by intro l; simp; tauto) (by simp) (by
      have key : ∀ a b : List ℝ, a ≠ b → ¬ ShareChannel [a] [b] := by
        rintro a b hab ⟨c, r, e1, e2⟩
        match c with
        | 0 => simp at e1 e2; exact hab (e1.trans e2.symm)
        | c + 1 => simp at e1
      simp only [List.cons_append, List.nil_append, List.pairwise_cons, List.mem_cons, List.not_mem_nil, or_false]
      refine ⟨?_, ?_, ?_, ?_⟩
      · rintro x (rfl | rfl | rfl) <;> exact key _ _ (by norm_num)
      · rintro x (rfl | rfl) <;> exact key _ _ (by norm_num)
      · rintro x rfl; exact key _ _ (by norm_num)
      · simp) 1
  exact ⟨s, tr, te, h1, h2, h3⟩

end

/-! ## C65: the loaders -/

section
variable {L : Type} [LinearOrder L]

theorem labelEncode_ok {y z : List L} (h : ∀ l ∈ z, l ∈ y) :
    ∃ e, labelEncode y z = .ok e ∧ e.length = z.length ∧
      ∀ (i : Nat) (l : L), z[i]? = some l → ∃ j, e[i]? = some j ∧ (uniques y)[j]? = some l := by
  unfold labelEncode
  induction z with
  | nil => exact ⟨[], rfl, rfl, by simp⟩
  | cons a z ih =>
    obtain ⟨e, he, hl, hi⟩ := ih fun l hl => h l (by simp [hl])
    have ha : a ∈ uniques y := mem_uniques.2 (h a (by simp))
    cases hf : (uniques y).findIdx? (· == a) with
    | none =>
      rw [List.findIdx?_eq_none_iff] at hf
      have := hf a ha
      simp at this
    | some j =>
      obtain ⟨hj, hp, -⟩ := List.findIdx?_eq_some_iff_getElem.1 hf
      refine ⟨j :: e, ?_, by simp [hl], ?_⟩
      · rw [List.mapM_cons, hf]
        simp only [Res.bind_ok]
        rw [he]
        rfl
      · intro i l hil
        cases i with
        | zero =>
          simp only [List.getElem?_cons_zero, Option.some.injEq] at hil
          subst hil
          refine ⟨j, rfl, ?_⟩
          rw [List.getElem?_eq_getElem hj]
          simpa using hp
        | succ i => exact hi i l (by simpa using hil)

theorem labelEncode_error {y z : List L} (h : ∃ l ∈ z, l ∉ y) : labelEncode y z = .error .valueError := by
  unfold labelEncode
  induction z with
  | nil => simp at h
  | cons a z ih =>
    rw [List.mapM_cons]
    cases hf : (uniques y).findIdx? (· == a) with
    | none => rfl
    | some j =>
      obtain ⟨hj, hp, -⟩ := List.findIdx?_eq_some_iff_getElem.1 hf
      have ha : a ∈ y := by
        rw [← mem_uniques]
        have : (uniques y)[j] = a := by simpa using hp
        exact this ▸ List.getElem_mem hj
      simp only [Res.bind_ok]
      rw [ih]
      · rfl
      · obtain ⟨l, hl, hn⟩ := h
        rcases List.mem_cons.1 hl with rfl | hl
        · exact absurd ha hn
        · exact ⟨l, hl, hn⟩

theorem foldl_min_le (l : List Nat) (a : Nat) : l.foldl min a ≤ a ∧ (∀ x ∈ l, l.foldl min a ≤ x) ∧
    (l.foldl min a = a ∨ l.foldl min a ∈ l) := by
  induction l generalizing a with
  | nil => simp
  | cons b l ih =>
    obtain ⟨h1, h2, h3⟩ := ih (min a b)
    rw [List.foldl_cons]
    refine ⟨h1.trans (min_le_left _ _), ?_, ?_⟩
    · intro x hx
      rcases List.mem_cons.1 hx with rfl | hx
      · exact h1.trans (min_le_right _ _)
      · exact h2 x hx
    · rcases h3 with h3 | h3
      · rcases min_choice a b with h | h
        · left; rw [h3, h]
        · right; rw [h3, h]; simp
      · right; simp [h3]

theorem minLens_ok {X : List (Mat ℝ)} (hwf : ∀ x ∈ X, x.WF) (hc : ∀ x ∈ X, x.rows ≠ []) (hne : X ≠ []) :
    ∃ ls m, X.mapM firstLen = .ok ls ∧ pyMin ls = .ok m ∧ (∀ x ∈ X, m ≤ x.len) ∧ ∃ x ∈ X, x.len = m := by
  have hm : X.mapM firstLen = .ok (X.map (·.len)) := by
    apply mapM_ok
    intro x hx
    obtain ⟨r, rs, hr⟩ := List.exists_cons_of_ne_nil (hc x hx)
    unfold firstLen
    rw [pyGet_ok (h := by rw [hr]; simp), Res.bind_ok]
    exact congrArg Except.ok (hwf x hx _ (List.getElem_mem _))
  obtain ⟨x, xs, rfl⟩ := List.exists_cons_of_ne_nil hne
  obtain ⟨h1, h2, h3⟩ := foldl_min_le (xs.map (·.len)) x.len
  refine ⟨_, (xs.map (·.len)).foldl min x.len, hm, rfl, ?_, ?_⟩
  · intro z hz
    rcases List.mem_cons.1 hz with rfl | hz
    · exact h1
    · exact h2 _ (List.mem_map_of_mem hz)
  · rcases h3 with h3 | h3
    · exact ⟨x, by simp, h3.symm⟩
    · obtain ⟨z, hz, he⟩ := List.mem_map.1 h3
      exact ⟨z, by simp [hz], he⟩

/-- The series of a split after loading: as they are, or with every channel z-normalised. -/
noncomputable def loaded (normalize : Bool) (X : List (Mat ℝ)) : List (Mat ℝ) :=
  if normalize then X.map fun x => ⟨x.rows.map znorm, x.len⟩ else X

theorem zNormSeries_ok (X : List (Mat ℝ)) : zNormSeries X = .ok (loaded true X) := by
  unfold zNormSeries
  rw [C57_in_place, Res.bind_ok, Res.pure_eq]
  congr 1
  unfold loaded
  rw [if_pos rfl]
  induction X with
  | nil => rfl
  | cons x X ih => simpa using ih

/-- Normalisation does not change the shape of the series. -/
theorem loaded_shape {b : Bool} {X : List (Mat ℝ)} : (loaded b X).length = X.length ∧
    ((∀ x ∈ X, x.WF) → ∀ x ∈ loaded b X, x.WF) ∧
    ∀ x ∈ loaded b X, ∃ x0 ∈ X, x.len = x0.len ∧ x.rows.length = x0.rows.length := by
  unfold loaded
  cases b with
  | false => exact ⟨rfl, fun h => h, fun x hx => ⟨x, hx, rfl, rfl⟩⟩
  | true =>
    rw [if_pos rfl]
    refine ⟨by simp, ?_, ?_⟩
    · intro h x hx r hr
      obtain ⟨x0, hx0, rfl⟩ := List.mem_map.1 hx
      obtain ⟨r0, hr0, rfl⟩ := List.mem_map.1 hr
      rw [← h x0 hx0 r0 hr0]
      simp [znorm]
    · intro x hx
      obtain ⟨x0, hx0, rfl⟩ := List.mem_map.1 hx
      exact ⟨x0, hx0, rfl, by simp⟩

/-- **C65.** For every pair of non-empty splits of series of any lengths whose test labels all occur in
the training split, the loader succeeds: it returns the series (z-normalised on request), each label as its
rank among the sorted distinct training labels, and as `min_len` the least length over both splits. -/
theorem C65_loader (b : Bool) {trX teX : List (Mat ℝ)} {trY teY : List L}
    (hwf : ∀ x ∈ trX ++ teX, x.WF) (hc : ∀ x ∈ trX ++ teX, x.rows ≠ []) (h1 : trX ≠ []) (h2 : teX ≠ [])
    (hlab : ∀ l ∈ teY, l ∈ trY) :
    ∃ yTr yTe m, loadSplit b trX trY teX teY = .ok (loaded b trX, loaded b teX, yTr, yTe, m) ∧
      (∀ x ∈ trX ++ teX, m ≤ x.len) ∧ (∃ x ∈ trX ++ teX, x.len = m) ∧
      yTr.length = trY.length ∧ yTe.length = teY.length ∧
      (∀ (i : Nat) (l : L), trY[i]? = some l → ∃ j, yTr[i]? = some j ∧ (uniques trY)[j]? = some l) ∧
      (∀ (i : Nat) (l : L), teY[i]? = some l → ∃ j, yTe[i]? = some j ∧ (uniques trY)[j]? = some l) := by
  obtain ⟨yTr, e1, l1, v1⟩ := labelEncode_ok (y := trY) (z := trY) fun _ h => h
  obtain ⟨yTe, e2, l2, v2⟩ := labelEncode_ok hlab
  obtain ⟨ls1, m1, a1, a2, a3, x1, a4, a5⟩ := minLens_ok (fun x hx => hwf x (List.mem_append_left _ hx))
    (fun x hx => hc x (List.mem_append_left _ hx)) h1
  obtain ⟨ls2, m2, b1, b2, b3, x2, b4, b5⟩ := minLens_ok (fun x hx => hwf x (List.mem_append_right _ hx))
    (fun x hx => hc x (List.mem_append_right _ hx)) h2
  refine ⟨yTr, yTe, min m1 m2, ?_, ?_, ?_, l1, l2, v1, v2⟩
  · unfold loadSplit
    rw [e1, Res.bind_ok, e2, Res.bind_ok, a1, Res.bind_ok, a2, Res.bind_ok, b1, Res.bind_ok, b2, Res.bind_ok]
    cases b with
    | false => rfl
    | true =>
      rw [if_pos rfl, zNormSeries_ok, Res.bind_ok, zNormSeries_ok, Res.bind_ok]
      rfl
  · intro x hx
    rcases List.mem_append.1 hx with h | h
    · exact (min_le_left _ _).trans (a3 x h)
    · exact (min_le_right _ _).trans (b3 x h)
  · rcases min_choice m1 m2 with h | h
    · exact ⟨x1, List.mem_append_left _ a4, by rw [h, a5]⟩
    · exact ⟨x2, List.mem_append_right _ b4, by rw [h, b5]⟩

/-- **C65.** The encoded labels are `0 .. k-1` for the `k` distinct training labels, equal labels and only
those get equal codes, and the order of the labels is kept. -/
theorem C65_codes {y : List L} {i j : Nat} {a b : L} (hi : (uniques y)[i]? = some a)
    (hj : (uniques y)[j]? = some b) : i < y.toFinset.card ∧ (i = j ↔ a = b) ∧ (i < j ↔ a < b) := by
  rw [List.getElem?_eq_some_iff] at hi hj
  obtain ⟨h1, rfl⟩ := hi
  obtain ⟨h2, rfl⟩ := hj
  have hs := uniques_sorted y
  rw [List.pairwise_iff_getElem] at hs
  have hcard : y.toFinset.card = (uniques y).length := by
    rw [← List.toFinset_card_of_nodup (uniques_nodup y)]
    congr 1
    ext l
    rw [List.mem_toFinset, List.mem_toFinset, mem_uniques]
  refine ⟨by omega, ?_, ?_⟩
  · exact (List.Nodup.getElem_inj_iff (uniques_nodup y)).symm
  · constructor
    · exact hs i j h1 h2
    · intro hlt
      by_contra hn
      rcases Nat.eq_or_lt_of_le (Nat.le_of_not_lt hn) with rfl | h
      · exact lt_irrefl _ hlt
      · exact lt_asymm hlt (hs j i h2 h1 h)

/-- **C65.** A test label that does not occur in the training split, or an empty split, is a
`ValueError`. -/
theorem C65_loader_fails (b : Bool) {trX teX : List (Mat ℝ)} {trY teY : List L}
    (hwf : ∀ x ∈ trX ++ teX, x.WF) (hc : ∀ x ∈ trX ++ teX, x.rows ≠ [])
    (h : trX = [] ∨ teX = [] ∨ ∃ l ∈ teY, l ∉ trY) :
    loadSplit b trX trY teX teY = .error .valueError := by
  obtain ⟨yTr, e1, -, -⟩ := labelEncode_ok (y := trY) (z := trY) fun _ h => h
  unfold loadSplit
  rw [e1, Res.bind_ok]
  by_cases hl : ∃ l ∈ teY, l ∉ trY
  · rw [labelEncode_error hl]
    rfl
  · obtain ⟨yTe, e2, -, -⟩ := labelEncode_ok (y := trY) (z := teY) (by
      intro l hlt
      by_contra hn
      exact hl ⟨l, hlt, hn⟩)
    rw [e2, Res.bind_ok]
    by_cases h1 : trX = []
    · subst h1
      rfl
    · obtain ⟨ls1, m1, a1, a2, -⟩ := minLens_ok (fun x hx => hwf x (List.mem_append_left _ hx))
        (fun x hx => hc x (List.mem_append_left _ hx)) h1
      have h2 : teX = [] := by
        rcases h with h | h | h
        · exact absurd h h1
        · exact h
        · exact absurd h hl
      subst h2
      rw [a1, Res.bind_ok, a2, Res.bind_ok]
      rfl

/-- **C65.** With the `min_len` of the loader, if it is at least 4 and all series have the same number of
channels, `fit` on the loaded training split succeeds and `transform` on the loaded test split succeeds:
no series of either split is too short. -/
theorem C65_min_len_suffices {G : Type} [Gen G ℝ] [LawfulGen G] {R : Type} (b : Bool)
    {trX teX : List (Mat ℝ)} {trY teY : List L}
    (hwf : ∀ x ∈ trX ++ teX, x.WF) (nf : Nat) (hnf1 : 1 ≤ nf) (hnf : ∀ x ∈ trX ++ teX, x.rows.length = nf)
    (h1 : trX ≠ []) (h2 : teX ≠ []) (hlab : ∀ l ∈ teY, l ∈ trY) (hlen : trY.length = trX.length) :
    ∃ X Z yTr yTe m, loadSplit b trX trY teX teY = .ok (X, Z, yTr, yTe, m) ∧
      ∀ (env : Env G R Nat) (o : Rdst ℝ R) (w : World R) (gs : Nat → G) (order : Nat → List Nat),
        IsSchedule order → (o.transformType.Var ∨ o.transformType = .auto) → o.minLen = some m → 4 ≤ m →
        GoodParams o m → (∀ k, o.maxChannels = some k → 1 ≤ k ∧ k ≤ nf) →
        ∃ o' w' S M, o.fit env gs order w (.list X) yTr = (o', w', .ok ()) ∧ o'.shapelets = some S ∧
          o'.transform (.list Z) = .ok M ∧ GoodMatrix M teX.length (Shapelets.count S) := by
  have hc : ∀ x ∈ trX ++ teX, x.rows ≠ [] := by
    intro x hx h0
    have := hnf x hx
    rw [h0] at this
    simp at this
    omega
  obtain ⟨yTr, yTe, m, hld, hmin, -, hl1, -, -, -⟩ := C65_loader b hwf hc h1 h2 hlab
  refine ⟨_, _, yTr, yTe, m, hld, ?_⟩
  intro env o w gs order ho hty hm hm4 hp hmc
  obtain ⟨s1, s2, s3⟩ := loaded_shape (b := b) (X := trX)
  obtain ⟨t1, t2, t3⟩ := loaded_shape (b := b) (X := teX)
  have ne : ∀ {X : List (Mat ℝ)}, X ≠ [] → (loaded b X).length = X.length → loaded b X ≠ [] := by
    intro X hX hl h0
    rw [h0] at hl
    exact hX (List.length_eq_zero_iff.1 hl.symm)
  obtain ⟨o', w', S, k1, k2, -, -, k3⟩ := C43_object_variable_length env o w (loaded b trX) yTr hty
    (s2 fun x hx => hwf x (List.mem_append_left _ hx)) (ne h1 s1) nf hnf1
    (by
      intro x hx
      obtain ⟨x0, hx0, -, he⟩ := s3 x hx
      rw [he]
      exact hnf x0 (List.mem_append_left _ hx0)) m hm4
    (by
      intro x hx
      obtain ⟨x0, hx0, he, -⟩ := s3 x hx
      rw [he]
      exact hmin x0 (List.mem_append_left _ hx0))
    (Or.inl hm) (by rw [hl1, hlen, s1]) hp hmc gs ho
  obtain ⟨M, hM, hG⟩ := k3 (loaded b teX) (t2 fun x hx => hwf x (List.mem_append_right _ hx)) (ne h2 t1)
    (by
      intro x hx
      obtain ⟨x0, hx0, -, he⟩ := t3 x hx
      rw [he]
      exact hnf x0 (List.mem_append_right _ hx0))
    (by
      intro x hx
      obtain ⟨x0, hx0, he, -⟩ := t3 x hx
      rw [he]
      exact hmin x0 (List.mem_append_right _ hx0))
  exact ⟨o', w', S, M, k1, k2, hM, by rw [← t1]; exact hG⟩

/-! ## C88: loading a whole dataset -/

theorem loaded_append (b : Bool) (X Z : List (Mat ℝ)) : loaded b (X ++ Z) = loaded b X ++ loaded b Z := by
  unfold loaded
  cases b <;> simp

theorem loaded_shapes {b : Bool} {X : List (Mat ℝ)} (i : Nat) {x z : Mat ℝ} (hx : X[i]? = some x)
    (hz : (loaded b X)[i]? = some z) : z.rows.length = x.rows.length ∧ z.len = x.len := by
  unfold loaded at hz
  cases b with
  | false => rw [if_neg (by simp), hx] at hz; cases hz; exact ⟨rfl, rfl⟩
  | true =>
    rw [if_pos rfl, List.getElem?_map, hx] at hz
    simp only [Option.map_some, Option.some.injEq] at hz
    subst hz
    exact ⟨by simp, rfl⟩

/-- Exact condition of the concatenation. -/
theorem concatSplits_eq (a b : List (Mat ℝ)) :
    concatSplits a b = if a ++ b ≠ [] ∧ ∀ x ∈ a ++ b, ∀ z ∈ a ++ b, z.rows.length = x.rows.length ∧ z.len = x.len
      then .ok (a ++ b) else .error .valueError := by
  unfold concatSplits
  cases h : a ++ b with
  | nil => simp
  | cons x xs =>
    simp only
    have : (xs.all fun z => z.rows.length == x.rows.length && z.len == x.len) = true ↔
        ∀ z ∈ x :: xs, ∀ z' ∈ x :: xs, z'.rows.length = z.rows.length ∧ z'.len = z.len := by
      rw [List.all_eq_true]
      constructor
      · intro h z hz z' hz'
        have e : ∀ u ∈ x :: xs, u.rows.length = x.rows.length ∧ u.len = x.len := by
          intro u hu
          rcases List.mem_cons.1 hu with rfl | hu
          · exact ⟨rfl, rfl⟩
          · simpa using h u hu
        exact ⟨(e z' hz').1.trans (e z hz).1.symm, (e z' hz').2.trans (e z hz).2.symm⟩
      · intro h z hz
        have := h x (by simp) z (by simp [hz])
        simpa using this
    by_cases hall : (xs.all fun z => z.rows.length == x.rows.length && z.len == x.len) = true
    · rw [if_pos hall, if_pos ⟨by simp, this.1 hall⟩]
    · rw [if_neg hall, if_neg fun hc => hall (this.2 hc.2)]

/-- **C88.** Loading a whole dataset whose series all have one shape: the result is the training series
followed by the test series (z-normalised on request), each with the code of its own label. -/
theorem C88_load_dataset (b : Bool) {trX teX : List (Mat ℝ)} {trY teY : List L}
    (hwf : ∀ x ∈ trX ++ teX, x.WF) (hc : ∀ x ∈ trX ++ teX, x.rows ≠ []) (h1 : trX ≠ []) (h2 : teX ≠ [])
    (hl1 : trY.length = trX.length) (hl2 : teY.length = teX.length) (hlab : ∀ l ∈ teY, l ∈ trY)
    (hsame : ∀ x ∈ trX ++ teX, ∀ z ∈ trX ++ teX, z.rows.length = x.rows.length ∧ z.len = x.len) :
    ∃ y, loadAll b trX trY teX teY = .ok (loaded b (trX ++ teX), y) ∧ y.length = (trX ++ teX).length ∧
      ∀ (i : Nat) (l : L), (trY ++ teY)[i]? = some l → ∃ j, y[i]? = some j ∧ (uniques trY)[j]? = some l := by
  obtain ⟨yTr, yTe, m, hld, -, -, e1, e2, v1, v2⟩ := C65_loader b hwf hc h1 h2 hlab
  refine ⟨yTr ++ yTe, ?_, by simp [e1, e2, hl1, hl2], ?_⟩
  · unfold loadAll
    rw [hld, Res.bind_ok]
    simp only
    rw [concatSplits_eq, if_pos, Res.bind_ok, loaded_append]
    · rfl
    · rw [← loaded_append]
      obtain ⟨s1, -, -⟩ := loaded_shape (b := b) (X := trX ++ teX)
      refine ⟨fun h0 => ?_, ?_⟩
      · rw [h0] at s1
        simp at s1
        exact h1 (List.length_eq_zero_iff.1 (by omega))
      · intro x hx z hz
        obtain ⟨i, hi, rfl⟩ := List.getElem_of_mem hx
        obtain ⟨j, hj, rfl⟩ := List.getElem_of_mem hz
        have hi' : i < (trX ++ teX).length := by omega
        have hj' : j < (trX ++ teX).length := by omega
        obtain ⟨a1, a2⟩ := loaded_shapes (b := b) i (List.getElem?_eq_getElem hi') (List.getElem?_eq_getElem hi)
        obtain ⟨b1, b2⟩ := loaded_shapes (b := b) j (List.getElem?_eq_getElem hj') (List.getElem?_eq_getElem hj)
        obtain ⟨c1, c2⟩ := hsame _ (List.getElem_mem hi') _ (List.getElem_mem hj')
        rw [a1, a2, b1, b2]
        exact ⟨c1, c2⟩
  · intro i l hi
    by_cases hlt : i < trY.length
    · rw [List.getElem?_append_left hlt] at hi
      obtain ⟨j, hj, hu⟩ := v1 i l hi
      exact ⟨j, by rw [List.getElem?_append_left (by omega)]; exact hj, hu⟩
    · rw [List.getElem?_append_right (by omega)] at hi
      obtain ⟨j, hj, hu⟩ := v2 _ l hi
      exact ⟨j, by rw [List.getElem?_append_right (by omega), e1]; exact hj, hu⟩

/-- **C88 (violated: datasets with series of different lengths can be loaded).** As soon as two series of
the dataset differ in length, `load_UCR_UEA_dataset` raises `ValueError`, although the loader of the two splits
succeeds. -/
theorem C88_uneven_dataset_fails (b : Bool) {trX teX : List (Mat ℝ)} {trY teY : List L}
    (hwf : ∀ x ∈ trX ++ teX, x.WF) (hc : ∀ x ∈ trX ++ teX, x.rows ≠ []) (h1 : trX ≠ []) (h2 : teX ≠ [])
    (hlab : ∀ l ∈ teY, l ∈ trY) (hdiff : ∃ x ∈ trX ++ teX, ∃ z ∈ trX ++ teX, z.len ≠ x.len) :
    (∃ r, loadSplit b trX trY teX teY = .ok r) ∧ loadAll b trX trY teX teY = .error .valueError := by
  obtain ⟨yTr, yTe, m, hld, -⟩ := C65_loader b hwf hc h1 h2 hlab
  refine ⟨⟨_, hld⟩, ?_⟩
  unfold loadAll
  rw [hld, Res.bind_ok]
  simp only
  rw [concatSplits_eq, if_neg]
  · rfl
  · rintro ⟨-, hall⟩
    rw [← loaded_append] at hall
    obtain ⟨x, hx, z, hz, hne⟩ := hdiff
    obtain ⟨s1, -, -⟩ := loaded_shape (b := b) (X := trX ++ teX)
    obtain ⟨i, hi, rfl⟩ := List.getElem_of_mem hx
    obtain ⟨j, hj, rfl⟩ := List.getElem_of_mem hz
    have hi' : i < (loaded b (trX ++ teX)).length := by omega
    have hj' : j < (loaded b (trX ++ teX)).length := by omega
    obtain ⟨-, a2⟩ := loaded_shapes (b := b) i (List.getElem?_eq_getElem hi) (List.getElem?_eq_getElem hi')
    obtain ⟨-, b2⟩ := loaded_shapes (b := b) j (List.getElem?_eq_getElem hj) (List.getElem?_eq_getElem hj')
    have := (hall _ (List.getElem_mem hi') _ (List.getElem_mem hj')).2
    rw [a2, b2] at this
    exact hne this

/-- C88: two series of five points; the labels 3 and 5 become 0 and 1. -/
example (b : Bool) : ∃ X, loadAll b [(⟨[[1, 2, 3, 2, 1]], 5⟩ : Mat ℝ), ⟨[[0, 2, 3, 2, 1]], 5⟩] [(5 : Int), 3]
    [⟨[[7, 8, 9, 8, 7]], 5⟩] [(5 : Int)] = .ok (X, [1, 0, 1]) := by
  obtain ⟨y, h, hl, hy⟩ := C88_load_dataset b (trX := [(⟨[[1, 2, 3, 2, 1]], 5⟩ : Mat ℝ), ⟨[[0, 2, 3, 2, 1]], 5⟩])
    (trY := [(5 : Int), 3]) (teX := [⟨[[7, 8, 9, 8, 7]], 5⟩]) (teY := [(5 : Int)]) (by simp [Mat.WF]) (by simp)
    (by simp) (by simp) rfl rfl (by simp) (by simp)
  suffices hy1 : y = [1, 0, 1] by subst hy1; exact ⟨_, h⟩
  have hu : uniques [(5 : Int), 3] = [3, 5] := by simp [uniques, List.mergeSort, List.MergeSort.Internal.splitInTwo, List.merge]
  rw [hu] at hy
  obtain ⟨j0, h0, u0⟩ := hy 0 5 rfl
  obtain ⟨j1, h1, u1⟩ := hy 1 3 rfl
  obtain ⟨j2, h2, u2⟩ := hy 2 5 rfl
  have key : ∀ (j : Nat) (v : Int), ([3, 5] : List Int)[j]? = some v → (v = 5 → j = 1) ∧ (v = 3 → j = 0) := by
    intro j v hj
    match j with
    | 0 => simp at hj; subst hj; simp
    | 1 => simp at hj; subst hj; simp
    | j + 2 => simp at hj
  obtain rfl := (key _ _ u0).1 rfl
  obtain rfl := (key _ _ u1).2 rfl
  obtain rfl := (key _ _ u2).1 rfl
  match y, hl with
  | [a, b, c], _ =>
    simp at h0 h1 h2
    rw [h0, h1, h2]

/-- C88: series of five and of four points. -/
example (b : Bool) : loadAll b [(⟨[[1, 2, 3, 2, 1]], 5⟩ : Mat ℝ)] [(3 : Int)] [⟨[[7, 8, 9, 8]], 4⟩] [(3 : Int)] =
    .error .valueError :=
  (C88_uneven_dataset_fails b (by simp [Mat.WF]) (by simp) (by simp) (by simp) (by simp) (by simp)).2

/-- C65: a training split with a series of five points, a test split with one of four. -/
example {G : Type} [Gen G ℝ] [LawfulGen G] (g : G) (w : World Nat) (gs : Nat → G) (b : Bool) :
    ∃ X Z yTr yTe, loadSplit b [(⟨[[1, 2, 3, 2, 1]], 5⟩ : Mat ℝ)] [(3 : Int)] [⟨[[7, 8, 9, 8]], 4⟩] [(3 : Int)] =
        .ok (X, Z, yTr, yTe, 4) ∧
      ∃ o' w' S M, ({ exObj .auto with minLen := some 4 } : Rdst ℝ Nat).fit (exEnv g) gs List.range w (.list X) yTr
          = (o', w', .ok ()) ∧
        o'.shapelets = some S ∧ o'.transform (.list Z) = .ok M ∧ GoodMatrix M 1 (Shapelets.count S) := by
  have hwf : ∀ x ∈ [(⟨[[1, 2, 3, 2, 1]], 5⟩ : Mat ℝ)] ++ [⟨[[7, 8, 9, 8]], 4⟩], x.WF := by simp [Mat.WF]
  obtain ⟨X, Z, yTr, yTe, m, h, hall⟩ := C65_min_len_suffices (G := G) (R := Nat) b
    (trX := [⟨[[1, 2, 3, 2, 1]], 5⟩]) (teX := [⟨[[7, 8, 9, 8]], 4⟩]) (trY := [(3 : Int)]) (teY := [(3 : Int)])
    hwf 1 le_rfl (by simp) (by simp) (by simp) (by simp) rfl
  obtain ⟨y1, y2, m', h', hle, ⟨x, hx, hxm⟩, -⟩ := C65_loader b
    (trX := [⟨[[1, 2, 3, 2, 1]], 5⟩]) (teX := [⟨[[7, 8, 9, 8]], 4⟩]) (trY := [(3 : Int)]) (teY := [(3 : Int)])
    hwf (by simp) (by simp) (by simp) (by simp)
  have hm : m = 4 := by
    have hmm : m' = m := by
      rw [h, Except.ok.injEq] at h'
      simp only [Prod.mk.injEq] at h'
      exact h'.2.2.2.2.symm
    have h4 : m' ≤ 4 := hle ⟨[[7, 8, 9, 8]], 4⟩ (by simp)
    have : m' = 5 ∨ m' = 4 := by
      rcases (by simpa using hx) with rfl | rfl
      · left; exact hxm.symm
      · right; exact hxm.symm
    omega
  subst hm
  refine ⟨X, Z, yTr, yTe, h, hall (exEnv g) _ w gs List.range (fun _ => List.Perm.refl _) (Or.inr rfl) rfl le_rfl
    ?_ (by simp [exObj])⟩
  have := exObj_good .auto 4
  exact ⟨this.1, this.2, this.3, this.4, this.5⟩

end

/-! ## C72: the folds of a cross-validation do not influence each other -/

section
variable {G K R L : Type} [Scalar K] [Gen G K] [LinearOrder L] {α : Type}

theorem ridgeAfter_append (env : ClfEnv G K R L) (c : RidgeClf K R L) (w : World R)
    (h1 h2 : List (FitCall G K L)) :
    ridgeAfter env c w (h1 ++ h2) = ridgeAfter env (ridgeAfter env c w h1).1 (ridgeAfter env c w h1).2 h2 := by
  induction h1 generalizing c w with
  | nil => rfl
  | cons f fs ih => exact ih _ _

/-- The score of fold `i` for a classifier that has never been fitted: fit on the training split, predict
the test split, score. -/
def freshScore (env : ClfEnv G K R L) (gs : Nat → G) (order : Nat → List Nat) (c : RidgeClf K R L) (w : World R)
    (pack : List α → XIn K) (scorer : List L → List L → Res K) (s : Split α L) : Res K :=
  match c.fit env gs order w (pack s.trainX) s.trainY with
  | (_, _, .error e) => .error e
  | (c', _, .ok _) => do
    let yp ← c'.predict (pack s.testX)
    scorer s.testY yp

/-- **C72.** Cross-validating one `R_DST_Ridge` object with an integer `random_state` and
`n_samples=None`: the scores are those of a new, never fitted object for each fold, although the same
object is refitted again and again.  In particular the score of fold `i` does not depend on how many folds
are asked for nor on the other splits, and if a fold fails it fails with the same exception. -/
theorem C72_folds_independent (env : ClfEnv G K R L) (gs : Nat → Nat → G) (order : Nat → List Nat)
    (c : RidgeClf K R L) {s : Nat} (hs : c.rs = .seed s) (hns : c.p.nSamples = none) (pack : List α → XIn K)
    (scorer : List L → List L → Res K) (splits : Nat → Res (Split α L)) (n : Nat) (w w' : World R) :
    crossValidate (fun i c w X y => c.fit env (gs i) order w (pack X) y) (fun c X => c.predict (pack X)) scorer splits
      n 0 c w =
    (List.range n).mapM (fun i => splits i >>= freshScore env (gs i) order c w' pack scorer) := by
  have key : ∀ (n i : Nat) (w0 w : World R) (hist : List (FitCall G K L)),
      (ridgeAfter env c w0 hist).2 = w →
      crossValidate (fun i c w X y => c.fit env (gs i) order w (pack X) y) (fun c X => c.predict (pack X)) scorer
        splits n i (ridgeAfter env c w0 hist).1 w =
      (List.range' i n).mapM (fun i => splits i >>= freshScore env (gs i) order c w' pack scorer) := by
    intro n
    induction n with
    | zero => intros; rfl
    | succ n ih =>
      intro i w0 w hist hw
      rw [crossValidate, List.range'_succ, List.mapM_cons]
      cases hsp : splits i with
      | error e => rfl
      | ok sp =>
        simp only [Res.bind_ok]
        obtain ⟨res, clf, tr, hall⟩ := C69_refit_from_scratch env (gs i) order c hs hns (pack sp.trainX) sp.trainY
        obtain ⟨c1, w1, h1, h2, h3⟩ := hall w0 w hist
        obtain ⟨c2, w2, k1, k2, k3⟩ := hall w' w' []
        unfold freshScore
        rw [h1, show c.fit env (gs i) order w' (pack sp.trainX) sp.trainY = (c2, w2, res) from k1]
        cases res with
        | error e => rfl
        | ok u =>
          simp only
          have hp : c1.predict (pack sp.testX) = c2.predict (pack sp.testX) := by
            unfold RidgeClf.predict
            rw [h2, k2, h3 rfl, k3 rfl]
          rw [hp]
          cases c2.predict (pack sp.testX) with
          | error e => rfl
          | ok yp =>
            simp only [Res.bind_ok]
            cases scorer sp.testY yp with
            | error e => rfl
            | ok v =>
              simp only [Res.bind_ok]
              have := ih (i + 1) w0 w1 (hist ++ [⟨pack sp.trainX, sp.trainY, gs i, order⟩]) (by
                rw [ridgeAfter_append, ridgeAfter, ridgeAfter, hw, h1])
              rw [ridgeAfter_append, ridgeAfter, ridgeAfter, hw, h1] at this
              rw [this]
              rfl
  have := key n 0 w w [] rfl
  rw [List.range_eq_range']
  exact this

end

/-- C72: three folds of the concrete classifier; all are scored. -/
example {G : Type} [Gen G ℝ] [LawfulGen G] (g : G) (w : World Nat) (gs : Nat → Nat → G) :
    ∃ vs : List ℝ, crossValidate (fun i (c : RidgeClf ℝ Nat Nat) w X y => c.fit (exClfEnv g) (gs i) List.range w
        (.array .float64 ⟨X, 1, 5⟩) y) (fun c X => c.predict (.array .float64 ⟨X, 1, 5⟩)) accuracyScore
      (fun _ => .ok ⟨exSepArr.data, [0, 1], exSepArr.data, [0, 1]⟩) 3 0 exRidge w = .ok vs ∧
      vs.length = 3 := by
  have h : ∀ i, ∃ v, freshScore (exClfEnv g) (gs i) List.range exRidge w
      (fun X => XIn.array .float64 ⟨X, 1, 5⟩) accuracyScore
      ⟨exSepArr.data, [0, 1], exSepArr.data, [0, 1]⟩ = .ok v := by
    intro i
    obtain ⟨c', w', P, h1, h2, -, v, h3, -⟩ := exRidge_predict g w (gs i)
    unfold RidgeClf.score at h3
    rw [h2] at h3
    refine ⟨v, ?_⟩
    unfold freshScore
    have e : (XIn.array DType.float64 ⟨exSepArr.data, 1, 5⟩) = XIn.array .float64 exSepArr := rfl
    simp only [e]
    rw [h1]
    simp only
    rw [h2]
    exact h3
  choose f hf using h
  refine ⟨(List.range 3).map f, ?_, by simp⟩
  rw [C72_folds_independent (exClfEnv g) gs List.range exRidge (s := 7) rfl rfl
    (fun X => XIn.array .float64 ⟨X, 1, 5⟩) accuracyScore _ 3 w w]
  exact mapM_ok fun i _ => hf i

end Convst.Props
