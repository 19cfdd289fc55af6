import Verif.Proofs.Ensemble
import Verif.Props.Ridge
import Verif.Props.InputTransformers

/-!
# `R_DST_Ensemble` (C45, C50, C51, C52, C67)
-/

set_option autoImplicit false
set_option linter.unusedSectionVars false

namespace Convst.Props
open Convst Spec

section
variable {R : Type}

/-! ## C50: the vote -/

/-- The input transformer of a member turns the series `xs` of `X` into `f x`, one by one. -/
def RepOn (rep : XIn ℝ → Res (XIn ℝ)) (X : XIn ℝ) (xs : List (Mat ℝ)) (f : Mat ℝ → Mat ℝ) (nf : Nat) : Prop :=
  ∀ X', rep X = .ok X' → X'.WF ∧ samples X' = .ok (xs.map f) ∧ ∀ x ∈ xs, (f x).rows.length = nf

/-- A fitted member, on series of `nf` channels after its input transformer. -/
structure MemberWF (m : Member ℝ R) (S : Shapelets ℝ) (nf : Nat) : Prop where
  fitted : m.rdst.shapelets = some S
  shp : ShpWF S nf
  offset : m.scaler.1.length = 3 * Shapelets.count S
  scale : m.scaler.2.length = 3 * Shapelets.count S
  lin : LinWF m.lin (3 * Shapelets.count S)

/-- The probability a member gives to class `k` for the transformed series `x`: softmax of the scores of
its linear model on its standardised features. -/
noncomputable def memberProb (m : Member ℝ R) (S : Shapelets ℝ) (x : Mat ℝ) (k : Nat) : ℝ :=
  softmax (classScores m.lin (plainStd m.scaler (objRow m.rdst.phase S x))) k

theorem proba_ok {m : Member ℝ R} {S : Shapelets ℝ} {nf : Nat} (hm : MemberWF m S nf) {X : XIn ℝ}
    {xs : List (Mat ℝ)} {f : Mat ℝ → Mat ℝ} (hr : RepOn m.rep X xs f nf) {P : List (List ℝ)}
    (h : m.proba X = .ok P) : xs ≠ [] ∧
      P = xs.map fun x => (List.range m.lin.classes.length).map (memberProb m S (f x)) := by
  unfold Member.proba at h
  rw [Res.bind_eq_ok] at h
  obtain ⟨Xi, hXi, h⟩ := h
  rw [Res.bind_eq_ok] at h
  obtain ⟨F, hF, h⟩ := h
  obtain ⟨hwf, hs, hnf⟩ := hr Xi hXi
  obtain ⟨rfl, hne⟩ := transform_rows hm.fitted hm.shp hwf hs (by
    intro z hz
    obtain ⟨x, hx, rfl⟩ := List.mem_map.1 hz
    exact hnf x hx) hF
  rw [predictProba_ok hm.offset hm.scale hm.lin (by
    intro r hr
    obtain ⟨x, -, rfl⟩ := List.mem_map.1 hr
    exact objRow_length _ _ _), Except.ok.injEq] at h
  refine ⟨by simpa using hne, ?_⟩
  rw [← h, List.map_map, List.map_map]
  rfl

/-- Weighted sum over the members of the probabilities of class `k` for series `x`. -/
noncomputable def vote (e : Ensemble ℝ R) (ws : List ℝ) (fs : Nat → Mat ℝ → Mat ℝ) (Ss : Nat → Shapelets ℝ)
    (x : Mat ℝ) (k : Nat) : ℝ :=
  total ws.length fun i => match e.models[i]? with
    | some m => ws.getD i 0 * memberProb m (Ss i) (fs i x) k
    | none => 0

theorem classes_pos {m : Linear ℝ Int} {n : Nat} (h : LinWF m n) : 0 < m.classes.length := by
  rw [h.classes]
  have := List.length_pos_of_ne_nil h.ne
  split <;> omega

/-- **C50.** Whenever `predict` returns, all members have the same number `nc` of classes, and the value
returned for each series is the first index below `nc` at which the weighted sum of the members'
probabilities is greatest.  It is computed from that series alone. -/
theorem C50_weighted_vote {e : Ensemble ℝ R} {ws : List ℝ} (hw : e.weights = some ws)
    (hne : ws ≠ []) {nf : Nat}
    {fs : Nat → Mat ℝ → Mat ℝ} {Ss : Nat → Shapelets ℝ}
    (hm : ∀ i m, e.models[i]? = some m → MemberWF m (Ss i) nf) {X : XIn ℝ} {xs : List (Mat ℝ)}
    (hr : ∀ i m, e.models[i]? = some m → RepOn m.rep X xs (fs i) nf) {P : List Nat}
    (h : e.predict X = .ok P) :
    ∃ nc, (∀ i < ws.length, ∃ m, e.models[i]? = some m ∧ m.lin.classes.length = nc) ∧
      List.Forall₂ (fun x p => FirstMax ((List.range nc).map (vote e ws fs Ss x)) p) xs P := by
  unfold Ensemble.predict at h
  rw [hw] at h
  simp only at h
  rw [Res.bind_eq_ok] at h
  obtain ⟨preds, hp, h⟩ := h
  rw [Res.bind_eq_ok] at h
  obtain ⟨C, hC, h⟩ := h
  rw [Res.pure_eq, Except.ok.injEq] at h
  -- one matrix per member
  have hmem : ∀ i < ws.length, ∃ m, e.models[i]? = some m ∧ xs ≠ [] ∧
      preds.getD i [] = xs.map fun x => (List.range m.lin.classes.length).map fun k =>
        ws.getD i 0 * memberProb m (Ss i) (fs i x) k := by
    intro i hi
    have hf := mapM_eq_ok.1 hp
    have hlen : preds.length = ws.length := by rw [← hf.length_eq]; simp
    have := hf.get (i := i) (by simpa using hi) (by omega)
    simp only [List.get_eq_getElem, List.getElem_range] at this
    rw [Res.bind_eq_ok] at this
    obtain ⟨m, hmi, this⟩ := this
    rw [Res.bind_eq_ok] at this
    obtain ⟨wt, hwt, this⟩ := this
    have hmi' : e.models[i]? = some m := by
      unfold pyGet at hmi
      split at hmi
      · rename_i h'; cases hmi; exact h'
      · cases hmi
    have hwt' : wt = ws.getD i 0 := by
      unfold pyGet at hwt
      split at hwt
      · rename_i h'; cases hwt; rw [List.getD_eq_getElem?_getD, h']; rfl
      · cases hwt
    rw [weighted_eq] at this
    cases hPm : m.proba X with
    | error e => rw [hPm] at this; cases this
    | ok Pm =>
      obtain ⟨hxne, hPm'⟩ := proba_ok (hm i m hmi') (hr i m hmi') hPm
      rw [hPm] at this
      simp only [Except.map, Except.ok.injEq] at this
      refine ⟨m, hmi', hxne, ?_⟩
      rw [getD_lt _ (by omega), ← this, hPm', List.map_map]
      apply List.map_congr_left
      intro x _
      simp only [Function.comp_apply, List.map_map]
      apply List.map_congr_left
      intro k _
      simp only [Function.comp_apply]
      rw [hwt', mul_comm]
  have hlen : preds.length = ws.length := by rw [← (mapM_eq_ok.1 hp).length_eq]; simp
  obtain ⟨-, hshape, hcell⟩ := sumMats_spec hC
  have hpos : 0 < ws.length := List.length_pos_of_ne_nil hne
  obtain ⟨m0, hm0, hxne, hp0⟩ := hmem 0 hpos
  have hx0 : 0 < xs.length := List.length_pos_of_ne_nil hxne
  have hsh : ∀ i < ws.length, SameShape (preds.getD i []) C := fun i hi =>
    hshape _ (by rw [getD_lt _ (by omega)]; exact List.getElem_mem _)
  have hCl : C.length = xs.length := by
    have := (hsh 0 hpos).1
    rw [hp0] at this
    simpa using this.symm
  have hrow : ∀ i (hi : i < ws.length) m, e.models[i]? = some m → ∀ q < xs.length,
      (C.getD q []).length = m.lin.classes.length := by
    intro i hi m hmi q hq
    obtain ⟨m', hm', -, hpi⟩ := hmem i hi
    rw [hmi] at hm'
    cases hm'
    rw [← (hsh i hi).2 q, hpi, getD_lt _ (by simpa using hq)]
    simp
  refine ⟨m0.lin.classes.length, ?_, ?_⟩
  · intro i hi
    obtain ⟨m, hmi, -, -⟩ := hmem i hi
    exact ⟨m, hmi, (hrow i hi m hmi 0 hx0).symm.trans (hrow 0 hpos m0 hm0 0 hx0)⟩
  · rw [List.forall₂_iff_get]
    refine ⟨by rw [← h]; simp [hCl], ?_⟩
    intro q hq hq'
    simp only [List.get_eq_getElem]
    have hP : P[q] = argmax (C.getD q []) := by
      subst h
      rw [List.getElem_map, getD_lt _ (by omega)]
    have hCq : C.getD q [] = (List.range m0.lin.classes.length).map (vote e ws fs Ss xs[q]) := by
      apply List.ext_getElem (by rw [hrow 0 hpos m0 hm0 q hq]; simp)
      intro k hk hk'
      have hk'' : k < m0.lin.classes.length := by simpa using hk'
      rw [List.getElem_map, List.getElem_range, ← getD_lt 0 hk]
      have := hcell q k
      unfold cell at this
      rw [this]
      unfold vote total
      congr 1
      apply List.ext_getElem (by simp [hlen])
      intro i h1 h2
      have hi : i < ws.length := by simpa using h2
      obtain ⟨m, hmi, -, hpi⟩ := hmem i hi
      rw [List.getElem_map, List.getElem_map, List.getElem_range, hmi, ← getD_lt [] (by omega), hpi,
        getD_lt (a := xs.map _) _ (by simpa using hq), List.getElem_map]
      have hmc : m.lin.classes.length = m0.lin.classes.length :=
        (hrow i hi m hmi 0 hx0).symm.trans (hrow 0 hpos m0 hm0 0 hx0)
      rw [getD_lt _ (by simp; omega), List.getElem_map, List.getElem_range]
    rw [hP, ← hCq]
    apply argmax_spec
    rw [← List.length_pos_iff, hrow 0 hpos m0 hm0 q hq]
    exact classes_pos (hm 0 m0 hm0).lin

/-- **C50.** The predicted value is a class index: below the number of classes. -/
theorem C50_index_range {e : Ensemble ℝ R} {ws : List ℝ} (hw : e.weights = some ws) (hne : ws ≠ []) {nf : Nat}
    {fs : Nat → Mat ℝ → Mat ℝ} {Ss : Nat → Shapelets ℝ}
    (hm : ∀ i m, e.models[i]? = some m → MemberWF m (Ss i) nf) {X : XIn ℝ} {xs : List (Mat ℝ)}
    (hr : ∀ i m, e.models[i]? = some m → RepOn m.rep X xs (fs i) nf) {P : List Nat}
    (h : e.predict X = .ok P) : P.length = xs.length ∧
      ∀ i < ws.length, ∀ m, e.models[i]? = some m → ∀ p ∈ P, p < m.lin.classes.length := by
  obtain ⟨nc, h1, h2⟩ := C50_weighted_vote hw hne hm hr h
  refine ⟨h2.length_eq.symm, ?_⟩
  intro i hi m hmi p hp
  obtain ⟨m', hm', hl⟩ := h1 i hi
  rw [hmi] at hm'
  cases hm'
  rw [hl]
  obtain ⟨q, hq, rfl⟩ := List.getElem_of_mem hp
  have := (List.forall₂_iff_get.1 h2).2 q (by rw [h2.length_eq]; exact hq) hq
  have := this.1
  simpa using this

/-- **C50.** The prediction for a series is the same in any two batches containing it, whatever the other series and
whatever its place in the batch. -/
theorem C50_batch_independent {e : Ensemble ℝ R} {ws : List ℝ} (hw : e.weights = some ws) (hne : ws ≠ []) {nf : Nat}
    {fs : Nat → Mat ℝ → Mat ℝ} {Ss : Nat → Shapelets ℝ}
    (hm : ∀ i m, e.models[i]? = some m → MemberWF m (Ss i) nf) {X X' : XIn ℝ} {xs xs' : List (Mat ℝ)}
    (hr : ∀ i m, e.models[i]? = some m → RepOn m.rep X xs (fs i) nf)
    (hr' : ∀ i m, e.models[i]? = some m → RepOn m.rep X' xs' (fs i) nf) {P P' : List Nat}
    (h : e.predict X = .ok P) (h' : e.predict X' = .ok P') {q q' : Nat} {x : Mat ℝ} (hq : xs[q]? = some x)
    (hq' : xs'[q']? = some x) : ∃ p, P[q]? = some p ∧ P'[q']? = some p := by
  obtain ⟨nc, a1, a2⟩ := C50_weighted_vote hw hne hm hr h
  obtain ⟨nc', b1, b2⟩ := C50_weighted_vote hw hne hm hr' h'
  have hnc : nc = nc' := by
    obtain ⟨m, hm1, h1⟩ := a1 0 (List.length_pos_of_ne_nil hne)
    obtain ⟨m', hm1', h1'⟩ := b1 0 (List.length_pos_of_ne_nil hne)
    rw [hm1] at hm1'
    cases hm1'
    rw [← h1, ← h1']
  subst hnc
  have key : ∀ (ys : List (Mat ℝ)) (Q : List Nat) (i : Nat),
      List.Forall₂ (fun x p => FirstMax ((List.range nc).map (vote e ws fs Ss x)) p) ys Q → ys[i]? = some x →
      ∃ p, Q[i]? = some p ∧ FirstMax ((List.range nc).map (vote e ws fs Ss x)) p := by
    intro ys Q i hF hi
    obtain ⟨hl, rfl⟩ := List.getElem?_eq_some_iff.1 hi
    have hQ : i < Q.length := by rw [← hF.length_eq]; exact hl
    exact ⟨Q[i], List.getElem?_eq_getElem hQ, (List.forall₂_iff_get.1 hF).2 i hl hQ⟩
  obtain ⟨p, hp, hf⟩ := key _ _ _ a2 hq
  obtain ⟨p', hp', hf'⟩ := key _ _ _ b2 hq'
  exact ⟨p, hp, by rw [hp', FirstMax.unique hf' hf]⟩

theorem total_le {n : Nat} {f g : Nat → ℝ} (h : ∀ i < n, f i ≤ g i) : total n f ≤ total n g := by
  unfold total
  apply List.sum_le_sum
  intro i hi
  exact h i (by simpa using hi)

theorem total_lt {n : Nat} {f g : Nat → ℝ} (h : ∀ i < n, f i ≤ g i) (h' : ∃ i < n, f i < g i) :
    total n f < total n g := by
  unfold total
  obtain ⟨i, hi, hlt⟩ := h'
  exact List.sum_lt_sum f g (fun i hi => h i (by simpa using hi)) ⟨i, by simpa using hi, hlt⟩

/-- **C50.** With non-negative weights, one of them positive, a class to which every member gives its
greatest probability for a series, strictly, is the one predicted. -/
theorem C50_unanimous {e : Ensemble ℝ R} {ws : List ℝ} (hw : e.weights = some ws) {nf : Nat}
    {fs : Nat → Mat ℝ → Mat ℝ} {Ss : Nat → Shapelets ℝ}
    (hm : ∀ i m, e.models[i]? = some m → MemberWF m (Ss i) nf) {X : XIn ℝ} {xs : List (Mat ℝ)}
    (hr : ∀ i m, e.models[i]? = some m → RepOn m.rep X xs (fs i) nf) {P : List Nat}
    (h : e.predict X = .ok P) (hw0 : ∀ v ∈ ws, 0 ≤ v) (hw1 : ∃ v ∈ ws, 0 < v)
    {q : Nat} {x : Mat ℝ} (hq : xs[q]? = some x) {k : Nat}
    (hk : ∀ i m, e.models[i]? = some m → k < m.lin.classes.length ∧
      ∀ j < m.lin.classes.length, j ≠ k → memberProb m (Ss i) (fs i x) j < memberProb m (Ss i) (fs i x) k) :
    P[q]? = some k := by
  have hne : ws ≠ [] := by
    obtain ⟨v, hv, -⟩ := hw1
    exact List.ne_nil_of_mem hv
  obtain ⟨nc, h1, h2⟩ := C50_weighted_vote hw hne hm hr h
  have hql : q < xs.length := (List.getElem?_eq_some_iff.1 hq).1
  have hqx : xs[q] = x := (List.getElem?_eq_some_iff.1 hq).2
  have hqP : q < P.length := by rw [← h2.length_eq]; exact hql
  have hf := (List.forall₂_iff_get.1 h2).2 q hql hqP
  simp only [List.get_eq_getElem, hqx] at hf
  rw [List.getElem?_eq_getElem hqP, Option.some.injEq]
  obtain ⟨m0, hm0, hc0⟩ := h1 0 (List.length_pos_of_ne_nil hne)
  have hkn : k < nc := hc0 ▸ (hk 0 m0 hm0).1
  have hlt : ∀ j < nc, j ≠ k → vote e ws fs Ss x j < vote e ws fs Ss x k := by
    intro j hj hjk
    have hmem : ∀ i < ws.length, 0 ≤ ws.getD i 0 := fun i hi => by
      rw [getD_lt _ hi]; exact hw0 _ (List.getElem_mem _)
    apply total_lt
    · intro i hi
      obtain ⟨m, hmi, hl⟩ := h1 i hi
      simp only [hmi]
      exact mul_le_mul_of_nonneg_left ((hk i m hmi).2 j (by omega) hjk).le (hmem i hi)
    · obtain ⟨v, hv, hvp⟩ := hw1
      obtain ⟨i, hi, rfl⟩ := List.getElem_of_mem hv
      obtain ⟨m, hmi, hl⟩ := h1 i hi
      refine ⟨i, hi, ?_⟩
      simp only [hmi]
      rw [getD_lt _ hi]
      exact mul_lt_mul_of_pos_left ((hk i m hmi).2 j (by omega) hjk) hvp
  have hfm : FirstMax ((List.range nc).map (vote e ws fs Ss x)) k := by
    refine ⟨by simpa using hkn, ?_⟩
    intro j hj
    have hj : j < nc := by simpa using hj
    rw [getD_range_map _ hj, getD_range_map _ hkn]
    by_cases hjk : j = k
    · subst hjk; exact ⟨le_rfl, fun h => absurd h (lt_irrefl _)⟩
    · exact ⟨(hlt j hj hjk).le, fun _ => hlt j hj hjk⟩
  exact FirstMax.unique hf hfm

/-- **C50 (violated: `predict` does not return labels).** A label that is not an index below the number
of classes is never returned, whatever the series: with labels `1, 2` the label `2` is never predicted. -/
theorem C50_label_never_predicted {e : Ensemble ℝ R} {ws : List ℝ} (hw : e.weights = some ws) (hne : ws ≠ [])
    {nf : Nat} {fs : Nat → Mat ℝ → Mat ℝ} {Ss : Nat → Shapelets ℝ}
    (hm : ∀ i m, e.models[i]? = some m → MemberWF m (Ss i) nf) {X : XIn ℝ} {xs : List (Mat ℝ)}
    (hr : ∀ i m, e.models[i]? = some m → RepOn m.rep X xs (fs i) nf) {P : List Nat}
    (h : e.predict X = .ok P) {m0 : Member ℝ R} (hm0 : e.models[0]? = some m0) {l : Int}
    (hl : l < 0 ∨ (m0.lin.classes.length : Int) ≤ l) : ∀ p ∈ P, (p : Int) ≠ l := by
  intro p hp hpl
  have := (C50_index_range hw hne hm hr h).2 0 (List.length_pos_of_ne_nil hne) m0 hm0 p hp
  omega

/-- **C50.** When the labels are `0, 1, …, n_classes - 1` the index returned is the label. -/
theorem C50_index_is_label_partial {e : Ensemble ℝ R} {ws : List ℝ} (hw : e.weights = some ws) (hne : ws ≠ [])
    {nf : Nat} {fs : Nat → Mat ℝ → Mat ℝ} {Ss : Nat → Shapelets ℝ}
    (hm : ∀ i m, e.models[i]? = some m → MemberWF m (Ss i) nf) {X : XIn ℝ} {xs : List (Mat ℝ)}
    (hr : ∀ i m, e.models[i]? = some m → RepOn m.rep X xs (fs i) nf) {P : List Nat}
    (h : e.predict X = .ok P) {m0 : Member ℝ R} (hm0 : e.models[0]? = some m0)
    (hcl : m0.lin.classes = (List.range m0.lin.classes.length).map Int.ofNat) :
    ∀ p ∈ P, m0.lin.classes[p]? = some (p : Int) := by
  intro p hp
  have := (C50_index_range hw hne hm hr h).2 0 (List.length_pos_of_ne_nil hne) m0 hm0 p hp
  rw [hcl]
  simp [this]

/-! ## C51: probabilities and weights -/

theorem softmax_pos (s : List ℝ) (hs : s ≠ []) (k : Nat) : 0 < softmax s k := by
  unfold softmax total
  apply div_pos (Real.exp_pos _)
  apply List.sum_pos
  · intro x hx
    obtain ⟨j, -, rfl⟩ := List.mem_map.1 hx
    exact Real.exp_pos _
  · simpa using hs

theorem softmax_sum (s : List ℝ) (hs : s ≠ []) : total s.length (softmax s) = 1 := by
  have := softmaxRow_sum hs
  rwa [softmaxRow_spec] at this

/-- **C51.** Each member's probabilities are positive, sum to 1 over the classes and are ordered as the
scores of its linear model. -/
theorem C51_probabilities {m : Member ℝ R} {S : Shapelets ℝ} {nf : Nat} (hm : MemberWF m S nf) (x : Mat ℝ) :
    (∀ k, 0 < memberProb m S x k) ∧ total m.lin.classes.length (memberProb m S x) = 1 ∧
    ∀ j k, j < m.lin.classes.length → k < m.lin.classes.length →
      (memberProb m S x j < memberProb m S x k ↔
        (classScores m.lin (plainStd m.scaler (objRow m.rdst.phase S x))).getD j 0 <
        (classScores m.lin (plainStd m.scaler (objRow m.rdst.phase S x))).getD k 0) := by
  have hl := classScores_length hm.lin (plainStd m.scaler (objRow m.rdst.phase S x))
  have hne : classScores m.lin (plainStd m.scaler (objRow m.rdst.phase S x)) ≠ [] := by
    rw [← List.length_pos_iff, hl]
    exact classes_pos hm.lin
  refine ⟨fun k => softmax_pos _ hne k, ?_, ?_⟩
  · rw [← hl]; exact softmax_sum _ hne
  · intro j k hj hk
    unfold memberProb softmax
    rw [div_lt_div_iff_of_pos_right, Real.exp_lt_exp]
    unfold total
    apply List.sum_pos
    · intro x hx
      obtain ⟨j, -, rfl⟩ := List.mem_map.1 hx
      exact Real.exp_pos _
    · simpa using hne

end
end Convst.Props
