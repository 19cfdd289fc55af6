import Verif.Props.Ensemble
import Verif.Props.Object

/-!
# `R_DST_Ensemble.fit` (C45, C51, C52, C67)
-/

set_option autoImplicit false
set_option linter.unusedSectionVars false

namespace Convst.Props
open Convst Spec

/-! ## C45: splitting the jobs -/

section
variable {K R : Type} [Scalar K]

/-- **C45.** Let `t ≥ 1` be the number of jobs `n_jobs` stands for on this machine.  Then the split into
`outer` parallel members and `inner` threads per member uses at least one of each, no more than `t` in
total, no more members than there are, and wastes less than one more thread per member. -/
theorem C45_split (cpu : Nat) (e : Ensemble K R) {t : Int} (ht : checkNJobs cpu e.nJobs = .ok t) (h1 : 1 ≤ t)
    (hr : e.reps ≠ []) :
    ∃ outer inner : Int, e.manageNJobs cpu =
        ({ e with nJobs := .int outer, nJobsRdst := some inner }, .ok ()) ∧
      1 ≤ outer ∧ 1 ≤ inner ∧ outer * inner ≤ t ∧ outer ≤ e.reps.length ∧ t < outer * (inner + 1) ∧
      (outer = t ∨ outer = e.reps.length) := by
  have hl : 1 ≤ (e.reps.length : Int) := by
    have := List.length_pos_of_ne_nil hr
    omega
  have ho : 1 ≤ min (e.reps.length : Int) t := le_min hl h1
  have hle : min (e.reps.length : Int) t ≤ t := min_le_right _ _
  have hpos : 0 < min (e.reps.length : Int) t := by omega
  have hq : 1 ≤ t / min (e.reps.length : Int) t := (Int.le_ediv_iff_mul_le hpos).2 (by omega)
  refine ⟨min (e.reps.length : Int) t, t / min (e.reps.length : Int) t, ?_, ho, hq, ?_, min_le_left _ _, ?_, ?_⟩
  · unfold Ensemble.manageNJobs
    rw [ht]
    simp only [pyFloorDiv]
    rw [if_neg (by omega)]
    simp only
    rw [Int.fdiv_eq_ediv_of_nonneg _ (by omega), max_eq_right hq]
  · exact Int.mul_ediv_self_le (by omega)
  · have := Int.lt_ediv_add_one_mul_self t hpos
    rw [mul_comm]
    exact this
  · rcases le_total (e.reps.length : Int) t with h | h
    · right; exact min_eq_left h
    · left; exact min_eq_right h

/-- **C45.** `fit` fails at this step only if `n_jobs` is not an integer (or `None`), if it stands for zero
jobs, or if there are no members. -/
theorem C45_failure (cpu : Nat) (e : Ensemble K R) {t : Int} (ht : checkNJobs cpu e.nJobs = .ok t) :
    (e.manageNJobs cpu).2 = (if t = 0 ∨ (e.reps = [] ∧ 0 ≤ t) then .error .zeroDivision else .ok ()) := by
  unfold Ensemble.manageNJobs
  rw [ht]
  simp only [pyFloorDiv]
  have hl : e.reps = [] ↔ (e.reps.length : Int) = 0 := by
    rw [Int.natCast_eq_zero, List.length_eq_zero_iff]
  by_cases h0 : min (e.reps.length : Int) t = 0
  · rw [if_pos h0, if_pos]
    rcases min_cases (e.reps.length : Int) t with ⟨h1, h2⟩ | ⟨h1, h2⟩
    · right; exact ⟨hl.2 (by omega), by omega⟩
    · left; omega
  · rw [if_neg h0, if_neg]
    rw [hl]
    rintro (h | ⟨h, h'⟩)
    · subst h
      apply h0
      exact min_eq_right (by omega)
    · apply h0
      rw [h]
      exact min_eq_left h'

/-- **C45 (violated: repeating `fit` does not split the same jobs).** The total is replaced by the number
of members, so at the second `fit`, and all later ones, every member gets a single thread. -/
theorem C45_second_fit (cpu : Nat) (e : Ensemble K R) {t : Int} (ht : checkNJobs cpu e.nJobs = .ok t)
    (h1 : 1 ≤ t) (hc : t ≤ cpu) (hr : e.reps ≠ []) :
    ∃ outer : Int, ((e.manageNJobs cpu).1.manageNJobs cpu) =
      ({ e with nJobs := .int outer, nJobsRdst := some 1 }, .ok ()) := by
  obtain ⟨outer, inner, hm, ho, -, -, hle, -, hot⟩ := C45_split cpu e ht h1 hr
  have hleT : outer ≤ t := by
    rcases hot with h | h
    · omega
    · subst h
      have := C45_split cpu e ht h1 hr
      unfold Ensemble.manageNJobs at hm
      rw [ht] at hm
      simp only [pyFloorDiv] at hm
      by_contra hc
      have h2 : min (e.reps.length : Int) t = t := min_eq_right (by omega)
      rw [h2, if_neg (by omega)] at hm
      simp only [Prod.mk.injEq, and_true] at hm
      have := congrArg Ensemble.nJobs hm
      simp only [PyVal.int.injEq] at this
      omega
  rw [hm]
  have hck : checkNJobs cpu (PyVal.int outer : PyVal K) = .ok outer := by
    unfold checkNJobs
    simp only
    rw [if_neg (by omega)]
    congr 1
    omega
  refine ⟨outer, ?_⟩
  unfold Ensemble.manageNJobs
  simp only [hck]
  rw [min_eq_right hle]
  simp only [pyFloorDiv]
  rw [if_neg (by omega)]
  simp only
  rw [Int.fdiv_eq_ediv_of_nonneg _ (by omega), Int.ediv_self (by omega)]
  rfl

end

/-! ## `fit` -/

section
variable {G K R : Type} [Scalar K] [Gen G K]

/-- What the members' fits leave: the `k`-th member in the order starts from the state left by the one
before. -/
theorem fitMembers_ok {fitOne : Nat → RState R → World R → RState R × World R × Res (Member K R)}
    {order : List Nat} (hnd : order.Nodup) {rs rs' : RState R} {w w' : World R}
    {slots0 slots : Nat → Option (Member K R)}
    (h : fitMembers fitOne order rs w slots0 = (rs', w', .ok slots)) :
    ∃ st : Nat → RState R × World R, st 0 = (rs, w) ∧ st order.length = (rs', w') ∧
      (∀ i ∉ order, slots i = slots0 i) ∧
      ∀ k (hk : k < order.length), ∃ m, fitOne order[k] (st k).1 (st k).2 =
        ((st (k + 1)).1, (st (k + 1)).2, .ok m) ∧ slots order[k] = some m := by
  induction order generalizing rs w slots0 with
  | nil =>
    simp only [fitMembers, Prod.mk.injEq, Except.ok.injEq] at h
    obtain ⟨rfl, rfl, rfl⟩ := h
    exact ⟨fun _ => (rs, w), rfl, rfl, fun _ _ => rfl, fun k hk => absurd hk (by simp)⟩
  | cons i order ih =>
    unfold fitMembers at h
    split at h
    · simp at h
    · rename_i rs1 w1 m hm
      obtain ⟨st, h0, h1, h2, h3⟩ := ih (List.nodup_cons.1 hnd).2 h
      refine ⟨fun k => if k = 0 then (rs, w) else st (k - 1), rfl, by simpa using h1, ?_, ?_⟩
      · intro j hj
        rw [List.mem_cons, not_or] at hj
        rw [h2 j hj.2, Function.update_of_ne hj.1]
      · intro k hk
        cases k with
        | zero =>
          refine ⟨m, by simpa [h0] using hm, ?_⟩
          show slots i = some m
          rw [h2 i (List.nodup_cons.1 hnd).1, Function.update_self]
        | succ k =>
          obtain ⟨m', h4, h5⟩ := h3 k (by simpa using hk)
          exact ⟨m', by simpa using h4, by simpa using h5⟩

theorem filterMap_range {α : Type} (n : Nat) (f : Nat → Option α) (h : ∀ i < n, (f i).isSome) :
    ((List.range n).filterMap f).length = n ∧ ∀ i < n, ((List.range n).filterMap f)[i]? = f i := by
  induction n with
  | zero => simp
  | succ n ih =>
    obtain ⟨h1, h2⟩ := ih fun i hi => h i (by omega)
    obtain ⟨v, hv⟩ := Option.isSome_iff_exists.1 (h n (by omega))
    rw [List.range_succ, List.filterMap_append]
    have hs : List.filterMap f [n] = [v] := by simp [hv]
    rw [hs]
    refine ⟨by simp [h1], ?_⟩
    intro i hi
    by_cases hin : i < n
    · rw [List.getElem?_append_left (by omega), h2 i hin]
    · have : i = n := by omega
      subst this
      rw [List.getElem?_append_right (by omega), h1, hv]
      simp

/-- The steps of a successful `fit`. -/
theorem ens_fit_ok {env : EnsEnv G K R} {gs : Nat → Nat → G} {sched : Nat → Nat → List Nat}
    {order : List Nat} {e e' : Ensemble K R} (hord : order.Perm (List.range e.reps.length)) {w w' : World R}
    {X : XIn K} {y : List Int} (h : e.fit env gs sched order w X y = (e', w', .ok ())) :
    ∃ (w1 : World R) (st : Nat → RState R × World R) (accs : List K),
      st 0 = (e.rs, w1) ∧ st e.reps.length = (e'.rs, w') ∧ e'.reps = e.reps ∧
      e'.models.length = e.reps.length ∧
      (∀ k (hk : k < order.length), ∃ m, e'.models[order[k]]? = some m ∧
        fitMember env e (gs order[k]) (sched order[k]) X y order[k] (st k).1 (st k).2 =
          ((st (k + 1)).1, (st (k + 1)).2, .ok m)) ∧
      (e'.models.mapM fun m => (looAcc m.cv y : Res K)) = .ok accs ∧
      e'.weights = some (accs.map fun a => Scalar.rpow a e.aW) := by
  unfold Ensemble.fit at h
  split at h
  · simp at h
  · rename_i e1 hm
    have he1 : ∃ a b, e1 = { e with nJobs := a, nJobsRdst := b } := by
      unfold Ensemble.manageNJobs at hm
      split at hm
      · simp at hm
      · simp only at hm
        split at hm
        · simp at hm
        · simp only [Prod.mk.injEq, and_true] at hm
          exact ⟨_, _, hm.symm⟩
    obtain ⟨a, b, rfl⟩ := he1
    split at h
    · simp at h
    · rename_i w1 hthr
      split at h
      · simp at h
      · rename_i rs2 w2 slots hfm
        simp only at h
        split at h
        · simp at h
        · rename_i accs hacc
          simp only [Prod.mk.injEq, and_true] at h
          obtain ⟨rfl, rfl⟩ := h
          have hnd : order.Nodup := hord.nodup_iff.2 List.nodup_range
          obtain ⟨st, h0, h1, -, h3⟩ := fitMembers_ok hnd hfm
          have hlen : order.length = e.reps.length := by rw [hord.length_eq]; simp
          have hall : ∀ i < e.reps.length, (slots i).isSome := by
            intro i hi
            have : i ∈ order := hord.mem_iff.2 (by simpa using hi)
            obtain ⟨k, hk, rfl⟩ := List.getElem_of_mem this
            obtain ⟨m, -, hs⟩ := h3 k hk
            simp [hs]
          obtain ⟨f1, f2⟩ := filterMap_range e.reps.length slots hall
          refine ⟨w1, st, accs, h0, by rw [← hlen]; exact h1, rfl, f1, ?_, hacc, rfl⟩
          intro k hk
          obtain ⟨m, h4, h5⟩ := h3 k hk
          have hlt : order[k] < e.reps.length := by
            have := hord.mem_iff.1 (List.getElem_mem hk)
            simpa using this
          exact ⟨m, by rw [← h5]; exact f2 _ hlt, h4⟩

end

/-! ## C51, C67: the weights -/

section
variable {G R : Type} [Gen G ℝ]

/-- What is assumed of the leave-one-out predictions kept by scikit-learn for the training series: one row
per series, one value per coefficient row. -/
def CVLaw (ridgeCV : List (List ℝ) → List Int → Res (Linear ℝ Int × List (List ℝ))) : Prop :=
  ∀ F y m cv, ridgeCV F y = .ok (m, cv) → LinWF m (nCols F) ∧ cv.length = y.length ∧
    ∀ r ∈ cv, r.length = m.coef.length

theorem fitMember_cv {env : EnsEnv G ℝ R} (hl : CVLaw env.ridgeCV) {e : Ensemble ℝ R} {gs : Nat → G}
    {order : Nat → List Nat} {X : XIn ℝ} {y : List Int} {i : Nat} {rs rs' : RState R} {w w' : World R}
    {m : Member ℝ R} (h : fitMember env e gs order X y i rs w = (rs', w', .ok m)) :
    m.cv.length = y.length ∧ (∀ r ∈ m.cv, r.length = m.lin.coef.length) ∧ m.lin.coef ≠ [] ∧
      m.lin.classes.length = (if m.lin.coef.length = 1 then 2 else m.lin.coef.length) := by
  unfold fitMember at h
  repeat' split at h
  all_goals (try (simp at h; done))
  simp only [Prod.mk.injEq] at h
  obtain ⟨-, -, h⟩ := h
  rw [Res.bind_eq_ok] at h
  obtain ⟨F, hF, h⟩ := h
  rw [Res.bind_eq_ok] at h
  obtain ⟨sc, hsc, h⟩ := h
  rw [Res.bind_eq_ok] at h
  obtain ⟨Fs, hFs, h⟩ := h
  rw [Res.bind_eq_ok] at h
  obtain ⟨r, hr, h⟩ := h
  rw [Res.pure_eq, Except.ok.injEq] at h
  subst h
  obtain ⟨l1, l2, l3⟩ := hl _ _ _ _ hr
  exact ⟨l2, l3, l1.ne, l1.classes⟩

theorem looIdx_spec {s : List ℝ} (h : s ≠ []) : ∃ k : Nat, looIdx s = (k : Int) ∧ Chosen s k := by
  refine ⟨classIdx s, ?_, classIdx_spec h⟩
  match s with
  | [] => exact absurd rfl h
  | [v] =>
    simp only [looIdx, classIdx]
    split <;> rfl
  | a :: b :: l => rfl

theorem looIdx_list {cv : List (List ℝ)} (h : ∀ r ∈ cv, r ≠ []) :
    ∃ ks : List Nat, List.Forall₂ Chosen cv ks ∧ cv.map looIdx = ks.map Int.ofNat := by
  induction cv with
  | nil => exact ⟨[], .nil, rfl⟩
  | cons a cv ih =>
    obtain ⟨ks, h1, h2⟩ := ih fun r hr => h r (List.mem_cons_of_mem _ hr)
    obtain ⟨k, h3, h4⟩ := looIdx_spec (h a (by simp))
    exact ⟨k :: ks, .cons h4 h1, by rw [List.map_cons, List.map_cons, h2, h3]; rfl⟩

/-- **C51.** After a successful `fit` there is one weight per member: the fraction of the training series
whose leave-one-out class index equals their label, to the power `a_w`. For `a_w ≥ 0` the weights are in
`[0, 1]`. -/
theorem C51_weights {env : EnsEnv G ℝ R} (hl : CVLaw env.ridgeCV) {gs : Nat → Nat → G}
    {sched : Nat → Nat → List Nat} {order : List Nat} {e e' : Ensemble ℝ R}
    (hord : order.Perm (List.range e.reps.length)) {w w' : World R} {X : XIn ℝ} {y : List Int}
    (h : e.fit env gs sched order w X y = (e', w', .ok ())) :
    ∃ ws, e'.weights = some ws ∧ ws.length = e.reps.length ∧ e'.models.length = e.reps.length ∧
      (∀ (i : Nat) (m : Member ℝ R), e'.models[i]? = some m → ∃ ks : List Nat, List.Forall₂ Chosen m.cv ks ∧
        ws[i]? = some (((agree (ks.map Int.ofNat) y : ℝ) / y.length) ^ e.aW)) ∧
      (0 ≤ e.aW → ∀ v ∈ ws, 0 ≤ v ∧ v ≤ 1) := by
  obtain ⟨w1, st, accs, -, -, -, hml, hmem, hacc, hws⟩ := ens_fit_ok hord h
  have hf := mapM_eq_ok.1 hacc
  have hal : accs.length = e.reps.length := by rw [← hf.length_eq, hml]
  have hcv : ∀ (i : Nat) (m : Member ℝ R), e'.models[i]? = some m → m.cv.length = y.length ∧
      (∀ r ∈ m.cv, r.length = m.lin.coef.length) ∧ m.lin.coef ≠ [] := by
    intro i m hmi
    have hi : i < e.reps.length := by
      have := (List.getElem?_eq_some_iff.1 hmi).1
      omega
    have : i ∈ order := hord.mem_iff.2 (by simpa using hi)
    obtain ⟨k, hk, rfl⟩ := List.getElem_of_mem this
    obtain ⟨m', h1, h2⟩ := hmem k hk
    rw [hmi] at h1
    cases h1
    obtain ⟨c1, c2, c3, -⟩ := fitMember_cv hl h2
    exact ⟨c1, c2, c3⟩
  refine ⟨_, hws, by simp [hal], hml, ?_, ?_⟩
  · intro i m hmi
    obtain ⟨c1, c2, c3⟩ := hcv i m hmi
    obtain ⟨ks, k1, k2⟩ := looIdx_list (cv := m.cv) (by
      intro r hr h0
      have := c2 r hr
      rw [h0] at this
      exact c3 (List.length_eq_zero_iff.1 this.symm))
    refine ⟨ks, k1, ?_⟩
    obtain ⟨hi, hmi'⟩ := List.getElem?_eq_some_iff.1 hmi
    have := (List.forall₂_iff_get.1 hf).2 i hi (by omega)
    simp only [List.get_eq_getElem, hmi'] at this
    unfold looAcc at this
    rw [accuracy_eq (by simp [c1]), Except.ok.injEq, k2] at this
    rw [List.getElem?_map, List.getElem?_eq_getElem (by omega), ← this]
    simp only [Option.map_some, Option.some.injEq]
    have hlen : (ks.map Int.ofNat).length = y.length := by rw [← k2]; simp [c1]
    rw [hlen]
    rfl
  · intro ha v hv
    obtain ⟨a, ha', rfl⟩ := List.mem_map.1 hv
    obtain ⟨i, hi, rfl⟩ := List.getElem_of_mem ha'
    have := (List.forall₂_iff_get.1 hf).2 i (by omega) hi
    simp only [List.get_eq_getElem] at this
    obtain ⟨h0, h1⟩ := accuracy_range this
    exact ⟨Real.rpow_nonneg h0 _, Real.rpow_le_one h0 h1 ha⟩

theorem agree_zero {a b : List Int} (h : ∀ x ∈ a, x ∉ b) : agree a b = 0 := by
  unfold agree
  rw [List.length_eq_zero_iff, List.filter_eq_nil_iff]
  intro p hp
  obtain ⟨p1, p2⟩ := p
  obtain ⟨h1, h2⟩ := List.of_mem_zip hp
  simp only [decide_eq_true_eq]
  intro he
  subst he
  exact h _ h1 h2

/-- **C67 (violated: the weights ignore what the members learned).** If no training label is a class index
(all are negative or at least the number of classes) then, for `a_w ≠ 0`, every member gets weight 0. -/
theorem C67_all_weights_zero {env : EnsEnv G ℝ R} (hl : CVLaw env.ridgeCV) {gs : Nat → Nat → G}
    {sched : Nat → Nat → List Nat} {order : List Nat} {e e' : Ensemble ℝ R}
    (hord : order.Perm (List.range e.reps.length)) {w w' : World R} {X : XIn ℝ} {y : List Int}
    (h : e.fit env gs sched order w X y = (e', w', .ok ())) (ha : e.aW ≠ 0)
    (hlab : ∀ m ∈ e'.models, ∀ l ∈ y, l < 0 ∨ (m.lin.classes.length : Int) ≤ l) :
    ∃ ws, e'.weights = some ws ∧ ws.length = e.reps.length ∧ ∀ v ∈ ws, v = 0 := by
  obtain ⟨ws, h1, h2, h3, h4, -⟩ := C51_weights hl hord h
  refine ⟨ws, h1, h2, ?_⟩
  intro v hv
  obtain ⟨i, hi, rfl⟩ := List.getElem_of_mem hv
  have hi' : i < e'.models.length := by omega
  obtain ⟨ks, k1, k2⟩ := h4 i e'.models[i] (List.getElem?_eq_getElem hi')
  rw [List.getElem?_eq_getElem hi, Option.some.injEq] at k2
  rw [k2, agree_zero, Nat.cast_zero, zero_div, Real.zero_rpow ha]
  intro x hx hxy
  obtain ⟨k, hk, rfl⟩ := List.mem_map.1 hx
  have hm : e'.models[i] ∈ e'.models := List.getElem_mem hi'
  obtain ⟨w1, st, accs, -, -, -, hml, hmem, -, -⟩ := ens_fit_ok hord h
  have : i ∈ order := hord.mem_iff.2 (by simp; omega)
  obtain ⟨q, hq, hqi⟩ := List.getElem_of_mem this
  obtain ⟨m', h5, h6⟩ := hmem q hq
  rw [hqi, List.getElem?_eq_getElem hi', Option.some.injEq] at h5
  obtain ⟨c1, c2, c3, c4⟩ := fitMember_cv hl h6
  rw [← h5] at c1 c2 c3 c4
  obtain ⟨j, hj, rfl⟩ := List.getElem_of_mem hk
  have hch := (List.forall₂_iff_get.1 k1).2 j (by rw [k1.length_eq]; exact hj) hj
  simp only [List.get_eq_getElem] at hch
  have hjl : j < (e'.models[i]).cv.length := by rw [k1.length_eq]; exact hj
  have hrl := c2 _ (List.getElem_mem hjl)
  have hlt : ks[j] < (e'.models[i]).lin.classes.length := by
    rw [c4]
    unfold Chosen at hch
    rw [hrl] at hch
    split at hch
    · rename_i h'
      rw [if_pos h', hch]
      split <;> omega
    · rename_i h'
      rw [if_neg h', ← hrl]
      exact hch.1
  rcases hlab _ hm _ hxy with h' | h'
  · simp at h'
    omega
  · simp at h'
    omega

/-- **C67.** With all weights 0, `predict` returns 0 for every series, whatever the series and the
members. -/
theorem C67_predict_constant {e : Ensemble ℝ R} {ws : List ℝ} (hw : e.weights = some ws) (hne : ws ≠ [])
    (h0 : ∀ v ∈ ws, v = 0) {nf : Nat} {fs : Nat → Mat ℝ → Mat ℝ} {Ss : Nat → Shapelets ℝ}
    (hm : ∀ i m, e.models[i]? = some m → MemberWF m (Ss i) nf) {X : XIn ℝ} {xs : List (Mat ℝ)}
    (hr : ∀ i m, e.models[i]? = some m → RepOn m.rep X xs (fs i) nf) {P : List Nat}
    (h : e.predict X = .ok P) : P = xs.map fun _ => 0 := by
  obtain ⟨nc, h1, h2⟩ := C50_weighted_vote hw hne hm hr h
  have hv : ∀ x k, vote e ws fs Ss x k = 0 := by
    intro x k
    unfold vote total
    apply List.sum_eq_zero
    intro v hv
    obtain ⟨i, hi, rfl⟩ := List.mem_map.1 hv
    have hi : i < ws.length := by simpa using hi
    split
    · rw [getD_lt _ hi, h0 _ (List.getElem_mem _), zero_mul]
    · rfl
  clear h hr
  induction h2 with
  | nil => rfl
  | cons hab _ ih =>
    rename_i x p _ _ _
    rw [List.map_cons, ← ih]
    congr 1
    by_contra hp
    have := (hab.2 0 (by have := hab.1; omega)).2 (by omega)
    have hp1 : p < nc := by simpa using hab.1
    rw [getD_range_map _ hp1, getD_range_map _ (by omega), hv, hv] at this
    exact lt_irrefl _ this

end
end Convst.Props
