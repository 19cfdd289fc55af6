import Verif.Model.GridSearch
import Verif.Props.Experiments
import Verif.Props.Cloning

/-! # C94: grid searches -/

set_option autoImplicit false
set_option linter.unusedSectionVars false

namespace Convst.Props

open Convst Spec

theorem takeIds_of_map {α : Type} {a l : List α} {ids : List Nat}
    (h : ids.map (fun j => a[j]?) = l.map some) : takeIds a ids = .ok l := by
  induction ids generalizing l with
  | nil =>
    cases l with
    | nil => rfl
    | cons b l => simp at h
  | cons i ids ih =>
    cases l with
    | nil => simp at h
    | cons b l =>
      rw [List.map_cons, List.map_cons, List.cons.injEq] at h
      have := ih h.2
      unfold takeIds at this ⊢
      rw [List.mapM_cons, h.1, this]
      rfl

section
variable {L : Type} [LinearOrder L]

/-- The labels at the indices of a fold are the labels of the split. -/
theorem fold_labels {X : List (List (List ℝ))} {Y : List L} (hnd : X.Nodup)
    {sx : List (List (List ℝ))} {sy : List L} (hl : sx.length = sy.length)
    (hmem : ∀ q ∈ sx.zip sy, q ∈ X.zip Y) {ids : List Nat}
    (h : ids.map (fun j => X[j]?) = sx.map some) : ids.map (fun j => Y[j]?) = sy.map some := by
  have hlen : ids.length = sx.length := by simpa using congrArg List.length h
  apply List.ext_getElem
  · simp [hlen, hl]
  · intro k h1 h2
    simp only [List.length_map] at h1 h2
    have hk : k < sx.length := by omega
    have e1 : X[ids[k]]? = some sx[k] := by
      have := congrArg (fun l => l[k]?) h
      simpa [List.getElem?_eq_getElem h1, List.getElem?_eq_getElem hk] using this
    have hm := hmem (sx[k], sy[k]) (by
      rw [List.mem_iff_getElem]
      exact ⟨k, by rw [List.length_zip]; omega, by simp⟩)
    obtain ⟨m, hm1, hm2⟩ := List.getElem_of_mem hm
    rw [List.length_zip] at hm1
    rw [List.getElem_zip, Prod.mk.injEq] at hm2
    obtain ⟨hi, he⟩ := List.getElem?_eq_some_iff.1 e1
    have : ids[k] = m := (List.Nodup.getElem_inj_iff hnd).1 (he.trans hm2.1.symm)
    simp only [List.getElem_map]
    rw [this, List.getElem?_eq_getElem (by omega), hm2.2]

/-- Every fold of the grid search selects exactly the series and the labels of the split of the same number. -/
theorem grid_fold {trX teX : List (List (List ℝ))} {trY teY : List L} (h1 : trX.length = trY.length)
    (h2 : teX.length = teY.length) {shuffles : Nat → Nat → List Nat → List Nat}
    (hs : ∀ i k l, (shuffles i k l).Perm l) (hsame : ∀ l, l ∈ trY ↔ l ∈ teY)
    (hne : ∀ x ∈ trX ++ teX, x ≠ [])
    (hdist : (trX ++ teX).Pairwise fun x z => ¬ ShareChannel x z) (i : Nat) :
    ∃ s fold, cvSplit trX trY teX teY shuffles i = .ok s ∧ gridSplit trX trY teX teY shuffles i = .ok fold ∧
      takeIds (trX ++ teX) fold.1 = .ok s.trainX ∧ takeIds (trY ++ teY) fold.1 = .ok s.trainY ∧
      takeIds (trX ++ teX) fold.2 = .ok s.testX ∧ takeIds (trY ++ teY) fold.2 = .ok s.testY := by
  obtain ⟨s, tr, te, hcv, hg, e1, e2, -⟩ := C56_folds_partial h1 h2 hs hsame hne hdist i
  obtain ⟨s', hcv', k1, k2, kp, -⟩ := C55_folds h1 h2 hs hsame i
  rw [hcv, Except.ok.injEq] at hcv'
  subst hcv'
  have hnd : (trX ++ teX).Nodup := hdist.imp_of_mem fun {a b} ha _ h hab => by
    subst hab
    exact h (shareChannel_refl (hne a ha))
  rw [← List.zip_append h1] at kp
  refine ⟨s, (tr, te), hcv, hg, takeIds_of_map e1, takeIds_of_map ?_, takeIds_of_map e2, takeIds_of_map ?_⟩
  · exact fold_labels hnd k1 (fun q hq => kp.mem_iff.1 (List.mem_append_left _ hq)) e1
  · exact fold_labels hnd k2 (fun q hq => kp.mem_iff.1 (List.mem_append_right _ hq)) e2

end

section
variable {G K R L : Type} [Scalar K] [Gen G K] [LinearOrder L] {α : Type}

/-- The score of a new object does not depend on the state of the process. -/
theorem freshScore_world (env : ClfEnv G K R L) (gs : Nat → G) (order : Nat → List Nat)
    (c : RidgeClf K R L) {s : Nat} (hs : c.rs = .seed s) (hns : c.p.nSamples = none) (pack : List α → XIn K)
    (scorer : List L → List L → Res K) (sp : Split α L) (w w' : World R) :
    freshScore env gs order c w pack scorer sp = freshScore env gs order c w' pack scorer sp := by
  have h1 := C72_folds_independent env (fun _ => gs) order c hs hns pack scorer (fun _ => .ok sp) 1 w w
  have h2 := C72_folds_independent env (fun _ => gs) order c hs hns pack scorer (fun _ => .ok sp) 1 w w'
  rw [h1] at h2
  simp only [List.range_one, List.mapM_cons, List.mapM_nil, Res.bind_ok] at h2
  cases ha : freshScore env gs order c w pack scorer sp <;>
    cases hb : freshScore env gs order c w' pack scorer sp <;> rw [ha, hb] at h2 <;>
    first | (cases h2; rfl) | cases h2

/-- Value of one cell of the table. -/
theorem fitAndScore_fresh (env : ClfEnv G K R L) (gs : Nat → G) (order : Nat → List Nat) (w : World R)
    (c : RidgeClf K R L) (pack : List α → XIn K) (scorer : List L → List L → Res K) {X : List α} {y : List L}
    {fold : List Nat × List Nat} {s : Split α L} (h1 : takeIds X fold.1 = .ok s.trainX)
    (h2 : takeIds y fold.1 = .ok s.trainY) (h3 : takeIds X fold.2 = .ok s.testX)
    (h4 : takeIds y fold.2 = .ok s.testY) :
    ∃ cell, fitAndScore (fun p X y => RidgeClf.fitR env gs order w p (pack X) y) (fun p X => p.predict (pack X))
      scorer X y c fold = .ok cell ∧ cell.value = (freshScore env gs order c w pack scorer s).toOption ∧
      (cell.fitFailed = true ↔ ∃ e, (c.fit env gs order w (pack s.trainX) s.trainY).2.2 = .error e) := by
  unfold fitAndScore freshScore RidgeClf.fitR
  rw [h1, h2, h3, h4]
  simp only [Res.bind_ok]
  rcases c.fit env gs order w (pack s.trainX) s.trainY with ⟨c', w', (e | u)⟩
  · exact ⟨_, rfl, rfl, by simp⟩
  · simp only
    cases h : (do let yp ← c'.predict (pack s.testX); scorer s.testY yp) with
    | error e => exact ⟨_, rfl, rfl, by simp⟩
    | ok v => exact ⟨_, rfl, rfl, by simp⟩

end

section
variable {G R L C : Type} [Gen G ℝ] [LinearOrder L]

/-- The score that a classifier gets for one fold of `cross_validate_UCR_UEA`: `none` when a step raises. -/
noncomputable def foldScore (env : ClfEnv G ℝ R L) (gs : Nat → G) (order : Nat → List Nat) (c : RidgeClf ℝ R L)
    (w : World R) (pack : List (List (List ℝ)) → XIn ℝ) (scorer : List L → List L → Res ℝ)
    (split : Res (Split (List (List ℝ)) L)) : Option ℝ :=
  (split >>= freshScore env gs order c w pack scorer).toOption

/-- All the cells of the grid, in a dataset in which no two series share a channel. -/
theorem grid_cells (env : ClfEnv G ℝ R L) (gs : Nat → Nat → Nat → G) (order : Nat → List Nat)
    (ws : Nat → Nat → World R) (pack : List (List (List ℝ)) → XIn ℝ) (scorer : List L → List L → Res ℝ)
    (setParams : C → RidgeClf ℝ R L → RidgeClf ℝ R L) (cands : List C) (base : RidgeClf ℝ R L)
    {trX teX : List (List (List ℝ))} {trY teY : List L} (h1 : trX.length = trY.length)
    (h2 : teX.length = teY.length) {shuffles : Nat → Nat → List Nat → List Nat}
    (hs : ∀ i k l, (shuffles i k l).Perm l) (hsame : ∀ l, l ∈ trY ↔ l ∈ teY)
    (hne : ∀ x ∈ trX ++ teX, x ≠ []) (hdist : (trX ++ teX).Pairwise fun x z => ¬ ShareChannel x z)
    (nSplit : Nat) :
    ∃ (folds : List (List Nat × List Nat)) (cells : List (List (Cell ℝ))),
      (List.range nSplit).mapM (gridSplit trX trY teX teY shuffles) = .ok folds ∧
      (cands.zipIdx.mapM fun cj => folds.zipIdx.mapM fun fi => do
        let p ← (.ok base.clone : Res (RidgeClf ℝ R L))
        fitAndScore (fun p X y => RidgeClf.fitR env (gs cj.2 fi.2) order (ws cj.2 fi.2) p (pack X) y)
          (fun p X => p.predict (pack X)) scorer (trX ++ teX) (trY ++ teY) (setParams cj.1 p) fi.1) = .ok cells ∧
      (cells.map fun r => r.map (·.value)) = cands.zipIdx.map (fun cj => (List.range nSplit).map fun i =>
        foldScore env (gs cj.2 i) order (setParams cj.1 base.clone) (ws cj.2 i) pack scorer
          (cvSplit trX trY teX teY shuffles i)) ∧
      ((cells.all fun r => r.all fun c => c.fitFailed) = true ↔ ∀ j c, cands[j]? = some c → ∀ i < nSplit, ∃ s e,
        cvSplit trX trY teX teY shuffles i = .ok s ∧ ((setParams c base.clone).fit env (gs j i) order (ws j i)
          (pack s.trainX) s.trainY).2.2 = .error e) := by
  choose S F hS hF f1 f2 f3 f4 using fun i => grid_fold h1 h2 hs hsame hne hdist i
  choose cell k1 k2 k3 using fun (c : C) (j i : Nat) => fitAndScore_fresh env (gs j i) order (ws j i)
    (setParams c base.clone) pack scorer (f1 i) (f2 i) (f3 i) (f4 i)
  have hfold : (List.range nSplit).mapM (gridSplit trX trY teX teY shuffles) = .ok ((List.range nSplit).map F) :=
    mapM_ok fun i _ => hF i
  have hz : ∀ cj : C × Nat, ((List.range nSplit).map F).zipIdx.mapM (fun fi => do
        let p ← (.ok base.clone : Res (RidgeClf ℝ R L))
        fitAndScore (fun p X y => RidgeClf.fitR env (gs cj.2 fi.2) order (ws cj.2 fi.2) p (pack X) y)
          (fun p X => p.predict (pack X)) scorer (trX ++ teX) (trY ++ teY) (setParams cj.1 p) fi.1) =
      .ok ((List.range nSplit).map fun i => cell cj.1 cj.2 i) := by
    intro cj
    have : (List.range nSplit).map (fun i => cell cj.1 cj.2 i) =
        ((List.range nSplit).map F).zipIdx.map fun fi => cell cj.1 cj.2 fi.2 := by
      apply List.ext_getElem
      · simp
      · intro i a b
        simp
    rw [this]
    refine mapM_ok ?_
    rintro ⟨f, i⟩ hfi
    rw [Res.bind_ok]
    have hm := List.mem_zipIdx' hfi
    simp only [List.getElem_map, List.getElem_range] at hm
    rw [hm.2]
    exact k1 cj.1 cj.2 i
  refine ⟨_, cands.zipIdx.map fun cj => (List.range nSplit).map fun i => cell cj.1 cj.2 i, hfold,
    mapM_ok fun cj _ => hz cj, ?_, ?_⟩
  · rw [List.map_map]
    refine List.map_congr_left fun cj _ => ?_
    simp only [Function.comp, List.map_map]
    refine List.map_congr_left fun i _ => ?_
    simp only [Function.comp]
    rw [k2, foldScore, hS, Res.bind_ok]
  · rw [List.all_eq_true]
    constructor
    · intro h j c hc i hi
      have hj := List.getElem?_eq_some_iff.1 hc
      obtain ⟨hj, rfl⟩ := hj
      have := h _ (List.mem_map.2 ⟨(cands[j], j), by
        rw [List.mem_iff_getElem]
        exact ⟨j, by simpa using hj, by simp⟩, rfl⟩)
      rw [List.all_eq_true] at this
      have := this _ (List.mem_map.2 ⟨i, List.mem_range.2 hi, rfl⟩)
      obtain ⟨e, he⟩ := (k3 _ _ _).1 this
      exact ⟨S i, e, hS i, he⟩
    · intro h r hr
      obtain ⟨⟨c, j⟩, hcj, rfl⟩ := List.mem_map.1 hr
      rw [List.all_eq_true]
      intro x hx
      obtain ⟨i, hi, rfl⟩ := List.mem_map.1 hx
      have hm := List.mem_zipIdx' hcj
      obtain ⟨s, e, hs1, he⟩ := h j c (by rw [List.getElem?_eq_getElem hm.1]; exact congrArg some hm.2.symm) i
        (List.mem_range.1 hi)
      rw [hS, Except.ok.injEq] at hs1
      subst hs1
      exact (k3 _ _ _).2 ⟨e, he⟩


theorem toOption_some {v : ℝ} {r : Res ℝ} : r.toOption = some v ↔ r = .ok v := by
  cases r with
  | error e => constructor <;> (intro h; cases h)
  | ok u => constructor <;> (intro h; cases h; rfl)

theorem map_range_forall₂ {n : Nat} {f : Nat → Res ℝ} {vs : List ℝ} :
    List.Forall₂ (fun i v => f i = .ok v) (List.range n) vs ↔
      (List.range n).map (fun i => (f i).toOption) = vs.map some := by
  generalize List.range n = l
  induction l generalizing vs with
  | nil => cases vs <;> simp
  | cons a l ih =>
    cases vs with
    | nil => simp
    | cons v vs =>
      rw [List.forall₂_cons, List.map_cons, List.map_cons, List.cons.injEq, ih, toOption_some]

/-- A dataset as the two splits, with series of one shape and at least one channel, labels of the same classes in
both splits, and no two series with a common channel. -/
structure GridData (trX : List (Mat ℝ)) (trY : List L) (teX : List (Mat ℝ)) (teY : List L) : Prop where
  trLen : trX.length = trY.length
  teLen : teX.length = teY.length
  nonempty : trX ++ teX ≠ []
  shape : ∀ x ∈ trX ++ teX, ∀ z ∈ trX ++ teX, z.rows.length = x.rows.length ∧ z.len = x.len
  channels : ∀ x ∈ trX ++ teX, x.rows ≠ []
  labels : ∀ l, l ∈ trY ↔ l ∈ teY
  distinct : (trX ++ teX).Pairwise fun x z => ¬ ShareChannel x.rows z.rows

/-- The grid search over the parameters of an `R_DST_Ridge` object. -/
noncomputable def ridgeGrid (env : ClfEnv G ℝ R L) (gs : Nat → Nat → Nat → G) (order : Nat → List Nat)
    (ws : Nat → Nat → World R) (refit : RidgeClf ℝ R L → List (List (List ℝ)) → List L → Res (RidgeClf ℝ R L))
    (pack : List (List (List ℝ)) → XIn ℝ) (scorer : List L → List L → Res ℝ) (best : List (List (Option ℝ)) → Nat)
    (shuffles : Nat → Nat → List Nat → List Nat) (nSplit : Nat) (trX : List (Mat ℝ)) (trY : List L)
    (teX : List (Mat ℝ)) (teY : List L) (est : RidgeClf ℝ R L)
    (setParams : C → RidgeClf ℝ R L → RidgeClf ℝ R L) (cands : List C) : Res (List (List (Option ℝ))) :=
  gridSearch (fun c => .ok c.clone) setParams
    (fun j i p X y => RidgeClf.fitR env (gs j i) order (ws j i) p (pack X) y) refit (fun p X => p.predict (pack X))
    scorer best shuffles nSplit trX trY teX teY est cands

theorem grid_run (env : ClfEnv G ℝ R L) (gs : Nat → Nat → Nat → G) (order : Nat → List Nat)
    (ws : Nat → Nat → World R) (refit : RidgeClf ℝ R L → List (List (List ℝ)) → List L → Res (RidgeClf ℝ R L))
    (pack : List (List (List ℝ)) → XIn ℝ) (scorer : List L → List L → Res ℝ) (best : List (List (Option ℝ)) → Nat)
    {shuffles : Nat → Nat → List Nat → List Nat} (hs : ∀ i k l, (shuffles i k l).Perm l) (nSplit : Nat)
    {trX : List (Mat ℝ)} {trY : List L} {teX : List (Mat ℝ)} {teY : List L} (hd : GridData trX trY teX teY)
    (est : RidgeClf ℝ R L) (setParams : C → RidgeClf ℝ R L → RidgeClf ℝ R L) (cands : List C) :
    ∃ (table : List (List (Option ℝ))) (failed : Bool),
      ridgeGrid env gs order ws refit pack scorer best shuffles nSplit trX trY teX teY est setParams cands =
        (if failed = true then .error .valueError else
          match cands[best table]? with
          | none => .error .indexError
          | some c => do
            let _ ← refit (setParams c est.clone) ((trX ++ teX).map (·.rows)) (trY ++ teY)
            pure table) ∧
      table = cands.zipIdx.map (fun cj => (List.range nSplit).map fun i =>
        foldScore env (gs cj.2 i) order (setParams cj.1 est.clone) (ws cj.2 i) pack scorer
          (cvSplit (trX.map (·.rows)) trY (teX.map (·.rows)) teY shuffles i)) ∧
      (failed = true ↔ ∀ j c, cands[j]? = some c → ∀ i < nSplit, ∃ s e,
        cvSplit (trX.map (·.rows)) trY (teX.map (·.rows)) teY shuffles i = .ok s ∧
        ((setParams c est.clone).fit env (gs j i) order (ws j i) (pack s.trainX) s.trainY).2.2 = .error e) := by
  obtain ⟨folds, cells, e1, e2, e3, e4⟩ := grid_cells env gs order ws pack scorer setParams cands est.clone
    (trX := trX.map (·.rows)) (teX := teX.map (·.rows)) (trY := trY) (teY := teY)
    (by rw [List.length_map]; exact hd.trLen) (by rw [List.length_map]; exact hd.teLen) hs hd.labels
    (by
      intro x hx
      rw [← List.map_append] at hx
      obtain ⟨z, hz, rfl⟩ := List.mem_map.1 hx
      exact hd.channels z hz)
    (by
      rw [← List.map_append, List.pairwise_map]
      exact hd.distinct) nSplit
  refine ⟨cells.map fun r => r.map (·.value), cells.all fun r => r.all fun c => c.fitFailed, ?_, e3, e4⟩
  unfold ridgeGrid gridSearch gridSearchCV
  rw [concatSplits_eq, if_pos ⟨hd.nonempty, hd.shape⟩, Res.bind_ok]
  rw [Res.bind_ok, e1, Res.bind_ok]
  rw [← List.map_append] at e2
  rw [e2, Res.bind_ok]
  rfl

/-- **C94.** The object that a candidate is tried on has the parameters of the given classifier and nothing of what
it learned: it cannot predict before it is fitted. -/
theorem C94_clone_not_fitted (est : RidgeClf ℝ R L) : est.clone.p = est.p ∧ est.clone.rs = est.rs ∧
    est.clone.nJobs = est.nJobs ∧ est.clone.transformer = none ∧
    ∀ X, est.clone.predict X = .error .notFitted := ⟨rfl, rfl, rfl, rfl, fun _ => rfl⟩

/-- **C94.** The table of `grid_search_UCR_UEA` on `R_DST_Ridge`, for a dataset in which no two series have a
common channel and candidates with an integer `random_state` and `n_samples=None`: the row of a candidate holds
the scores that `cross_validate_UCR_UEA` gives to a classifier with these parameters, in the same order, whatever
the processes in which they are computed (`ws`, `w`) and whatever the other candidates are. -/
theorem C94_same_scores (env : ClfEnv G ℝ R L) (gs : Nat → Nat → Nat → G) (order : Nat → List Nat)
    (ws : Nat → Nat → World R) (refit : RidgeClf ℝ R L → List (List (List ℝ)) → List L → Res (RidgeClf ℝ R L))
    (pack : List (List (List ℝ)) → XIn ℝ) (scorer : List L → List L → Res ℝ) (best : List (List (Option ℝ)) → Nat)
    {shuffles : Nat → Nat → List Nat → List Nat} (hs : ∀ i k l, (shuffles i k l).Perm l) (nSplit : Nat)
    {trX : List (Mat ℝ)} {trY : List L} {teX : List (Mat ℝ)} {teY : List L} (hd : GridData trX trY teX teY)
    (est : RidgeClf ℝ R L) (setParams : C → RidgeClf ℝ R L → RidgeClf ℝ R L) (cands : List C)
    (hseed : ∀ c ∈ cands, ∃ s, (setParams c est.clone).rs = .seed s)
    (hns : ∀ c ∈ cands, (setParams c est.clone).p.nSamples = none) {table : List (List (Option ℝ))}
    (h : ridgeGrid env gs order ws refit pack scorer best shuffles nSplit trX trY teX teY est setParams cands =
      .ok table) :
    table.length = cands.length ∧ ∀ (j : Nat) (c : C) (row : List (Option ℝ)), cands[j]? = some c →
      table[j]? = some row → row.length = nSplit ∧ ∀ (w : World R) (vs : List ℝ),
        crossValidate (fun i (c : RidgeClf ℝ R L) w X y => c.fit env (gs j i) order w (pack X) y)
          (fun c X => c.predict (pack X)) scorer
          (cvSplit (trX.map (·.rows)) trY (teX.map (·.rows)) teY shuffles) nSplit 0 (setParams c est.clone) w =
          .ok vs ↔ row = vs.map some := by
  obtain ⟨t, failed, e1, e2, -⟩ := grid_run env gs order ws refit pack scorer best hs nSplit hd est setParams cands
  have ht : table = t := by
    rw [e1] at h
    cases failed with
    | true => simp at h
    | false =>
      simp only [Bool.false_eq_true, if_false] at h
      cases hb : cands[best t]? with
      | none => simp [hb] at h
      | some c =>
        simp only [hb] at h
        obtain ⟨_, -, h⟩ := Res.bind_eq_ok.1 h
        cases h
        rfl
  subst ht
  refine ⟨by rw [e2]; simp, fun j c row hc hrow => ?_⟩
  have hmem : c ∈ cands := List.mem_of_getElem? hc
  obtain ⟨sd, hsd⟩ := hseed c hmem
  have er : row = (List.range nSplit).map fun i => foldScore env (gs j i) order (setParams c est.clone) (ws j i) pack
      scorer (cvSplit (trX.map (·.rows)) trY (teX.map (·.rows)) teY shuffles i) := by
    rw [e2, List.getElem?_map, List.getElem?_zipIdx, hc] at hrow
    simpa using hrow.symm
  refine ⟨by rw [er]; simp, fun w vs => ?_⟩
  rw [C72_folds_independent env (gs j) order _ hsd (hns c hmem) pack scorer _ nSplit w w, mapM_eq_ok,
    map_range_forall₂, er]
  have : ∀ i, foldScore env (gs j i) order (setParams c est.clone) (ws j i) pack
      scorer (cvSplit (trX.map (·.rows)) trY (teX.map (·.rows)) teY shuffles i) =
      (cvSplit (trX.map (·.rows)) trY (teX.map (·.rows)) teY shuffles i >>=
        freshScore env (gs j i) order (setParams c est.clone) w pack scorer).toOption := by
    intro i
    unfold foldScore
    cases cvSplit (trX.map (·.rows)) trY (teX.map (·.rows)) teY shuffles i with
    | error e => rfl
    | ok s =>
      rw [Res.bind_ok, Res.bind_ok, freshScore_world env (gs j i) order _ hsd (hns c hmem) pack scorer s (ws j i) w]
  simp only [this]

/-- **C94.** When the grid search returns: some fit must succeed, and the refit of the chosen candidate on the
whole dataset too; otherwise it raises. -/
theorem C94_returns (env : ClfEnv G ℝ R L) (gs : Nat → Nat → Nat → G) (order : Nat → List Nat)
    (ws : Nat → Nat → World R) (refit : RidgeClf ℝ R L → List (List (List ℝ)) → List L → Res (RidgeClf ℝ R L))
    (pack : List (List (List ℝ)) → XIn ℝ) (scorer : List L → List L → Res ℝ) (best : List (List (Option ℝ)) → Nat)
    {shuffles : Nat → Nat → List Nat → List Nat} (hs : ∀ i k l, (shuffles i k l).Perm l) (nSplit : Nat)
    {trX : List (Mat ℝ)} {trY : List L} {teX : List (Mat ℝ)} {teY : List L} (hd : GridData trX trY teX teY)
    (est : RidgeClf ℝ R L) (setParams : C → RidgeClf ℝ R L → RidgeClf ℝ R L) (cands : List C) :
    ((∃ j c i s, cands[j]? = some c ∧ i < nSplit ∧
        cvSplit (trX.map (·.rows)) trY (teX.map (·.rows)) teY shuffles i = .ok s ∧
        ((setParams c est.clone).fit env (gs j i) order (ws j i) (pack s.trainX) s.trainY).2.2 = .ok ()) →
      (∀ t, best t < cands.length) →
      (∀ c ∈ cands, ∃ r, refit (setParams c est.clone) ((trX ++ teX).map (·.rows)) (trY ++ teY) = .ok r) →
      ∃ table, ridgeGrid env gs order ws refit pack scorer best shuffles nSplit trX trY teX teY est setParams cands =
        .ok table) ∧
    ((∀ j c i s, cands[j]? = some c → i < nSplit →
        cvSplit (trX.map (·.rows)) trY (teX.map (·.rows)) teY shuffles i = .ok s →
        ((setParams c est.clone).fit env (gs j i) order (ws j i) (pack s.trainX) s.trainY).2.2 ≠ .ok ()) →
      ridgeGrid env gs order ws refit pack scorer best shuffles nSplit trX trY teX teY est setParams cands =
        .error .valueError) := by
  obtain ⟨t, failed, e1, e2, e3⟩ := grid_run env gs order ws refit pack scorer best hs nSplit hd est setParams cands
  constructor
  · rintro ⟨j, c, i, s, hc, hi, hsp, hok⟩ hb hr
    have hf : failed = false := by
      rw [← Bool.not_eq_true, e3]
      intro hall
      obtain ⟨s', e, hs', he⟩ := hall j c hc i hi
      rw [hsp, Except.ok.injEq] at hs'
      subst hs'
      rw [hok] at he
      cases he
    rw [e1, hf]
    have hlt := hb t
    rw [List.getElem?_eq_getElem hlt]
    obtain ⟨r, hr⟩ := hr _ (List.getElem_mem hlt)
    simp only [Bool.false_eq_true, if_false, hr, Res.bind_ok]
    exact ⟨_, rfl⟩
  · intro hall
    have hf : failed = true := by
      rw [e3]
      intro j c hc i hi
      obtain ⟨s, fold, hsp, -⟩ := grid_fold (trX := trX.map (·.rows)) (teX := teX.map (·.rows))
        (by rw [List.length_map]; exact hd.trLen) (by rw [List.length_map]; exact hd.teLen) hs hd.labels
        (by
          intro x hx
          rw [← List.map_append] at hx
          obtain ⟨z, hz, rfl⟩ := List.mem_map.1 hx
          exact hd.channels z hz)
        (by
          rw [← List.map_append, List.pairwise_map]
          exact hd.distinct) i
      have := hall j c i s hc hi hsp
      cases hr : ((setParams c est.clone).fit env (gs j i) order (ws j i) (pack s.trainX) s.trainY).2.2 with
      | error e => exact ⟨s, e, hsp, hr⟩
      | ok u => exact absurd hr this
    rw [e1, hf, if_pos rfl]

end

section
variable {K L P C : Type} [LinearOrder L]

/-- **C94 (violated for datasets with series of different lengths).** The grid search raises `ValueError` before
anything is fitted. -/
theorem C94_uneven_dataset (clone : P → Res P) (setParams : C → P → P)
    (fit : Nat → Nat → P → List (List (List ℝ)) → List L → Res P) (refit : P → List (List (List ℝ)) → List L → Res P)
    (predict : P → List (List (List ℝ)) → Res (List L)) (scorer : List L → List L → Res ℝ)
    (best : List (List (Option ℝ)) → Nat) (shuffles : Nat → Nat → List Nat → List Nat) (nSplit : Nat)
    {trX teX : List (Mat ℝ)} (trY teY : List L) (est : P) (cands : List C)
    (hdiff : ∃ x ∈ trX ++ teX, ∃ z ∈ trX ++ teX, z.len ≠ x.len) :
    gridSearch clone setParams fit refit predict scorer best shuffles nSplit trX trY teX teY est cands =
      .error .valueError := by
  unfold gridSearch
  rw [concatSplits_eq, if_neg]
  · rfl
  · rintro ⟨-, h⟩
    obtain ⟨x, hx, z, hz, hne⟩ := hdiff
    exact hne (h x hx z hz).2

end

section
variable {R L C : Type} [LinearOrder L]

/-- **C94 (violated for pipelines with an `R_DST` step).** A grid search over a pipeline that contains `R_DST`
never returns a table, on any dataset with any candidates: the pipeline cannot be cloned. -/
theorem C94_rdst_pipeline (pr : Proc R) (steps : List ((Attrs ℝ R → HM (Attrs ℝ R)) × Attrs ℝ R)) (attrs : Attrs ℝ R)
    (hmem : (rdstInit pr, attrs) ∈ steps) (hmono : ∀ s ∈ steps, ∀ a n r k, s.1 a n = .ok (r, k) → n ≤ k) (m : Nat)
    (hm : Below m attrs)
    (setParams : C → List ((Attrs ℝ R → HM (Attrs ℝ R)) × Attrs ℝ R) → List ((Attrs ℝ R → HM (Attrs ℝ R)) × Attrs ℝ R))
    (fit : Nat → Nat → List ((Attrs ℝ R → HM (Attrs ℝ R)) × Attrs ℝ R) → List (List (List ℝ)) → List L →
      Res (List ((Attrs ℝ R → HM (Attrs ℝ R)) × Attrs ℝ R)))
    (refit : List ((Attrs ℝ R → HM (Attrs ℝ R)) × Attrs ℝ R) → List (List (List ℝ)) → List L →
      Res (List ((Attrs ℝ R → HM (Attrs ℝ R)) × Attrs ℝ R)))
    (predict : List ((Attrs ℝ R → HM (Attrs ℝ R)) × Attrs ℝ R) → List (List (List ℝ)) → Res (List L))
    (scorer : List L → List L → Res ℝ) (best : List (List (Option ℝ)) → Nat)
    (shuffles : Nat → Nat → List Nat → List Nat) (nSplit : Nat) (trX teX : List (Mat ℝ)) (trY teY : List L)
    (cands : List C) (table : List (List (Option ℝ))) :
    gridSearch (fun p => (clonePipeline p m).map fun r => (p.map (·.1)).zip r.1) setParams fit refit predict scorer
      best shuffles nSplit trX trY teX teY steps cands ≠ .ok table := by
  intro h
  unfold gridSearch at h
  obtain ⟨X, -, h⟩ := Res.bind_eq_ok.1 h
  unfold gridSearchCV at h
  obtain ⟨b, hb, -⟩ := Res.bind_eq_ok.1 h
  cases hc : clonePipeline steps m with
  | error e => simp only [hc] at hb; cases hb
  | ok r => exact C80_pipeline pr steps attrs hmem hmono m hm r hc

end

/-! ### Violation with equal series -/

/-- A classifier that always predicts the label of the first training series. -/
def firstFit (_ : Option Nat) (_ : List (List (List ℝ))) (y : List Nat) : Res (Option Nat) := .ok y.head?

def firstPredict (p : Option Nat) (X : List (List (List ℝ))) : Res (List Nat) :=
  match p with
  | none => .error .notFitted
  | some l => .ok (X.map fun _ => l)

/-- **C94 (violated for datasets with a series occurring twice).** The training split has a series of class 0 and
one of class 1, the test split a copy of the first with class 1.  For a classifier that predicts class 0, the cross
validation gives the score 0 and the grid search the score 1: it has evaluated the classifier on the training
series instead of the test series. -/
theorem C94_duplicates :
    gridSearch (K := ℝ) (fun p : Option Nat => .ok p) (fun (_ : Unit) p => p) (fun _ _ => firstFit) firstFit
      firstPredict accuracyScore (fun _ => 0) (fun _ _ l => l) 1 [⟨[[1, 2]], 2⟩, ⟨[[3, 4]], 2⟩] [0, 1]
      [⟨[[1, 2]], 2⟩] [1] none [()] = .ok [[some 1]] ∧
    crossValidate (fun _ p (w : Unit) X y => ((firstFit p X y).toOption.join, w, .ok ())) firstPredict
      (accuracyScore (K := ℝ)) (cvSplit [[[(1 : ℝ), 2]], [[3, 4]]] [0, 1] [[[1, 2]]] [1] (fun _ _ l => l)) 1 0 none () =
      .ok [0] := by
  have l0 : lookup ([[[(1 : ℝ), 2]], [[3, 4]]] ++ [[[1, 2]]]) [[1, 2]] = .ok 0 := by
    rw [(C56_lookup _ _).1]
    exact ⟨⟨[[1, 2]], rfl, shareChannel_refl (by simp)⟩, fun j x hj => absurd hj (by omega)⟩
  have l1 : lookup ([[[(1 : ℝ), 2]], [[3, 4]]] ++ [[[1, 2]]]) [[3, 4]] = .ok 1 := by
    rw [(C56_lookup _ _).1]
    refine ⟨⟨[[3, 4]], rfl, shareChannel_refl (by simp)⟩, fun j x hj hx => ?_⟩
    obtain rfl : j = 0 := by omega
    simp only [List.cons_append, List.getElem?_cons_zero, Option.some.injEq] at hx
    subst hx
    rintro ⟨c, r, e1, e2⟩
    match c with
    | 0 => simp at e1 e2; rw [← e1] at e2; simp at e2
    | c + 1 => simp at e1
  have hg : gridSplit [[[(1 : ℝ), 2]], [[3, 4]]] [0, 1] [[[1, 2]]] [1] (fun _ _ l => l) 0 = .ok ([0, 1], [0]) := by
    unfold gridSplit cvSplit sklearnSplit
    rw [if_pos rfl, Res.bind_ok]
    simp only [List.mapM_cons, List.mapM_nil, l0, l1, Res.bind_ok]
    rfl
  constructor
  · unfold gridSearch
    rw [concatSplits_eq, if_pos ⟨by simp, by simp⟩, Res.bind_ok]
    unfold gridSearchCV
    simp only [Res.bind_ok, List.range_one, List.mapM_cons, List.mapM_nil, List.map_cons, List.map_nil, hg]
    simp [fitAndScore, takeIds, firstFit, firstPredict, accuracyScore]
  · unfold crossValidate cvSplit
    rw [if_pos rfl, Res.bind_ok]
    simp only [firstFit, List.head?_cons]
    rw [show (Except.ok (some 0) : Res (Option Nat)).toOption.join = some 0 from rfl]
    simp [firstPredict, accuracyScore, crossValidate]

theorem exGridData : GridData [⟨[[5, 5, 5, 5, 5]], 5⟩, ⟨[[7, 7, 7, 7, 7]], 5⟩] [0, 1]
    [⟨[[(8 : ℝ), 8, 8, 8, 8]], 5⟩, ⟨[[6, 6, 6, 6, 6]], 5⟩] [1, 0] := by
  have key : ∀ a b : ℝ, a ≠ b → ¬ ShareChannel [[a, a, a, a, a]] [[b, b, b, b, b]] := by
    rintro a b hab ⟨c, r, e1, e2⟩
    match c with
    | 0 =>
      simp only [List.getElem?_cons_zero, Option.some.injEq] at e1 e2
      rw [← e1] at e2
      simp only [List.cons.injEq] at e2
      exact hab e2.1.symm
    | c + 1 => simp at e1
  refine ⟨rfl, rfl, by simp, by simp, by simp, by intro l; simp; tauto, ?_⟩
  simp only [List.cons_append, List.nil_append, List.pairwise_cons, List.mem_cons, List.not_mem_nil, or_false]
  refine ⟨?_, ?_, ?_, ?_⟩
  · rintro z (rfl | rfl | rfl) <;> exact key _ _ (by norm_num)
  · rintro z (rfl | rfl) <;> exact key _ _ (by norm_num)
  · rintro z rfl; exact key _ _ (by norm_num)
  · exact ⟨fun _ h => absurd h (by simp), List.Pairwise.nil⟩

/-- C94: a dataset of four series without common channels, and a grid with two candidates for `shp_alpha`. -/
example {G : Type} [Gen G ℝ] [LawfulGen G] (g : G) (ws : Nat → Nat → World Nat) (gs : Nat → Nat → Nat → G) :
    ∃ table, ridgeGrid (exClfEnv g) gs List.range ws (fun c _ _ => .ok c)
      (fun X => XIn.array .float64 ⟨X, 1, 5⟩) accuracyScore (fun _ => 1) (fun _ _ l => l) 1
      [⟨[[5, 5, 5, 5, 5]], 5⟩, ⟨[[7, 7, 7, 7, 7]], 5⟩] [0, 1] [⟨[[8, 8, 8, 8, 8]], 5⟩, ⟨[[6, 6, 6, 6, 6]], 5⟩] [1, 0]
      exRidge (fun (a : ℝ) c => { c with p := { c.p with alpha := a } }) [exRidge.p.alpha, 1 / 4] = .ok table ∧
      table.length = 2 := by
  have hs : ∀ (i k : Nat) (l : List Nat), l.Perm l := fun _ _ l => List.Perm.refl l
  have hd := exGridData
  obtain ⟨c', w', P, h1, -⟩ := exRidge_predict g (ws 0 0) (gs 0 0)
  obtain ⟨table, ht⟩ := (C94_returns (exClfEnv g) gs List.range ws (fun c _ _ => .ok c)
    (fun X => XIn.array .float64 ⟨X, 1, 5⟩) accuracyScore (fun _ => 1) (shuffles := fun _ _ l => l) hs 1 hd exRidge
    (fun (a : ℝ) c => { c with p := { c.p with alpha := a } }) [exRidge.p.alpha, 1 / 4]).1
    ⟨0, _, 0, _, rfl, by omega, rfl, by
      have : ({ exRidge.clone with p := { exRidge.clone.p with alpha := exRidge.p.alpha } } : RidgeClf ℝ Nat Nat) =
        exRidge := rfl
      rw [this]
      exact congrArg (fun z => z.2.2) h1⟩ (by simp) (fun c _ => ⟨_, rfl⟩)
  exact ⟨table, ht, (C94_same_scores (exClfEnv g) gs List.range ws (fun c _ _ => .ok c)
    (fun X => XIn.array .float64 ⟨X, 1, 5⟩) accuracyScore (fun _ => 1) hs 1 hd exRidge _ _
    (fun c _ => ⟨7, rfl⟩) (fun c _ => rfl) ht).1⟩

end Convst.Props
