import Verif.Props.StatefulInputs
import Verif.Props.Stability

/-!
# C92: series of different lengths and the ensemble
-/

set_option autoImplicit false
set_option linter.unusedSectionVars false

namespace Convst.Props
open Convst Spec

/-! ## A transformer that rejects the input -/

section
variable {G K R : Type} [Scalar K] [Gen G K]

/-- **C92.** If one of the input transformers raises on `X`, the ensemble cannot be fitted on `X`, whatever the
order of the members; the members and weights of an earlier `fit` are kept. -/
theorem C92_transformer_rejects {env : EnsEnv G K R} {gs : Nat → Nat → G} {sched : Nat → Nat → List Nat}
    {order : List Nat} {e : Ensemble K R} (hord : order.Perm (List.range e.reps.length)) {X : XIn K}
    {rep : XIn K → Res (XIn K)} (hm : rep ∈ e.reps) {er : Err} (hr : rep X = .error er) (w : World R) (y : List Int) :
    ∃ e' w' er', e.fit env gs sched order w X y = (e', w', .error er') ∧ e'.models = e.models ∧
      e'.weights = e.weights := by
  obtain ⟨i, hi, rfl⟩ := List.getElem_of_mem hm
  have hi' : i ∈ order := hord.mem_iff.2 (by simpa using hi)
  obtain ⟨k, hk, hki⟩ := List.getElem_of_mem hi'
  rcases hf : e.fit env gs sched order w X y with ⟨e', w', r⟩
  cases r with
  | ok u =>
    obtain ⟨w1, st, accs, -, -, -, -, hmem, -, -⟩ := ens_fit_ok hord hf
    obtain ⟨m, -, h2⟩ := hmem k hk
    obtain ⟨rep, Xi, w1, o0, F, Fs, h1, h3, -⟩ := fitMember_ok h2
    rw [hki, List.getElem?_eq_getElem hi, Option.some.injEq] at h1
    rw [← h1, hr] at h3
    cases h3
  | error er' =>
    refine ⟨e', w', er', rfl, ?_⟩
    obtain ⟨h1, h2 | ⟨e1, w1, rs, slots, h2, h3, -⟩⟩ := ens_fit_error hf
    · exact ⟨h2, h1⟩
    · obtain ⟨st, -, -, -, h4⟩ := fitMembers_ok (hord.nodup_iff.2 List.nodup_range) h3
      obtain ⟨m, h5, -⟩ := h4 k hk
      obtain ⟨rep, Xi, w1, o0, F, Fs, h6, h7, -⟩ := fitMember_ok h5
      rw [h2, hki, List.getElem?_eq_getElem hi, Option.some.injEq] at h6
      rw [← h6, hr] at h7
      cases h7

/-- **C92.** A fitted ensemble with such a transformer raises at `predict` on `X`. -/
theorem C92_predict_rejects {env : EnsEnv G K R} {gs : Nat → Nat → G} {sched : Nat → Nat → List Nat}
    {order : List Nat} {e e' : Ensemble K R} (hord : order.Perm (List.range e.reps.length)) {w w' : World R}
    {Z : XIn K} {y : List Int} (hf : e.fit env gs sched order w Z y = (e', w', .ok ())) {X : XIn K}
    {rep : XIn K → Res (XIn K)} (hm : rep ∈ e.reps) {er : Err} (hr : rep X = .error er) :
    ∃ er', e'.predict X = .error er' := by
  obtain ⟨i, hi, rfl⟩ := List.getElem_of_mem hm
  have hi' : i ∈ order := hord.mem_iff.2 (by simpa using hi)
  obtain ⟨k, hk, hki⟩ := List.getElem_of_mem hi'
  obtain ⟨w1, st, accs, -, -, -, hml, hmem, hacc, hws⟩ := ens_fit_ok hord hf
  obtain ⟨m, h1, h2⟩ := hmem k hk
  obtain ⟨rep, Xi, _, _, _, _, h3, -, -, -, -, h4, -⟩ := fitMember_ok h2
  rw [hki, List.getElem?_eq_getElem hi, Option.some.injEq] at h3
  have hwl : (accs.map fun a => Scalar.rpow a e.aW).length = e.reps.length := by
    rw [List.length_map, ← (mapM_eq_ok.1 hacc).length_eq, hml]
  cases hp : e'.predict X with
  | error er' => exact ⟨er', rfl⟩
  | ok P =>
    exfalso
    unfold Ensemble.predict at hp
    rw [hws] at hp
    simp only at hp
    rw [Res.bind_eq_ok] at hp
    obtain ⟨preds, hp, -⟩ := hp
    have := mapM_eq_ok.1 hp
    have hir : i < (List.range (accs.map fun a => Scalar.rpow a e.aW).length).length := by
      rw [List.length_range, hwl]; exact hi
    have hg := List.forall₂_iff_get.1 this
    have := hg.2 i hir (by rw [← hg.1]; exact hir)
    simp only [List.get_eq_getElem, List.getElem_range] at this
    rw [Res.bind_eq_ok] at this
    obtain ⟨m', hm', this⟩ := this
    rw [Res.bind_eq_ok] at this
    obtain ⟨wt, -, this⟩ := this
    unfold pyGet at hm'
    rw [hki] at h1
    rw [h1] at hm'
    simp only [Except.ok.injEq] at hm'
    subst hm'
    unfold Member.weighted at this
    rw [h4, ← h3, hr] at this
    cases this

/-- The transformers of an ensemble built without `input_transformers`. -/
def defaultTransformers (ienv : InEnv K R) : List (XIn K → Res (XIn K)) :=
  [InTr.raw, .derivate 1 false, .periodigram "boxcar" false].map (InTr.transform ienv)

/-- **C92 (violated).** Although its tags announce support for variable lengths, an ensemble with the default
transformers, or any other selection with a `Periodigram`, cannot be fitted on a list of series or an object
array of any series whatever, of equal lengths or not. -/
theorem C92_periodigram_rejects_lists {env : EnsEnv G K R} {gs : Nat → Nat → G} {sched : Nat → Nat → List Nat}
    {order : List Nat} {e : Ensemble K R} (hord : order.Perm (List.range e.reps.length)) {ienv : InEnv K R}
    {window : String} {b : Bool} (hm : (InTr.periodigram window b).transform ienv ∈ e.reps)
    (xs : List (Mat K)) {X : XIn K} (hX : X = .list xs ∨ X = .objArray xs) (w : World R) (y : List Int) :
    ∃ e' w' er', e.fit env gs sched order w X y = (e', w', .error er') ∧ e'.models = e.models ∧
      e'.weights = e.weights := by
  rcases hX with rfl | rfl
  · exact C92_transformer_rejects hord hm (er := .typeError) rfl w y
  · exact C92_transformer_rejects hord hm (er := .indexError) rfl w y

/-- **C92 (violated).** Fitted on an array, it does not predict lists or object arrays either. -/
theorem C92_periodigram_predict {env : EnsEnv G K R} {gs : Nat → Nat → G} {sched : Nat → Nat → List Nat}
    {order : List Nat} {e e' : Ensemble K R} (hord : order.Perm (List.range e.reps.length)) {w w' : World R}
    {Z : XIn K} {y : List Int} (hf : e.fit env gs sched order w Z y = (e', w', .ok ())) {ienv : InEnv K R}
    {window : String} {b : Bool} (hm : (InTr.periodigram window b).transform ienv ∈ e.reps)
    (xs : List (Mat K)) {X : XIn K} (hX : X = .list xs ∨ X = .objArray xs) : ∃ er, e'.predict X = .error er := by
  rcases hX with rfl | rfl
  · exact C92_predict_rejects hord hf hm (er := .typeError) rfl
  · exact C92_predict_rejects hord hf hm (er := .indexError) rfl

/-- **C92 (violated).** With a `Derivate` (of a positive order) an ensemble cannot be fitted on a list with series of
two different lengths. -/
theorem C92_derivate_rejects_lengths {env : EnsEnv G K R} {gs : Nat → Nat → G} {sched : Nat → Nat → List Nat}
    {order : List Nat} {e : Ensemble K R} (hord : order.Perm (List.range e.reps.length)) {ienv : InEnv K R}
    {k : Nat} (hk : 1 ≤ k) {b : Bool} (hm : (InTr.derivate k b).transform ienv ∈ e.reps)
    {xs : List (Mat K)} (hx : ∃ x ∈ xs, ∃ z ∈ xs, x.len ≠ z.len) (w : World R) (y : List Int) :
    ∃ e' w' er', e.fit env gs sched order w (.list xs) y = (e', w', .error er') ∧ e'.models = e.models ∧
      e'.weights = e.weights := by
  refine C92_transformer_rejects hord hm (er := .valueError) ?_ w y
  obtain ⟨x, hx, z, hz, hne⟩ := hx
  cases xs with
  | nil => cases hx
  | cons a xs =>
    refine (C61_inputs k _).2 a xs rfl hk ?_
    by_cases h : x.len = a.len
    · rw [List.mem_cons] at hz
      rcases hz with rfl | hz
      · exact absurd h hne
      · exact ⟨z, hz, Or.inr (by omega)⟩
    · rw [List.mem_cons] at hx
      rcases hx with rfl | hx
      · exact absurd rfl h
      · exact ⟨x, hx, Or.inr h⟩

/-- The default ensemble: the three statements apply. -/
example (ienv : InEnv K R) : (InTr.periodigram "boxcar" false).transform ienv ∈ defaultTransformers ienv ∧
    (InTr.derivate 1 false).transform ienv ∈ defaultTransformers ienv := by
  simp [defaultTransformers]

end

/-! ## `Derivate` on object arrays -/

section
variable {K : Type} [Scalar K]

theorem sub2_same {x y : Mat K} (hx : x.WF) (hy : y.WF) (hr : x.rows.length = y.rows.length) (hl : x.len = y.len) :
    sub2 x y = .ok ⟨List.zipWith (List.zipWith fun u v => u - v) x.rows y.rows, x.len⟩ := by
  unfold sub2 bcast
  rw [if_pos hr, if_pos hl]
  simp only [Res.bind_ok]
  rw [mapM_ok (g := fun i => List.zipWith (fun u v => u - v) (x.rows.getD i []) (y.rows.getD i []))]
  · simp only [Res.bind_ok, Res.pure_eq, Except.ok.injEq, Mat.mk.injEq, and_true]
    apply List.ext_getElem
    · simp [hr]
    · intro i h1 h2
      simp only [List.length_map, List.length_range] at h1
      simp [h1, hr ▸ h1]
  · intro i hi
    rw [List.mem_range] at hi
    have hi' : i < y.rows.length := hr ▸ hi
    have lx : (x.rows[i]).length = x.len := hx _ (List.getElem_mem hi)
    have ly : (y.rows[i]).length = y.len := hy _ (List.getElem_mem hi')
    rw [getD_lt [] hi, getD_lt [] hi']
    have e1 : (if x.rows.length = 1 then 0 else i) = i := by split <;> omega
    have e2 : (if y.rows.length = 1 then 0 else i) = i := by split <;> omega
    rw [mapM_ok (g := fun j => (x.rows[i]).getD j 0 - (y.rows[i]).getD j 0)]
    · rw [Except.ok.injEq]
      apply List.ext_getElem
      · simp [lx, ly, hl]
      · intro j h1 h2
        simp only [List.length_map, List.length_range] at h1
        have h1' : j < (x.rows[i]).length := by omega
        have h1'' : j < (y.rows[i]).length := by omega
        simp [h1', h1'']
    · intro j hj
      rw [List.mem_range] at hj
      have e3 : (if x.len = 1 then 0 else j) = j := by split <;> omega
      have e4 : (if y.len = 1 then 0 else j) = j := by split <;> omega
      have h1' : j < (x.rows[i]).length := by omega
      have h1'' : j < (y.rows[i]).length := by omega
      rw [e1, e2, e3, e4]
      simp [pyGet, hi, hi', h1', h1'']

/-- **C92 (violated).** On an object array of series of one shape, `Derivate()` does not differentiate the series: its
`i`-th output is the difference between series `i + 1` and series `i`, and there is one output fewer than series. -/
theorem C92_derivate_object_array (xs : List (Mat K)) (nf n : Nat) (hx : ∀ x ∈ xs, x.WF ∧ x.rows.length = nf ∧ x.len = n) :
    ∃ ys : List (Mat K), derivate 1 (.objArray xs) = .ok (.objArray ys) ∧ ys.length = xs.length - 1 ∧
      ∀ i (h : i + 1 < xs.length), ys[i]? =
        some ⟨List.zipWith (List.zipWith fun u v => u - v) xs[i + 1].rows xs[i].rows, n⟩ := by
  have h : diffObj xs = .ok (((xs.drop 1).zip xs).map fun p =>
      ⟨List.zipWith (List.zipWith fun u v => u - v) p.1.rows p.2.rows, n⟩) := by
    unfold diffObj
    apply mapM_ok
    rintro ⟨a, b⟩ hp
    obtain ⟨h1, h2⟩ := List.of_mem_zip hp
    obtain ⟨a1, a2, a3⟩ := hx a (List.mem_of_mem_drop h1)
    obtain ⟨b1, b2, b3⟩ := hx b h2
    rw [sub2_same a1 b1 (by omega) (by omega), a3]
  refine ⟨_, by
    unfold derivate
    rw [if_neg (by omega)]
    simp only [List.range_succ, List.range_zero, List.nil_append, List.foldlM_cons, List.foldlM_nil, h, Res.bind_ok,
      Res.pure_eq]
    rfl, by simp, ?_⟩
  intro i hi
  rw [List.getElem?_eq_getElem (by simp; omega)]
  simp

example : ∃ ys : List (Mat ℝ), derivate 1 (.objArray [⟨[[1, 2, 4]], 3⟩, ⟨[[5, 5, 5]], 3⟩] : XIn ℝ) = .ok (.objArray ys) ∧
    ys.length = 1 ∧ ys[0]? = some ⟨[[4, 3, 1]], 3⟩ := by
  obtain ⟨ys, h1, h2, h3⟩ := C92_derivate_object_array (K := ℝ) [⟨[[1, 2, 4]], 3⟩, ⟨[[5, 5, 5]], 3⟩] 1 3 (by simp [Mat.WF])
  refine ⟨ys, h1, h2, ?_⟩
  rw [h3 0 (by simp)]
  simp
  norm_num

/-- Two dimensions that NumPy broadcasts: equal, or one of them is 1. -/
def Broadcasts (n m : Nat) : Prop := n = m ∨ n = 1 ∨ m = 1

/-- Element `(c, t)` of a 2D array repeated along its dimensions of size 1. -/
def repeated (x : Mat K) (c t : Nat) : K :=
  (x.rows.getD (if x.rows.length = 1 then 0 else c) []).getD (if x.len = 1 then 0 else t) 0

/-- The difference of two 2D arrays whose shapes are broadcast together. -/
def broadcastSub (x y : Mat K) : Mat K :=
  ⟨(List.range (if x.rows.length = 1 then y.rows.length else x.rows.length)).map fun c =>
    (List.range (if x.len = 1 then y.len else x.len)).map fun t => repeated x c t - repeated y c t,
    if x.len = 1 then y.len else x.len⟩

theorem bcast_ok {n m : Nat} (h : Broadcasts n m) : bcast n m = .ok (if n = 1 then m else n) := by
  unfold bcast
  rcases h with rfl | rfl | rfl
  · simp
  · by_cases h : 1 = m <;> simp [h]
  · by_cases h : n = 1 <;> simp [h]

theorem bcast_error {n m : Nat} (h : ¬ Broadcasts n m) : bcast n m = .error .valueError := by
  unfold Broadcasts at h
  push Not at h
  unfold bcast
  rw [if_neg h.1, if_neg h.2.1, if_neg h.2.2]

theorem sub2_broadcast {x y : Mat K} (hx : x.WF) (hy : y.WF) (hr : Broadcasts x.rows.length y.rows.length)
    (hl : Broadcasts x.len y.len) : sub2 x y = .ok (broadcastSub x y) := by
  unfold sub2
  rw [bcast_ok hr, bcast_ok hl]
  simp only [Res.bind_ok]
  rw [mapM_ok (g := fun c => (List.range (if x.len = 1 then y.len else x.len)).map fun t =>
    repeated x c t - repeated y c t)]
  · rfl
  intro c hc
  rw [List.mem_range] at hc
  apply mapM_ok
  intro t ht
  rw [List.mem_range] at ht
  have c1 : (if x.rows.length = 1 then 0 else c) < x.rows.length := by
    unfold Broadcasts at hr
    split <;> rename_i h <;> simp only [h, if_true, if_false] at hc <;> omega
  have c2 : (if y.rows.length = 1 then 0 else c) < y.rows.length := by
    unfold Broadcasts at hr
    by_cases h : x.rows.length = 1 <;> simp only [h, if_true, if_false] at hc <;> split <;> omega
  have lx := hx _ (List.getElem_mem c1)
  have ly := hy _ (List.getElem_mem c2)
  have t1 : (if x.len = 1 then 0 else t) < (x.rows[if x.rows.length = 1 then 0 else c]).length := by
    rw [lx]
    unfold Broadcasts at hl
    split <;> rename_i h <;> simp only [h, if_true, if_false] at ht <;> omega
  have t2 : (if y.len = 1 then 0 else t) < (y.rows[if y.rows.length = 1 then 0 else c]).length := by
    rw [ly]
    unfold Broadcasts at hl
    by_cases h : x.len = 1 <;> simp only [h, if_true, if_false] at ht <;> split <;> omega
  unfold repeated
  rw [getD_lt _ c1, getD_lt _ c2, getD_lt _ t1, getD_lt _ t2]
  simp only [pyGet, List.getElem?_eq_getElem c1, List.getElem?_eq_getElem c2, List.getElem?_eq_getElem t1,
    List.getElem?_eq_getElem t2, Res.bind_ok, Res.pure_eq]

/-- **C92 (violated).** On an object array `Derivate()` succeeds exactly when the shapes of consecutive series can be
broadcast together; its `i`-th output is then series `i + 1` minus series `i`, each repeated along its dimensions of
size 1, and otherwise it raises `ValueError`. -/
theorem C92_derivate_object_array_shapes (xs : List (Mat K)) (hx : ∀ x ∈ xs, x.WF) :
    ((∀ i (h : i + 1 < xs.length), Broadcasts xs[i + 1].rows.length xs[i].rows.length ∧
        Broadcasts xs[i + 1].len xs[i].len) →
      ∃ ys : List (Mat K), derivate 1 (.objArray xs) = .ok (.objArray ys) ∧ ys.length = xs.length - 1 ∧
        ∀ i (h : i + 1 < xs.length), ys[i]? = some (broadcastSub xs[i + 1] xs[i])) ∧
    (∀ i (h : i + 1 < xs.length), ¬ (Broadcasts xs[i + 1].rows.length xs[i].rows.length ∧
        Broadcasts xs[i + 1].len xs[i].len) → derivate 1 (.objArray xs) = .error .valueError) := by
  have hd : ∀ r, diffObj xs = r → derivate 1 (.objArray xs) = r >>= fun ys => pure (.objArray ys) := by
    rintro r rfl
    unfold derivate
    rw [if_neg (by omega)]
    simp only [List.range_succ, List.range_zero, List.nil_append, List.foldlM_cons, List.foldlM_nil]
    cases diffObj xs <;> rfl
  have hpair : ∀ p ∈ (xs.drop 1).zip xs, ∃ i, ∃ h : i + 1 < xs.length, p = (xs[i + 1], xs[i]) := by
    intro p hp
    obtain ⟨i, hi, rfl⟩ := List.mem_iff_getElem.1 hp
    simp only [List.length_zip, List.length_drop] at hi
    refine ⟨i, by omega, ?_⟩
    simp [Nat.add_comm 1 i]
  have hsub : ∀ p ∈ (xs.drop 1).zip xs, sub2 p.1 p.2 = .error .valueError ∨
      sub2 p.1 p.2 = .ok (broadcastSub p.1 p.2) := by
    intro p hp
    obtain ⟨i, h, rfl⟩ := hpair p hp
    by_cases h1 : Broadcasts xs[i + 1].rows.length xs[i].rows.length
    · by_cases h2 : Broadcasts xs[i + 1].len xs[i].len
      · exact .inr (sub2_broadcast (hx _ (List.getElem_mem _)) (hx _ (List.getElem_mem _)) h1 h2)
      · left
        unfold sub2
        rw [bcast_ok h1, bcast_error h2]
        rfl
    · left
      unfold sub2
      rw [bcast_error h1]
      rfl
  constructor
  · intro hall
    have h : diffObj xs = .ok (((xs.drop 1).zip xs).map fun p => broadcastSub p.1 p.2) := by
      unfold diffObj
      apply mapM_ok
      intro p hp
      obtain ⟨i, h, rfl⟩ := hpair p hp
      exact sub2_broadcast (hx _ (List.getElem_mem _)) (hx _ (List.getElem_mem _)) (hall i h).1 (hall i h).2
    refine ⟨_, hd _ h, by simp, ?_⟩
    intro i hi
    rw [List.getElem?_eq_getElem (by simp; omega)]
    simp [Nat.add_comm 1 i]
  · intro i hi hn
    have hbad : sub2 xs[i + 1] xs[i] = .error .valueError := by
      unfold sub2
      by_cases h1 : Broadcasts xs[i + 1].rows.length xs[i].rows.length
      · rw [bcast_ok h1, bcast_error fun h2 => hn ⟨h1, h2⟩]
        rfl
      · rw [bcast_error h1]
        rfl
    have hmem : (xs[i + 1], xs[i]) ∈ (xs.drop 1).zip xs := by
      rw [List.mem_iff_getElem]
      refine ⟨i, by simp; omega, ?_⟩
      simp [Nat.add_comm 1 i]
    have key : ∀ l : List (Mat K × Mat K), (∀ p ∈ l, sub2 p.1 p.2 = .error .valueError ∨
        sub2 p.1 p.2 = .ok (broadcastSub p.1 p.2)) → (∃ p ∈ l, sub2 p.1 p.2 = .error .valueError) →
        (l.mapM fun p => sub2 p.1 p.2) = (.error .valueError : Res (List (Mat K))) := by
      intro l
      induction l with
      | nil => rintro _ ⟨p, hp, _⟩; cases hp
      | cons q l ih =>
        rintro h1 ⟨p, hp, h2⟩
        rw [List.mapM_cons]
        rcases h1 q (by simp) with h3 | h3
        · rw [h3]; rfl
        · rw [h3]
          rw [List.mem_cons] at hp
          rcases hp with rfl | hp
          · rw [h3] at h2; cases h2
          · rw [Res.bind_ok, ih (fun p hp => h1 p (by simp [hp])) ⟨p, hp, h2⟩]
            rfl
    exact hd _ (key _ hsub ⟨_, hmem, hbad⟩)

/-- A series of two channels and one of one channel, and series of three and two points. -/
example : (∃ ys : List (Mat ℝ), derivate 1 (.objArray [⟨[[1, 2], [3, 4]], 2⟩, ⟨[[5, 6]], 2⟩] : XIn ℝ) = .ok (.objArray ys) ∧
      ys[0]? = some ⟨[[4, 4], [2, 2]], 2⟩) ∧
    derivate 1 (.objArray [⟨[[1, 2, 4]], 3⟩, ⟨[[5, 5]], 2⟩] : XIn ℝ) = .error .valueError := by
  constructor
  · obtain ⟨ys, h1, -, h2⟩ := (C92_derivate_object_array_shapes (K := ℝ) [⟨[[1, 2], [3, 4]], 2⟩, ⟨[[5, 6]], 2⟩]
      (by simp [Mat.WF])).1 (by
        intro i hi
        have : i = 0 := by simp at hi; omega
        subst this
        simp [Broadcasts])
    refine ⟨ys, h1, ?_⟩
    rw [h2 0 (by simp)]
    simp [broadcastSub, repeated, List.range_succ]
    norm_num
  · refine (C92_derivate_object_array_shapes (K := ℝ) [⟨[[1, 2, 4]], 3⟩, ⟨[[5, 5]], 2⟩] (by simp [Mat.WF])).2 0 (by simp) ?_
    simp [Broadcasts]

end

/-! ## `Raw` only -/

section
variable {G R : Type} [Gen G ℝ] [LawfulGen G]

/-- Parameters usable for the series `xs` of `nf` channels and at least `m` points, `m` being the `min_len` given to
the constructor or the least length: every member can be built, for variable lengths, with usable parameters for
`m` points and `alpha ≤ 1`, and is multivariate or has no normalised shapelets and series without zeros. -/
def ListUsable (env : EnsEnv G ℝ R) (e : Ensemble ℝ R) (xs : List (Mat ℝ)) (nf m : Nat) : Prop :=
  ∀ i < e.reps.length, ∀ rs w, ∃ o, Rdst.init env.toEnv w (e.args i rs) = (w, .ok o) ∧
    (o.transformType.Var ∨ o.transformType = .auto) ∧ o.alpha ≤ 1 ∧
    ((o.transformType = .multiVar ∨ o.transformType = .auto ∧ 1 < nf) ∨
      o.pNorm ≤ 0 ∧ (∀ x ∈ xs, ∀ v ∈ x.rows.getD 0 [], v ≠ 0)) ∧
    GoodParams o m ∧ (∀ k, o.maxChannels = some k → 1 ≤ k ∧ k ≤ nf) ∧
    (o.minLen = some m ∨ o.minLen = none ∧ ∃ x ∈ xs, x.len = m)

theorem fitMember_list {env : EnsEnv G ℝ R} (hl : CVLaw env.ridgeCV) {e : Ensemble ℝ R} {gs : Nat → G}
    {order : Nat → List Nat} (ho : IsSchedule order) {xs : List (Mat ℝ)} {y : List Int} {i : Nat}
    (hraw : ∀ rep ∈ e.reps, rep = fun X => .ok X)
    {nf m : Nat} (hgood : ListUsable env e xs nf m) (hlearn : Learns env.ridgeCV y)
    (hwf : ∀ x ∈ xs, x.WF) (hne : xs ≠ []) (hnf1 : 1 ≤ nf)
    (hnf : ∀ x ∈ xs, x.rows.length = nf) (hm4 : 4 ≤ m) (hlen : ∀ x ∈ xs, m ≤ x.len)
    (hy : y.length = xs.length) (hi : i < e.reps.length) (rs : RState R) (w : World R) :
    ∃ rs' w' M S, fitMember env e gs order (.list xs) y i rs w = (rs', w', .ok M) ∧
      M.rep = (fun X => .ok X) ∧ MemberWF M S nf ∧
      ∀ zs : List (Mat ℝ), (∀ z ∈ zs, z.WF) → zs ≠ [] → (∀ z ∈ zs, z.rows.length = nf) →
        (∀ z ∈ zs, m ≤ z.len) → ∃ F, M.rdst.transform (.list zs) = .ok F := by
  have h1 : e.reps[i]? = some e.reps[i] := List.getElem?_eq_getElem hi
  have hr := hraw _ (List.getElem_mem hi)
  obtain ⟨o0, h3, hty, hal, hcase, hgp, hmc, hml⟩ := hgood i hi rs w
  obtain ⟨o', w2, S, hfit', hS, hfo, hcnt, htr⟩ := fitted_list env.toEnv o0 w xs y hty hwf hne nf hnf1 hnf m hm4 hlen hml
    hy hgp hmc gs ho
  obtain ⟨F, hF⟩ : ∃ F, o'.transform (.list xs) = .ok F := ⟨_, htr xs hwf hne hnf hlen⟩
  obtain ⟨rfl, -⟩ := transform_rows hS hfo.wf (X := .list xs) hwf (xs := xs) rfl hnf hF
  set F := xs.map (objRow o'.phase S) with hFdef
  have hrow : ∀ r ∈ F, r.length = 3 * Shapelets.count S := by
    intro r hr
    obtain ⟨x, -, rfl⟩ := List.mem_map.1 hr
    exact objRow_length _ _ _
  have hc1 : 1 ≤ 3 * Shapelets.count S := by
    have := hcnt hal hcase
    have h2 := hgp.nShp
    have h3 := List.length_pos_of_ne_nil hne
    have : 1 ≤ min o0.nShp xs.length := by omega
    omega
  have hFne : F ≠ [] := by simpa [hFdef] using hne
  obtain ⟨f1, f2⟩ := fitPlainScaler_ok hFne hrow
  obtain ⟨sc, hsc⟩ := f1 hc1
  obtain ⟨l1, l2⟩ := f2 sc hsc
  have hpt := plainTransform_ok l1 l2 hrow
  obtain ⟨r, hr'⟩ := hlearn (F.map (plainStd sc)) _ (by simp [hFdef, hy]) (by simpa using hFne) hc1 (by
    intro r hr
    obtain ⟨x, hx, rfl⟩ := List.mem_map.1 hr
    rw [plainStd_length, hrow x hx])
  obtain ⟨c1, -, -⟩ := hl _ _ _ _ hr'
  have hcols : nCols (F.map (plainStd sc)) = 3 * Shapelets.count S := by
    obtain ⟨a, l, hal⟩ := List.exists_cons_of_ne_nil hne
    rw [hFdef, hal]
    simp [nCols, plainStd_length, objRow_length]
  rw [hcols] at c1
  refine ⟨o'.rs, w2, ⟨e.reps[i], o', sc, r.1, r.2⟩, S, ?_, hr, ⟨hS, hfo.wf, l1, l2, c1⟩,
    fun zs a b c d => ⟨_, htr zs a b c d⟩⟩
  unfold fitMember
  rw [h1]
  simp only [hr]
  rw [h3]
  simp only [hfit', hF, Res.bind_ok, hsc, hpt, hr']
  rfl

/-- If every member can be fitted, so can the ensemble. -/
theorem ens_fit_total {env : EnsEnv G ℝ R} (hl : CVLaw env.ridgeCV) {gs : Nat → Nat → G}
    {sched : Nat → Nat → List Nat} {order : List Nat}
    {e : Ensemble ℝ R} (hord : order.Perm (List.range e.reps.length)) (hreps : e.reps ≠ [])
    (w : World R) {X : XIn ℝ} {y : List Int}
    (hfit : ∀ a b, ∀ i < e.reps.length, ∀ rs w, ∃ rs' w' M,
      fitMember env { e with nJobs := a, nJobsRdst := b } (gs i) (sched i) X y i rs w = (rs', w', .ok M))
    {t : Int} (ht : checkNJobs env.cpu e.nJobs = .ok t) (ht1 : 1 ≤ t) (htm : t ≤ env.maxThreads) :
    ∃ e' w', e.fit env gs sched order w X y = (e', w', .ok ()) := by
  obtain ⟨outer, inner, hm, h1, h2, h3, -, -, -⟩ := C45_split env.cpu e ht ht1 hreps
  have hin : inner ≤ t := by nlinarith
  obtain ⟨rs', w', slots, hfm⟩ := fitMembers_total (order := order)
    (fitOne := fun i => fitMember env { e with nJobs := .int outer, nJobsRdst := some inner } (gs i) (sched i)
      X y i) (by
      intro i hi rs w
      exact hfit _ _ i (by simpa using hord.mem_iff.1 hi) rs w) e.rs { w with numThreads := inner } (fun _ => none)
  unfold Ensemble.fit
  rw [hm]
  simp only [Option.getD_some]
  unfold setNumThreads
  rw [if_pos ⟨h2, by omega⟩]
  simp only [hfm]
  obtain ⟨st, -, -, h5, h6⟩ := fitMembers_ok (hord.nodup_iff.2 List.nodup_range) hfm
  have hacc : ∃ accs, (((List.range e.reps.length).filterMap slots).mapM fun m => (looAcc m.cv y : Res ℝ)) = .ok accs := by
    refine ⟨_, mapM_ok (g := fun m => (agree (m.cv.map looIdx) y : ℝ) / (m.cv.map looIdx).length) ?_⟩
    intro m hm
    obtain ⟨i, hi, hs⟩ := List.mem_filterMap.1 hm
    have hi : i ∈ order := hord.mem_iff.2 hi
    obtain ⟨k, hk, rfl⟩ := List.getElem_of_mem hi
    obtain ⟨m', h7, h8⟩ := h6 k hk
    rw [hs] at h8
    cases h8
    obtain ⟨c1, -⟩ := fitMember_cv hl h7
    exact accuracy_eq (by simp [c1])
  obtain ⟨accs, hacc⟩ := hacc
  rw [hacc]
  exact ⟨_, _, rfl⟩

/-- If every member gives one row of `n` probabilities per series, the ensemble predicts. -/
theorem ens_predict_total {e : Ensemble ℝ R} {ws : List ℝ} (hws : e.weights = some ws) (hne : ws ≠ [])
    {X : XIn ℝ} {zs : List (Mat ℝ)} {n : Nat} {Q : Nat → Mat ℝ → Nat → ℝ}
    (hp : ∀ i < ws.length, ∃ m, e.models[i]? = some m ∧
      m.proba X = .ok (zs.map fun x => (List.range n).map (Q i x))) :
    ∃ P, e.predict X = .ok P := by
  unfold Ensemble.predict
  rw [hws]
  simp only
  have hmap : (List.range ws.length).mapM (fun i => do
      let m ← pyGet e.models i
      let wt ← pyGet ws i
      m.weighted wt X) = .ok ((List.range ws.length).map fun i =>
        zs.map fun x => (List.range n).map fun k => Q i x k * ws.getD i 0) := by
    apply mapM_ok
    intro i hi
    have hi : i < ws.length := by simpa using hi
    obtain ⟨m, hm, hp⟩ := hp i hi
    have hw' : ws[i]? = some (ws.getD i 0) := by rw [getD_lt _ hi]; exact List.getElem?_eq_getElem hi
    simp only [pyGet, hm, hw', Res.bind_ok]
    rw [weighted_eq, hp]
    simp only [Except.map, Except.ok.injEq, List.map_map]
    refine List.map_congr_left fun x _ => ?_
    simp only [Function.comp_apply, List.map_map]
    rfl
  rw [hmap, Res.bind_ok]
  obtain ⟨C, hC⟩ := sumMats_ok (Ps := (List.range ws.length).map fun i =>
        zs.map fun x => (List.range n).map fun k => Q i x k * ws.getD i 0) (by
    simp only [ne_eq, List.map_eq_nil_iff, List.range_eq_nil]
    exact fun h => hne (List.length_eq_zero_iff.1 h)) (by
    intro P hP Q hQ
    obtain ⟨i, -, rfl⟩ := List.mem_map.1 hP
    obtain ⟨j, -, rfl⟩ := List.mem_map.1 hQ
    exact sameShape_grid _ _ _ _)
  rw [hC]
  exact ⟨_, rfl⟩

/-- **C92.** An ensemble whose transformers are all `Raw` works on series of different lengths: `fit` succeeds, and
`predict` succeeds on every list of series that are not too short, where it returns the first index of the
greatest weighted sum of the members' probabilities. -/
theorem C92_raw_lists {env : EnsEnv G ℝ R} (hl : CVLaw env.ridgeCV)
    {ncls : List Int → Nat} (hcls : ∀ F y m cv, env.ridgeCV F y = .ok (m, cv) → m.classes.length = ncls y)
    (gs : Nat → Nat → G) {sched : Nat → Nat → List Nat} (ho : ∀ i, IsSchedule (sched i)) {order : List Nat}
    {e : Ensemble ℝ R} (hord : order.Perm (List.range e.reps.length)) (hreps : e.reps ≠ [])
    (hraw : ∀ rep ∈ e.reps, rep = fun X => .ok X) (w : World R) {xs : List (Mat ℝ)} {y : List Int}
    {nf m : Nat} (hgood : ListUsable env e xs nf m) (hlearn : Learns env.ridgeCV y)
    (hwf : ∀ x ∈ xs, x.WF) (hne : xs ≠ []) (hnf1 : 1 ≤ nf)
    (hnf : ∀ x ∈ xs, x.rows.length = nf) (hm4 : 4 ≤ m) (hlen : ∀ x ∈ xs, m ≤ x.len)
    (hy : y.length = xs.length)
    {t : Int} (ht : checkNJobs env.cpu e.nJobs = .ok t) (ht1 : 1 ≤ t) (htm : t ≤ env.maxThreads) :
    ∃ e' w' ws Ss, e.fit env gs sched order w (.list xs) y = (e', w', .ok ()) ∧ e'.weights = some ws ∧
      ws.length = e.reps.length ∧ (∀ i M, e'.models[i]? = some M → MemberWF M (Ss i) nf) ∧
      ∀ zs : List (Mat ℝ), (∀ z ∈ zs, z.WF) → zs ≠ [] → (∀ z ∈ zs, z.rows.length = nf) → (∀ z ∈ zs, m ≤ z.len) →
        ∃ P, e'.predict (.list zs) = .ok P ∧
          List.Forall₂ (fun x p => FirstMax ((List.range (ncls y)).map (vote e' ws (fun _ z => z) Ss x)) p) zs P := by
  obtain ⟨e', w', hf⟩ := ens_fit_total hl (gs := gs) hord hreps w (X := .list xs) (y := y) (by
    intro a b i hi rs w
    obtain ⟨rs', w', M, S, h, -⟩ := fitMember_list hl (gs := gs i) (ho i)
      (e := { e with nJobs := a, nJobsRdst := b }) hraw hgood hlearn hwf hne hnf1 hnf hm4 hlen hy hi rs w
    exact ⟨rs', w', M, h⟩) ht ht1 htm
  obtain ⟨ws, hws, hwl, hml, -, -⟩ := C51_weights hl hord hf
  obtain ⟨w1, st, accs, -, -, -, -, hmem, -, -⟩ := ens_fit_ok hord hf
  have hall : ∀ (i : Nat), ∃ S : Shapelets ℝ, ∀ M : Member ℝ R, e'.models[i]? = some M →
      M.rep = (fun X => .ok X) ∧ M.lin.classes.length = ncls y ∧ MemberWF M S nf ∧
      ∀ zs : List (Mat ℝ), (∀ z ∈ zs, z.WF) → zs ≠ [] → (∀ z ∈ zs, z.rows.length = nf) →
        (∀ z ∈ zs, m ≤ z.len) → ∃ F, M.rdst.transform (.list zs) = .ok F := by
    intro i
    cases hmi : e'.models[i]? with
    | none => exact ⟨.u ⟨[], [], [], [], []⟩, fun m hm => by cases hm⟩
    | some M =>
      have hi : i < e.reps.length := by
        have := (List.getElem?_eq_some_iff.1 hmi).1
        omega
      have : i ∈ order := hord.mem_iff.2 (by simpa using hi)
      obtain ⟨k, hk, rfl⟩ := List.getElem_of_mem this
      obtain ⟨M', h1, h2⟩ := hmem k hk
      rw [hmi] at h1
      cases h1
      obtain ⟨rs', w', M', S, h, h3, h4, h5⟩ := fitMember_list hl (gs := gs order[k]) (ho order[k]) hraw hgood hlearn hwf hne
        hnf1 hnf hm4 hlen hy hi (st k).1 (st k).2
      rw [h2] at h
      simp only [Prod.mk.injEq, Except.ok.injEq] at h
      obtain ⟨-, -, rfl⟩ := h
      obtain ⟨_, _, _, _, _, _, -, -, -, -, -, -, -, -, -, h10⟩ := fitMember_ok h2
      exact ⟨S, fun m' hm' => by cases hm'; exact ⟨h3, hcls _ _ _ _ h10, h4, h5⟩⟩
  choose Ss hSs using hall
  refine ⟨e', w', ws, Ss, hf, hws, hwl, fun i M hM => (hSs i M hM).2.2.1, ?_⟩
  intro zs hz hzne hznf hzlen
  have hpos : 0 < ws.length := by rw [hwl]; exact List.length_pos_of_ne_nil hreps
  have hon : ∀ (i : Nat) (M : Member ℝ R), e'.models[i]? = some M → RepOn M.rep (.list zs) zs (fun z => z) nf := by
    intro i M hM X' hX'
    rw [(hSs i M hM).1] at hX'
    cases hX'
    exact ⟨hz, by simp [samples], hznf⟩
  obtain ⟨P, hP⟩ := ens_predict_total hws (List.ne_nil_of_length_pos hpos) (X := .list zs) (zs := zs) (n := ncls y)
    (Q := fun i x k => match e'.models[i]? with
      | some M => memberProb M (Ss i) x k
      | none => 0) (by
    intro i hi
    have hi' : i < e'.models.length := by omega
    have hm := List.getElem?_eq_getElem hi'
    refine ⟨e'.models[i], hm, ?_⟩
    obtain ⟨a1, a2, a3, a4⟩ := hSs i _ hm
    obtain ⟨F, hF⟩ := a4 zs hz hzne hznf hzlen
    have hex : ∃ P, (e'.models[i]).proba (.list zs) = .ok P := by
      unfold Member.proba
      rw [a1]
      simp only [Res.bind_ok, hF]
      obtain ⟨rfl, -⟩ := transform_rows a3.fitted a3.shp (X := .list zs) hz (xs := zs) rfl hznf hF
      exact ⟨_, predictProba_ok a3.offset a3.scale a3.lin (by
        intro r hr
        obtain ⟨x, -, rfl⟩ := List.mem_map.1 hr
        exact objRow_length _ _ _)⟩
    obtain ⟨P, hP⟩ := hex
    obtain ⟨-, hP'⟩ := proba_ok a3 (hon i _ hm) hP
    rw [hP, hP', a2, hm])
  refine ⟨P, hP, ?_⟩
  obtain ⟨nc, h1, h2⟩ := C50_weighted_vote hws (List.ne_nil_of_length_pos hpos)
    (fun i m hm => (hSs i m hm).2.2.1) hon hP
  obtain ⟨m0, hm0, hc0⟩ := h1 0 hpos
  rw [← hc0, (hSs 0 m0 hm0).2.1] at h2
  exact h2

/-! ## The hypotheses are met -/

/-- Two members with `Raw` for series of different lengths. -/
noncomputable def exRawEns : Ensemble ℝ Nat :=
  { exEns with p := { exEns.p with transformType := "multivariate_variable" }, reps := [fun X => .ok X, fun X => .ok X] }

theorem exRawEns_usable (seed : Nat → G) : ListUsable (exEnsEnv seed) exRawEns exList 1 4 := by
  intro i _ rs w
  have ht : validateTransformType "multivariate_variable" = .ok .multiVar := by decide +kernel
  have hr : ¬ (Scalar.leb (1 : ℝ) (3 / 4)) = true := by rw [real_leb]; norm_num
  have hp : validatePercentiles [(5 : ℝ), 10] = .ok (5, 10) := by
    have : Scalar.leb (5 : ℝ) 10 = true := by rw [real_leb]; norm_num
    simp [validatePercentiles, this]
  unfold Rdst.init
  simp only [Ensemble.args, exRawEns, exEns, exParams, ht, LenArr.length, hp, List.length_cons]
  rw [if_neg (by simp), if_neg hr]
  refine ⟨_, rfl, Or.inl (Or.inl rfl), by norm_num, Or.inl (Or.inl rfl), ⟨by simp, by norm_num, rfl, by norm_num, ?_⟩,
    by simp, Or.inr ⟨rfl, by simp [exList]⟩⟩
  intro _
  exact Or.inl ⟨_, rfl, by simp, by simp⟩

/-- **C92.** An ensemble of `Raw` members on a series of 5 points and one of 4 points. -/
example (seed : Nat → G) (gs : Nat → Nat → G) (w : World Nat) :
    ∃ e' w' P, exRawEns.fit (exEnsEnv seed) gs (fun _ => List.range) [1, 0] w (.list exList) [0, 1] = (e', w', .ok ()) ∧
      e'.predict (.list exList) = .ok P ∧ P.length = 2 := by
  obtain ⟨e', w', ws, Ss, h1, -, -, -, h2⟩ := C92_raw_lists (exEns_cv seed) (ncls := fun _ => 2) (by
      intro F y m cv h
      simp only [exEnsEnv, Except.ok.injEq, Prod.mk.injEq] at h
      obtain ⟨rfl, -⟩ := h
      rfl) gs (sched := fun _ => List.range) (fun _ => range_schedule) (order := [1, 0]) (e := exRawEns)
    (List.Perm.swap 0 1 []) (by simp [exRawEns]) (by simp [exRawEns]) w (exRawEns_usable seed) (exEns_learns seed [0, 1])
    exList_wf (by simp [exList]) (by omega) (by simp [exList]) (by omega) (by simp [exList]) (by simp [exList])
    (t := 2) (by simp [checkNJobs, exRawEns, exEns, exEnsEnv]) (by norm_num) (by simp [exEnsEnv])
  obtain ⟨P, h3, h4⟩ := h2 exList exList_wf (by simp [exList]) (by simp [exList]) (by simp [exList])
  exact ⟨e', w', P, h1, h3, h4.length_eq ▸ rfl⟩

/-- The default transformers. -/
noncomputable def exDefault : Ensemble ℝ Nat :=
  { exEns with reps := defaultTransformers exInEnv, pNorms := [1 / 2, 1 / 2, 1 / 2] }

/-- **C92.** With the default transformers `fit` on the array of two series of 5 points succeeds, after which
`predict` raises on the list of the same two series; so does `fit` on that list. -/
example (seed : Nat → G) (gs : Nat → Nat → G) (w : World Nat) :
    (∃ e' w' er, exDefault.fit (exEnsEnv seed) gs (fun _ => List.range) [0, 1, 2] w (.array .float64 exArr) [0, 1] =
        (e', w', .ok ()) ∧ e'.predict (.list (arrSeries exArr)) = .error er) ∧
    ∃ e' w' er, exDefault.fit (exEnsEnv seed) gs (fun _ => List.range) [0, 1, 2] w (.list (arrSeries exArr)) [0, 1] =
      (e', w', .error er) := by
  have hord : ([0, 1, 2] : List Nat).Perm (List.range exDefault.reps.length) := List.Perm.refl _
  have hmem : (InTr.periodigram "boxcar" false).transform exInEnv ∈ exDefault.reps := by
    simp [exDefault, defaultTransformers]
  constructor
  · obtain ⟨e', w', hf⟩ := C50_fit_succeeds (exEns_cv seed) gs (sched := fun _ => List.range) (fun _ => range_schedule)
      (order := [0, 1, 2]) (e := exDefault) hord (by simp [exDefault, defaultTransformers]) w (dt := .float64) (A := exArr)
      (y := [0, 1])
      (f := fun i => if i = 1 then derivateRow 1 else id) (g := fun i => if i = 1 then (· - 1) else id) (by
        intro i rep h
        match i, h with
        | 0, h =>
          simp only [exDefault, defaultTransformers, List.map_cons, List.getElem?_cons_zero, Option.some.injEq] at h
          subst h
          exact arrRep_raw
        | 1, h =>
          simp only [exDefault, defaultTransformers, List.map_cons, List.getElem?_cons_succ, List.getElem?_cons_zero,
            Option.some.injEq] at h
          subst h
          exact arrRep_derivate 1
        | 2, h =>
          simp only [exDefault, defaultTransformers, List.map_cons, List.getElem?_cons_succ, List.getElem?_cons_zero,
            Option.some.injEq] at h
          subst h
          exact arrRep_periodigram (fun x => x) id (fun _ _ h => h) (fun _ => rfl)
        | n + 3, h => simp [exDefault, defaultTransformers] at h) (by
        intro i hi rs w
        obtain ⟨o, h1, h2, h3, h4, h5, h6, h7, h8, h9, h10, h11, -⟩ := exEns_args seed (i := 0) rs w
        have hp : exDefault.args i rs = exEns.args 0 rs := by
          have hi' : i < 3 := by simpa [exDefault, defaultTransformers] using hi
          have : (exDefault.pNorms.getD i 0 : ℝ) = 1 / 2 := by
            rcases i with _ | _ | _ | i <;> simp [exDefault] at hi' ⊢ <;> omega
          unfold Ensemble.args
          rw [this]
          simp [exDefault, exEns]
        rw [hp]
        refine ⟨o, h1, h2, by rw [h3]; norm_num, ⟨by omega, ?_, h10, ?_, ?_⟩, by simp [h7]⟩
        · rw [h8, h9]; norm_num
        · rw [h11]; norm_num
        · intro _
          exact Or.inl ⟨_, h5, by simp, by
            intro l hl
            have : 4 ≤ (if i = 1 then (· - 1) else id : Nat → Nat) exArr.nt := by split <;> simp [exArr]
            simp only [List.mem_cons, List.not_mem_nil, or_false] at hl
            omega⟩) (exEns_learns seed _) exArr_wf (by simp [exArr]) (by simp [exArr]) (by
        intro i _
        show 4 ≤ (if i = 1 then (· - 1) else id : Nat → Nat) exArr.nt
        split <;> simp [exArr]) (by simp [exArr]) (t := 2) (by simp [checkNJobs, exDefault, exEns, exEnsEnv]) (by norm_num)
      (by simp [exEnsEnv])
    obtain ⟨er, he⟩ := C92_periodigram_predict hord hf hmem (arrSeries exArr) (Or.inl rfl)
    exact ⟨e', w', er, hf, he⟩
  · obtain ⟨e', w', er, h, -⟩ := C92_periodigram_rejects_lists (env := exEnsEnv seed) (gs := gs)
      (sched := fun _ => List.range) hord hmem (arrSeries exArr) (Or.inl rfl) w [0, 1]
    exact ⟨e', w', er, h⟩

end

end Convst.Props
