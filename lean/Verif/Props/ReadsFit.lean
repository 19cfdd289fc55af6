import Verif.Props.Reads
import Verif.Spec.ReadsFit

/-!
# C134: `fit` of the univariate types looks at the first channel only
-/

set_option autoImplicit false
set_option linter.unusedSectionVars false

namespace Convst.Props
open Convst Spec

section
variable {K : Type} [Scalar K]

theorem sameFirst_cons {x x' : List (List K)} {X X' : List (List (List K))} (h0 : x'[0]? = x[0]?) (h : SameFirstChannel X X') :
    SameFirstChannel (x :: X) (x' :: X') := by
  refine ⟨by simp [h.1], fun s y y' hy hy' => ?_⟩
  rcases s with _ | s
  · simp only [List.getElem?_cons_zero, Option.some.injEq] at hy hy'
    subst hy hy'
    exact h0
  · exact h.2 s y y' (by simpa using hy) (by simpa using hy')

theorem takeIds_first {X X' : List (List (List K))} (h : SameFirstChannel X X') (ids : List Nat) :
    (∃ e, takeIds X ids = .error e ∧ takeIds X' ids = .error e) ∨
    ∃ Y Y', takeIds X ids = .ok Y ∧ takeIds X' ids = .ok Y' ∧ SameFirstChannel Y Y' := by
  unfold takeIds
  induction ids with
  | nil => exact .inr ⟨[], [], rfl, rfl, rfl, fun s x x' hx => by simp at hx⟩
  | cons i ids ih =>
    simp only [List.mapM_cons]
    rcases Nat.lt_or_ge i X.length with hi | hi
    · have hi' : i < X'.length := by rw [h.1]; exact hi
      have h0 := h.2 i _ _ (List.getElem?_eq_getElem hi) (List.getElem?_eq_getElem hi')
      simp only [List.getElem?_eq_getElem hi, List.getElem?_eq_getElem hi', Res.bind_ok]
      rcases ih with ⟨e, h1, h2⟩ | ⟨Y, Y', h1, h2, h3⟩
      · exact .inl ⟨e, by rw [h1]; rfl, by rw [h2]; rfl⟩
      · exact .inr ⟨_, _, by rw [h1]; rfl, by rw [h2]; rfl, sameFirst_cons h0 h3⟩
    · have hi' : X'.length ≤ i := by rw [h.1]; exact hi
      simp only [List.getElem?_eq_none hi, List.getElem?_eq_none hi']
      exact .inl ⟨_, rfl, rfl⟩

end

section
variable {K G L R : Type} [Scalar K]

theorem resample_first (env : Env G R L) (b : Bool) (p : K) (w : World R) {A A' : Arr3 K} (h : SameFirstChannel A.data A'.data)
    (y : List L) :
    (∃ w1 e, resampleXY env b p w A y = (w1, .error e) ∧ resampleXY env b p w A' y = (w1, .error e)) ∨
    ∃ w1 B B' y1, resampleXY env b p w A y = (w1, .ok (⟨B, A.nf, A.nt⟩, y1)) ∧
      resampleXY env b p w A' y = (w1, .ok (⟨B', A'.nf, A'.nt⟩, y1)) ∧ SameFirstChannel B B' := by
  unfold resampleXY
  rw [h.1]
  rcases env.resample w.glob A.data.length b (Scalar.trunc (Scalar.ofNat A.data.length * p)) y with e | ⟨ids, r⟩
  · exact .inl ⟨_, _, rfl, rfl⟩
  · rcases takeIds_first h ids with ⟨e, h1, h2⟩ | ⟨B, B', h1, h2, h3⟩
    · exact .inl ⟨_, e, by simp only [h1]; rfl, by simp only [h2]; rfl⟩
    · rcases hy : takeIds y ids with e | y1
      · exact .inl ⟨_, e, by simp only [h1, hy]; rfl, by simp only [h2, hy]; rfl⟩
      · exact .inr ⟨_, B, B', y1, by simp only [h1, hy]; rfl, by simp only [h2, hy]; rfl, h3⟩

theorem subsample_first (env : Env G R L) (ns : Option K) (w : World R) {A A' : Arr3 K} (h : SameFirstChannel A.data A'.data)
    (y : List L) :
    (∃ w1 e, subsample env ns w A y = (w1, .error e) ∧ subsample env ns w A' y = (w1, .error e)) ∨
    ∃ w1 B B' y1, subsample env ns w A y = (w1, .ok (⟨B, A.nf, A.nt⟩, y1)) ∧
      subsample env ns w A' y = (w1, .ok (⟨B', A'.nf, A'.nt⟩, y1)) ∧ SameFirstChannel B B' := by
  unfold subsample
  rcases ns with _ | p
  · exact .inr ⟨w, _, _, y, rfl, rfl, h⟩
  · dsimp only
    split
    · exact resample_first env false p w h y
    · split
      · exact resample_first env true p w h y
      · exact .inr ⟨w, _, _, y, rfl, rfl, h⟩

variable [Gen G K] [DecidableEq L]

/-- What remains of `fit` after the training data are loaded. -/
theorem fit_first_loaded (env : Env G R L) (gs : Nat → G) (order : Nat → List Nat) {o : Rdst K R} (w : World R) {X X' : XIn K}
    (y : List L) (ht : o.transformType = .uni ∨ o.transformType = .uniVar)
    (hl : (∃ o1 e, loadTrain o X = (o1, .error e) ∧ loadTrain o X' = (o1, .error e)) ∨
      ∃ o1 A A' xLen, loadTrain o X = (o1, .ok (A, xLen)) ∧ loadTrain o X' = (o1, .ok (A', xLen)) ∧
        o1.transformType = o.transformType ∧ SameFirstArray A A') :
    SameButChannels (o.fit env gs order w X y).1 (o.fit env gs order w X' y).1 ∧
      (o.fit env gs order w X' y).2 = (o.fit env gs order w X y).2 := by
  have hset : ∀ Z : XIn K, setFitTransform o Z = (o, .ok ()) := by
    intro Z
    unfold setFitTransform
    rcases ht with ht | ht <;> simp [ht]
  unfold Rdst.fit Rdst.prepare
  simp only [hset]
  rcases hl with ⟨o1, e, h1, h2⟩ | ⟨o1, A, A', xLen, h1, h2, hty, hA⟩
  · rw [h1, h2]
    exact ⟨rfl, rfl⟩
  · simp only [h1, h2]
    rcases subsample_first env o1.nSamples w hA.first y with ⟨w1, e, h3, h4⟩ | ⟨w1, B, B', y1, h3, h4, hB⟩
    · rw [h3, h4]
      exact ⟨rfl, rfl⟩
    · simp only [h3, h4]
      rcases checkParams (setLengths o1.lens o1.bounds o1.reduction (o1.minLen.getD 0)) (o1.minLen.getD 0) with e | sizes
      · exact ⟨rfl, rfl⟩
      · have hU : ∀ nt (y : List L) n sz (p q r al : K) ph pr g0,
            uslGenerate ⟨B', A'.nf, nt, y, n, sz, p, q, r, al, ph, pr⟩ g0 gs order =
              uslGenerate ⟨B, A.nf, nt, y, n, sz, p, q, r, al, ph, pr⟩ g0 gs order :=
          fun nt y n sz p q r al ph pr g0 =>
            C134_fit_same_length (G := G) ⟨B, A.nf, nt, y, n, sz, p, q, r, al, ph, pr⟩ B' A'.nf hB g0 gs order
        have hV : ∀ nt (y : List L) n sz (p q r al : K) ph pr ml g0,
            uvlGenerate ⟨B', A'.nf, nt, y, n, sz, p, q, r, al, ph, pr⟩ ml xLen g0 gs order =
              uvlGenerate ⟨B, A.nf, nt, y, n, sz, p, q, r, al, ph, pr⟩ ml xLen g0 gs order :=
          fun nt y n sz p q r al ph pr ml g0 =>
            C134_fit_variable_length (G := G) ⟨B, A.nf, nt, y, n, sz, p, q, r, al, ph, pr⟩ B' A'.nf ml xLen hB g0 gs order
        unfold drawSeed
        rcases hr : o1.rs with _ | r
        all_goals
          rcases ht with ht | ht
          all_goals
            simp only [hty, ht, Call.run, hA.points, hU, hV]
            generalize Except.map Shapelets.u _ = z
            rcases z with e | S <;> exact ⟨rfl, rfl⟩

theorem check_array (B : Arr3 K) : checkArray3D B.py =
    if B.py.size = 0 then .error .valueError else if B.nt ≤ 2 then .error .valueError else .ok B.py := by
  have hc : checkIsNumpyOrPd B.py = .ok B.py := rfl
  have hd : B.py.dim 2 = .ok B.nt := rfl
  unfold checkArray3D
  simp only [hc, hd, Res.bind_ok]
  rw [if_neg (by simp [Arr3.py, Arr3.shape]), if_neg (show ¬ B.py.container = .dataframe by simp [Arr3.py])]
  rfl

theorem size_first {A A' : Arr3 K} (h : SameFirstArray A A') : A'.py.size = 0 ↔ A.py.size = 0 := by
  have := h.some_channel
  have := h.some_channel'
  simp only [PyArr.size, Arr3.py, Arr3.shape, List.prod_cons, List.prod_nil, h.points, h.first.1, Nat.mul_eq_zero]
  omega

/-- **C134.** `fit` of an object with `transform_type='univariate'` on 3D arrays with the same first channels: the same
exception or the same shapelets, the same use of the random generators, and the same object up to `max_channels`. -/
theorem C134_fit_object_same_length (env : Env G R L) (gs : Nat → G) (order : Nat → List Nat) {o : Rdst K R} (w : World R)
    (dt dt' : DType) {A A' : Arr3 K} (y : List L) (ht : o.transformType = .uni) (h : SameFirstArray A A') :
    SameButChannels (o.fit env gs order w (.array dt A) y).1 (o.fit env gs order w (.array dt' A') y).1 ∧
      (o.fit env gs order w (.array dt' A') y).2 = (o.fit env gs order w (.array dt A) y).2 := by
  refine fit_first_loaded env gs order w y (.inl ht) ?_
  have e0 : ∀ (d : DType) (B : Arr3 K), toArr3 (.array d B) =
      if B.py.size = 0 then .error .valueError else if B.nt ≤ 2 then .error .valueError else .ok B := by
    intro d B
    unfold toArr3 asArray
    simp only [check_array]
    split
    · rfl
    · split <;> rfl
  unfold loadTrain
  simp only [ht, reduceCtorEq, or_self, if_false, e0, size_first h, h.points]
  by_cases h1 : A.py.size = 0
  · simp only [h1, if_true]
    exact .inl ⟨_, _, rfl, rfl⟩
  · by_cases h2 : A.nt ≤ 2
    · simp only [h1, h2, if_true, if_false]
      exact .inl ⟨_, _, rfl, rfl⟩
    · simp only [h1, h2, if_false]
      exact .inr ⟨_, A, A', [], rfl, by rw [h.points], rfl, h⟩

/-- **C134.** `fit` of an object with `transform_type='univariate_variable'` on series of different lengths with the same first
channels. -/
theorem C134_fit_object_variable_length (env : Env G R L) (gs : Nat → G) (order : Nat → List Nat) {o : Rdst K R} (w : World R)
    {nf nf' : Nat} {xs xs' : List (Mat K)} (y : List L) (ht : o.transformType = .uniVar) (h : SameFirstSeries nf nf' xs xs') :
    SameButChannels (o.fit env gs order w (.list xs) y).1 (o.fit env gs order w (.list xs') y).1 ∧
      (o.fit env gs order w (.list xs') y).2 = (o.fit env gs order w (.list xs) y).2 := by
  refine fit_first_loaded env gs order w y (.inr ht) ?_
  rcases xs with _ | ⟨x, xs⟩
  · have : xs' = [] := by simpa using h.lengths
    subst this
    refine .inl ⟨o, .indexError, ?_, ?_⟩ <;> simp [loadTrain, ht, formatUneven, samples, Bind.bind, Except.bind]
  · rcases xs' with _ | ⟨x', xs'⟩
    · simpa using h.lengths
    have hall : ((x :: xs).map fun s => s.rows.length).all (fun n => n == x.rows.length) = true := by
      simp only [List.all_map, List.all_eq_true]
      intro z hz
      simp [h.channels z hz, h.channels x (by simp)]
    have hall' : ((x' :: xs').map fun s => s.rows.length).all (fun n => n == x'.rows.length) = true := by
      simp only [List.all_map, List.all_eq_true]
      intro z hz
      simp [h.channels' z hz, h.channels' x' (by simp)]
    unfold loadTrain formatUneven samples
    simp only [ht, or_true, if_true, Res.bind_ok, hall, hall', h.lengths]
    rcases hm : nmax ((x :: xs).map Mat.len) with e | nt
    · exact .inl ⟨_, _, rfl, rfl⟩
    · have hA : SameFirstArray (K := K) ⟨(x :: xs).map fun s => s.rows.map (padRow nt), x.rows.length, nt⟩
          ⟨(x' :: xs').map fun s => s.rows.map (padRow nt), x'.rows.length, nt⟩ := by
        refine ⟨by rw [h.channels x (by simp)]; exact h.some_channel, by rw [h.channels' x' (by simp)]; exact h.some_channel',
          rfl, by have := h.first.1; simpa using this, fun s z z' hz hz' => ?_⟩
        simp only [List.getElem?_map, Option.map_eq_some_iff] at hz hz'
        obtain ⟨u, hu, rfl⟩ := hz
        obtain ⟨u', hu', rfl⟩ := hz'
        rw [List.getElem?_map, List.getElem?_map,
          h.first.2 s u.rows u'.rows (by rw [List.getElem?_map, hu]; rfl) (by rw [List.getElem?_map, hu']; rfl)]
      simp only [Res.bind_ok, pure, Except.pure, check_array, size_first hA]
      by_cases h1 : (Arr3.py (K := K) ⟨(x :: xs).map fun s => s.rows.map (padRow nt), x.rows.length, nt⟩).size = 0
      · simp only [h1, if_true]
        exact .inl ⟨_, _, rfl, rfl⟩
      · by_cases h2 : nt ≤ 2
        · simp only [h1, h2, if_true, if_false]
          exact .inl ⟨_, _, rfl, rfl⟩
        · simp only [h1, h2, if_false]
          rcases hml : o.minLen with _ | m
          · rcases nmin ((x :: xs).map Mat.len) with e | m
            · exact .inl ⟨_, _, rfl, rfl⟩
            · exact .inr ⟨_, _, _, _, rfl, rfl, rfl, hA⟩
          · exact .inr ⟨_, _, _, _, rfl, rfl, ht, hA⟩

end

/-! ## Concrete data -/

section
variable {G : Type} [Gen G ℝ] [LawfulGen G]

/-- The series of `exArr` with two more channels. -/
noncomputable def exArrWide : Arr3 ℝ :=
  ⟨[[[0, 1, 2, 3, 4], [5, 5, 5, 5, 5], [0, 0, 0, 0, 1]], [[1, 1, 0, 0, 2], [9, 8, 7, 6, 5], [1, 1, 2, 1, 1]]], 3, 5⟩

/-- The series of `exList` with another channel. -/
noncomputable def exListWide : List (Mat ℝ) := [⟨[[0, 1, 2, 3, 4], [3, 3, 3, 3, 3]], 5⟩, ⟨[[7, 8, 9, 8], [0, 0, 0, 1]], 4⟩]

theorem exArrWide_first : SameFirstArray exArr exArrWide := by
  refine ⟨le_refl _, by simp [exArrWide], rfl, rfl, fun s x x' hx hx' => ?_⟩
  rcases s with _ | _ | s
  · simp only [exArr, exArrWide, List.getElem?_cons_zero, Option.some.injEq] at hx hx'
    subst hx hx'
    rfl
  · simp only [exArr, exArrWide, List.getElem?_cons_succ, List.getElem?_cons_zero, Option.some.injEq] at hx hx'
    subst hx hx'
    rfl
  · simp [exArr] at hx

theorem exListWide_first : SameFirstSeries 1 2 exList exListWide := by
  refine ⟨le_refl _, by omega, by simp [exList], by simp [exListWide], rfl, rfl, fun s x x' hx hx' => ?_⟩
  rcases s with _ | _ | s
  · simp only [exList, exListWide, List.map_cons, List.getElem?_cons_zero, Option.some.injEq] at hx hx'
    subst hx hx'
    rfl
  · simp only [exList, exListWide, List.map_cons, List.getElem?_cons_succ, List.getElem?_cons_zero, Option.some.injEq] at hx hx'
    subst hx hx'
    rfl
  · simp [exList] at hx

/-- One or three channels: the same shapelets; only `max_channels` tells the two objects apart. -/
example (g : G) (w : World Nat) (gs : Nat → G) :
    ∃ o' o'' w' S, (exObj .uni).fit (exEnv g) gs List.range w (.array .float64 exArr) [0, 1] = (o', w', .ok ()) ∧
      (exObj .uni).fit (exEnv g) gs List.range w (.array .float64 exArrWide) [0, 1] = (o'', w', .ok ()) ∧
      o'.shapelets = some S ∧ o''.shapelets = some S := by
  obtain ⟨o', w', S, h1, h2, -⟩ := C43_object_same_length (exEnv g) (exObj .uni) w .float64 exArr [0, 1]
    (Or.inl rfl) (by simp [XIn.WF, exArr]) (by simp [exArr]) (by simp [exArr]) (by simp [exArr])
    (by simp [exArr]) (exObj_good _ _) (by simp [exObj]) gs (order := List.range) (fun _ => List.Perm.refl _)
  obtain ⟨k1, k2⟩ := C134_fit_object_same_length (exEnv g) gs List.range (o := exObj .uni) w .float64 .float64 [0, 1] rfl exArrWide_first
  rw [h1] at k1 k2
  refine ⟨o', ((exObj .uni).fit (exEnv g) gs List.range w (.array .float64 exArrWide) [0, 1]).1, w', S, h1,
    Prod.ext rfl k2, h2, ?_⟩
  exact (congrArg Rdst.shapelets k1).trans h2

/-- One or two channels, series of five and four points. -/
example (g : G) (w : World Nat) (gs : Nat → G) :
    ∃ o' o'' w' S, (exObj .uniVar).fit (exEnv g) gs List.range w (.list exList) [0, 1] = (o', w', .ok ()) ∧
      (exObj .uniVar).fit (exEnv g) gs List.range w (.list exListWide) [0, 1] = (o'', w', .ok ()) ∧
      o'.shapelets = some S ∧ o''.shapelets = some S := by
  obtain ⟨o', w', S, h1, h2, -⟩ := C43_object_variable_length (exEnv g) (exObj .uniVar) w exList [0, 1]
    (Or.inl (Or.inr rfl)) exList_wf (by simp [exList]) 1 le_rfl (by simp [exList]) 4 le_rfl (by simp [exList])
    (Or.inr ⟨rfl, by simp [exList]⟩)
    (by simp [exList]) (exObj_good _ _) (by simp [exObj]) gs (order := List.range) (fun _ => List.Perm.refl _)
  obtain ⟨k1, k2⟩ := C134_fit_object_variable_length (exEnv g) gs List.range (o := exObj .uniVar) w [0, 1] rfl exListWide_first
  rw [h1] at k1 k2
  refine ⟨o', ((exObj .uniVar).fit (exEnv g) gs List.range w (.list exListWide) [0, 1]).1, w', S, h1,
    Prod.ext rfl k2, h2, ?_⟩
  exact (congrArg Rdst.shapelets k1).trans h2

end

end Convst.Props
