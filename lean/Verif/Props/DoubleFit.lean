import Verif.Proofs.DoubleFit
import Verif.Props.Double
import Verif.Props.SamplingCount

/-!
# C118: `fit` and `transform` in double precision give finite numbers on data of moderate magnitude
-/

set_option autoImplicit false
set_option linter.unusedSectionVars false

namespace Convst.Props
open Convst Spec

section
variable {F : FloatFormat} {δ t big : ℝ} {N : Nat} {G R L : Type} [Gen G (Ieee F)] [LawfulIeee G (F := F)]
  [DecidableEq L]

theorem finite_getD {x : List (List (Ieee F))} (hx : ∀ row ∈ x, ∀ a ∈ row, Finite (Moderate F) a) (c : Nat) :
    ∀ a ∈ x.getD c [], Finite (Moderate F) a := by
  intro a ha
  rw [List.getD_eq_getElem?_getD] at ha
  cases e : x[c]? with
  | none => rw [e] at ha; simp at ha
  | some row => rw [e] at ha; exact hx row (List.mem_of_getElem? e) a ha

/-- Shapelets learned from series of moderate magnitude. -/
theorem finite_learned (hD : Double F) {nShp n ns nf mc : Nat} {sizes : List Nat} {len : Nat → Nat}
    {series : Nat → Nat → List (Ieee F)} {y : List L} {p q : Ieee F} {phase : Bool} {S : Shapelets (Ieee F)}
    (hL : Learned nShp sizes n ns nf mc len series y (ThrFrom p q UnitDraw) phase S)
    (hsizes : ∀ l ∈ sizes, l ≤ 2 ^ 40) (hmc : mc ≤ 2 ^ 40) (hser : ∀ s c, ∀ a ∈ series s c, Finite (Moderate F) a)
    (hlen : ∀ s, (series s 0).length ≤ 2 ^ 40 ∧ len s ≤ 2 ^ 40) :
    FiniteShapelets S ∧ ∀ (x : List (List (Ieee F))) (T : Nat), (∀ row ∈ x, row.length = T) → T ≤ 2 ^ 40 →
      (∀ row ∈ x, ∀ a ∈ row, Finite (Moderate F) a) → ∀ a ∈ rowOf phase S x T, Bd 409 a := by
  cases S with
  | u S =>
    have hL : ULearned nShp sizes n ns len series y (ThrFrom p q UnitDraw) phase S := hL
    have key : ∀ k, k < S.lengths.length → S.lengths.getD k 0 ≤ 2 ^ 40 ∧
        ∃ v : List (Fl F.r), uValues S k = v.map Fl.ieee ∧ ∀ a ∈ v, MildAt F 328 a.val := by
      intro k hk
      obtain ⟨l, d, norm, a1, a2, a3, a4, a5, a6, s, t, a7, a8, a9, -⟩ := hL.shapelet k hk
      have hl := hsizes l a4
      refine ⟨by rw [List.getD_eq_getElem?_getD, a1]; exact hl, ?_⟩
      obtain ⟨z, h1, h2, -⟩ := hD.seen_list (hser s 0) phase norm (d := d) (i := t) hl
      exact ⟨z, a9.trans h1, h2⟩
    refine ⟨?_, ?_⟩
    · intro k hk
      obtain ⟨hl, v, hv, hv'⟩ := key k hk
      obtain ⟨l, d, norm, a1, a2, a3, a4, a5, a6, s, t, a7, a8, a9, test, th, b1, b2, b3⟩ := hL.shapelet k hk
      refine ⟨?_, th, b2, ?_⟩
      · intro a ha
        rw [hv] at ha
        obtain ⟨b, -, rfl⟩ := List.mem_map.1 ha
        exact ⟨_, rfl⟩
      · refine (hD.bd_threshold (by norm_num) (by norm_num) (hD.bd_uDistances phase S (hser test 0) hl hv hv') ?_ b3).finite
        rw [uDistances, distances, List.length_map, List.length_range]
        exact (nWin_le _ _ _ _).trans (hlen test).1
    · intro x T hx hT hmod a ha
      obtain ⟨k, hk, ha⟩ := List.mem_flatMap.1 ha
      obtain ⟨hl, v, hv, hv'⟩ := key k (List.mem_range.1 hk)
      have hb := hD.bd_uDistances phase S (finite_getD hmod 0) hl hv hv'
      refine hD.bd_features (by norm_num) (fun b hb' => (hb b hb').mono (by norm_num)) ?_ _ a ha
      rw [uDistances, distances, List.length_map, List.length_range]
      refine (nWin_le _ _ _ _).trans ?_
      rw [List.getD_eq_getElem?_getD]
      cases e : x[0]? with
      | none => simp
      | some row => exact (hx row (List.mem_of_getElem? e)).le.trans hT
  | m S =>
    have hL : MLearned nShp sizes n ns nf mc len series y (ThrFrom p q UnitDraw) phase S := hL
    have key : ∀ k, k < S.lengths.length → S.lengths.getD k 0 ≤ 2 ^ 40 ∧ (mChannels S k).length ≤ 2 ^ 40 ∧
        ∀ c, c < (mChannels S k).length →
          ∃ v : List (Fl F.r), mValues S k c = v.map Fl.ieee ∧ ∀ a ∈ v, MildAt F 328 a.val := by
      intro k hk
      obtain ⟨l, d, norm, nch, a1, a2, a3, a4, a5, a6, c1, c2, c3, c4, c5, s, t, a7, a8, a9, -⟩ := hL.shapelet k hk
      have hl := hsizes l a5
      refine ⟨by rw [List.getD_eq_getElem?_getD, a1]; exact hl, by omega, ?_⟩
      intro c hc
      obtain ⟨z, h1, h2, -⟩ := hD.seen_list (hser s ((mChannels S k).getD c 0)) phase norm (d := d) (i := t) hl
      exact ⟨z, (a9 c (by omega)).trans h1, h2⟩
    refine ⟨?_, ?_⟩
    · intro k hk
      obtain ⟨hl, hc, hv⟩ := key k hk
      obtain ⟨l, d, norm, nch, a1, a2, a3, a4, a5, a6, c1, c2, c3, c4, c5, s, t, a7, a8, a9, test, th, b1, b2, b3⟩ :=
        hL.shapelet k hk
      refine ⟨?_, th, b2, ?_⟩
      · intro c hc' a ha
        obtain ⟨v, h1, -⟩ := hv c hc'
        rw [h1] at ha
        obtain ⟨b, -, rfl⟩ := List.mem_map.1 ha
        exact ⟨_, rfl⟩
      · refine (hD.bd_threshold (by norm_num) (by norm_num) (hD.bd_mDistances phase S (finite_getD ?_) hl hc hv) ?_
          b3).finite
        · intro row hrow
          obtain ⟨c, -, rfl⟩ := List.mem_map.1 hrow
          exact hser test c
        · rw [mDistances, List.length_map, List.length_range]
          exact (nWin_le _ _ _ _).trans (hlen test).2
    · intro x T hx hT hmod a ha
      obtain ⟨k, hk, ha⟩ := List.mem_flatMap.1 ha
      obtain ⟨hl, hc, hv⟩ := key k (List.mem_range.1 hk)
      have hb := hD.bd_mDistances phase S (T := T) (finite_getD hmod) hl hc hv
      refine hD.bd_features (by norm_num) (fun b hb' => (hb b hb').mono (by norm_num)) ?_ _ a ha
      rw [mDistances, List.length_map, List.length_range]
      exact (nWin_le _ _ _ _).trans hT

/-- Rows of `n` finite numbers of magnitude at most `2⁴⁰⁹`. -/
def BdRows (n : Nat) (M : List (List (Ieee F))) : Prop := ∀ row ∈ M, row.length = n ∧ ∀ a ∈ row, Bd 409 a

/-- `C118_fit_same_length` with the bound on the cells. -/
theorem bd_fit_same_length (hD : Double F) (h : Ranged F δ t big N) (hN : N ≤ 2 ^ 40) (env : Env G R L)
    (o : Rdst (Ieee F) R) (w : World R) (dt : DType) (A : Arr3 (Ieee F)) (y : List L)
    (hty : o.transformType = .uni ∨ o.transformType = .multi ∨ o.transformType = .auto ∧ dt ≠ .otherDtype)
    (hWF : (XIn.array dt A).WF) (hne : A.data ≠ []) (hnf : 1 ≤ A.nf) (hnf' : A.nf ≤ 2 ^ 40) (hnt : 4 ≤ A.nt)
    (hntN : A.nt < N) (hval : ∀ x ∈ A.data, ∀ row ∈ x, ∀ a ∈ row, Finite (Moderate F) a)
    (hy : y.length = A.data.length) (hp : IeeeParams o A.nt N)
    (hmc : ∀ m, o.maxChannels = some m → 1 ≤ m ∧ m ≤ A.nf) (gs : Nat → G) :
    ∃ o' w' S, (∀ order, IsSchedule order → o.fit env gs order w (.array dt A) y = (o', w', .ok ())) ∧
      o'.shapelets = some S ∧ FiniteShapelets S ∧
      ∀ (dt' : DType) (B : Arr3 (Ieee F)), (XIn.array dt' B).WF → B.data ≠ [] → B.nf = A.nf → A.nt ≤ B.nt →
        B.nt ≤ 2 ^ 40 → (∀ x ∈ B.data, ∀ row ∈ x, ∀ a ∈ row, Finite (Moderate F) a) →
        ∃ M, o'.transform (.array dt' B) = .ok M ∧ M.length = B.data.length ∧ BdRows (3 * Shapelets.count S) M := by
  obtain ⟨o', w', S, sizes, h1, h2, h3, hL, -, h5⟩ :=
    C113_fit_same_length h env o w dt A y hty hWF hne hnf hnt hntN hy hp hmc gs
  have hser : ∀ s c, ∀ a ∈ (A.data.getD s []).getD c [], Finite (Moderate F) a := by
    intro s
    rw [List.getD_eq_getElem?_getD]
    cases e : A.data[s]? with
    | none => intro c a ha; simp at ha
    | some x => exact finite_getD (hval x (List.mem_of_getElem? e))
  have hlen : ∀ s, ((A.data.getD s []).getD 0 []).length ≤ 2 ^ 40 ∧ A.nt ≤ 2 ^ 40 := by
    intro s
    refine ⟨?_, by omega⟩
    rw [List.getD_eq_getElem?_getD (l := A.data)]
    cases e : A.data[s]? with
    | none => simp
    | some x =>
      rw [Option.getD_some, List.getD_eq_getElem?_getD]
      cases e' : x[0]? with
      | none => simp
      | some row =>
        have := (hWF x (List.mem_of_getElem? e)).2 row (List.mem_of_getElem? e')
        rw [Option.getD_some, this]; omega
  obtain ⟨f1, f2⟩ := finite_learned hD hL (fun l hl => by have := h3 l hl; omega)
    (channels_le hnf' hmc) hser hlen
  refine ⟨o', w', S, h1, h2, f1, ?_⟩
  intro dt' B a1 a2 a3 a4 a5 a6
  obtain ⟨M, hM, rfl, -⟩ := h5 dt' B a1 a2 a3 a4
  refine ⟨_, hM, by rw [List.length_map], ?_⟩
  intro row hrow
  obtain ⟨x, hx, rfl⟩ := List.mem_map.1 hrow
  exact ⟨rowOf_length _ _ _ _, fun a ha => f2 x B.nt (a1 x hx).2 a5 (a6 x hx) a ha⟩

/-- **C118.** `fit` then `transform` in double precision, 3D arrays.  On training data of moderate magnitude (no
infinite and no missing value, magnitudes 0 or between `2⁻²⁴⁷` and `2³⁰⁰`), with usable parameters, `fit` succeeds
with the same result for every schedule, every value and every threshold of the shapelets is a finite number, and
`transform` succeeds on every array of such data with the same number of channels and at least as many points, every
cell of its output being a finite number: no `NaN` and no infinity reaches the classifier. -/
theorem C118_fit_same_length (hD : Double F) (h : Ranged F δ t big N) (hN : N ≤ 2 ^ 40) (env : Env G R L)
    (o : Rdst (Ieee F) R) (w : World R) (dt : DType) (A : Arr3 (Ieee F)) (y : List L)
    (hty : o.transformType = .uni ∨ o.transformType = .multi ∨ o.transformType = .auto ∧ dt ≠ .otherDtype)
    (hWF : (XIn.array dt A).WF) (hne : A.data ≠ []) (hnf : 1 ≤ A.nf) (hnf' : A.nf ≤ 2 ^ 40) (hnt : 4 ≤ A.nt)
    (hntN : A.nt < N) (hval : ∀ x ∈ A.data, ∀ row ∈ x, ∀ a ∈ row, Finite (Moderate F) a)
    (hy : y.length = A.data.length) (hp : IeeeParams o A.nt N)
    (hmc : ∀ m, o.maxChannels = some m → 1 ≤ m ∧ m ≤ A.nf) (gs : Nat → G) :
    ∃ o' w' S, (∀ order, IsSchedule order → o.fit env gs order w (.array dt A) y = (o', w', .ok ())) ∧
      o'.shapelets = some S ∧ FiniteShapelets S ∧
      ∀ (dt' : DType) (B : Arr3 (Ieee F)), (XIn.array dt' B).WF → B.data ≠ [] → B.nf = A.nf → A.nt ≤ B.nt →
        B.nt ≤ 2 ^ 40 → (∀ x ∈ B.data, ∀ row ∈ x, ∀ a ∈ row, Finite (Moderate F) a) →
        ∃ M, o'.transform (.array dt' B) = .ok M ∧ M.length = B.data.length ∧ ∀ row ∈ M, ∀ a ∈ row, IsFinite a := by
  obtain ⟨o', w', S, h1, h2, h3, h4⟩ :=
    bd_fit_same_length hD h hN env o w dt A y hty hWF hne hnf hnf' hnt hntN hval hy hp hmc gs
  refine ⟨o', w', S, h1, h2, h3, fun dt' B a1 a2 a3 a4 a5 a6 => ?_⟩
  obtain ⟨M, hM, hl, hb⟩ := h4 dt' B a1 a2 a3 a4 a5 a6
  exact ⟨M, hM, hl, fun row hrow a ha => ((hb row hrow).2 a ha).finite⟩

/-- `C118_fit_variable_length` with the bound on the cells. -/
theorem bd_fit_variable_length (hD : Double F) (h : Ranged F δ t big N) (hN : N ≤ 2 ^ 40) (env : Env G R L)
    (o : Rdst (Ieee F) R) (w : World R) (xs : List (Mat (Ieee F))) (y : List L)
    (hty : o.transformType.Var ∨ o.transformType = .auto)
    (hwf : ∀ x ∈ xs, x.WF) (hne : xs ≠ []) (nf : Nat) (hnf1 : 1 ≤ nf) (hnf2 : nf ≤ 2 ^ 40)
    (hnf : ∀ x ∈ xs, x.rows.length = nf) (m : Nat) (hm4 : 4 ≤ m) (hmN : m < N) (hlen : ∀ x ∈ xs, m ≤ x.len)
    (hm : o.minLen = some m ∨ o.minLen = none ∧ ∃ x ∈ xs, x.len = m) (hval : ∀ x ∈ xs, ModerateMat x)
    (hy : y.length = xs.length) (hp : IeeeParams o m N)
    (hmc : ∀ k, o.maxChannels = some k → 1 ≤ k ∧ k ≤ nf) (gs : Nat → G) :
    ∃ o' w' S, (∀ order, IsSchedule order → o.fit env gs order w (.list xs) y = (o', w', .ok ())) ∧
      o'.shapelets = some S ∧ FiniteShapelets S ∧
      ∀ zs : List (Mat (Ieee F)), (∀ z ∈ zs, z.WF) → zs ≠ [] → (∀ z ∈ zs, z.rows.length = nf) →
        (∀ z ∈ zs, m ≤ z.len) → (∀ z ∈ zs, ModerateMat z) →
        ∃ M, o'.transform (.list zs) = .ok M ∧ M.length = zs.length ∧ BdRows (3 * Shapelets.count S) M := by
  obtain ⟨o', w', S, sizes, h1, h2, h3, hL, -, h5⟩ :=
    C113_fit_variable_length h env o w xs y hty hwf hne nf hnf1 hnf m hm4 hmN hlen hm hy hp hmc gs
  have hser : ∀ s c, ∀ a ∈ ((xs.map Mat.rows).getD s []).getD c [], Finite (Moderate F) a := by
    intro s
    rw [List.getD_eq_getElem?_getD, List.getElem?_map]
    cases e : xs[s]? with
    | none => intro c a ha; simp at ha
    | some x => exact finite_getD (hval x (List.mem_of_getElem? e)).2
  have hlens : ∀ s, (((xs.map Mat.rows).getD s []).getD 0 []).length ≤ 2 ^ 40 ∧ (xs.map Mat.len).getD s 0 ≤ 2 ^ 40 := by
    intro s
    rw [List.getD_eq_getElem?_getD (l := xs.map Mat.rows), List.getElem?_map,
      List.getD_eq_getElem?_getD (l := xs.map Mat.len), List.getElem?_map]
    cases e : xs[s]? with
    | none => simp
    | some x =>
      have hx := List.mem_of_getElem? e
      refine ⟨?_, (hval x hx).1⟩
      rw [Option.map_some, Option.getD_some, List.getD_eq_getElem?_getD]
      cases e' : x.rows[0]? with
      | none => simp
      | some row =>
        have := hwf x hx row (List.mem_of_getElem? e')
        rw [Option.getD_some, this]; exact (hval x hx).1
  obtain ⟨f1, f2⟩ := finite_learned hD hL (fun l hl => by have := h3 l hl; omega)
    (channels_le hnf2 hmc) hser hlens
  refine ⟨o', w', S, h1, h2, f1, ?_⟩
  intro zs a1 a2 a3 a4 a5
  obtain ⟨M, hM, rfl, -⟩ := h5 zs a1 a2 a3 a4
  refine ⟨_, hM, by rw [List.length_map], ?_⟩
  intro row hrow
  obtain ⟨x, hx, rfl⟩ := List.mem_map.1 hrow
  exact ⟨rowOf_length _ _ _ _, fun a ha => f2 x.rows x.len (a1 x hx) (a5 x hx).1 (a5 x hx).2 a ha⟩

/-- **C118.** The same for series of different lengths given as a list of 2D arrays. -/
theorem C118_fit_variable_length (hD : Double F) (h : Ranged F δ t big N) (hN : N ≤ 2 ^ 40) (env : Env G R L)
    (o : Rdst (Ieee F) R) (w : World R) (xs : List (Mat (Ieee F))) (y : List L)
    (hty : o.transformType.Var ∨ o.transformType = .auto)
    (hwf : ∀ x ∈ xs, x.WF) (hne : xs ≠ []) (nf : Nat) (hnf1 : 1 ≤ nf) (hnf2 : nf ≤ 2 ^ 40)
    (hnf : ∀ x ∈ xs, x.rows.length = nf) (m : Nat) (hm4 : 4 ≤ m) (hmN : m < N) (hlen : ∀ x ∈ xs, m ≤ x.len)
    (hm : o.minLen = some m ∨ o.minLen = none ∧ ∃ x ∈ xs, x.len = m) (hval : ∀ x ∈ xs, ModerateMat x)
    (hy : y.length = xs.length) (hp : IeeeParams o m N)
    (hmc : ∀ k, o.maxChannels = some k → 1 ≤ k ∧ k ≤ nf) (gs : Nat → G) :
    ∃ o' w' S, (∀ order, IsSchedule order → o.fit env gs order w (.list xs) y = (o', w', .ok ())) ∧
      o'.shapelets = some S ∧ FiniteShapelets S ∧
      ∀ zs : List (Mat (Ieee F)), (∀ z ∈ zs, z.WF) → zs ≠ [] → (∀ z ∈ zs, z.rows.length = nf) →
        (∀ z ∈ zs, m ≤ z.len) → (∀ z ∈ zs, ModerateMat z) →
        ∃ M, o'.transform (.list zs) = .ok M ∧ M.length = zs.length ∧ ∀ row ∈ M, ∀ a ∈ row, IsFinite a := by
  obtain ⟨o', w', S, h1, h2, h3, h4⟩ :=
    bd_fit_variable_length hD h hN env o w xs y hty hwf hne nf hnf1 hnf2 hnf m hm4 hmN hlen hm hval hy hp hmc gs
  refine ⟨o', w', S, h1, h2, h3, fun zs a1 a2 a3 a4 a5 => ?_⟩
  obtain ⟨M, hM, hl, hb⟩ := h4 zs a1 a2 a3 a4 a5
  exact ⟨M, hM, hl, fun row hrow a ha => ((hb row hrow).2 a ha).finite⟩

end

/-! ## Concrete cases -/

/-- Two series of five points. -/
noncomputable def plainArr : Arr3 (Ieee .float64) :=
  ⟨[[[.fin (0 : Nat), .fin (1 : Nat), .fin (2 : Nat), .fin (3 : Nat), .fin (1 : Nat)]],
    [[.fin (7 : Nat), .fin (2 : Nat), .fin (2 : Nat), .fin (8 : Nat), .fin (0 : Nat)]]], 1, 5⟩

theorem plainArr_moderate : ∀ x ∈ plainArr.data, ∀ row ∈ x, ∀ a ∈ row, Finite (Moderate FloatFormat.float64) a := by
  have key : ∀ n : Nat, n ≤ 2 ^ 53 → Finite (Moderate FloatFormat.float64) (.fin (n : ℝ) : Ieee .float64) :=
    fun n hn => moderate_nat hn
  intro x hx row hrow a ha
  simp only [plainArr, List.mem_cons, List.not_mem_nil, or_false] at hx
  rcases hx with rfl | rfl <;>
    · simp only [List.mem_cons, List.not_mem_nil, or_false] at hrow
      subst hrow
      simp only [List.mem_cons, List.not_mem_nil, or_false] at ha
      rcases ha with rfl | rfl | rfl | rfl | rfl <;> exact key _ (by norm_num)

/-- The hypotheses of `C118_fit_same_length` are met. -/
example (env : Env IeeeGen Nat Nat) (w : World Nat) (gs : Nat → IeeeGen) :
    ∃ o' w' S, (∀ order, IsSchedule order →
        (ieeeObj .auto).fit env gs order w (.array .float64 plainArr) [0, 1] = (o', w', .ok ())) ∧
      o'.shapelets = some S ∧ FiniteShapelets S ∧
      ∃ M, o'.transform (.array .float64 plainArr) = .ok M ∧ M.length = 2 ∧ ∀ row ∈ M, ∀ a ∈ row, IsFinite a := by
  have hwf : (XIn.array .float64 plainArr).WF := by simp [XIn.WF, plainArr]
  obtain ⟨o', w', S, h1, h2, h3, h4⟩ := C118_fit_same_length C117_float64 C113_float64 le_rfl env
    (ieeeObj .auto) w .float64 plainArr [0, 1] (Or.inr (Or.inr ⟨rfl, by simp⟩)) hwf (by simp [plainArr])
    (by simp [plainArr]) (by simp [plainArr]) (by simp [plainArr]) (by simp [plainArr]) plainArr_moderate
    (by simp [plainArr]) (ieeeObj_ok _ _) (by simp [ieeeObj]) gs
  exact ⟨o', w', S, h1, h2, h3, h4 .float64 plainArr hwf (by simp [plainArr]) rfl le_rfl (by simp [plainArr])
    plainArr_moderate⟩

/-- Series of five and four points. -/
noncomputable def plainList : List (Mat (Ieee .float64)) :=
  [⟨[[.fin (0 : Nat), .fin (1 : Nat), .fin (2 : Nat), .fin (3 : Nat), .fin (1 : Nat)]], 5⟩,
    ⟨[[.fin (7 : Nat), .fin (2 : Nat), .fin (2 : Nat), .fin (8 : Nat)]], 4⟩]

theorem plainList_moderate : ∀ x ∈ plainList, ModerateMat x := by
  have key : ∀ n : Nat, n ≤ 2 ^ 53 → Finite (Moderate FloatFormat.float64) (.fin (n : ℝ) : Ieee .float64) :=
    fun n hn => moderate_nat hn
  intro x hx
  simp only [plainList, List.mem_cons, List.not_mem_nil, or_false] at hx
  rcases hx with rfl | rfl
  · refine ⟨by norm_num, ?_⟩
    intro row hrow a ha
    simp only [List.mem_cons, List.not_mem_nil, or_false] at hrow
    subst hrow
    simp only [List.mem_cons, List.not_mem_nil, or_false] at ha
    rcases ha with rfl | rfl | rfl | rfl | rfl <;> exact key _ (by norm_num)
  · refine ⟨by norm_num, ?_⟩
    intro row hrow a ha
    simp only [List.mem_cons, List.not_mem_nil, or_false] at hrow
    subst hrow
    simp only [List.mem_cons, List.not_mem_nil, or_false] at ha
    rcases ha with rfl | rfl | rfl | rfl <;> exact key _ (by norm_num)

/-- The hypotheses of `C118_fit_variable_length` are met. -/
example (env : Env IeeeGen Nat Nat) (w : World Nat) (gs : Nat → IeeeGen) :
    ∃ o' w' S, (∀ order, IsSchedule order →
        (ieeeObj .auto).fit env gs order w (.list plainList) [0, 1] = (o', w', .ok ())) ∧
      o'.shapelets = some S ∧ FiniteShapelets S ∧
      ∃ M, o'.transform (.list plainList) = .ok M ∧ M.length = 2 ∧ ∀ row ∈ M, ∀ a ∈ row, IsFinite a := by
  have hwf : ∀ x ∈ plainList, x.WF := by simp [plainList, Mat.WF]
  obtain ⟨o', w', S, h1, h2, h3, h4⟩ := C118_fit_variable_length C117_float64 C113_float64 le_rfl env
    (ieeeObj .auto) w plainList [0, 1] (Or.inr rfl) hwf (by simp [plainList]) 1 le_rfl (by norm_num)
    (by simp [plainList]) 4 le_rfl (by norm_num) (by simp [plainList]) (Or.inr ⟨rfl, by simp [plainList]⟩)
    plainList_moderate (by simp [plainList]) (ieeeObj_ok _ _) (by simp [ieeeObj]) gs
  exact ⟨o', w', S, h1, h2, h3, h4 plainList hwf (by simp [plainList]) (by simp [plainList]) (by simp [plainList])
    plainList_moderate⟩

end Convst.Props
