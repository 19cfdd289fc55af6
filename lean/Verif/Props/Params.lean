import Verif.Model.Rdst
import Verif.Proofs.Basics
import Mathlib.Tactic.Linarith
import Mathlib.Tactic.NormNum
import Mathlib.Tactic.Push

/-!
# Constructor arguments, input checks and candidate lengths
(C34, C35, C36, C37, C40, C44, C62)
-/

set_option autoImplicit false
set_option linter.unusedSectionVars false

namespace Convst.Props

open Convst

/-! ## C62: array checks -/

/-- Same shape and contents. -/
def SameArray {α : Type} (X Y : PyArr α) : Prop := Y.shape = X.shape ∧ Y.data = X.data

theorem shape3 {l : List Nat} (h : l.length = 3) : ∃ a b c, l = [a, b, c] := by
  match l, h with
  | [a, b, c], _ => exact ⟨a, b, c, rfl⟩

theorem shape2 {l : List Nat} (h : l.length = 2) : ∃ a b, l = [a, b] := by
  match l, h with
  | [a, b], _ => exact ⟨a, b, rfl⟩

theorem shape1 {l : List Nat} (h : l.length = 1) : ∃ a, l = [a] := by
  match l, h with
  | [a], _ => exact ⟨a, rfl⟩

/-- The shapes accepted in three dimensions. -/
def Good3 (shape : List Nat) (uni : Bool) (minT : Nat) : Prop :=
  ∃ n f t, shape = [n, f, t] ∧ 0 < n ∧ 0 < f ∧ 0 < t ∧ minT < t ∧ (uni = true → f = 1)

/-- **C62.** `check_array_3D` returns the array itself, as a NumPy array, exactly on lists and arrays of
shape `(n, f, t)` with `n, f, t > 0`, `t > min_timestamps`, and `f = 1` when a univariate input is
required; it raises `ValueError` in all other cases. -/
theorem C62_check_array_3D {α : Type} (X : PyArr α) (uni : Bool) (minT : Nat) :
    ((X.container = .list ∨ X.container = .ndarray) ∧ Good3 X.shape uni minT ∧
      ∃ Y, checkArray3D X uni minT = .ok Y ∧ SameArray X Y ∧ Y.container = .ndarray) ∨
    (¬ ((X.container = .list ∨ X.container = .ndarray) ∧ Good3 X.shape uni minT) ∧
      checkArray3D X uni minT = .error .valueError) := by
  obtain ⟨c, shape, data⟩ := X
  by_cases hl : shape.length = 3
  · obtain ⟨n, f, t, rfl⟩ := shape3 hl
    have hg : Good3 [n, f, t] uni minT ↔ 0 < n ∧ 0 < f ∧ 0 < t ∧ minT < t ∧ (uni = true → f = 1) := by
      constructor
      · rintro ⟨n', f', t', h, h'⟩
        simp only [List.cons.injEq, and_true] at h
        obtain ⟨rfl, rfl, rfl⟩ := h
        exact h'
      · intro h; exact ⟨n, f, t, rfl, h⟩
    rw [show (PyArr.mk c [n, f, t] data).shape = [n, f, t] from rfl, hg]
    by_cases h0 : n * (f * t) = 0
    · have h0' : n = 0 ∨ f = 0 ∨ t = 0 := by
        rcases Nat.mul_eq_zero.1 h0 with h | h
        · exact Or.inl h
        · exact Or.inr (Nat.mul_eq_zero.1 h)
      right
      refine ⟨fun h => by omega, ?_⟩
      cases c <;>
        simp [checkArray3D, checkIsNumpyOrPd, PyArr.size, Bind.bind, Except.bind, h0']
    · have hn : 0 < n := Nat.pos_of_ne_zero fun h => h0 (by simp [h])
      have hf : 0 < f := Nat.pos_of_ne_zero fun h => h0 (by simp [h])
      have ht : 0 < t := Nat.pos_of_ne_zero fun h => h0 (by simp [h])
      by_cases hm : t ≤ minT
      · right
        refine ⟨fun h => by omega, ?_⟩
        cases c <;>
          simp [checkArray3D, checkIsNumpyOrPd, PyArr.size, PyArr.dim, Bind.bind, Except.bind,
            hn.ne', hf.ne', ht.ne', hm]
      · by_cases hu : uni = true ∧ f ≠ 1
        · right
          refine ⟨fun h => hu.2 (h.2.2.2.2.2 hu.1), ?_⟩
          cases c <;>
            simp [checkArray3D, checkIsNumpyOrPd, PyArr.size, PyArr.dim, Bind.bind, Except.bind,
              hn.ne', hf.ne', ht.ne', hm, hu.1, hu.2]
        · have hu' : uni = true → f = 1 := by
            intro h
            by_contra hc
            exact hu ⟨h, hc⟩
          cases c
          · left
            refine ⟨Or.inl rfl, ⟨hn, hf, ht, by omega, hu'⟩, ⟨.ndarray, [n, f, t], data⟩, ?_, ⟨rfl, rfl⟩, rfl⟩
            cases uni
            · simp [checkArray3D, checkIsNumpyOrPd, PyArr.size, PyArr.dim, Bind.bind, Except.bind,
                hn.ne', hf.ne', ht.ne', hm, pure, Except.pure]
            · obtain rfl := hu' rfl
              simp [checkArray3D, checkIsNumpyOrPd, PyArr.size, PyArr.dim, Bind.bind, Except.bind,
                hn.ne', ht.ne', hm, pure, Except.pure]
          · left
            refine ⟨Or.inr rfl, ⟨hn, hf, ht, by omega, hu'⟩, ⟨.ndarray, [n, f, t], data⟩, ?_, ⟨rfl, rfl⟩, rfl⟩
            cases uni
            · simp [checkArray3D, checkIsNumpyOrPd, PyArr.size, PyArr.dim, Bind.bind, Except.bind,
                hn.ne', hf.ne', ht.ne', hm, pure, Except.pure]
            · obtain rfl := hu' rfl
              simp [checkArray3D, checkIsNumpyOrPd, PyArr.size, PyArr.dim, Bind.bind, Except.bind,
                hn.ne', ht.ne', hm, pure, Except.pure]
          all_goals
            right
            refine ⟨by simp, ?_⟩
            simp [checkArray3D, checkIsNumpyOrPd, PyArr.size, PyArr.dim, Bind.bind, Except.bind,
              hn.ne', hf.ne', ht.ne', hm]
  · right
    refine ⟨?_, ?_⟩
    · rintro ⟨-, n, f, t, h, -⟩
      rw [show (PyArr.mk c shape data).shape = shape from rfl] at h
      exact hl (by rw [h]; rfl)
    · cases c <;> simp [checkArray3D, checkIsNumpyOrPd, Bind.bind, Except.bind, hl]

/-- **C62.** `check_array_2D` accepts exactly lists, arrays and data frames of shape `(n, m)` with
`n, m > 0`; with the default options it returns a NumPy array. -/
theorem C62_check_array_2D {α : Type} (X : PyArr α) :
    (X.container ≠ .other ∧ (∃ n m, X.shape = [n, m] ∧ 0 < n ∧ 0 < m) ∧
      ∃ Y, checkArray2D X = .ok Y ∧ SameArray X Y ∧ Y.container = .ndarray) ∨
    (¬ (X.container ≠ .other ∧ ∃ n m, X.shape = [n, m] ∧ 0 < n ∧ 0 < m) ∧
      checkArray2D X = .error .valueError) := by
  obtain ⟨c, shape, data⟩ := X
  by_cases hl : shape.length = 2
  · obtain ⟨n, m, rfl⟩ := shape2 hl
    by_cases h0 : n = 0 ∨ m = 0
    · right
      refine ⟨?_, ?_⟩
      · rintro ⟨-, n', m', h, h1, h2⟩
        simp only [List.cons.injEq, and_true] at h
        omega
      · cases c <;> simp [checkArray2D, checkIsNumpyOrPd, PyArr.size, Bind.bind, Except.bind, h0]
    · have hn : 0 < n := by omega
      have hm : 0 < m := by omega
      have key : ∀ c, c ≠ Container.other →
          checkArray2D (PyArr.mk c [n, m] data) = .ok ⟨.ndarray, [n, m], data⟩ := by
        intro c hc
        cases c <;> simp_all [checkArray2D, checkIsNumpyOrPd, PyArr.size, Bind.bind, Except.bind,
          hn.ne', hm.ne', pure, Except.pure]
      by_cases hc : c = .other
      · right
        refine ⟨fun h => h.1 hc, ?_⟩
        subst hc
        simp [checkArray2D, checkIsNumpyOrPd, Bind.bind, Except.bind]
      · left
        exact ⟨hc, ⟨n, m, rfl, hn, hm⟩, _, key c hc, ⟨rfl, rfl⟩, rfl⟩
  · right
    refine ⟨?_, ?_⟩
    · rintro ⟨-, n, m, h, -⟩
      rw [show (PyArr.mk c shape data).shape = shape from rfl] at h
      exact hl (by rw [h]; rfl)
    · cases c <;> simp [checkArray2D, checkIsNumpyOrPd, Bind.bind, Except.bind, hl]

/-- **C62.** `check_array_1D` accepts exactly lists and arrays with one non-empty dimension. -/
theorem C62_check_array_1D {α : Type} (X : PyArr α) :
    ((X.container = .list ∨ X.container = .ndarray) ∧ (∃ n, X.shape = [n] ∧ 0 < n) ∧
      ∃ Y, checkArray1D X = .ok Y ∧ SameArray X Y ∧ Y.container = .ndarray) ∨
    (¬ ((X.container = .list ∨ X.container = .ndarray) ∧ ∃ n, X.shape = [n] ∧ 0 < n) ∧
      checkArray1D X = .error .valueError) := by
  obtain ⟨c, shape, data⟩ := X
  by_cases hl : shape.length = 1
  · obtain ⟨n, rfl⟩ := shape1 hl
    by_cases h0 : n = 0
    · subst h0
      right
      refine ⟨?_, ?_⟩
      · rintro ⟨-, n', h, h1⟩
        simp only [List.cons.injEq, and_true] at h
        omega
      · cases c <;> simp [checkArray1D, checkIsNumpy, PyArr.size, Bind.bind, Except.bind]
    · have hn : 0 < n := by omega
      cases c
      · left
        exact ⟨Or.inl rfl, ⟨n, rfl, hn⟩, ⟨.ndarray, [n], data⟩,
          by simp [checkArray1D, checkIsNumpy, PyArr.size, Bind.bind, Except.bind, h0, pure,
            Except.pure], ⟨rfl, rfl⟩, rfl⟩
      · left
        exact ⟨Or.inr rfl, ⟨n, rfl, hn⟩, ⟨.ndarray, [n], data⟩,
          by simp [checkArray1D, checkIsNumpy, PyArr.size, Bind.bind, Except.bind, h0, pure,
            Except.pure], ⟨rfl, rfl⟩, rfl⟩
      all_goals
        right
        exact ⟨by simp, by simp [checkArray1D, checkIsNumpy, Bind.bind, Except.bind]⟩
  · right
    refine ⟨?_, ?_⟩
    · rintro ⟨-, n, h, -⟩
      rw [show (PyArr.mk c shape data).shape = shape from rfl] at h
      exact hl (by rw [h]; rfl)
    · cases c <;> simp [checkArray1D, checkIsNumpy, Bind.bind, Except.bind, hl]

example : Good3 [5, 1, 3] true 2 := ⟨5, 1, 3, rfl, by omega⟩
example : ¬ Good3 [5, 1, 2] true 2 := by
  rintro ⟨n, f, t, h, -, -, -, h', -⟩
  simp only [List.cons.injEq, and_true] at h
  omega

/-! ## C44: n_jobs -/

/-- **C44.** `check_n_jobs` returns a usable thread count for `None`, for `n_jobs >= 1` and for
`-cpu_count <= n_jobs <= -1`. -/
theorem C44_n_jobs_partial {K : Type} (cpu : Nat) (hc : 1 ≤ cpu) :
    checkNJobs (K := K) cpu .none = .ok 1 ∧
    (∀ z : Int, 1 ≤ z → ∃ n, checkNJobs (K := K) cpu (.int z) = .ok n ∧ n = min z cpu ∧ 1 ≤ n ∧
      n ≤ cpu) ∧
    (∀ z : Int, -(cpu : Int) ≤ z → z ≤ -1 → ∃ n, checkNJobs (K := K) cpu (.int z) = .ok n ∧
      n = cpu + 1 + z ∧ 1 ≤ n ∧ n ≤ cpu) ∧
    (∀ v : PyVal K, v ≠ .none → (∀ z, v ≠ .int z) → checkNJobs cpu v = .error .valueError) := by
  refine ⟨rfl, ?_, ?_, ?_⟩
  · intro z hz
    have h : ¬ z < 0 := by omega
    exact ⟨min z cpu, by simp [checkNJobs, h], rfl, by omega, by omega⟩
  · intro z hz hz'
    have h : z < 0 := by omega
    exact ⟨(cpu : Int) + z + 1, by simp [checkNJobs, h], by omega, by omega, by omega⟩
  · intro v hv hv'
    cases v <;> simp_all [checkNJobs]

/-- **C44 (violated).** `0` and every value below `-cpu_count` are accepted and give a count of
zero or less. -/
theorem C44_nonpositive {K : Type} (cpu : Nat) (z : Int) (hz : z = 0 ∨ z < -(cpu : Int)) :
    ∃ n, checkNJobs (K := K) cpu (.int z) = .ok n ∧ n ≤ 0 := by
  rcases hz with rfl | hz
  · exact ⟨min 0 cpu, by simp [checkNJobs], by omega⟩
  · have h : z < 0 := by omega
    exact ⟨(cpu : Int) + z + 1, by simp [checkNJobs, h], by omega⟩

example : checkNJobs (K := ℝ) 4 (.int (-7)) = .ok (-2) := rfl

/-- The values accepted for `n_jobs` are `None` and the integers; `is_int` accepts the integers and nothing else, in
particular neither the booleans nor floats with an integral value. -/
theorem C44_is_int {K : Type} (cpu : Nat) (v : PyVal K) :
    (isInt v = true ↔ ∃ z, v = .int z) ∧
    ((∃ n, checkNJobs cpu v = .ok n) ↔ v = .none ∨ isInt v = true) := by
  constructor
  · cases v <;> simp [isInt]
  · cases v with
    | int z => by_cases hz : z < 0 <;> simp [isInt, checkNJobs, hz]
    | _ => simp [isInt, checkNJobs]

example : isInt (PyVal.bool true : PyVal ℝ) = false ∧ isInt (PyVal.int 3 : PyVal ℝ) = true := ⟨rfl, rfl⟩

/-! ## C35: transform types -/

/-- The documented transform types. -/
def documentedTypes : List (String × TType) :=
  [("auto", .auto), ("univariate", .uni), ("multivariate", .multi),
    ("univariate_variable", .uniVar), ("multivariate_variable", .multiVar)]

/-- **C35.** A string is accepted exactly when its lower-case form is one of the documented types other
than `'univariate_variable'`, and it denotes that type; all other strings raise `ValueError`. -/
theorem C35_transform_type_partial (s : String) :
    (∀ t, validateTransformType s = .ok t ↔ (s.toLower, t) ∈ documentedTypes ∧ t ≠ .uniVar) ∧
    ((∀ t, (s.toLower, t) ∈ documentedTypes → t = .uniVar) →
      validateTransformType s = .error .valueError) := by
  unfold validateTransformType documentedTypes
  by_cases h1 : s.toLower = "auto"
  · rw [h1]
    constructor
    · intro t; cases t <;> simp [List.lookup]
    · intro h; have := h .auto (by simp); simp at this
  by_cases h2 : s.toLower = "univariate"
  · rw [h2]
    constructor
    · intro t; cases t <;> simp [List.lookup]
    · intro h; have := h .uni (by simp); simp at this
  by_cases h3 : s.toLower = "multivariate"
  · rw [h3]
    constructor
    · intro t; cases t <;> simp [List.lookup]
    · intro h; have := h .multi (by simp); simp at this
  by_cases h4 : s.toLower = "multivariate_variable"
  · rw [h4]
    constructor
    · intro t; cases t <;> simp [List.lookup]
    · intro h; have := h .multiVar (by simp); simp at this
  have e1 : (s.toLower == "auto") = false := by simpa using h1
  have e2 : (s.toLower == "univariate") = false := by simpa using h2
  have e3 : (s.toLower == "multivariate") = false := by simpa using h3
  have e4 : (s.toLower == "multivariate_variable") = false := by simpa using h4
  constructor
  · intro t
    simp only [List.lookup, e1, e2, e3, e4]
    simp only [List.mem_cons, Prod.mk.injEq, h1, h2, h3, h4, false_and, false_or, List.not_mem_nil,
      or_false, reduceCtorEq, false_iff, not_and, not_not]
    exact fun h => h.2
  · intro _
    simp only [List.lookup, e1, e2, e3, e4]

/-- **C35 (violated).** The documented type `'univariate_variable'` is rejected in every spelling, so
that constructing `R_DST` with it raises `ValueError` whatever the other arguments. -/
theorem C35_univariate_variable_rejected {G K R L : Type} [Scalar K] (s : String)
    (hs : s.toLower = "univariate_variable") (env : Env G R L) (w : World R) (p : Params K R) :
    Rdst.init env w { p with transformType := s } = (w, .error .valueError) := by
  have h : validateTransformType s = .error .valueError :=
    (C35_transform_type_partial s).2 (by rw [hs]; simp [documentedTypes])
  simp [Rdst.init, h]

/-! ## C36: candidate lengths from bounds -/

theorem intRange_length (a b : Int) : (intRange a b).length = (b - a).toNat := by simp [intRange]

theorem intRange_get (a b : Int) (i : Nat) (h : i < (b - a).toNat) :
    (intRange a b)[i]? = some (a + (i : Int)) := by
  simp [intRange, h]

theorem mem_intRange {a b z : Int} : z ∈ intRange a b ↔ a ≤ z ∧ z < b := by
  unfold intRange
  rw [List.mem_map]
  constructor
  · rintro ⟨i, hi, rfl⟩
    rw [List.mem_range] at hi
    omega
  · rintro ⟨h1, h2⟩
    exact ⟨(z - a).toNat, List.mem_range.2 (by omega), by omega⟩

theorem intRange_sorted (a b : Int) : (intRange a b).Pairwise (· < ·) := by
  unfold intRange
  rw [List.pairwise_map]
  exact List.pairwise_lt_range.imp fun h => by omega

theorem ceil_lt {n step i : Nat} (hs : 0 < step) (hi : i < (n + step - 1) / step) : i * step < n := by
  have h : (i + 1) * step ≤ n + step - 1 := (Nat.le_div_iff_mul_le hs).1 hi
  rw [Nat.add_mul] at h
  omega

theorem everyNth_eq (a b : Int) (step : Nat) (hs : 0 < step) :
    everyNth (intRange a b) step =
      (List.range (((b - a).toNat + step - 1) / step)).map fun (i : Nat) => a + ((i * step : Nat) : Int) := by
  unfold everyNth
  rw [intRange_length, ← List.filterMap_eq_map]
  refine List.filterMap_congr fun i hi => ?_
  rw [List.mem_range] at hi
  rw [intRange_get _ _ _ (ceil_lt hs hi)]
  rfl

/-- Number of integers between the two bounds used as lengths. -/
def countBetween (b0 b1 : Int) : Nat := (max 4 (max (b0 + 1) (b1 + 1)) - max 3 b0).toNat

/-- **C36.** With bounds `b0, b1` (a fraction stands for that fraction of the series length, rounded
towards zero) the candidate lengths are non-empty, strictly increasing, at least 3, start at
`max(3, b0)` and do not exceed `max(3, b0, b1)`.  They are equally spaced.  When more than three
integers lie between the bounds and `k = floor(n * reduction)` is positive, at least `k` and fewer
than `2k` of the `n` integers are kept; otherwise all are. -/
theorem C36_lengths_from_bounds (lens : LenArr ℝ) (b0 b1 : Bound ℝ) (r : ℝ) (hr : r < 1) (m : Nat) :
    ∃ L : List Int, setLengths lens (some (b0, b1)) r m = .ints L ∧ L ≠ [] ∧
      L.Pairwise (· < ·) ∧ L[0]? = some (max 3 (boundVal m b0)) ∧
      (∀ z ∈ L, 3 ≤ z ∧ z ≤ max 3 (max (boundVal m b0) (boundVal m b1))) ∧
      (∃ step : Nat, 0 < step ∧ ∀ (i : Nat) (z : Int), L[i]? = some z →
        z = max 3 (boundVal m b0) + ((i * step : Nat) : Int)) ∧
      (3 < countBetween (boundVal m b0) (boundVal m b1) →
        0 < ⌊(countBetween (boundVal m b0) (boundVal m b1) : ℝ) * r⌋ →
        ⌊(countBetween (boundVal m b0) (boundVal m b1) : ℝ) * r⌋ ≤ L.length ∧
        (L.length : Int) < 2 * ⌊(countBetween (boundVal m b0) (boundVal m b1) : ℝ) * r⌋) ∧
      (countBetween (boundVal m b0) (boundVal m b1) ≤ 3 ∨
        ⌊(countBetween (boundVal m b0) (boundVal m b1) : ℝ) * r⌋ ≤ 0 →
        ∀ z : Int, z ∈ L ↔ max 3 (boundVal m b0) ≤ z ∧
          z ≤ max 3 (max (boundVal m b0) (boundVal m b1))) := by
  generalize hb0 : boundVal m b0 = c0
  generalize hb1 : boundVal m b1 = c1
  have hset : setLengths lens (some (b0, b1)) r m =
      if (intRange (max 3 c0) (max 4 (max (c0 + 1) (c1 + 1)))).length > 3 then
        if Scalar.trunc (Scalar.ofNat (K := ℝ) (intRange (max 3 c0)
            (max 4 (max (c0 + 1) (c1 + 1)))).length * r) > 0 then
          .ints (everyNth (intRange (max 3 c0) (max 4 (max (c0 + 1) (c1 + 1))))
            ((intRange (max 3 c0) (max 4 (max (c0 + 1) (c1 + 1)))).length /
              (Scalar.trunc (Scalar.ofNat (K := ℝ) (intRange (max 3 c0)
                (max 4 (max (c0 + 1) (c1 + 1)))).length * r)).toNat))
        else .ints (intRange (max 3 c0) (max 4 (max (c0 + 1) (c1 + 1))))
      else .ints (intRange (max 3 c0) (max 4 (max (c0 + 1) (c1 + 1)))) := by
    rw [← hb0, ← hb1]; rfl
  rw [hset]
  have hlen : (intRange (max 3 c0) (max 4 (max (c0 + 1) (c1 + 1)))).length = countBetween c0 c1 :=
    intRange_length _ _
  rw [hlen]
  have hnpos : 0 < countBetween c0 c1 := by unfold countBetween; omega
  have hfull : ∀ z, z ∈ intRange (max 3 c0) (max 4 (max (c0 + 1) (c1 + 1))) ↔
      max 3 c0 ≤ z ∧ z ≤ max 3 (max c0 c1) := by
    intro z
    rw [mem_intRange]
    omega
  have htr : ∀ x : ℝ, (0 < Scalar.trunc x ↔ 0 < ⌊x⌋) ∧ (0 < ⌊x⌋ → Scalar.trunc x = ⌊x⌋) := by
    intro x
    rw [real_trunc]
    split
    · exact ⟨Iff.rfl, fun _ => rfl⟩
    · rename_i hx
      push Not at hx
      have h1 : ⌊x⌋ < 0 := by
        rw [Int.floor_lt]
        exact_mod_cast hx
      have h2 : ⌈x⌉ ≤ 0 := Int.ceil_le.2 (by push_cast; linarith)
      exact ⟨⟨fun h => by omega, fun h => by omega⟩, fun h => by omega⟩
  have hofnat : Scalar.ofNat (K := ℝ) (countBetween c0 c1) = (countBetween c0 c1 : ℝ) := by simp
  rw [hofnat]
  -- the case where every integer is kept
  have hall : ∃ L : List Int, LenArr.ints (K := ℝ) (intRange (max 3 c0) (max 4 (max (c0 + 1) (c1 + 1)))) =
        .ints L ∧ L ≠ [] ∧
      L.Pairwise (· < ·) ∧ L[0]? = some (max 3 c0) ∧
      (∀ z ∈ L, 3 ≤ z ∧ z ≤ max 3 (max c0 c1)) ∧
      (∃ step : Nat, 0 < step ∧ ∀ (i : Nat) (z : Int), L[i]? = some z →
        z = max 3 c0 + ((i * step : Nat) : Int)) ∧
      (∀ z : Int, z ∈ L ↔ max 3 c0 ≤ z ∧ z ≤ max 3 (max c0 c1)) := by
    refine ⟨_, rfl, ?_, intRange_sorted _ _, ?_, ?_, ⟨1, by omega, ?_⟩, hfull⟩
    · intro h
      rw [h] at hlen
      simp at hlen
      omega
    · rw [intRange_get _ _ 0 (by unfold countBetween at hnpos; exact hnpos)]
      simp
    · intro z hz
      have := (hfull z).1 hz
      omega
    · intro i z hz
      obtain ⟨hi, hz'⟩ := List.getElem?_eq_some_iff.1 hz
      rw [intRange_length] at hi
      rw [intRange_get _ _ _ hi] at hz
      have := Option.some.inj hz
      omega
  by_cases hn3 : countBetween c0 c1 > 3
  · rw [if_pos hn3]
    by_cases hk : Scalar.trunc ((countBetween c0 c1 : ℝ) * r) > 0
    · rw [if_pos hk]
      have hk' : 0 < ⌊(countBetween c0 c1 : ℝ) * r⌋ := (htr _).1.1 hk
      rw [(htr _).2 hk']
      obtain ⟨k, hkk⟩ : ∃ k : Nat, ⌊(countBetween c0 c1 : ℝ) * r⌋ = (k : Int) :=
        ⟨_, (Int.toNat_of_nonneg hk'.le).symm⟩
      rw [hkk] at hk' ⊢
      have hkpos : 0 < k := by omega
      have hkn : k ≤ countBetween c0 c1 := by
        have h1 : ((k : Int) : ℝ) ≤ (countBetween c0 c1 : ℝ) * r := by
          rw [← hkk]; exact Int.floor_le _
        have h2 : (countBetween c0 c1 : ℝ) * r ≤ (countBetween c0 c1 : ℝ) * 1 :=
          mul_le_mul_of_nonneg_left hr.le (by positivity)
        have h3 : (k : ℝ) ≤ (countBetween c0 c1 : ℝ) := by push_cast at h1; linarith
        exact_mod_cast h3
      rw [Int.toNat_natCast]
      have hstep : 0 < countBetween c0 c1 / k := Nat.div_pos hkn hkpos
      generalize hst : countBetween c0 c1 / k = st at hstep ⊢
      have hcnt : ((max 4 (max (c0 + 1) (c1 + 1)) - max 3 c0).toNat + st - 1) / st =
          (countBetween c0 c1 + st - 1) / st := rfl
      have hge : k ≤ (countBetween c0 c1 + st - 1) / st := by
        rw [Nat.le_div_iff_mul_le hstep]
        have : st * k ≤ countBetween c0 c1 := by
          rw [← hst]; exact Nat.div_mul_le_self _ _
        rw [Nat.mul_comm] at this
        omega
      have hlt : (countBetween c0 c1 + st - 1) / st < 2 * k := by
        rw [Nat.div_lt_iff_lt_mul hstep]
        have h1 : countBetween c0 c1 < (st + 1) * k := by
          rw [← hst]
          exact Nat.lt_mul_of_div_lt (by omega) hkpos
        have h2 : k ≤ st * k := Nat.le_mul_of_pos_left _ hstep
        have h3 : st ≤ st * k := Nat.le_mul_of_pos_right _ hkpos
        have h4 : (st + 1) * k = st * k + k := by ring
        have h5 : 2 * k * st = st * k + st * k := by ring
        -- `n + st - 1 < 2 k st` since `n ≤ st k + k - 1`
        have h6 : k + st ≤ st * k + 1 := by
          obtain ⟨s', rfl⟩ : ∃ s', st = s' + 1 := ⟨st - 1, by omega⟩
          obtain ⟨k', rfl⟩ : ∃ k', k = k' + 1 := ⟨k - 1, by omega⟩
          have : (s' + 1) * (k' + 1) = s' * k' + s' + k' + 1 := by ring
          omega
        omega
      refine ⟨everyNth (intRange (max 3 c0) (max 4 (max (c0 + 1) (c1 + 1)))) st, rfl, ?_⟩
      rw [everyNth_eq _ _ _ hstep, hcnt]
      have hmem : ∀ i, i < (countBetween c0 c1 + st - 1) / st →
          max 3 c0 + ((i * st : Nat) : Int) ≤ max 3 (max c0 c1) := by
        intro i hi
        have := ceil_lt hstep hi
        unfold countBetween at this
        omega
      refine ⟨?_, ?_, ?_, ?_, ⟨st, hstep, ?_⟩, fun _ _ => ⟨?_, ?_⟩, ?_⟩
      · intro h
        have := congrArg List.length h
        simp only [List.length_map, List.length_range, List.length_nil] at this
        omega
      · rw [List.pairwise_map]
        refine List.pairwise_lt_range.imp fun {i j} h => ?_
        have : i * st < j * st := Nat.mul_lt_mul_of_pos_right h hstep
        omega
      · rw [List.getElem?_map, List.getElem?_range (by omega)]
        simp
      · intro z hz
        obtain ⟨i, hi, rfl⟩ := List.mem_map.1 hz
        rw [List.mem_range] at hi
        have := hmem i hi
        omega
      · intro i z hz
        rw [List.getElem?_map] at hz
        obtain ⟨j, hj, rfl⟩ := Option.map_eq_some_iff.1 hz
        obtain ⟨-, rfl⟩ := List.getElem?_eq_some_iff.1 hj
        simp
      · simp only [List.length_map, List.length_range]
        omega
      · simp only [List.length_map, List.length_range]
        omega
      · intro h
        omega
    · rw [if_neg hk]
      obtain ⟨L, h0, h1, h2, h3, h4, h5, h6⟩ := hall
      have hk' : ¬ 0 < ⌊(countBetween c0 c1 : ℝ) * r⌋ := fun h => hk ((htr _).1.2 h)
      exact ⟨L, h0, h1, h2, h3, h4, h5, fun _ h => absurd h hk', fun _ => h6⟩
  · rw [if_neg hn3]
    obtain ⟨L, h0, h1, h2, h3, h4, h5, h6⟩ := hall
    exact ⟨L, h0, h1, h2, h3, h4, h5, fun h => absurd h hn3, fun _ => h6⟩

/-- The example of the documentation: bounds 4 and 10 with reduction 0.5 give 4, 6, 8, 10. -/
example : setLengths (.ints []) (some (.int 4, .int 10)) (1 / 2 : ℝ) 50 = .ints [4, 6, 8, 10] := by
  have e : intRange 4 11 = [4, 5, 6, 7, 8, 9, 10] := by decide
  have ht : Scalar.trunc (Scalar.ofNat (K := ℝ) 7 * (1 / 2)) = 3 := by
    rw [real_trunc]
    simp only [real_ofNat]
    rw [if_pos (by norm_num), Int.floor_eq_iff]
    norm_num
  simp only [setLengths, boundVal]
  norm_num
  rw [e]
  norm_num at ht ⊢
  rw [ht]
  simp
  decide

/-- **C36 (violated).** The documentation allows a proportion of 1 (all lengths); the constructor
rejects it. -/
theorem C36_reduction_one_rejected {G R L : Type} (env : Env G R L) (w : World R) (p : Params ℝ R)
    (h : 1 ≤ p.reduction) : Rdst.init env w p = (w, .error .valueError) := by
  unfold Rdst.init
  have hv : ∀ e, validateTransformType p.transformType = .error e → e = .valueError := by
    intro e he
    unfold validateTransformType at he
    simp only at he
    split at he
    · cases he
    · cases he; rfl
  cases hvt : validateTransformType p.transformType with
  | error e => rw [hv e hvt]
  | ok t =>
    simp only
    split
    · rfl
    · match p.bounds with
      | none => simp [h]
      | some [] => rfl
      | some [_] => simp
      | some [_, _] => simp [h]
      | some (_ :: _ :: _ :: _) => simp

/-! ## C37: validated lengths -/

/-- The values of `shapelet_lengths` as integers (`astype(np.int64)` rounds towards zero). -/
noncomputable def intLengths : LenArr ℝ → List Int
  | .ints l => l
  | .floats l => l.map fun x => if 0 ≤ x then ⌊x⌋ else ⌈x⌉

/-- What parameter checking computes from the integer lengths. -/
theorem checkParams_eq (lens : LenArr ℝ) (n : Nat) :
    checkParams lens n =
      if intLengths lens = [] then .error .valueError
      else if ¬ (∀ z ∈ intLengths lens, 1 < z) then .error .valueError
      else if ¬ (∀ z ∈ intLengths lens, z ≤ (n : Int)) then
        if n < 3 then .error .valueError
        else .ok ((intLengths lens).map fun z => if z > (n : Int) then n / 2 else z.toNat)
      else .ok ((intLengths lens).map Int.toNat) := by
  have e : lens.astypeInt = intLengths lens := by
    cases lens <;> rfl
  unfold checkParams
  simp only
  rw [e]
  simp only [List.length_eq_zero_iff, Bool.not_eq_true', List.all_eq_false, decide_eq_true_eq,
    not_forall, exists_prop]

/-- **C37.** For series of at least four points, parameter checking either raises `ValueError` --
exactly when there is no candidate or a candidate is at most 1 -- or gives one length per candidate,
all between 2 and the number of points: candidates that fit are unchanged, the others become half the
number of points. -/
theorem C37_validated_lengths_partial (lens : LenArr ℝ) {n : Nat} (hn : 4 ≤ n) :
    ((intLengths lens = [] ∨ ∃ z ∈ intLengths lens, z ≤ 1) ∧
      checkParams lens n = .error .valueError) ∨
    (intLengths lens ≠ [] ∧ (∀ z ∈ intLengths lens, 1 < z) ∧
      ∃ sizes, checkParams lens n = .ok sizes ∧ sizes.length = (intLengths lens).length ∧
        (∀ l ∈ sizes, 2 ≤ l ∧ l ≤ n) ∧
        ∀ (i : Nat) (z : Int), (intLengths lens)[i]? = some z →
          (z ≤ n → ∃ l : Nat, sizes[i]? = some l ∧ (l : Int) = z) ∧
          ((n : Int) < z → sizes[i]? = some (n / 2))) := by
  rw [checkParams_eq]
  generalize intLengths lens = l
  by_cases h0 : l = []
  · exact Or.inl ⟨Or.inl h0, by rw [if_pos h0]⟩
  rw [if_neg h0]
  by_cases h1 : ∀ z ∈ l, 1 < z
  · right
    refine ⟨h0, h1, ?_⟩
    rw [if_neg (not_not.2 h1)]
    by_cases h2 : ∀ z ∈ l, z ≤ (n : Int)
    · rw [if_neg (not_not.2 h2)]
      refine ⟨_, rfl, by simp, ?_, ?_⟩
      · intro a ha
        obtain ⟨z, hz, rfl⟩ := List.mem_map.1 ha
        have := h1 z hz
        have := h2 z hz
        omega
      · intro i z hz
        have hm := List.mem_of_getElem? hz
        have := h1 z hm
        have := h2 z hm
        refine ⟨fun _ => ⟨z.toNat, by rw [List.getElem?_map, hz]; rfl, by omega⟩, fun h => by omega⟩
    · rw [if_pos h2, if_neg (by omega)]
      refine ⟨_, rfl, by simp, ?_, ?_⟩
      · intro a ha
        obtain ⟨z, hz, rfl⟩ := List.mem_map.1 ha
        have := h1 z hz
        split <;> omega
      · intro i z hz
        have hm := List.mem_of_getElem? hz
        have := h1 z hm
        refine ⟨fun h => ⟨z.toNat, ?_, by omega⟩, fun h => ?_⟩
        · rw [List.getElem?_map, hz, Option.map_some, if_neg (by omega)]
        · rw [List.getElem?_map, hz, Option.map_some, if_pos (by omega)]
  · left
    refine ⟨Or.inr ?_, by rw [if_pos h1]⟩
    push Not at h1
    exact h1

/-- **C37 (violated).** On series of three points -- which the input check accepts -- every candidate
longer than the series is replaced by the length 1, which the same check forbids. -/
theorem C37_three_points (lens : LenArr ℝ) (h1 : ∀ z ∈ intLengths lens, 1 < z)
    (h3 : ∃ z ∈ intLengths lens, 3 < z) :
    Good3 [1, 1, 3] false 2 ∧ ∃ sizes, checkParams lens 3 = .ok sizes ∧ 1 ∈ sizes := by
  refine ⟨⟨1, 1, 3, rfl, by omega, by omega, by omega, by omega, by simp⟩, ?_⟩
  obtain ⟨z, hz, hz3⟩ := h3
  rw [checkParams_eq, if_neg (List.ne_nil_of_mem hz), if_neg (not_not.2 h1),
    if_pos (fun h => absurd (h z hz) (by simp; omega)), if_neg (by omega)]
  refine ⟨_, rfl, ?_⟩
  refine List.mem_map.2 ⟨z, hz, ?_⟩
  simp [hz3]

example : ∃ sizes, checkParams (K := ℝ) (.ints [11]) 3 = .ok sizes ∧ 1 ∈ sizes :=
  (C37_three_points (.ints [11]) (by simp [intLengths]) (by simp [intLengths])).2

example : checkParams (K := ℝ) (.ints [3, 11]) 8 = .ok [3, 4] := by
  rw [checkParams_eq]; simp [intLengths]

/-! ## C34: automatic transform type -/

/-- **C34.** Lists and object arrays of series: variable length, multivariate exactly when the first
series has more than one channel. -/
theorem C34_auto_list {K : Type} [Scalar K] (x : Mat K) (xs : List (Mat K)) :
    autoClass (.list (x :: xs)) = .ok (if x.rows.length > 1 then .multiVar else .uniVar) ∧
    autoClass (.objArray (x :: xs)) = .ok (if x.rows.length > 1 then .multiVar else .uniVar) :=
  ⟨rfl, rfl⟩

/-- **C34.** Integer and float arrays: a valid 3D array selects an equal-length type, multivariate
exactly when there is more than one channel; anything else raises `ValueError`. -/
theorem C34_auto_array {K : Type} [Scalar K] (X : XIn K) (hX : X.WF) {dt : DType}
    (hdt : dt ≠ .otherDtype) (hx : (∃ A, X = .array dt A) ∨ ∃ s, X = .arrayOther dt s) :
    (∀ A, X = .array dt A → Good3 [A.data.length, A.nf, A.nt] false 2 →
      autoClass X = .ok (if A.nf > 1 then .multi else .uni)) ∧
    ((∀ A, X = .array dt A → ¬ Good3 [A.data.length, A.nf, A.nt] false 2) →
      autoClass X = .error .valueError) := by
  rcases hx with ⟨A, rfl⟩ | ⟨s, rfl⟩
  · rcases C62_check_array_3D (asArray (.array dt A)) false 2 with ⟨-, hg, Y, hY, ⟨-, hd⟩, -⟩ | ⟨hn, he⟩
    · constructor
      · intro A' h' _
        cases h'
        have : Y.data = A := hd
        simp [autoClass, hdt, toArr3, hY, Bind.bind, Except.bind, pure, Except.pure, this]
      · intro h
        exact absurd hg (h A rfl)
    · constructor
      · intro A' h' hg
        cases h'
        exact absurd ⟨Or.inr rfl, hg⟩ hn
      · intro _
        simp [autoClass, hdt, toArr3, he, Bind.bind, Except.bind]
  · refine ⟨fun A h => (by cases h), fun _ => ?_⟩
    rcases C62_check_array_3D (asArray (.arrayOther dt s : XIn K)) false 2 with ⟨-, hg, -⟩ | ⟨-, he⟩
    · obtain ⟨n, f, t, h, -⟩ := hg
      have hX : s.length ≠ 3 := hX
      exact absurd (by rw [show s = [n, f, t] from h]; rfl) hX
    · simp [autoClass, hdt, toArr3, he, Bind.bind, Except.bind]

/-- **C34.** With `transform_type='auto'`, arrays of any other element type (float32, int32, ...) are
rejected by `fit` with `ValueError`, and the object then stays unusable: its type is no longer
`'auto'`, so that every later `fit`, on any data, raises `ValueError` too. -/
theorem C34_other_dtype {G K R L : Type} [Scalar K] (env : Env G R L) (o : Rdst K R)
    (ho : o.transformType = .auto) (w : World R) (X : XIn K)
    (hX : (∃ A, X = .array .otherDtype A) ∨ ∃ s, X = .arrayOther .otherDtype s) (y : List L) :
    ∃ o', o.prepare env w X y = (o', w, .error .valueError) ∧
      ∀ w' X' y', o'.prepare env w' X' y' = (o', w', .error .valueError) := by
  have h1 : autoClass X = .ok .null := by
    rcases hX with ⟨A, rfl⟩ | ⟨s, rfl⟩ <;> rfl
  refine ⟨{ o with transformType := .null }, ?_, ?_⟩
  · simp [Rdst.prepare, setFitTransform, ho, h1]
  · intro w' X' y'
    simp [Rdst.prepare, setFitTransform]

/-- **C34.** Once set, by the user or by the first fit, the type is not recomputed: `fit` handles the
data by the type of the object, whatever the data. -/
theorem C34_fixed_type {K R : Type} [Scalar K] (o : Rdst K R)
    (ho : o.transformType = .uni ∨ o.transformType = .multi ∨ o.transformType = .uniVar ∨
      o.transformType = .multiVar) (X : XIn K) : setFitTransform o X = (o, .ok ()) := by
  unfold setFitTransform
  have h : o.transformType ≠ .auto := by
    rintro h; rw [h] at ho; simp at ho
  simp [h, ho]

example : Good3 [2, 3, 10] false 2 := ⟨2, 3, 10, rfl, by omega, by omega, by omega, by omega, by simp⟩

/-! ## C40: formatting of uneven series -/

theorem foldl_max_spec (l : List Nat) (a : Nat) :
    a ≤ l.foldl max a ∧ (∀ x ∈ l, x ≤ l.foldl max a) ∧ (l.foldl max a = a ∨ l.foldl max a ∈ l) := by
  induction l generalizing a with
  | nil => simp
  | cons b l ih =>
    obtain ⟨h1, h2, h3⟩ := ih (max a b)
    simp only [List.foldl_cons, List.mem_cons]
    refine ⟨by omega, ?_, ?_⟩
    · rintro x (rfl | hx)
      · omega
      · exact h2 x hx
    · rcases h3 with h3 | h3
      · rcases Nat.le_total a b with h | h
        · right; left; rw [h3]; omega
        · left; rw [h3]; omega
      · right; right; exact h3

theorem nmax_spec {l : List Nat} (h : l ≠ []) : ∃ m, nmax l = .ok m ∧ (∀ x ∈ l, x ≤ m) ∧ m ∈ l := by
  cases l with
  | nil => exact absurd rfl h
  | cons a l =>
    obtain ⟨h1, h2, h3⟩ := foldl_max_spec l a
    refine ⟨_, rfl, ?_, ?_⟩
    · intro x hx
      rcases List.mem_cons.1 hx with rfl | hx
      · exact h1
      · exact h2 x hx
    · rcases h3 with h3 | h3
      · rw [h3]; exact List.mem_cons_self
      · exact List.mem_cons_of_mem _ h3

/-- Reading a cell of a 3D array. -/
def Arr3.cell {K : Type} (A : Arr3 K) (s c t : Nat) : Option K := do
  let x ← A.data[s]?
  let r ← x[c]?
  r[t]?

/-- Reading a point of a series. -/
def Mat.cell {K : Type} (x : Mat K) (c t : Nat) : Option K := do
  let r ← x.rows[c]?
  r[t]?

theorem padRow_get {K : Type} [Scalar K] (nt : Nat) (row : List K) (h : row.length ≤ nt) (t : Nat) :
    (padRow nt row)[t]? = if t < nt then (row[t]?.or (some 0)) else none := by
  unfold padRow
  rcases Nat.lt_or_ge t row.length with ht | ht
  · rw [List.getElem?_append_left ht, if_pos (by omega)]
    simp [ht]
  · rw [List.getElem?_append_right ht, List.getElem?_replicate]
    have : row[t]? = none := List.getElem?_eq_none ht
    rw [this]
    by_cases h' : t < nt
    · rw [if_pos h', if_pos (by omega)]; rfl
    · rw [if_neg h', if_neg (by omega)]

/-- **C40.** Formatting a non-empty collection of series, all with the same number of channels, gives
their true lengths and an array with one sample per series, the common number of channels, and as many
points as the longest series; the cell `(s, c, t)` is point `t` of channel `c` of series `s` if there
is such a point, and 0 beyond the end of the series. -/
theorem C40_format_uneven {K : Type} [Scalar K] (X : XIn K) (hX : X.WF) (xs : List (Mat K))
    (hxs : samples X = .ok xs) (hne : xs ≠ []) (nf : Nat) (hnf : ∀ x ∈ xs, x.rows.length = nf) :
    ∃ A, formatUneven X = .ok (A, xs.map Mat.len) ∧ A.nf = nf ∧ A.data.length = xs.length ∧
      (∀ x ∈ xs, x.len ≤ A.nt) ∧ (∃ x ∈ xs, x.len = A.nt) ∧
      (∀ s ∈ A.data, s.length = nf ∧ ∀ r ∈ s, r.length = A.nt) ∧
      ∀ (s c t : Nat) (x : Mat K), xs[s]? = some x → c < nf → t < A.nt →
        (t < x.len → Arr3.cell A s c t = Mat.cell x c t ∧ (Mat.cell x c t).isSome) ∧
        (x.len ≤ t → Arr3.cell A s c t = some 0) := by
  have hwf : ∀ x ∈ xs, x.WF := by
    cases X with
    | list Y => cases hxs; exact hX
    | objArray Y => cases hxs; exact hX
    | array dt A =>
      cases hxs
      intro x hx r hr
      obtain ⟨s, hs, rfl⟩ := List.mem_map.1 hx
      exact (hX s hs).2 r hr
    | arrayOther dt s => cases hxs
  cases xs with
  | nil => exact absurd rfl hne
  | cons x0 xs =>
    obtain ⟨m, hm, hm1, hm2⟩ := nmax_spec (l := (x0 :: xs).map Mat.len) (by simp)
    have hall : (((x0 :: xs).map fun s => s.rows.length).all fun n => n == x0.rows.length) = true := by
      rw [List.all_eq_true]
      intro n hn
      obtain ⟨x, hx, rfl⟩ := List.mem_map.1 hn
      rw [hnf x hx, hnf x0 List.mem_cons_self]
      simp
    refine ⟨⟨(x0 :: xs).map fun s => s.rows.map (padRow m), x0.rows.length, m⟩, ?_,
      hnf x0 List.mem_cons_self, by simp, ?_, ?_, ?_, ?_⟩
    · unfold formatUneven
      rw [hxs]
      simp only [Bind.bind, Except.bind]
      rw [if_pos hall, hm]
      rfl
    · intro x hx
      exact hm1 _ (List.mem_map.2 ⟨x, hx, rfl⟩)
    · obtain ⟨x, hx, h⟩ := List.mem_map.1 hm2
      exact ⟨x, hx, h⟩
    · intro s hs
      obtain ⟨x, hx, rfl⟩ := List.mem_map.1 hs
      refine ⟨by rw [List.length_map]; exact hnf x hx, ?_⟩
      intro r hr
      obtain ⟨r', hr', rfl⟩ := List.mem_map.1 hr
      have h1 := hwf x hx r' hr'
      have h2 := hm1 _ (List.mem_map.2 ⟨x, hx, rfl⟩)
      show (padRow m r').length = m
      unfold padRow
      rw [List.length_append, List.length_replicate]
      omega
    · intro s c t x hs hc ht
      have hx := List.mem_of_getElem? hs
      have hcl : c < x.rows.length := by rw [hnf x hx]; exact hc
      have hrow := hwf x hx x.rows[c] (List.getElem_mem hcl)
      have hle := hm1 _ (List.mem_map.2 ⟨x, hx, rfl⟩)
      have e : Arr3.cell ⟨(x0 :: xs).map fun s => s.rows.map (padRow m), x0.rows.length, m⟩ s c t =
          (padRow m x.rows[c])[t]? := by
        unfold Arr3.cell
        simp only [List.getElem?_map, hs, Option.map_some, Option.bind_eq_bind, Option.bind_some,
          List.getElem?_eq_getElem hcl]
      have e' : Mat.cell x c t = (x.rows[c])[t]? := by
        unfold Mat.cell
        simp only [Option.bind_eq_bind, List.getElem?_eq_getElem hcl, Option.bind_some]
      rw [e, e', padRow_get _ _ (by omega), if_pos ht]
      constructor
      · intro h
        rw [List.getElem?_eq_getElem (by omega)]
        simp
      · intro h
        rw [List.getElem?_eq_none (by omega)]
        simp

/-- **C40.** Formatting fails exactly on an empty collection (`IndexError`) and when two series have
different numbers of channels (`ValueError`). -/
theorem C40_format_errors {K : Type} [Scalar K] (X : XIn K) (xs : List (Mat K))
    (hxs : samples X = .ok xs) :
    (xs = [] → formatUneven X = .error .indexError) ∧
    ((∃ x ∈ xs, ∃ x' ∈ xs, x.rows.length ≠ x'.rows.length) → formatUneven X = .error .valueError) := by
  constructor
  · rintro rfl
    simp [formatUneven, hxs, Bind.bind, Except.bind]
  · rintro ⟨x, hx, x', hx', hne⟩
    cases xs with
    | nil => cases hx
    | cons x0 xs =>
      have hall : ¬ (((x0 :: xs).map fun s => s.rows.length).all fun n => n == x0.rows.length) = true := by
        rw [List.all_eq_true]
        intro h
        have h1 := h _ (List.mem_map.2 ⟨x, hx, rfl⟩)
        have h2 := h _ (List.mem_map.2 ⟨x', hx', rfl⟩)
        simp only [beq_iff_eq] at h1 h2
        omega
      unfold formatUneven
      rw [hxs]
      simp only [Bind.bind, Except.bind]
      rw [if_neg hall]

example : (XIn.list (K := ℝ) [⟨[[1, 2, 3]], 3⟩, ⟨[[4, 5]], 2⟩]).WF ∧
    ∀ x ∈ [(⟨[[1, 2, 3]], 3⟩ : Mat ℝ), ⟨[[4, 5]], 2⟩], x.rows.length = 1 := by
  simp [XIn.WF, Mat.WF]

end Convst.Props
