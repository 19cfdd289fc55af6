import Verif.Props.Fit
import Verif.Props.FitMore

/-!
# Concrete cases for the theorems on `fit`

The training sets `exA` (one channel) and `exB` (two channels, also read as series of 5 and 4 points) with any random
choices meet the hypotheses of the theorems on the sources, the thresholds, the overlap and the number of the shapelets.
-/

set_option autoImplicit false

namespace Convst.Props
open Convst Spec

variable (g0 : Script) (gs : Nat → Script)

theorem rangeSchedule : IsSchedule List.range := fun _ => List.Perm.refl _

theorem exB_one : 1 ≤ 2 := by norm_num

theorem exB_two : 2 ≤ exB.nf := le_refl 2

/-- One channel, equal lengths. -/
example : ∃ S M, uslGenerate exA g0 gs List.range = .ok S ∧ uslApply exA.X S exA.phase = .ok M ∧
    ∀ k, k < S.lengths.length →
      (∃ (s : Nat) (row : List ℝ), M[s]? = some row ∧ row[3 * k]? = some 0) ∧
      (∃ (s : Nat) (row : List ℝ) (n : ℝ), M[s]? = some row ∧ row[3 * k + 2]? = some n ∧ 1 ≤ n) ∧
      (S.dilations.getD k 0 = 1 ∨ (S.dilations.getD k 0).Prime) := by
  obtain ⟨S, h, -⟩ := C19_fit_univariate_same_length exA_valid g0 gs
  have hS := h _ rangeSchedule
  obtain ⟨M, hM, h1⟩ := C23_sources_univariate_same_length exA_valid rangeSchedule hS
  obtain ⟨M', hM', h2⟩ := C24_thresholds_univariate_same_length exA_valid rangeSchedule hS
  obtain rfl : M' = M := Except.ok.inj (hM'.symm.trans hM)
  refine ⟨S, M', hS, hM, fun k hk => ⟨?_, ?_, ?_⟩⟩
  · obtain ⟨s, t, -, -, -, row, e⟩ := h1 k hk
    exact ⟨s, row, e⟩
  · obtain ⟨s, t, s', -, -, -, -, -, -, row, n, e⟩ := h2 k hk
    exact ⟨s', row, n, e⟩
  · exact (C28_fit_dilations_univariate rfl rangeSchedule).1 exA_valid hS k hk

/-- One channel, equal lengths: there are sources with a limited overlap, and the requested shapelets are accounted for. -/
example : ∃ S, uslGenerate exA g0 gs List.range = .ok S ∧
    (∃ src : Nat → Nat × Nat, ∀ k, k < S.lengths.length → (src k).1 < exA.X.length) ∧
    ∃ P rec out kept, UFitted (trainSL exA) exA exA.nt P rec out kept S ∧ P.n = exA.nShp := by
  obtain ⟨S, h, -⟩ := C19_fit_univariate_same_length exA_valid g0 gs
  have hS := h _ rangeSchedule
  obtain ⟨src, h1, -⟩ := C25_overlap_same_length exA_valid rangeSchedule hS
  obtain ⟨P, rec, out, kept, h2, h3, -⟩ := C32_discard_univariate_same_length exA_valid rangeSchedule hS
  exact ⟨S, hS, ⟨src, fun k hk => (h1 k hk).1⟩, P, rec, out, kept, h2, h3⟩

/-- One channel, series of 5 and 4 points. -/
example : ∃ S M, uvlGenerate exB 4 [5, 4] g0 gs List.range = .ok S ∧ uvlApply exB.X S exB.phase [5, 4] = .ok M ∧
    (∀ k, k < S.lengths.length →
      (∃ (s : Nat) (row : List ℝ), M[s]? = some row ∧ row[3 * k]? = some 0) ∧
      (∃ (s : Nat) (row : List ℝ) (n : ℝ), M[s]? = some row ∧ row[3 * k + 2]? = some n ∧ 1 ≤ n)) ∧
    (∃ src : Nat → Nat × Nat, ∀ k, k < S.lengths.length → (src k).1 < exB.X.length) ∧
    ∃ P rec out kept, UFitted (trainVL exB [5, 4]) exB 4 P rec out kept S ∧ P.n = exB.nShp := by
  obtain ⟨S, h, -⟩ := C20_fit_univariate_variable_length exB_validVL g0 gs
  have hS := h _ rangeSchedule
  obtain ⟨M, hM, h1⟩ := C23_sources_univariate_variable_length exB_validVL rangeSchedule hS
  obtain ⟨M', hM', h2⟩ := C24_thresholds_univariate_variable_length exB_validVL rangeSchedule hS
  obtain rfl : M' = M := Except.ok.inj (hM'.symm.trans hM)
  obtain ⟨src, h3, -⟩ := C25_overlap_variable_length exB_validVL rangeSchedule hS
  obtain ⟨P, rec, out, kept, h4, h5, -⟩ := C32_discard_univariate_variable_length exB_validVL rangeSchedule hS
  refine ⟨S, M', hS, hM, fun k hk => ⟨?_, ?_⟩, ⟨src, fun k hk => (h3 k hk).1⟩, P, rec, out, kept, h4, h5⟩
  · obtain ⟨s, t, -, -, -, row, e⟩ := h1 k hk
    exact ⟨s, row, e⟩
  · obtain ⟨s, t, s', -, -, -, -, -, -, row, n, e⟩ := h2 k hk
    exact ⟨s', row, n, e⟩

/-- Two channels, equal lengths. -/
example : ∃ S M, mslGenerate exB 2 g0 gs List.range = .ok S ∧ mslApply exB.X exB.nt S exB.phase = .ok M ∧
    (∀ k, k < S.lengths.length →
      (∃ (s : Nat) (row : List ℝ), M[s]? = some row ∧ row[3 * k]? = some 0) ∧
      (∃ (s : Nat) (row : List ℝ) (n : ℝ), M[s]? = some row ∧ row[3 * k + 2]? = some n ∧ 1 ≤ n)) ∧
    (∃ src : Nat → Nat × Nat, ∀ k, k < S.lengths.length → (src k).1 < exB.X.length) ∧ 2 ≤ S.lengths.length ∧
    ∃ P nch rec out kept, MFitted (trainSL exB) exB exB.nt 2 P nch rec out kept S ∧ P.n = exB.nShp := by
  obtain ⟨S, h, -⟩ := C21_fit_multivariate_same_length exB_valid exB_one exB_two g0 gs
  have hS := h _ rangeSchedule
  obtain ⟨M, hM, h1⟩ := C23_sources_multivariate_same_length exB_valid exB_one exB_two rangeSchedule hS
  obtain ⟨M', hM', h2⟩ := C24_thresholds_multivariate_same_length exB_valid exB_one exB_two rangeSchedule hS
  obtain rfl : M' = M := Except.ok.inj (hM'.symm.trans hM)
  obtain ⟨src, h3, -⟩ := C25_overlap_multivariate_same_length exB_valid exB_one exB_two rangeSchedule hS
  obtain ⟨P, nch, rec, out, kept, h4, h5, -⟩ :=
    C32_discard_multivariate_same_length exB_valid exB_one exB_two rangeSchedule hS
  refine ⟨S, M', hS, hM, fun k hk => ⟨?_, ?_⟩, ⟨src, fun k hk => (h3 k hk).1⟩,
    C32_count_multivariate_same_length exB_valid (by norm_num [exB]) exB_one exB_two rangeSchedule hS,
    P, nch, rec, out, kept, h4, h5⟩
  · obtain ⟨s, t, -, -, -, row, e⟩ := h1 k hk
    exact ⟨s, row, e⟩
  · obtain ⟨s, t, s', -, -, -, -, -, -, row, n, e⟩ := h2 k hk
    exact ⟨s', row, n, e⟩

/-- Two channels, series of 5 and 4 points. -/
example : ∃ S M, mvlGenerate exB 2 4 [5, 4] g0 gs List.range = .ok S ∧ mvlApply exB.X exB.nt S exB.phase [5, 4] = .ok M ∧
    (∀ k, k < S.lengths.length →
      (∃ (s : Nat) (row : List ℝ), M[s]? = some row ∧ row[3 * k]? = some 0) ∧
      (∃ (s : Nat) (row : List ℝ) (n : ℝ), M[s]? = some row ∧ row[3 * k + 2]? = some n ∧ 1 ≤ n)) ∧
    (∃ src : Nat → Nat × Nat, ∀ k, k < S.lengths.length → (src k).1 < exB.X.length) ∧ 2 ≤ S.lengths.length ∧
    ∃ P nch rec out kept, MFitted (trainVL exB [5, 4]) exB 4 2 P nch rec out kept S ∧ P.n = exB.nShp := by
  obtain ⟨S, h, -⟩ := C22_fit_multivariate_variable_length exB_validVL exB_one exB_two g0 gs
  have hS := h _ rangeSchedule
  obtain ⟨M, hM, h1⟩ := C23_sources_multivariate_variable_length exB_validVL exB_one exB_two rangeSchedule hS
  obtain ⟨M', hM', h2⟩ := C24_thresholds_multivariate_variable_length exB_validVL exB_one exB_two rangeSchedule hS
  obtain rfl : M' = M := Except.ok.inj (hM'.symm.trans hM)
  obtain ⟨src, h3, -⟩ := C25_overlap_multivariate_variable_length exB_validVL exB_one exB_two rangeSchedule hS
  obtain ⟨P, nch, rec, out, kept, h4, h5, -⟩ :=
    C32_discard_multivariate_variable_length exB_validVL exB_one exB_two rangeSchedule hS
  refine ⟨S, M', hS, hM, fun k hk => ⟨?_, ?_⟩, ⟨src, fun k hk => (h3 k hk).1⟩,
    C32_count_multivariate_variable_length exB_validVL (by norm_num [exB]) exB_one exB_two rangeSchedule hS,
    P, nch, rec, out, kept, h4, h5⟩
  · obtain ⟨s, t, -, -, -, row, e⟩ := h1 k hk
    exact ⟨s, row, e⟩
  · obtain ⟨s, t, s', -, -, -, -, -, -, row, n, e⟩ := h2 k hk
    exact ⟨s', row, n, e⟩

/-- C43, two channels: a longer test series. -/
example : ∃ S, mslGenerate exB 2 g0 gs List.range = .ok S ∧
    ∃ M, mslApply [[[1, 2, 3, 4, 5, 6], [0, 0, 0, 0, 0, 7]]] 6 S exB.phase = .ok M ∧ GoodMatrix M 1 S.lengths.length := by
  obtain ⟨S, h, h'⟩ := C43_fit_transform_multivariate_same_length exB_valid exB_one exB_two g0 gs rangeSchedule
  refine ⟨S, h, h' _ 6 ?_ (by simp [exB])⟩
  intro x hx
  rw [List.mem_singleton.1 hx]
  exact ⟨rfl, by simp⟩

/-- C27: other padding behind series of 2 and 3 points, one channel and several. -/
example (a : FitArgs ℝ Nat) (ha : a.X = [[[1, 2, 0]], [[4, 5, 6]]]) (order : Nat → List Nat) :
    uvlGenerate { a with X := [[[1, 2, 9, 7]], [[4, 5, (6 : ℝ), 8]]], nt := 4 } 2 [2, 3] g0 gs order =
      uvlGenerate a 2 [2, 3] g0 gs order ∧
    mvlGenerate { a with X := [[[1, 2, 9, 7]], [[4, 5, (6 : ℝ), 8]]], nt := 4 } 1 2 [2, 3] g0 gs order =
      mvlGenerate a 1 2 [2, 3] g0 gs order := by
  have h : SameSeries [2, 3] a.X [[[1, 2, 9, 7]], [[4, 5, (6 : ℝ), 8]]] := by
    rw [ha]
    refine ⟨rfl, ?_, ?_⟩
    · intro s; rcases s with _ | _ | s <;> simp
    · intro s c
      rcases s with _ | _ | s <;> rcases c with _ | c <;> simp
  exact ⟨C27_padding_univariate _ a _ 4 2 h g0 gs order, C27_padding_multivariate _ a _ 4 1 2 h g0 gs order⟩

/-- The training set `exB` with prime dilations and every shapelet normalised. -/
noncomputable def exPrime : FitArgs ℝ Nat := { exB with prime := true, pNorm := 1 }

theorem exPrime_valid : ValidSL exPrime where
  data := ⟨rfl, by simp [exPrime, exB], by simp [exPrime, exB]⟩
  nf := by norm_num [exPrime, exB]
  perc := ⟨by norm_num [exPrime, exB], by norm_num [exPrime, exB], by norm_num [exPrime, exB]⟩
  nShp := by norm_num [exPrime, exB]
  sizes := by simp [exPrime, exB]
  bounds := by simp [exPrime, exB]

/-- C28, C31: prime dilations and normalisation flags with two channels. -/
example : ∃ S, mslGenerate exPrime 2 g0 gs List.range = .ok S ∧
    (∀ k, k < S.lengths.length → S.dilations.getD k 0 = 1 ∨ (S.dilations.getD k 0).Prime) ∧
    ∀ b ∈ S.normalize, b = true := by
  have h1 : 1 ≤ 2 := by norm_num
  have h2 : 2 ≤ exPrime.nf := le_refl 2
  obtain ⟨S, h, -⟩ := C21_fit_multivariate_same_length exPrime_valid h1 h2 g0 gs
  have hS := h _ rangeSchedule
  exact ⟨S, hS, (C28_fit_dilations_multivariate rfl h1 h2 rangeSchedule).1 exPrime_valid hS,
    (C31_proba_norm_multivariate h1 h2 rangeSchedule (Or.inl ⟨exPrime_valid, hS⟩)).2 (le_refl 1)⟩

/-- C31, one channel. -/
example : ∃ S, uslGenerate exPrime g0 gs List.range = .ok S ∧ ∀ b ∈ S.normalize, b = true := by
  obtain ⟨S, h, -⟩ := C19_fit_univariate_same_length exPrime_valid g0 gs
  have hS := h _ rangeSchedule
  exact ⟨S, hS, (C31_proba_norm_univariate rangeSchedule (Or.inl ⟨exPrime_valid, hS⟩)).2 (le_refl 1)⟩

end Convst.Props
