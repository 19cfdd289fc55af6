import Verif.Props.CdDiagram
import Verif.Props.Memory
import Verif.Props.InterpreterFigures

/-!
# Concrete cases for the figures

Cases that meet the hypotheses of C64 (the highlighted points and `transform`) and of C74 (the bars of the diagram).
-/

set_option autoImplicit false
set_option linter.unusedSectionVars false

namespace Convst.Props
open Convst Spec

/-- C64: the second shapelet, of length 3 and dilation 2, on the second of two series of five points. -/
example : ∃ (M : List (List ℝ)) (row : List ℝ) (idx : List Nat) (vals : List ℝ) (p : Nat),
    exInterpObj.transform (.array .float64 ⟨exX, 1, 5⟩) = .ok M ∧ M[1]? = some row ∧
    interpPlotOnX exInterpObj 1 [1, 1, 0, 0, 2] = .ok (idx, vals) ∧ idx[0]? = some p ∧ row[4]? = some (p : ℝ) := by
  have hwf : (XIn.array .float64 (⟨exX, 1, 5⟩ : Arr3 ℝ)).WF := by
    intro s hs
    simp only [exX, List.mem_cons, List.not_mem_nil, or_false] at hs
    rcases hs with rfl | rfl <;> simp
  have hM := transform_array_uni (o := exInterpObj) (dt := .float64) rfl rfl exU_wf hwf (by simp [exX]) (by simp) (by simp) (by
    intro k hk
    simp [exU] at hk
    interval_cases k <;> simp [exU])
  obtain ⟨row, idx, vals, p, h1, h2, h3, h4⟩ := C64_matches_transform (o := exInterpObj) (S := exU) rfl exU_wf
    (Or.inl rfl) hwf (xs := [⟨[[0, 1, 2, 3, 4]], 5⟩, ⟨[[1, 1, 0, 0, 2]], 5⟩]) rfl (nf := 1) (by simp) hM (i := 1) (k := 1) rfl
    (by simp [exU]) (by simp [HasWindow, exU])
  exact ⟨_, row, idx, vals, p, hM, h1, h2, h3, h4⟩

/-- A test that finds the first two classifiers of `oddTable` not different, and the third different from both. -/
noncomputable def pairStats : Stats ℝ :=
  ⟨fun _ => .ok 0, fun x y => open Classical in if x = [9] ∧ y = [7] then .ok 1 else .ok 0⟩

/-- C74: the hypotheses hold for this test, the first two classifiers are under a common bar, and no bar joins the third to
another one. -/
example : ∃ (fig : CdFigure Nat ℝ) (out : Option String) (ps : List (PVal Nat ℝ)) (rs : List (Nat × ℝ)),
    drawCdDiagram pairStats allCliques (1 / 20) oddTable 6 none = .ok (fig, out) ∧
    pValues pairStats (1 / 20) oddTable = .ok ps ∧ averageRanks oddTable = .ok rs ∧
    rs.map (·.1) = [2, 1, 0] ∧ Joined fig 1 2 ∧ ¬ Joined fig 0 1 ∧ ¬ Joined fig 0 2 := by
  obtain ⟨ht, hm, hd⟩ := oddTable_facts
  have hne : oddTable ≠ [] := by simp [oddTable, threeTable, rowsFor]
  have hw : ∀ x y : List ℝ, x.length = y.length → ∃ p, pairStats.wilcoxon x y = .ok p := by
    intro x y _
    unfold pairStats
    by_cases h : x = [9] ∧ y = [7]
    · exact ⟨1, if_pos h⟩
    · exact ⟨0, if_neg h⟩
  obtain ⟨fig, hfig⟩ := C77_draws (st := pairStats) (fun _ _ => ⟨0, rfl⟩) hw allCliques (1 / 20) (df := oddTable)
    (cs := [0, 1, 2]) (by decide) (fun c hc => compared_iff.1 (by rw [ht]; exact hc)) (by simp)
    (by rw [hd, hm]; rfl) 6 none
  obtain ⟨ps, hps⟩ := pValues_ok (st := pairStats) (fun _ _ => ⟨0, rfl⟩) hw (1 / 20) (df := oddTable) (by rw [ht]; simp)
  obtain ⟨rs, hrs⟩ := (C60_error oddTable).2 (by rw [hd, hm]; rfl)
  have hnd : NoDuplicates oddTable := by
    unfold NoDuplicates
    simp [oddTable, threeTable, rowsFor]
  obtain ⟨hnodup, hc, hsortr, -⟩ := C60_average_ranks hne hrs
  obtain ⟨-, hmean⟩ := C60_meaning hnd hrs (fun c _ => if c = 0 then 9 else if c = 1 then 7 else 5) (by
    intro r hr
    simp only [oddTable, threeTable, rowsFor, List.map_cons, List.map_nil, List.cons_append, List.nil_append,
      List.mem_cons, List.not_mem_nil, or_false] at hr
    rcases hr with rfl | rfl | rfl <;> simp)
  have hval : ∀ c v, (c, v) ∈ rs → c < 3 ∧ v = (c : ℝ) + 1 := by
    intro c v hv
    have hcc : c ∈ testedClassifiers oddTable := compared_iff.2 ((hc c).1 (List.mem_map.2 ⟨_, hv, rfl⟩))
    rw [ht] at hcc
    have := hmean c v hv
    rw [hd, ht] at this
    simp only [List.mem_cons, List.not_mem_nil, or_false] at hcc
    refine ⟨by omega, ?_⟩
    rw [this]
    rcases hcc with rfl | rfl | rfl <;> norm_num [rankOf, List.countP_cons]
  have hrs3 : rs = [(2, 3), (1, 2), (0, 1)] := by
    have hmap : rs.map (·.1) = [2, 1, 0] := by
      apply List.Perm.eq_of_pairwise (le := (· ≥ ·)) (fun x y _ _ h1 h2 => le_antisymm h2 h1) ?_ (by decide)
      · refine (List.perm_ext_iff_of_nodup hnodup (by decide)).2 fun c => ?_
        rw [hc c, ← compared_iff, ht]
        simp only [List.mem_cons, List.not_mem_nil, or_false]
        omega
      · rw [List.pairwise_map]
        refine List.Pairwise.imp_of_mem (fun {a b} ha hb hab => ?_) hsortr
        rw [(hval _ _ ha).2, (hval _ _ hb).2] at hab
        have : (b.1 : ℝ) ≤ a.1 := by linarith
        exact_mod_cast this
    have e : rs = (rs.map (·.1)).map (fun c : Nat => (c, (c : ℝ) + 1)) := by
      rw [List.map_map]
      refine (List.map_id rs).symm.trans (List.map_congr_left fun a ha => ?_)
      exact Prod.ext rfl (hval a.1 a.2 ha).2
    rw [e, hmap]
    norm_num
  obtain ⟨-, -, hmem, hp, -⟩ := C58_holm hps
  have hlen : ps.length = 3 := by rw [C58_count hps, ht]; rfl
  have hcomp : ∀ c, c < 3 → Compared oddTable c := fun c h => compared_iff.1 (by rw [ht]; simp; omega)
  have hscore : scores oddTable 0 = [9] ∧ scores oddTable 1 = [7] ∧ scores oddTable 2 = [5] := by
    refine ⟨?_, ?_, ?_⟩ <;>
      simp [scores, oddTable, threeTable, rowsFor]
  have hpv : ∀ v ∈ ps, (v.c1 = 0 ∧ v.c2 = 1 ∧ v.p = 1) ∨ (v.c2 = 2 ∧ v.p = 0) := by
    intro v hv
    obtain ⟨h1, h2, h3⟩ := (hmem v.c1 v.c2).1 (List.mem_map.2 ⟨v, hv, rfl⟩)
    have hpp := hp v hv
    have a1 := compared_iff.2 h1
    have a2 := compared_iff.2 h2
    rw [ht] at a1 a2
    simp only [List.mem_cons, List.not_mem_nil, or_false] at a1 a2
    have : (v.c1 = 0 ∧ v.c2 = 2) ∨ (v.c1 = 0 ∧ v.c2 = 1) ∨ (v.c1 = 1 ∧ v.c2 = 2) := by omega
    rcases this with ⟨e1, e2⟩ | ⟨e1, e2⟩ | ⟨e1, e2⟩ <;> rw [e1, e2] at hpp
    · rw [hscore.1, hscore.2.2] at hpp
      right; exact ⟨e2, by simpa [pairStats] using hpp.symm⟩
    · rw [hscore.1, hscore.2.1] at hpp
      left; exact ⟨e1, e2, by simpa [pairStats] using hpp.symm⟩
    · rw [hscore.2.1, hscore.2.2] at hpp
      right; exact ⟨e2, by simpa [pairStats] using hpp.symm⟩
  have hsig0 : ∀ v ∈ ps, (v.sig = true ↔ v.p = 0) := by
    intro v hv
    constructor
    · intro hs
      have := (C58_between (by norm_num) hps hv).2 hs
      rcases hpv v hv with ⟨-, -, h⟩ | ⟨-, h⟩
      · rw [h] at this; norm_num at this
      · exact h
    · intro h0
      apply (C58_between (by norm_num) hps hv).1
      rw [h0, hlen]
      norm_num
  have h10 : NotDifferent ps 1 0 := by
    obtain ⟨v, hv, hv2⟩ := List.mem_map.1 ((hmem 0 1).2 ⟨hcomp 0 (by omega), hcomp 1 (by omega), by omega⟩)
    rw [Prod.mk.injEq] at hv2
    refine ⟨v, hv, ?_, Or.inr hv2⟩
    rcases hpv v hv with ⟨-, -, h⟩ | ⟨h, -⟩
    · by_contra hs
      have := (hsig0 v hv).1 (by simpa using hs)
      rw [h] at this
      norm_num at this
    · omega
  have h2x : ∀ c, ¬ NotDifferent ps 2 c := by
    rintro c ⟨v, hv, hs, hor⟩
    have : v.p = 0 := by
      rcases hpv v hv with ⟨h1, h2, -⟩ | ⟨-, h⟩
      · omega
      · exact h
    rw [(hsig0 v hv).2 this] at hs
    cases hs
  have hconv : ∀ (i i' j' j : Nat) (a a' b' b : Nat × ℝ), i ≤ i' → i' < j' → j' ≤ j → rs[i]? = some a →
      rs[i']? = some a' → rs[j']? = some b' → rs[j]? = some b → NotDifferent ps a.1 b.1 → NotDifferent ps a'.1 b'.1 := by
    intro i i' j' j a a' b' b h1 h2 h3 ha ha' hb' hb hn
    rw [hrs3] at ha ha' hb' hb
    have hj : j < 3 := by simpa using (List.getElem?_eq_some_iff.1 hb).1
    rcases Nat.eq_zero_or_pos i with rfl | hi
    · simp only [List.getElem?_cons_zero, Option.some.injEq] at ha
      subst ha
      exact absurd hn (h2x _)
    · obtain ⟨rfl, rfl, rfl, rfl⟩ : i = 1 ∧ i' = 1 ∧ j' = 2 ∧ j = 2 := by omega
      simp only [List.getElem?_cons_zero, List.getElem?_cons_succ, Option.some.injEq] at ha' hb'
      subst ha' hb'
      exact h10
  have key := fun {i j : Nat} {a b : Nat × ℝ} => C74_joined_iff_partial allCliques_law hne hfig hps hrs hconv (i := i) (j := j) (a := a) (b := b)
  refine ⟨fig, _, ps, rs, hfig, hps, hrs, by rw [hrs3]; rfl, ?_, ?_, ?_⟩
  · exact (key (i := 1) (j := 2) (by omega) (by rw [hrs3]; rfl) (by rw [hrs3]; rfl)).2 h10
  · exact fun h => h2x _ ((key (i := 0) (j := 1) (by omega) (by rw [hrs3]; rfl) (by rw [hrs3]; rfl)).1 h)
  · exact fun h => h2x _ ((key (i := 0) (j := 2) (by omega) (by rw [hrs3]; rfl) (by rw [hrs3]; rfl)).1 h)

end Convst.Props
