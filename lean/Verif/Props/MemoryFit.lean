import Verif.Proofs.MemoryFitAll
import Verif.Props.MissingFit
import Verif.Props.RoundedFit

/-!
# C112: `fit` at the level of memory

The four functions that extract shapelets share the arrays of their results and the mask of the subsequences already
drawn between the threads of their parallel loops. Here the threads perform their reads and writes one at a time, in any
interleaving. Whatever the interleaving: no access is outside of an array, no thread fails, the call ends, the arrays of
the caller are never written, and the shapelets returned are those of the sequential model (`Model/Fit.lean`), where the
generator of a thread passes from each of its iterations to the next.
-/

set_option autoImplicit false
set_option linter.unusedSectionVars false

namespace Convst.Props
open Convst Spec Mem

/-- Percentiles between 0 and 100. -/
def PercentsNf {L : Type} (a : FitArgs Nf L) : Prop :=
  ∃ p q : ℝ, a.pMin = .num p ∧ a.pMax = .num q ∧ 0 ≤ p ∧ p ≤ 100 ∧ 0 ≤ q ∧ q ≤ 100

theorem PercentsNf.safe {L : Type} {a : FitArgs Nf L} (h : PercentsNf a) : PercSafe a.pMin ∧ PercSafe a.pMax := by
  obtain ⟨p, q, h1, h2, h3, h4, h5, h6⟩ := h
  rw [h1, h2]
  exact ⟨percSafe_nf h3 h4, percSafe_nf h5 h6⟩

/-! ## Exact arithmetic with missing values -/

section
variable {G L : Type} [Gen G Nf] [LawfulNf G] [DecidableEq L]

/-- `fit` on univariate series of one length. -/
theorem C112_fit_univariate_same_length {h : Heap (Cell Nf)} {a : FitArgs Nf L}
    (hv : SafeSL a) (hp : PercentsNf a)
    {b : FitIn Nf L} (hb : FitHeld h b a) (g0 : G) {workers : Nat → List (List Nat × G)}
    (hw : ∀ n, Divides (workers n) n) :
    ∃ P g1 gs S, uInit a.nShp a.sizes a.nt a.pNorm a.prime g0 = .ok (P, g1) ∧
      PassesOn (UslLeaves a P) (workers (uniqueSorted P.dilations).length) gs ∧
      UslReturns h b P workers S ∧
      (∀ order, IsSchedule order → uslGenerate a g0 gs order = .ok S) ∧
      ULearned a.nShp a.sizes a.nt a.X.length (fun _ => a.nt) (seriesSL a) a.y
        (ThrFrom a.pMin a.pMax (Drawable G)) a.phase S := by
  obtain ⟨hp0, hp1⟩ := hp.safe
  obtain ⟨P, g1, gs, S, h1, h2, h3, h4⟩ := Mem.usl_memory hv (drawSafe_nf _) hp0 hp1 hb g0 hw
  obtain ⟨S', h5, h6⟩ := uslGenerate_safe nf_eqb_zero hv (drawSafe_nf _) hp0 hp1 g0 gs
  have e := (h4 (fun n => List.range n) fun n => List.Perm.refl _).symm.trans (h6 _ fun n => List.Perm.refl _)
  cases e
  exact ⟨P, g1, gs, S, h1, h2, h3, h4, h5⟩

/-- `fit` on univariate series of several lengths. -/
theorem C112_fit_univariate_variable_length {h : Heap (Cell Nf)} {a : FitArgs Nf L} {minLen : Nat} {xLen : List Nat}
    (hv : SafeVL a minLen xLen) (hp : PercentsNf a)
    {b : FitIn Nf L} (hb : FitHeld h b a) (g0 : G) {workers : Nat → List (List Nat × G)}
    (hw : ∀ n, Divides (workers n) n) :
    ∃ P g1 gs S, uInit a.nShp a.sizes minLen a.pNorm a.prime g0 = .ok (P, g1) ∧
      PassesOn (UvlLeaves a xLen P) (workers (uniqueSorted P.dilations).length) gs ∧
      UvlReturns h b xLen P workers S ∧
      (∀ order, IsSchedule order → uvlGenerate a minLen xLen g0 gs order = .ok S) ∧
      ULearned a.nShp a.sizes minLen a.X.length (fun s => xLen.getD s 0) (seriesVL a xLen) a.y
        (ThrFrom a.pMin a.pMax (Drawable G)) a.phase S := by
  obtain ⟨hp0, hp1⟩ := hp.safe
  obtain ⟨P, g1, gs, S, h1, h2, h3, h4⟩ := Mem.uvl_memory hv (drawSafe_nf _) hp0 hp1 hb g0 hw
  obtain ⟨S', h5, h6⟩ := uvlGenerate_safe nf_eqb_zero hv (drawSafe_nf _) hp0 hp1 g0 gs
  have e := (h4 (fun n => List.range n) fun n => List.Perm.refl _).symm.trans (h6 _ fun n => List.Perm.refl _)
  cases e
  exact ⟨P, g1, gs, S, h1, h2, h3, h4, h5⟩

/-- `fit` on multivariate series of one length. -/
theorem C112_fit_multivariate_same_length {h : Heap (Cell Nf)} {a : FitArgs Nf L}
    (hv : SafeSL a) (hp : PercentsNf a)
    {mc : Nat} (hmc : 1 ≤ mc) (hmcf : mc ≤ a.nf)
    {b : FitIn Nf L} (hb : FitHeld h b a) (g0 : G) {workers : Nat → List (List Nat × G)}
    (hw : ∀ n, Divides (workers n) n) :
    ∃ P g1 gs S, mInit a.nShp a.sizes a.nt a.pNorm mc a.prime g0 = .ok (P, g1) ∧
      PassesOn (MslLeaves a P) (workers (uniqueSorted P.dilations).length) gs ∧
      MslReturns h b P workers S ∧
      (∀ order, IsSchedule order → mslGenerate a mc g0 gs order = .ok S) ∧
      MLearned a.nShp a.sizes a.nt a.X.length a.nf mc (fun _ => a.nt) (seriesSL a) a.y
        (ThrFrom a.pMin a.pMax (Drawable G)) a.phase S := by
  obtain ⟨hp0, hp1⟩ := hp.safe
  obtain ⟨P, g1, gs, S, h1, h2, h3, h4⟩ := Mem.msl_memory hv hmc hmcf (drawSafe_nf _) hp0 hp1 hb g0 hw
  obtain ⟨S', h5, h6⟩ := mslGenerate_safe hv hmc hmcf (drawSafe_nf _) hp0 hp1 g0 gs
  have e := (h4 (fun n => List.range n) fun n => List.Perm.refl _).symm.trans (h6 _ fun n => List.Perm.refl _)
  cases e
  exact ⟨P, g1, gs, S, h1, h2, h3, h4, h5⟩

/-- `fit` on multivariate series of several lengths. -/
theorem C112_fit_multivariate_variable_length {h : Heap (Cell Nf)} {a : FitArgs Nf L} {minLen : Nat} {xLen : List Nat}
    (hv : SafeVL a minLen xLen) (hp : PercentsNf a)
    {mc : Nat} (hmc : 1 ≤ mc) (hmcf : mc ≤ a.nf)
    {b : FitIn Nf L} (hb : FitHeld h b a) (g0 : G) {workers : Nat → List (List Nat × G)}
    (hw : ∀ n, Divides (workers n) n) :
    ∃ P g1 gs S, mInit a.nShp a.sizes minLen a.pNorm mc a.prime g0 = .ok (P, g1) ∧
      PassesOn (MvlLeaves a xLen P) (workers (uniqueSorted P.dilations).length) gs ∧
      MvlReturns h b xLen P workers S ∧
      (∀ order, IsSchedule order → mvlGenerate a mc minLen xLen g0 gs order = .ok S) ∧
      MLearned a.nShp a.sizes minLen a.X.length a.nf mc (fun s => xLen.getD s 0) (seriesVL a xLen) a.y
        (ThrFrom a.pMin a.pMax (Drawable G)) a.phase S := by
  obtain ⟨hp0, hp1⟩ := hp.safe
  obtain ⟨P, g1, gs, S, h1, h2, h3, h4⟩ := Mem.mvl_memory hv hmc hmcf (drawSafe_nf _) hp0 hp1 hb g0 hw
  obtain ⟨S', h5, h6⟩ := mvlGenerate_safe hv hmc hmcf (drawSafe_nf _) hp0 hp1 g0 gs
  have e := (h4 (fun n => List.range n) fun n => List.Perm.refl _).symm.trans (h6 _ fun n => List.Perm.refl _)
  cases e
  exact ⟨P, g1, gs, S, h1, h2, h3, h4, h5⟩

end

/-! ## Rounded arithmetic -/

section
variable {r : Rounding} {δ : ℝ} {N : Nat} {G L : Type} [Gen G (Fl r)] [LawfulFl G] [DecidableEq L]

/-- `fit` on univariate series of one length. -/
theorem C112_fit_univariate_same_length_rounded {h : Heap (Cell (Fl r))} {a : FitArgs (Fl r) L}
    (hv : SafeSL a) (hr : Accurate r δ N) (hn : a.nt ≤ N + 1)
    (hN : 100 ≤ N) (hp0 : PercentileOK r a.pMin.val) (hp1 : PercentileOK r a.pMax.val)
    {b : FitIn (Fl r) L} (hb : FitHeld h b a) (g0 : G) {workers : Nat → List (List Nat × G)}
    (hw : ∀ n, Divides (workers n) n) :
    ∃ P g1 gs S, uInit a.nShp a.sizes a.nt a.pNorm a.prime g0 = .ok (P, g1) ∧
      PassesOn (UslLeaves a P) (workers (uniqueSorted P.dilations).length) gs ∧
      UslReturns h b P workers S ∧
      (∀ order, IsSchedule order → uslGenerate a g0 gs order = .ok S) ∧
      ULearned a.nShp a.sizes a.nt a.X.length (fun _ => a.nt) (seriesSL a) a.y
        (ThrFrom a.pMin a.pMax (Drawable G)) a.phase S := by
  have h100 : r.rnd 100 = 100 := by exact_mod_cast hr.nat 100 hN
  replace hp0 := percSafe_fl h100 hp0
  replace hp1 := percSafe_fl h100 hp1
  obtain ⟨P, g1, gs, S, h1, h2, h3, h4⟩ := Mem.usl_memory hv (drawSafe_fl hr hn) hp0 hp1 hb g0 hw
  obtain ⟨S', h5, h6⟩ := uslGenerate_safe fl_eqb_zero hv (drawSafe_fl hr hn) hp0 hp1 g0 gs
  have e := (h4 (fun n => List.range n) fun n => List.Perm.refl _).symm.trans (h6 _ fun n => List.Perm.refl _)
  cases e
  exact ⟨P, g1, gs, S, h1, h2, h3, h4, h5⟩

/-- `fit` on univariate series of several lengths. -/
theorem C112_fit_univariate_variable_length_rounded {h : Heap (Cell (Fl r))} {a : FitArgs (Fl r) L} {minLen : Nat} {xLen : List Nat}
    (hv : SafeVL a minLen xLen) (hr : Accurate r δ N) (hn : minLen ≤ N + 1)
    (hN : 100 ≤ N) (hp0 : PercentileOK r a.pMin.val) (hp1 : PercentileOK r a.pMax.val)
    {b : FitIn (Fl r) L} (hb : FitHeld h b a) (g0 : G) {workers : Nat → List (List Nat × G)}
    (hw : ∀ n, Divides (workers n) n) :
    ∃ P g1 gs S, uInit a.nShp a.sizes minLen a.pNorm a.prime g0 = .ok (P, g1) ∧
      PassesOn (UvlLeaves a xLen P) (workers (uniqueSorted P.dilations).length) gs ∧
      UvlReturns h b xLen P workers S ∧
      (∀ order, IsSchedule order → uvlGenerate a minLen xLen g0 gs order = .ok S) ∧
      ULearned a.nShp a.sizes minLen a.X.length (fun s => xLen.getD s 0) (seriesVL a xLen) a.y
        (ThrFrom a.pMin a.pMax (Drawable G)) a.phase S := by
  have h100 : r.rnd 100 = 100 := by exact_mod_cast hr.nat 100 hN
  replace hp0 := percSafe_fl h100 hp0
  replace hp1 := percSafe_fl h100 hp1
  obtain ⟨P, g1, gs, S, h1, h2, h3, h4⟩ := Mem.uvl_memory hv (drawSafe_fl hr hn) hp0 hp1 hb g0 hw
  obtain ⟨S', h5, h6⟩ := uvlGenerate_safe fl_eqb_zero hv (drawSafe_fl hr hn) hp0 hp1 g0 gs
  have e := (h4 (fun n => List.range n) fun n => List.Perm.refl _).symm.trans (h6 _ fun n => List.Perm.refl _)
  cases e
  exact ⟨P, g1, gs, S, h1, h2, h3, h4, h5⟩

/-- `fit` on multivariate series of one length. -/
theorem C112_fit_multivariate_same_length_rounded {h : Heap (Cell (Fl r))} {a : FitArgs (Fl r) L}
    (hv : SafeSL a) (hr : Accurate r δ N) (hn : a.nt ≤ N + 1)
    (hN : 100 ≤ N) (hp0 : PercentileOK r a.pMin.val) (hp1 : PercentileOK r a.pMax.val)
    {mc : Nat} (hmc : 1 ≤ mc) (hmcf : mc ≤ a.nf)
    {b : FitIn (Fl r) L} (hb : FitHeld h b a) (g0 : G) {workers : Nat → List (List Nat × G)}
    (hw : ∀ n, Divides (workers n) n) :
    ∃ P g1 gs S, mInit a.nShp a.sizes a.nt a.pNorm mc a.prime g0 = .ok (P, g1) ∧
      PassesOn (MslLeaves a P) (workers (uniqueSorted P.dilations).length) gs ∧
      MslReturns h b P workers S ∧
      (∀ order, IsSchedule order → mslGenerate a mc g0 gs order = .ok S) ∧
      MLearned a.nShp a.sizes a.nt a.X.length a.nf mc (fun _ => a.nt) (seriesSL a) a.y
        (ThrFrom a.pMin a.pMax (Drawable G)) a.phase S := by
  have h100 : r.rnd 100 = 100 := by exact_mod_cast hr.nat 100 hN
  replace hp0 := percSafe_fl h100 hp0
  replace hp1 := percSafe_fl h100 hp1
  obtain ⟨P, g1, gs, S, h1, h2, h3, h4⟩ := Mem.msl_memory hv hmc hmcf (drawSafe_fl hr hn) hp0 hp1 hb g0 hw
  obtain ⟨S', h5, h6⟩ := mslGenerate_safe hv hmc hmcf (drawSafe_fl hr hn) hp0 hp1 g0 gs
  have e := (h4 (fun n => List.range n) fun n => List.Perm.refl _).symm.trans (h6 _ fun n => List.Perm.refl _)
  cases e
  exact ⟨P, g1, gs, S, h1, h2, h3, h4, h5⟩

/-- `fit` on multivariate series of several lengths. -/
theorem C112_fit_multivariate_variable_length_rounded {h : Heap (Cell (Fl r))} {a : FitArgs (Fl r) L} {minLen : Nat} {xLen : List Nat}
    (hv : SafeVL a minLen xLen) (hr : Accurate r δ N) (hn : minLen ≤ N + 1)
    (hN : 100 ≤ N) (hp0 : PercentileOK r a.pMin.val) (hp1 : PercentileOK r a.pMax.val)
    {mc : Nat} (hmc : 1 ≤ mc) (hmcf : mc ≤ a.nf)
    {b : FitIn (Fl r) L} (hb : FitHeld h b a) (g0 : G) {workers : Nat → List (List Nat × G)}
    (hw : ∀ n, Divides (workers n) n) :
    ∃ P g1 gs S, mInit a.nShp a.sizes minLen a.pNorm mc a.prime g0 = .ok (P, g1) ∧
      PassesOn (MvlLeaves a xLen P) (workers (uniqueSorted P.dilations).length) gs ∧
      MvlReturns h b xLen P workers S ∧
      (∀ order, IsSchedule order → mvlGenerate a mc minLen xLen g0 gs order = .ok S) ∧
      MLearned a.nShp a.sizes minLen a.X.length a.nf mc (fun s => xLen.getD s 0) (seriesVL a xLen) a.y
        (ThrFrom a.pMin a.pMax (Drawable G)) a.phase S := by
  have h100 : r.rnd 100 = 100 := by exact_mod_cast hr.nat 100 hN
  replace hp0 := percSafe_fl h100 hp0
  replace hp1 := percSafe_fl h100 hp1
  obtain ⟨P, g1, gs, S, h1, h2, h3, h4⟩ := Mem.mvl_memory hv hmc hmcf (drawSafe_fl hr hn) hp0 hp1 hb g0 hw
  obtain ⟨S', h5, h6⟩ := mvlGenerate_safe hv hmc hmcf (drawSafe_fl hr hn) hp0 hp1 g0 gs
  have e := (h4 (fun n => List.range n) fun n => List.Perm.refl _).symm.trans (h6 _ fun n => List.Perm.refl _)
  cases e
  exact ⟨P, g1, gs, S, h1, h2, h3, h4, h5⟩

end

/-! ## Concrete calls -/

/-- Two univariate series of five points, side by side in one buffer of the caller. -/
def fitMem {K : Type} (f : Nat → K) : Heap (Cell K) :=
  ⟨[[.num (f 0), .num (f 1), .num (f 2), .num (f 3), .num (f 4),
    .num (f 5), .num (f 6), .num (f 7), .num (f 8), .num (f 9)]]⟩

/-- The arguments of a call on them; `pn`, `al`, `p` and `q` are `p_norm`, `alpha` and the percentiles. -/
def fitMemArgs {K : Type} (f : Nat → K) (pn al p q : K) : FitArgs K Nat where
  X := [[[f 0, f 1, f 2, f 3, f 4]], [[f 5, f 6, f 7, f 8, f 9]]]
  nf := 1
  nt := 5
  y := [0, 1]
  nShp := 3
  sizes := [3, 2]
  pNorm := pn
  pMin := p
  pMax := q
  alpha := al
  phase := false
  prime := true

/-- The same arguments, the series being in memory. -/
def fitMemIn {K : Type} (pn al p q : K) : FitIn K Nat where
  X := [⟨0, 1, 5, fun _ t => t⟩, ⟨0, 1, 5, fun _ t => 5 + t⟩]
  nf := 1
  nt := 5
  y := [0, 1]
  nShp := 3
  sizes := [3, 2]
  pNorm := pn
  pMin := p
  pMax := q
  alpha := al
  phase := false
  prime := true

theorem fitMem_held {K : Type} (f : Nat → K) (pn al p q : K) :
    FitHeld (fitMem f) (fitMemIn pn al p q) (fitMemArgs f pn al p q) where
  samples := rfl
  series s c t v x row e hv hx hr he := by
    simp only [fitMemIn, fitMemArgs] at hv hx
    rcases s with _ | _ | s <;> simp only [List.getElem?_cons_zero, List.getElem?_cons_succ, List.getElem?_nil,
      Option.some.injEq, reduceCtorEq] at hv hx <;> subst hv <;> subst hx <;> rcases c with _ | c <;>
      simp only [List.getElem?_cons_zero, List.getElem?_cons_succ, List.getElem?_nil,
      Option.some.injEq, reduceCtorEq] at hr <;> subst hr <;>
      rcases t with _ | _ | _ | _ | _ | t <;> simp only [List.getElem?_cons_zero, List.getElem?_cons_succ,
      List.getElem?_nil, Option.some.injEq, reduceCtorEq] at he <;> subst he <;> rfl
  nf := rfl
  nt := rfl
  y := rfl
  nShp := rfl
  sizes := rfl
  pNorm := rfl
  pMin := rfl
  pMax := rfl
  alpha := rfl
  phase := rfl
  prime := rfl

theorem fitMem_safe {K : Type} (f : Nat → K) (pn al p q : K) : SafeSL (fitMemArgs f pn al p q) where
  data := ⟨rfl, by simp [fitMemArgs], by simp [fitMemArgs]⟩
  nf := le_rfl
  nShp := by show 1 ≤ 3; omega
  sizes := by simp [fitMemArgs]
  bounds := by simp [fitMemArgs]

theorem fitMem_safeVL {K : Type} (f : Nat → K) (pn al p q : K) : SafeVL (fitMemArgs f pn al p q) 4 [5, 4] where
  data := ⟨rfl, rfl, by simp [fitMemArgs], by simp [fitMemArgs], by simp [fitMemArgs], by simp⟩
  ne := by simp [fitMemArgs]
  nf := le_rfl
  nShp := by show 1 ≤ 3; omega
  sizes := by simp [fitMemArgs]
  bounds := by simp [fitMemArgs]

/-- Ten values, two of them missing. -/
noncomputable def fitMemNf (k : Nat) : Nf := if k = 2 ∨ k = 6 then .nan else .num (k * k - 3 * k)

theorem fitMem_percents : PercentsNf (fitMemArgs fitMemNf (.num (1 / 2)) (.num (1 / 2)) (.num 5) (.num 10)) :=
  ⟨5, 10, rfl, rfl, by norm_num, by norm_num, by norm_num, by norm_num⟩

/-- One worker for every iteration, the last iteration first. -/
def eachAlone {G : Type} (g : G) (n : Nat) : List (List Nat × G) := (List.range n).reverse.map fun i => ([i], g)

theorem eachAlone_divides {G : Type} (g : G) (n : Nat) : Divides (eachAlone g n) n := by
  have h : ∀ l : List Nat, (l.map fun i => ([i], g)).flatMap Prod.fst = l := by
    intro l
    induction l with
    | nil => rfl
    | cons x l ih => simpa using ih
  unfold Divides eachAlone
  rw [h]
  exact List.reverse_perm _

example : ∃ P S, UslReturns (fitMem fitMemNf) (fitMemIn (.num (1 / 2)) (.num (1 / 2)) (.num 5) (.num 10)) P
    (eachAlone (⟨⟩ : NfGen)) S ∧ S.lengths.length ≤ 3 := by
  obtain ⟨P, _, _, S, -, -, h1, -, h2⟩ := C112_fit_univariate_same_length (fitMem_safe _ _ _ _ _) fitMem_percents
    (fitMem_held _ _ _ _ _) (⟨⟩ : NfGen) (eachAlone_divides _)
  exact ⟨P, S, h1, h2.count⟩

example : ∃ P S, UslReturns (fitMem fun k => (Fl.mk k : Fl Rounding.double))
    (fitMemIn (Fl.mk (1 / 2)) (Fl.mk (1 / 2)) (Fl.mk 5) (Fl.mk 10)) P
    (eachAlone (⟨⟩ : HalfGen)) S ∧ S.lengths.length ≤ 3 := by
  obtain ⟨P, _, _, S, -, -, h1, -, h2⟩ := C112_fit_univariate_same_length_rounded (fitMem_safe _ _ _ _ _) C100_double_accurate
    (by show 5 ≤ 2 ^ 40 + 1; norm_num) (by norm_num)
    (C100_double_percentile (show (0 : ℝ) ≤ 5 by norm_num) (Or.inr (show (5 : ℝ) ≤ _ by norm_num)))
    (C100_double_percentile (show (0 : ℝ) ≤ 10 by norm_num) (Or.inr (show (10 : ℝ) ≤ _ by norm_num)))
    (fitMem_held _ _ _ _ _) (⟨⟩ : HalfGen) (eachAlone_divides _)
  exact ⟨P, S, h1, h2.count⟩

example : ∃ P S, UvlReturns (fitMem fitMemNf) (fitMemIn (.num (1 / 2)) (.num (1 / 2)) (.num 5) (.num 10)) [5, 4] P
    (eachAlone (⟨⟩ : NfGen)) S ∧ S.lengths.length ≤ 3 := by
  obtain ⟨P, _, _, S, -, -, h1, -, h2⟩ := C112_fit_univariate_variable_length (fitMem_safeVL _ _ _ _ _) fitMem_percents
    (fitMem_held _ _ _ _ _) (⟨⟩ : NfGen) (eachAlone_divides _)
  exact ⟨P, S, h1, h2.count⟩

example : ∃ P S, UvlReturns (fitMem fun k => (Fl.mk k : Fl Rounding.double))
    (fitMemIn (Fl.mk (1 / 2)) (Fl.mk (1 / 2)) (Fl.mk 5) (Fl.mk 10)) [5, 4] P
    (eachAlone (⟨⟩ : HalfGen)) S ∧ S.lengths.length ≤ 3 := by
  obtain ⟨P, _, _, S, -, -, h1, -, h2⟩ := C112_fit_univariate_variable_length_rounded (fitMem_safeVL _ _ _ _ _) C100_double_accurate
    (by norm_num) (by norm_num)
    (C100_double_percentile (show (0 : ℝ) ≤ 5 by norm_num) (Or.inr (show (5 : ℝ) ≤ _ by norm_num)))
    (C100_double_percentile (show (0 : ℝ) ≤ 10 by norm_num) (Or.inr (show (10 : ℝ) ≤ _ by norm_num)))
    (fitMem_held _ _ _ _ _) (⟨⟩ : HalfGen) (eachAlone_divides _)
  exact ⟨P, S, h1, h2.count⟩

example : ∃ P S, MslReturns (fitMem fitMemNf) (fitMemIn (.num (1 / 2)) (.num (1 / 2)) (.num 5) (.num 10)) P
    (eachAlone (⟨⟩ : NfGen)) S ∧ S.lengths.length ≤ 3 := by
  obtain ⟨P, _, _, S, -, -, h1, -, h2⟩ := C112_fit_multivariate_same_length (fitMem_safe _ _ _ _ _) fitMem_percents (mc := 1) le_rfl le_rfl
    (fitMem_held _ _ _ _ _) (⟨⟩ : NfGen) (eachAlone_divides _)
  exact ⟨P, S, h1, h2.count⟩

example : ∃ P S, MslReturns (fitMem fun k => (Fl.mk k : Fl Rounding.double))
    (fitMemIn (Fl.mk (1 / 2)) (Fl.mk (1 / 2)) (Fl.mk 5) (Fl.mk 10)) P
    (eachAlone (⟨⟩ : HalfGen)) S ∧ S.lengths.length ≤ 3 := by
  obtain ⟨P, _, _, S, -, -, h1, -, h2⟩ := C112_fit_multivariate_same_length_rounded (fitMem_safe _ _ _ _ _) C100_double_accurate
    (by show 5 ≤ 2 ^ 40 + 1; norm_num) (by norm_num)
    (C100_double_percentile (show (0 : ℝ) ≤ 5 by norm_num) (Or.inr (show (5 : ℝ) ≤ _ by norm_num)))
    (C100_double_percentile (show (0 : ℝ) ≤ 10 by norm_num) (Or.inr (show (10 : ℝ) ≤ _ by norm_num))) (mc := 1) le_rfl le_rfl
    (fitMem_held _ _ _ _ _) (⟨⟩ : HalfGen) (eachAlone_divides _)
  exact ⟨P, S, h1, h2.count⟩

example : ∃ P S, MvlReturns (fitMem fitMemNf) (fitMemIn (.num (1 / 2)) (.num (1 / 2)) (.num 5) (.num 10)) [5, 4] P
    (eachAlone (⟨⟩ : NfGen)) S ∧ S.lengths.length ≤ 3 := by
  obtain ⟨P, _, _, S, -, -, h1, -, h2⟩ := C112_fit_multivariate_variable_length (fitMem_safeVL _ _ _ _ _) fitMem_percents (mc := 1) le_rfl le_rfl
    (fitMem_held _ _ _ _ _) (⟨⟩ : NfGen) (eachAlone_divides _)
  exact ⟨P, S, h1, h2.count⟩

example : ∃ P S, MvlReturns (fitMem fun k => (Fl.mk k : Fl Rounding.double))
    (fitMemIn (Fl.mk (1 / 2)) (Fl.mk (1 / 2)) (Fl.mk 5) (Fl.mk 10)) [5, 4] P
    (eachAlone (⟨⟩ : HalfGen)) S ∧ S.lengths.length ≤ 3 := by
  obtain ⟨P, _, _, S, -, -, h1, -, h2⟩ := C112_fit_multivariate_variable_length_rounded (fitMem_safeVL _ _ _ _ _) C100_double_accurate
    (by norm_num) (by norm_num)
    (C100_double_percentile (show (0 : ℝ) ≤ 5 by norm_num) (Or.inr (show (5 : ℝ) ≤ _ by norm_num)))
    (C100_double_percentile (show (0 : ℝ) ≤ 10 by norm_num) (Or.inr (show (10 : ℝ) ≤ _ by norm_num))) (mc := 1) le_rfl le_rfl
    (fitMem_held _ _ _ _ _) (⟨⟩ : HalfGen) (eachAlone_divides _)
  exact ⟨P, S, h1, h2.count⟩

end Convst.Props
