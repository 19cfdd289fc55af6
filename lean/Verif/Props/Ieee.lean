import Verif.Proofs.Ieee
import Verif.Proofs.Rounded
import Verif.Proofs.Rows
import Verif.Props.Missing

/-!
# Overflow, underflow and infinite values (C110)

`Ieee F` (`Verif/Model/Ieee.lean`) is floating-point arithmetic with a bounded range; `Fl F.r` is the same arithmetic
with an unbounded range, in which C95 bounds the errors.  `InfiniteFeatures`, `PassedOver`, `UBad`, `MBad`, `HitInf`
and `HitAny` (`Verif/Spec/Ieee.lean`) say what is expected.
-/

set_option autoImplicit false
set_option linter.unusedSectionVars false

namespace Convst.Props
open Convst Spec

variable {R : Type} {F : FloatFormat}

theorem ieee_uwf {S : UShp (Fl F.r)} (h : UWF S) : UWF S.ieee where
  values := by simpa [UShp.ieee] using h.values
  dilations := h.dilations
  threshold := by simpa [UShp.ieee] using h.threshold
  normalize := h.normalize
  pos := h.pos
  room := by
    intro k hk
    have := h.room k hk
    have hv : k < S.values.length := by rw [h.values]; exact hk
    show S.lengths.getD k 0 ≤ ((S.values.map fun v => v.map Fl.ieee).getD k []).length
    have e : (S.values.map fun v => v.map Fl.ieee).getD k [] = (S.values.getD k []).map Fl.ieee := by
      rw [getD_lt _ (by simpa using hv), getD_lt _ hv, List.getElem_map]
    rw [e, List.length_map]
    exact this

theorem ieee_mwf {S : MShp (Fl F.r)} {nf : Nat} (h : MWF S nf) : MWF S.ieee nf where
  dilations := h.dilations
  threshold := by simpa [MShp.ieee] using h.threshold
  normalize := h.normalize
  nChannels := h.nChannels
  pos := h.pos
  values := by
    show (S.values.map Fl.ieee).length = _
    rw [List.length_map]; exact h.values
  channels := h.channels
  range := h.range

/-! ## Distances in the unbounded range -/

theorem fl_foldl_nonneg {r : Rounding} (is : List Nat) (g : Nat → Fl r) (h : ∀ j, 0 ≤ (g j).val) (a : Fl r)
    (ha : 0 ≤ a.val) : 0 ≤ (is.foldl (fun s j => s + g j) a).val := by
  induction is generalizing a with
  | nil => exact ha
  | cons j is ih => exact ih _ (r.nonneg (add_nonneg ha (h j)))

theorem fl_l1_nonneg {r : Rounding} (w v : List (Fl r)) : 0 ≤ (l1 w v).val :=
  fl_foldl_nonneg _ (fun j => Scalar.abs (w.getD j 0 - v.getD j 0)) (fun _ => abs_nonneg _) 0 le_rfl

theorem fl_uDistances_nonneg {r : Rounding} (phase : Bool) (S : UShp (Fl r)) (z : List (Fl r)) (k : Nat) :
    ∀ d ∈ (uDistances phase S z k).map Fl.val, 0 ≤ d := by
  intro d hd
  obtain ⟨a, ha, rfl⟩ := List.mem_map.1 hd
  obtain ⟨i, -, rfl⟩ := List.mem_map.1 ha
  exact fl_l1_nonneg _ _

theorem fl_mDistances_nonneg {r : Rounding} (phase : Bool) (S : MShp (Fl r)) (z : List (List (Fl r))) (T k : Nat) :
    ∀ d ∈ (mDistances phase S z T k).map Fl.val, 0 ≤ d := by
  intro d hd
  obtain ⟨a, ha, rfl⟩ := List.mem_map.1 hd
  obtain ⟨i, -, rfl⟩ := List.mem_map.1 ha
  exact fl_foldl_nonneg _ _ (fun _ => fl_l1_nonneg _ _) 0 le_rfl

theorem uFeatures_ieee (phase : Bool) (S : UShp (Fl F.r)) {x : List (Ieee F)} {z : List (Fl F.r)}
    (hz : FiniteParts z x) (hx : OnGrid x) (hn : NoNan x) {k : Nat} (hk : S.normalize.getD k false = false)
    (hv : ∀ a ∈ uValues S k, a.val ∈ F.grid)
    (hw : HasWindow phase x.length (S.lengths.getD k 0) (S.dilations.getD k 0)) :
    InfiniteFeatures ((uDistances phase S z k).map Fl.val) (UBad phase S x z k) (S.threshold.getD k 0).val
      (uFeatures phase S.ieee x k) := by
  unfold uFeatures
  rw [uDistances_ieee phase S hz hx hn hk hv, ieee_threshold]
  refine features_infMask ?_ (fl_uDistances_nonneg phase S z k) _ _
  apply List.ne_nil_of_length_pos
  simp only [uDistances, distances, List.length_map, List.length_range, hz.1]
  exact nWin_pos hw

theorem mFeatures_ieee (phase : Bool) (S : MShp (Fl F.r)) {x : List (List (Ieee F))} {z : List (List (Fl F.r))}
    {T : Nat} (hz : ∀ c, FiniteParts (z.getD c []) (x.getD c [])) (hx : ∀ c, OnGrid (x.getD c []))
    (hn : ∀ c, NoNan (x.getD c [])) {k : Nat} (hk : S.normalize.getD k false = false)
    (hv : ∀ c, ∀ a ∈ mValues S k c, a.val ∈ F.grid)
    (hw : HasWindow phase T (S.lengths.getD k 0) (S.dilations.getD k 0)) :
    InfiniteFeatures ((mDistances phase S z T k).map Fl.val) (MBad phase S x z T k) (S.threshold.getD k 0).val
      (mFeatures phase S.ieee x T k) := by
  unfold mFeatures
  rw [mDistances_ieee phase S hz hx hn hk hv, ieee_mthreshold]
  refine features_infMask ?_ (fl_mDistances_nonneg phase S z T k) _ _
  apply List.ne_nil_of_length_pos
  simp only [mDistances, List.length_map, List.length_range]
  exact nWin_pos hw

/-! ## Shapelets that are not normalised -/

/-- **C110.** Univariate model, every kind of input.  For a shapelet that is not normalised, the windows with an
infinite value and those whose distance overflows are at an infinite distance: they are neither counted nor
returned as the closest, unless there is no other.  At the other windows the distance is the one computed with an
unbounded range (`uDistances` on the finite values `z`), for which C95 bounds the error: nothing is lost by
underflow. -/
theorem C110_univariate {o : Rdst (Ieee F) R} {S : UShp (Fl F.r)} (hS : o.shapelets = some (.u S.ieee))
    (hwf : UWF S) (hgrid : ∀ v ∈ S.values, ∀ a ∈ v, a.val ∈ F.grid) {X : XIn (Ieee F)} (hX : X.WF)
    {xs : List (Mat (Ieee F))} (hxs : samples X = .ok xs) {nf : Nat} (hnf : ∀ x ∈ xs, x.rows.length = nf)
    {M : List (List (Ieee F))} (h : o.transform X = .ok M) :
    M.length = xs.length ∧ ∀ (i : Nat) x row, xs[i]? = some x → M[i]? = some row →
      OnGrid (x.rows.getD 0 []) → NoNan (x.rows.getD 0 []) → ∀ z, FiniteParts z (x.rows.getD 0 []) →
      (∀ k, k < S.lengths.length →
        HasWindow o.phase (x.rows.getD 0 []).length (S.lengths.getD k 0) (S.dilations.getD k 0)) →
      RowShows row S.lengths.length fun k f => S.normalize.getD k false = false →
        InfiniteFeatures ((uDistances o.phase S z k).map Fl.val) (UBad o.phase S (x.rows.getD 0 []) z k)
          (S.threshold.getD k 0).val f := by
  obtain ⟨rfl, -⟩ := transform_rows hS (nf := nf) (ieee_uwf hwf) hX hxs hnf h
  refine ⟨by simp, fun i x row hx hrow hg hn z hz hw => ?_⟩
  rw [List.getElem?_map, hx] at hrow
  cases hrow
  refine rowShows_flatMap _ _ fun k hk hnorm => uFeatures_ieee o.phase S hz hg hn hnorm ?_ (hw k hk)
  intro a ha
  have hmem := List.mem_of_mem_take ha
  have hlt : k < S.values.length := by rw [hwf.values]; exact hk
  rw [getD_lt _ hlt] at hmem
  exact hgrid _ (List.getElem_mem hlt) a hmem

/-- **C110.** Multivariate model, every kind of input: an infinite value counts when it is in a channel of the
shapelet. -/
theorem C110_multivariate {o : Rdst (Ieee F) R} {S : MShp (Fl F.r)} (hS : o.shapelets = some (.m S.ieee))
    {nf : Nat} (hwf : MWF S nf) (hgrid : ∀ a ∈ S.values, a.val ∈ F.grid) {X : XIn (Ieee F)} (hX : X.WF)
    {xs : List (Mat (Ieee F))} (hxs : samples X = .ok xs) (hnf : ∀ x ∈ xs, x.rows.length = nf)
    {M : List (List (Ieee F))} (h : o.transform X = .ok M) :
    M.length = xs.length ∧ ∀ (i : Nat) x row, xs[i]? = some x → M[i]? = some row →
      (∀ c, OnGrid (x.rows.getD c [])) → (∀ c, NoNan (x.rows.getD c [])) →
      ∀ z : List (List (Fl F.r)), (∀ c, FiniteParts (z.getD c []) (x.rows.getD c [])) →
      (∀ k, k < S.lengths.length → HasWindow o.phase x.len (S.lengths.getD k 0) (S.dilations.getD k 0)) →
      RowShows row S.lengths.length fun k f => S.normalize.getD k false = false →
        InfiniteFeatures ((mDistances o.phase S z x.len k).map Fl.val) (MBad o.phase S x.rows z x.len k)
          (S.threshold.getD k 0).val f := by
  obtain ⟨rfl, -⟩ := transform_rows hS (nf := nf) (ieee_mwf hwf) hX hxs hnf h
  refine ⟨by simp, fun i x row hx hrow hg hn z hz hw => ?_⟩
  rw [List.getElem?_map, hx] at hrow
  cases hrow
  refine rowShows_flatMap _ _ fun k hk hnorm => mFeatures_ieee o.phase S hz hg hn hnorm ?_ (hw k hk)
  intro c a ha
  exact hgrid a (List.mem_of_mem_drop (List.mem_of_mem_take ha))

/-! ## Normalised shapelets -/

/-- **C110.** Normalised shapelets, univariate model: a window with an infinite value is treated like one with a
missing value (C105), because normalising it gives `NaN` only.  So it is never counted and never the closest one,
but the minimum is `NaN` as soon as it is the first window. -/
theorem C110_normalised_univariate {o : Rdst (Ieee F) R} {S : UShp (Ieee F)} (hS : o.shapelets = some (.u S))
    (hwf : UWF S) {X : XIn (Ieee F)} (hX : X.WF) {xs : List (Mat (Ieee F))} (hxs : samples X = .ok xs)
    {nf : Nat} (hnf : ∀ x ∈ xs, x.rows.length = nf) {M : List (List (Ieee F))} (h : o.transform X = .ok M) :
    M.length = xs.length ∧ ∀ (i : Nat) x row, xs[i]? = some x → M[i]? = some row →
      (∀ k, k < S.lengths.length →
        HasWindow o.phase (x.rows.getD 0 []).length (S.lengths.getD k 0) (S.dilations.getD k 0)) →
      RowShows row S.lengths.length fun k f => S.normalize.getD k false = true →
        PassedOver (nWin o.phase (x.rows.getD 0 []).length (S.lengths.getD k 0) (S.dilations.getD k 0))
          (HitAny o.phase (x.rows.getD 0 []) (S.lengths.getD k 0) (S.dilations.getD k 0)) f := by
  obtain ⟨rfl, -⟩ := transform_rows hS (nf := nf) hwf hX hxs hnf h
  refine ⟨by simp, fun i x row hx hrow hw => ?_⟩
  rw [List.getElem?_map, hx] at hrow
  cases hrow
  exact rowShows_flatMap _ _ fun k hk hnorm => uPassedOver o.phase S _ hnorm (nWin_pos (hw k hk))

/-- **C110.** Normalised shapelets, multivariate model. -/
theorem C110_normalised_multivariate {o : Rdst (Ieee F) R} {S : MShp (Ieee F)} (hS : o.shapelets = some (.m S))
    {nf : Nat} (hwf : MWF S nf) {X : XIn (Ieee F)} (hX : X.WF) {xs : List (Mat (Ieee F))}
    (hxs : samples X = .ok xs) (hnf : ∀ x ∈ xs, x.rows.length = nf) {M : List (List (Ieee F))}
    (h : o.transform X = .ok M) :
    M.length = xs.length ∧ ∀ (i : Nat) x row, xs[i]? = some x → M[i]? = some row →
      (∀ k, k < S.lengths.length → HasWindow o.phase x.len (S.lengths.getD k 0) (S.dilations.getD k 0)) →
      RowShows row S.lengths.length fun k f => S.normalize.getD k false = true →
        PassedOver (nWin o.phase x.len (S.lengths.getD k 0) (S.dilations.getD k 0))
          (fun i => ∃ c ∈ mChannels S k,
            HitAny o.phase (x.rows.getD c []) (S.lengths.getD k 0) (S.dilations.getD k 0) i) f := by
  obtain ⟨rfl, -⟩ := transform_rows hS (nf := nf) hwf hX hxs hnf h
  refine ⟨by simp, fun i x row hx hrow hw => ?_⟩
  rw [List.getElem?_map, hx] at hrow
  cases hrow
  exact rowShows_flatMap _ _ fun k hk hnorm => mPassedOver o.phase S _ hnorm (nWin_pos (hw k hk))

/-! ## When the range does not matter -/

/-- Shapelets in the bounded range. -/
def shpIeee (S : Shapelets (Fl F.r)) : Shapelets (Ieee F) :=
  match S with
  | .u S => .u S.ieee
  | .m S => .m S.ieee

/-- A series in the bounded range. -/
def matIeee (x : Mat (Fl F.r)) : Mat (Ieee F) := ⟨x.rows.map fun row => row.map Fl.ieee, x.len⟩

/-- The numbers of the shapelets are numbers of the format. -/
def ShpGrid (S : Shapelets (Fl F.r)) : Prop :=
  match S with
  | .u S => ∀ v ∈ S.values, ∀ a ∈ v, a.val ∈ F.grid
  | .m S => ∀ a ∈ S.values, a.val ∈ F.grid

/-- No shapelet is normalised, and all thresholds are below the overflow threshold. -/
def Plain (S : Shapelets (Fl F.r)) : Prop :=
  match S with
  | .u S => ∀ k, k < S.lengths.length → S.normalize.getD k false = false ∧ (S.threshold.getD k 0).val < F.top
  | .m S => ∀ k, k < S.lengths.length → S.normalize.getD k false = false ∧ (S.threshold.getD k 0).val < F.top

/-- Every shapelet has, in the series, a window at a distance below the overflow threshold. -/
def InRange (phase : Bool) (S : Shapelets (Fl F.r)) (x : Mat (Fl F.r)) : Prop :=
  match S with
  | .u S => ∀ k, k < S.lengths.length → ∃ d ∈ uDistances phase S (x.rows.getD 0 []) k, d.val < F.top
  | .m S => ∀ k, k < S.lengths.length → ∃ d ∈ mDistances phase S x.rows x.len k, d.val < F.top

theorem ofNat_over (n : Nat) : (Scalar.ofNat n : Ieee F) = Ieee.over (Scalar.ofNat n : Fl F.r).val := by
  show Ieee.over (F.rnd n) = Ieee.over (F.r.rnd n)
  rw [F.rnd_nat]

open Classical in
/-- Features of which the minimum does not overflow. -/
theorem features_over {D : List (Fl F.r)} (hD : ∀ d ∈ D.map Fl.val, 0 ≤ d) {d : Fl F.r} (hd : d ∈ D)
    (hlt : d.val < F.top) {thr : Fl F.r} (ht : thr.val < F.top) {bad : Nat → Prop}
    (hbad : ∀ i, bad i ↔ F.top ≤ (D.getD i 0).val) {f : Feat (Ieee F)}
    (h : InfiniteFeatures (D.map Fl.val) bad thr.val f) :
    cells f = (cells (features D thr)).map fun a => (Ieee.over a.val : Ieee F) := by
  have hne : D ≠ [] := List.ne_nil_of_mem hd
  have hDr : ∀ x : ℝ, x ∈ (D : List ℝ) → 0 ≤ x := fun x hx => hD x (List.mem_map.2 ⟨x, hx, rfl⟩)
  have e : D.map Fl.val = (D : List ℝ) := by
    show D.map id = D
    simp
  obtain ⟨⟨a1, a2⟩, ⟨p, p1, p2, p3⟩, c1⟩ := features_isFeatures (thr := (thr : ℝ)) (D := (D : List ℝ)) hne hDr
  have hp : (scanMin (K := ℝ) D 0 (-1) 0).2 = p := by
    have : ((scanMin (K := ℝ) D 0 (-1) 0).2 : ℝ) = p := p1
    exact_mod_cast this
  set m := (features (K := ℝ) D thr).1 with hm
  have hmin : m < F.top := lt_of_le_of_lt (a2 d hd) hlt
  have hfl : features D thr = (Fl.mk m, Scalar.ofNat p,
      Scalar.ofNat (D.countP fun x => Scalar.leb x thr)) := by
    have e1 : scanMin D 0 (-1) 0 = (scanMin (K := ℝ) D 0 (-1) 0) := scanMin_fl D 0 (-1) 0
    unfold features
    rw [e1, hp]
    rfl
  have hget : ∀ q v, (D.map Fl.val)[q]? = some v → (D.getD q 0).val = v := by
    intro q v hq
    rw [← val_getD, List.getD_eq_getElem?_getD, hq]; rfl
  have hgood : ∀ q v, (D.map Fl.val)[q]? = some v → v < F.top → ¬ bad q := by
    intro q v hq hv hb
    have := (hbad q).1 hb
    rw [hget q v hq] at this
    linarith
  rw [← e] at p2 p3 a2
  have hlen : p < (D.map Fl.val).length := (List.getElem?_eq_some_iff.1 p2).1
  obtain ⟨p', m', f1, f2, f3, f4, f5, f6⟩ := h.least ⟨p, hlen, hgood p m p2 hmin⟩
  have em : m' = m := le_antisymm (f5 p m p2 (hgood p m p2 hmin)) (a2 m' (List.mem_of_getElem? f3))
  subst em
  have ep : p' = p := by
    rcases lt_trichotomy p' p with hlt' | he | hlt'
    · exact absurd (p3 p' _ hlt' f3) (lt_irrefl _)
    · exact he
    · exact absurd (f6 p _ hlt' p2 (hgood p _ p2 hmin)) (lt_irrefl _)
  subst ep
  have hcount : ((Finset.range (D.map Fl.val).length).filter
      fun q => ¬ bad q ∧ (D.map Fl.val).getD q 0 ≤ thr.val).card = D.countP fun x => Scalar.leb x thr := by
    have : D = (List.range D.length).map fun i => D.getD i 0 := by
      apply List.ext_getElem
      · simp
      · intro i h1 h2; rw [List.getElem_map, List.getElem_range, getD_lt _ h1]
    conv_rhs => rw [this]
    rw [List.countP_map, countP_eq_card, List.length_map]
    congr 1
    apply Finset.filter_congr
    intro i _
    rw [val_getD, hbad]
    simp only [Function.comp_apply, fl_leb, not_le]
    constructor
    · exact fun h => h.2
    · exact fun h => ⟨lt_of_le_of_lt h ht, h⟩
  have f7 := h.count
  rw [hcount] at f7
  have hm0 : 0 ≤ m := hDr m a1
  rw [hfl]
  show [f.1, f.2.1, f.2.2] = [Ieee.over m, Ieee.over _, Ieee.over _]
  rw [f1, f2, f7, ofNat_over, ofNat_over, over_nonneg hm0 hmin]

theorem finiteParts_map (z : List (Fl F.r)) : FiniteParts z (z.map Fl.ieee) := by
  refine ⟨by simp, fun t v h => ?_⟩
  rw [List.getElem?_map] at h
  cases e : z[t]? with
  | none => rw [e] at h; cases h
  | some a => rw [e] at h; cases h; rfl

theorem onGrid_map {z : List (Fl F.r)} (h : ∀ a ∈ z, a.val ∈ F.grid) : OnGrid (z.map Fl.ieee) := by
  intro v hv
  obtain ⟨a, ha, e⟩ := List.mem_map.1 hv
  cases e
  exact h v ha

theorem noNan_map (z : List (Fl F.r)) : NoNan (z.map Fl.ieee) := by
  intro h
  obtain ⟨a, -, e⟩ := List.mem_map.1 h
  cases e

theorem not_hitInf_map (phase : Bool) (z : List (Fl F.r)) (l d i : Nat) :
    ¬ HitInf phase (z.map Fl.ieee) l d i := by
  rintro ⟨j, s, -, e⟩
  rw [List.getElem?_map] at e
  cases h : z[pos phase (z.map Fl.ieee).length d i j]? with
  | none => rw [h] at e; cases e
  | some a => rw [h] at e; cases e

theorem getD_map_rows (rows : List (List (Fl F.r))) (c : Nat) :
    (rows.map fun row => row.map Fl.ieee).getD c [] = (rows.getD c []).map (Fl.ieee (F := F)) := by
  rw [List.getD_eq_getElem?_getD, List.getD_eq_getElem?_getD, List.getElem?_map]
  cases rows[c]? <;> rfl

theorem hasWindow_of_mem {phase : Bool} {T l d : Nat} (h : 0 < nWin phase T l d) : HasWindow phase T l d := by
  unfold nWin at h
  unfold HasWindow
  cases phase
  · simp at h ⊢; omega
  · simpa using h

/-- **C110.** Models without normalised shapelets, every kind of input.  When all values are finite numbers of the
format and every shapelet has a window at a distance below the overflow threshold, the output is the one computed
with an unbounded range: the limits of `float64` make no difference, although distances of other windows may
overflow.  (`M.map …` reads the same numbers in the format.) -/
theorem C110_range_does_not_matter {o : Rdst (Fl F.r) R} {o' : Rdst (Ieee F) R} (hph : o'.phase = o.phase)
    {S : Shapelets (Fl F.r)} (hS : o.shapelets = some S) (hS' : o'.shapelets = some (shpIeee S)) {nf : Nat}
    (hwf : ShpWF S nf) (hgrid : ShpGrid S) (hplain : Plain S) {X : XIn (Fl F.r)} {X' : XIn (Ieee F)}
    (hX : X.WF) (hX' : X'.WF) {xs : List (Mat (Fl F.r))} (hxs : samples X = .ok xs)
    (hxs' : samples X' = .ok (xs.map matIeee)) (hnf : ∀ x ∈ xs, x.rows.length = nf)
    (hval : ∀ x ∈ xs, ∀ row ∈ x.rows, ∀ a ∈ row, a.val ∈ F.grid)
    (hrange : ∀ x ∈ xs, InRange o.phase S x) {M : List (List (Fl F.r))} {M' : List (List (Ieee F))}
    (h : o.transform X = .ok M) (h' : o'.transform X' = .ok M') :
    M' = M.map fun row => row.map fun a => Ieee.over a.val := by
  have hnf' : ∀ x ∈ xs.map (matIeee (F := F)), x.rows.length = nf := by
    intro x hx
    obtain ⟨y, hy, rfl⟩ := List.mem_map.1 hx
    simpa [matIeee] using hnf y hy
  have hwf' : ShpWF (shpIeee S) nf := by
    cases S with
    | u S => exact ieee_uwf hwf
    | m S => exact ieee_mwf hwf
  obtain ⟨rfl, -⟩ := transform_rows hS hwf hX hxs hnf h
  obtain ⟨rfl, -⟩ := transform_rows hS' hwf' hX' hxs' hnf' h'
  rw [List.map_map, List.map_map]
  apply List.map_congr_left
  intro x hx
  rw [Function.comp_apply, Function.comp_apply, hph]
  have hrows : ∀ c, ∀ a ∈ x.rows.getD c [], a.val ∈ F.grid := by
    intro c a ha
    rw [List.getD_eq_getElem?_getD] at ha
    cases e : x.rows[c]? with
    | none => rw [e] at ha; simp at ha
    | some row => rw [e] at ha; exact hval x hx row (List.mem_of_getElem? e) a ha
  cases S with
  | u S =>
    show uRow o.phase S.ieee ((matIeee x).rows.getD 0 []) = (uRow o.phase S (x.rows.getD 0 [])).map _
    unfold uRow
    rw [List.map_flatMap, show S.ieee.lengths.length = S.lengths.length from rfl]
    apply List.flatMap_congr
    intro k hk
    replace hk := List.mem_range.1 hk
    obtain ⟨hn, ht⟩ := hplain k hk
    obtain ⟨d, hd, hlt⟩ := hrange x hx k hk
    have e : (matIeee x).rows.getD 0 [] = (x.rows.getD 0 []).map (Fl.ieee (F := F)) := getD_map_rows _ _
    rw [e]
    refine features_over (fl_uDistances_nonneg _ _ _ _) hd hlt ht (bad := UBad o.phase S _ (x.rows.getD 0 []) k) ?_
      (uFeatures_ieee o.phase S (finiteParts_map _) (onGrid_map (hrows 0)) (noNan_map _) hn ?_ ?_)
    · intro i
      exact ⟨fun h => h.resolve_left (not_hitInf_map _ _ _ _ _), Or.inr⟩
    · intro a ha
      have hmem := List.mem_of_mem_take ha
      have hk' : k < S.values.length := by rw [hwf.values]; exact hk
      rw [getD_lt _ hk'] at hmem
      exact hgrid _ (List.getElem_mem hk') a hmem
    · apply hasWindow_of_mem
      have := List.length_pos_of_mem hd
      simpa [uDistances, distances] using this
  | m S =>
    show mRow o.phase S.ieee (matIeee x).rows (matIeee x).len = (mRow o.phase S x.rows x.len).map _
    unfold mRow
    rw [List.map_flatMap, show S.ieee.lengths.length = S.lengths.length from rfl]
    apply List.flatMap_congr
    intro k hk
    replace hk := List.mem_range.1 hk
    obtain ⟨hn, ht⟩ := hplain k hk
    obtain ⟨d, hd, hlt⟩ := hrange x hx k hk
    have e : ∀ c, (matIeee x).rows.getD c [] = (x.rows.getD c []).map (Fl.ieee (F := F)) := getD_map_rows _
    refine features_over (fl_mDistances_nonneg _ _ _ _ _) hd hlt ht
      (bad := MBad o.phase S (matIeee x).rows x.rows x.len k) ?_
      (mFeatures_ieee o.phase S (fun c => by rw [e]; exact finiteParts_map _)
        (fun c => by rw [e]; exact onGrid_map (hrows c)) (fun c => by rw [e]; exact noNan_map _) hn ?_ ?_)
    · intro i
      refine ⟨fun h => h.resolve_left ?_, Or.inr⟩
      rintro ⟨c, -, h⟩
      rw [e] at h
      exact not_hitInf_map _ _ _ _ _ h
    · intro c a ha
      exact hgrid a (List.mem_of_mem_drop (List.mem_of_mem_take ha))
    · apply hasWindow_of_mem
      have := List.length_pos_of_mem hd
      simpa [mDistances] using this

/-! ## Data for which nothing overflows -/

theorem fl_foldl_le {r : Rounding} (is : List Nat) (g : Nat → Fl r) {t : ℝ} (ht : 0 ≤ t)
    (h : ∀ j ∈ is, 0 ≤ (g j).val ∧ (g j).val ≤ t) :
    (is.foldl (fun s j => s + g j) 0).val ≤ is.length * ((1 + r.u) ^ is.length * t) ∧
      0 ≤ (is.foldl (fun s j => s + g j) 0).val := by
  have hu := r.u_nonneg
  induction is using List.reverseRecOn with
  | nil => simp
  | append_singleton is j ih =>
    obtain ⟨i1, i2⟩ := ih fun j hj => h j (by simp [hj])
    obtain ⟨h1, h2⟩ := h j (by simp)
    rw [List.foldl_append]
    simp only [List.foldl_cons, List.foldl_nil, fl_add, List.length_append, List.length_singleton]
    refine ⟨?_, r.nonneg (add_nonneg i2 h1)⟩
    have hone : (1 : ℝ) ≤ (1 + r.u) ^ is.length := one_le_pow₀ (by linarith)
    have ht' : t ≤ (1 + r.u) ^ is.length * t := by nlinarith
    calc _ ≤ (1 + r.u) * ((is.foldl (fun s j => s + g j) 0).val + (g j).val) := r.le_of (add_nonneg i2 h1)
      _ ≤ (1 + r.u) * (is.length * ((1 + r.u) ^ is.length * t) + (1 + r.u) ^ is.length * t) :=
          mul_le_mul_of_nonneg_left (by linarith) (by linarith)
      _ = _ := by push_cast; ring

theorem fl_l1_le {r : Rounding} {w v : List (Fl r)} {B : ℝ} (hB : 0 ≤ B) (hw : ∀ a ∈ w, |a.val| ≤ B)
    (hv : ∀ a ∈ v, |a.val| ≤ B) :
    (l1 w v).val ≤ w.length * ((1 + r.u) ^ (w.length + 1) * (2 * B)) ∧ 0 ≤ (l1 w v).val := by
  have get : ∀ (y : List (Fl r)), (∀ a ∈ y, |a.val| ≤ B) → ∀ j, |(y.getD j 0).val| ≤ B := by
    intro y hy j
    rw [List.getD_eq_getElem?_getD]
    cases e : y[j]? with
    | none => simpa using hB
    | some a => exact hy a (List.mem_of_getElem? e)
  have h := fl_foldl_le (List.range w.length) (fun j => Scalar.abs (w.getD j 0 - v.getD j 0))
    (t := (1 + r.u) * (2 * B)) (by have := r.u_nonneg; positivity) (by
      intro j _
      refine ⟨abs_nonneg _, (r.abs_le_of _).trans (mul_le_mul_of_nonneg_left ?_ (by linarith [r.u_nonneg]))⟩
      have h1 := abs_sub (w.getD j 0).val (v.getD j 0).val
      linarith [get w hw j, get v hv j])
  rw [List.length_range] at h
  refine ⟨h.1.trans (le_of_eq (by ring)), h.2⟩

theorem window_le {r : Rounding} {phase : Bool} {x : List (Fl r)} {B : ℝ} (hB : 0 ≤ B)
    (hx : ∀ a ∈ x, |a.val| ≤ B) (l d i : Nat) : ∀ a ∈ window phase x l d i, |a.val| ≤ B := by
  intro a ha
  obtain ⟨j, -, rfl⟩ := List.mem_map.1 ha
  rw [List.getD_eq_getElem?_getD]
  cases e : x[pos phase x.length d i j]? with
  | none => simpa using hB
  | some a => exact hx a (List.mem_of_getElem? e)

/-- **C110.** Univariate shapelets that are not normalised.  When no value of the series and of the shapelet exceeds
`B` in magnitude and `l · 2B · (1+u)^(l+1)` is below the overflow threshold, `l` being the length of the shapelet,
no distance overflows. -/
theorem C110_bound_univariate (phase : Bool) (S : UShp (Fl F.r)) (x : List (Fl F.r)) {k : Nat} {B : ℝ} (hB : 0 ≤ B)
    (hk : S.normalize.getD k false = false) (hx : ∀ a ∈ x, |a.val| ≤ B) (hv : ∀ a ∈ uValues S k, |a.val| ≤ B)
    (hlt : (S.lengths.getD k 0) * ((1 + F.r.u) ^ (S.lengths.getD k 0 + 1) * (2 * B)) < F.top) :
    ∀ d ∈ uDistances phase S x k, d.val < F.top := by
  intro d hd
  obtain ⟨i, -, rfl⟩ := List.mem_map.1 hd
  have h := (fl_l1_le hB (window_le (phase := phase) hB hx (S.lengths.getD k 0) (S.dilations.getD k 0) i) hv).1
  rw [window_length] at h
  rw [hk]
  exact lt_of_le_of_lt h hlt

/-- **C110.** The same for multivariate shapelets with `n` channels. -/
theorem C110_bound_multivariate (phase : Bool) (S : MShp (Fl F.r)) (x : List (List (Fl F.r))) (T : Nat) {k : Nat}
    {B : ℝ} (hB : 0 ≤ B) (hk : S.normalize.getD k false = false) (hx : ∀ row ∈ x, ∀ a ∈ row, |a.val| ≤ B)
    (hv : ∀ a ∈ S.values, |a.val| ≤ B)
    (hlt : (mChannels S k).length * ((1 + F.r.u) ^ (mChannels S k).length *
      ((S.lengths.getD k 0) * ((1 + F.r.u) ^ (S.lengths.getD k 0 + 1) * (2 * B)))) < F.top) :
    ∀ d ∈ mDistances phase S x T k, d.val < F.top := by
  intro d hd
  obtain ⟨i, -, rfl⟩ := List.mem_map.1 hd
  have hu := F.r.u_nonneg
  have h := (fl_foldl_le (List.range (mChannels S k).length) (fun c => l1 (seen (S.normalize.getD k false)
      (window phase (x.getD ((mChannels S k).getD c 0) []) (S.lengths.getD k 0) (S.dilations.getD k 0) i))
      (mValues S k c)) (t := (S.lengths.getD k 0) * ((1 + F.r.u) ^ (S.lengths.getD k 0 + 1) * (2 * B)))
      (by positivity) (by
        intro c _
        rw [hk]
        have hrow : ∀ a ∈ x.getD ((mChannels S k).getD c 0) [], |a.val| ≤ B := by
          intro a ha
          rw [List.getD_eq_getElem?_getD] at ha
          cases e : x[(mChannels S k).getD c 0]? with
          | none => rw [e] at ha; simp at ha
          | some row => rw [e] at ha; exact hx row (List.mem_of_getElem? e) a ha
        have h := fl_l1_le hB (window_le (phase := phase) hB hrow (S.lengths.getD k 0) (S.dilations.getD k 0) i)
          (v := mValues S k c) fun a ha => hv a (List.mem_of_mem_drop (List.mem_of_mem_take ha))
        rw [window_length] at h
        exact ⟨h.2, h.1⟩)).1
  rw [List.length_range] at h
  exact lt_of_le_of_lt h hlt

/-! ## Concrete cases -/

/-- One shapelet `1, 1` of dilation 1, threshold 0, normalised or not. -/
noncomputable def infU (F : FloatFormat) (norm : Bool) : UShp (Fl F.r) := ⟨[[1, 1]], [2], [1], [0], [norm]⟩

theorem infU_wf (norm : Bool) : UWF (infU F norm) where
  values := rfl
  dilations := rfl
  threshold := rfl
  normalize := rfl
  pos := by intro k hk; simp [infU] at hk; subst hk; simp [infU]
  room := by intro k hk; simp [infU] at hk; subst hk; simp [infU]

/-- A recording whose first value is infinite. -/
def infX (F : FloatFormat) : Arr3 (Ieee F) := ⟨[[[.inf false, .fin 1, .fin 1, .fin 1]]], 1, 4⟩

theorem infX_wf : (XIn.array DType.float64 (infX F)).WF := by
  intro s hs
  simp only [infX, List.mem_cons, List.not_mem_nil, or_false] at hs
  subst hs
  exact ⟨rfl, by intro r hr; simp at hr; subst hr; rfl⟩

theorem one_grid : (1 : ℝ) ∈ F.grid := by
  have h := F.rnd_nat 1
  rw [Nat.cast_one, F.r.one] at h
  rw [← h]
  exact F.rnd_grid _

theorem infX_transform {o : Rdst (Ieee F) R} (ht : o.transformType = .uni) {norm : Bool}
    (hS : o.shapelets = some (.u (infU F norm).ieee)) :
    o.transform (.array .float64 (infX F)) = .ok [uRow o.phase (infU F norm).ieee [.inf false, .fin 1, .fin 1, .fin 1]] :=
  transform_array_uni ht hS (ieee_uwf (infU_wf norm)) infX_wf (by simp [infX]) (by simp [infX])
    (by simp [infX]) (by intro k hk; simp [infU, UShp.ieee] at hk; subst hk; simp [infU, infX, UShp.ieee])

/-- **C110** (violated expectation).  A series starting with an infinite value contains the shapelet exactly, twice.
Without normalisation both occurrences are found (the closest one at time 1).  With normalisation the distance is
`NaN` and the position 0. -/
theorem C110_first_value_matters {o o' : Rdst (Ieee F) R} (ht : o.transformType = .uni)
    (ht' : o'.transformType = .uni) (hph : o.phase = false)
    (hS : o.shapelets = some (.u (infU F false).ieee)) (hS' : o'.shapelets = some (.u (infU F true).ieee)) :
    o.transform (.array .float64 (infX F)) = .ok [[.fin 0, Scalar.ofNat 1, Scalar.ofNat 2]] ∧
    ∃ c, o'.transform (.array .float64 (infX F)) = .ok [[.nan, Scalar.ofNat 0, c]] := by
  constructor
  · rw [infX_transform ht hS, hph]
    have hz : FiniteParts (F := F) [0, 1, 1, 1] [.inf false, .fin 1, .fin 1, .fin 1] := by
      refine ⟨rfl, fun t v h => ?_⟩
      match t with
      | 0 => simp at h
      | 1 => simp at h; cases h; rfl
      | 2 => simp at h; cases h; rfl
      | 3 => simp at h; cases h; rfl
      | t + 4 => simp at h
    have hg : OnGrid (F := F) [.inf false, .fin 1, .fin 1, .fin 1] := by
      intro v hv
      simp at hv
      subst hv
      exact one_grid
    have hn : NoNan (F := F) [.inf false, .fin 1, .fin 1, .fin 1] := by simp [NoNan]
    have hD := uDistances_ieee false (infU F false) hz hg hn (k := 0) rfl (by
      intro a ha
      simp [uValues, infU] at ha
      subst ha
      exact one_grid)
    have r0 : F.r.rnd 0 = 0 := F.r.zero
    have hfl : (uDistances false (infU F false) ([0, 1, 1, 1] : List (Fl F.r)) 0).map Fl.val =
        [(l1 (window false ([0, 1, 1, 1] : List (Fl F.r)) 2 1 0) [1, 1]).val, 0, 0] := by
      have e : ∀ i, 1 ≤ i → i ≤ 2 → (l1 (window false ([0, 1, 1, 1] : List (Fl F.r)) 2 1 i) [1, 1]).val = 0 := by
        intro i h1 h2
        have hi : i = 1 ∨ i = 2 := by omega
        rcases hi with rfl | rfl <;>
          simp [l1, window, pos, List.range_succ, r0]
      simp only [uDistances, distances, infU, nWin, uValues]
      simp [List.range_succ, seen, e]
    have hbad0 : UBad false (infU F false) [.inf false, .fin 1, .fin 1, .fin 1] [0, 1, 1, 1] 0 0 :=
      Or.inl ⟨0, false, by simp [infU], rfl⟩
    have hget : ∀ i, 1 ≤ i → i ≤ 2 → ((uDistances false (infU F false) ([0, 1, 1, 1] : List (Fl F.r)) 0).getD i 0).val = 0 := by
      intro i h1 h2
      rw [← val_getD, hfl]
      have hi : i = 1 ∨ i = 2 := by omega
      rcases hi with rfl | rfl <;> rfl
    have hgood : ∀ i, 1 ≤ i → i ≤ 2 →
        ¬ UBad false (infU F false) [.inf false, .fin 1, .fin 1, .fin 1] [0, 1, 1, 1] 0 i := by
      rintro i h1 h2 (⟨j, s, hj, e⟩ | h)
      · have hj' : j < 2 := hj
        have : pos false 4 1 i j = i + j := by simp [pos]
        have e' : ([.inf false, .fin 1, .fin 1, .fin 1] : List (Ieee F))[i + j]? = some (.inf s) := by
          rw [← this]; exact e
        have : i + j = 1 ∨ i + j = 2 ∨ i + j = 3 := by omega
        rcases this with h | h | h <;> rw [h] at e' <;> simp at e'
      · rw [hget i h1 h2] at h
        linarith [F.top_gt]
    have hD' : uDistances false (infU F false).ieee [.inf false, .fin 1, .fin 1, .fin 1] 0 =
        [.inf false, .fin 0, .fin 0] := by
      rw [hD, hfl]
      unfold infMask
      simp [List.range_succ, hbad0, hgood]
    have f1 : uFeatures false (infU F false).ieee [.inf false, .fin 1, .fin 1, .fin 1] 0 =
        (.fin 0, Scalar.ofNat 1, Scalar.ofNat 2) := by
      unfold uFeatures features
      rw [hD', ieee_threshold]
      have et : ((infU F false).threshold.getD 0 0).val = 0 := rfl
      rw [et]
      simp [scanMin, ieee_init, ieee_eqb_inf, ieee_ltb_inf, ieee_ltb_fin, ieee_eqb_neg, ieee_leb_fin, ieee_inf_leb]
    simp only [uRow, show (infU F false).ieee.lengths.length = 1 from rfl, List.range_one, List.flatMap_cons,
      List.flatMap_nil, List.append_nil, f1, cells]
  · rw [infX_transform ht' hS']
    have h := uPassedOver o'.phase (infU F true).ieee [.inf false, .fin 1, .fin 1, .fin 1] (k := 0) rfl (by
      cases o'.phase <;> simp [nWin, infU, UShp.ieee])
    obtain ⟨h1, h2⟩ := h.first (Or.inl ⟨0, false, by simp [infU, UShp.ieee], by
      cases o'.phase <;> simp [pos]⟩)
    refine ⟨(uFeatures o'.phase (infU F true).ieee [.inf false, .fin 1, .fin 1, .fin 1] 0).2.2, ?_⟩
    simp only [uRow, show (infU F true).ieee.lengths.length = 1 from rfl, List.range_one, List.flatMap_cons,
      List.flatMap_nil, List.append_nil, cells, h1, h2]

/-- `2¹⁰²³` is a `float64`. -/
theorem big_grid : (2 : ℝ) ^ 1023 ∈ FloatFormat.float64.grid := by
  refine ⟨2 ^ 2097, ?_⟩
  rw [show ((-1074 : Int)) = -((1074 : Nat) : Int) by norm_num, zpow_neg, zpow_natCast]
  push_cast
  rw [eq_mul_inv_iff_mul_eq₀ (by positivity), ← pow_add]

theorem rnd_two_pow_1024 : FloatFormat.float64.r.rnd ((2 : ℝ) ^ 1024) = 2 ^ 1024 := by
  have h1 := rndBin_fixed (p := 52) (e := 1024) (N := 2 ^ 52) (by norm_num) (by norm_num)
  have e : ((2 ^ 52 : Int) : ℝ) * (2 : ℝ) ^ ((1024 : Int) - ((52 : Nat) : Int)) = (2 : ℝ) ^ 1024 := by
    rw [show ((1024 : Int) - ((52 : Nat) : Int)) = ((972 : Nat) : Int) by norm_num, zpow_natCast,
      show (1024 : Nat) = 52 + 972 from rfl, pow_add, Int.cast_pow, Int.cast_ofNat]
  rw [e] at h1
  exact h1

/-- One shapelet of length 1 with the value `-2¹⁰²³`. -/
noncomputable def bigU : UShp (Fl FloatFormat.float64.r) := ⟨[[Fl.mk (-2 ^ 1023)]], [1], [1], [1], [false]⟩

theorem bigU_wf : UWF bigU where
  values := rfl
  dilations := rfl
  threshold := rfl
  normalize := rfl
  pos := by intro k hk; simp [bigU] at hk; subst hk; simp [bigU]
  room := by intro k hk; simp [bigU] at hk; subst hk; simp [bigU]

/-- **C110** (violated expectation).  Finite `float64` values can be at an infinite distance: every window of the
constant series `2¹⁰²³` overflows for the shapelet with the value `-2¹⁰²³`. -/
theorem C110_overflow {o : Rdst (Ieee .float64) R} (ht : o.transformType = .uni)
    (hS : o.shapelets = some (.u bigU.ieee)) :
    o.transform (.array .float64 ⟨[[[.fin (2 ^ 1023), .fin (2 ^ 1023), .fin (2 ^ 1023)]]], 1, 3⟩) =
      .ok [[.inf false, Scalar.ofNat 0, Scalar.ofNat 0]] := by
  have h := transform_array_uni (dt := .float64)
    (B := ⟨[[[.fin (2 ^ 1023), .fin (2 ^ 1023), .fin (2 ^ 1023)]]], 1, 3⟩) ht hS (ieee_uwf bigU_wf) (by
      intro s hs
      simp only [List.mem_cons, List.not_mem_nil, or_false] at hs
      subst hs
      exact ⟨rfl, by intro r hr; simp at hr; subst hr; rfl⟩) (by simp) (by simp) (by simp)
    (by intro k hk; simp [bigU, UShp.ieee] at hk; subst hk; simp [bigU, UShp.ieee])
  rw [h]
  let z : List (Fl FloatFormat.float64.r) := [Fl.mk (2 ^ 1023), Fl.mk (2 ^ 1023), Fl.mk (2 ^ 1023)]
  have hgz : ∀ a ∈ z, a.val ∈ FloatFormat.float64.grid := by
    intro a ha
    simp only [z, List.mem_cons, List.not_mem_nil, or_false, or_self] at ha
    subst ha
    exact big_grid
  have hf := uFeatures_ieee o.phase bigU (finiteParts_map z) (onGrid_map hgz) (noNan_map z) (k := 0) rfl (by
    intro a ha
    simp [uValues, bigU] at ha
    subst ha
    exact FloatFormat.float64.grid_neg _ big_grid) (by cases o.phase <;> simp [HasWindow, z, bigU])
  have hfix := rnd_two_pow_1024
  have hr : FloatFormat.float64.r.rnd (2 ^ 1023 + 2 ^ 1023) = (2 : ℝ) ^ 1024 := by
    rw [show (2 : ℝ) ^ 1023 + 2 ^ 1023 = 2 ^ 1024 by rw [pow_succ (2 : ℝ) 1023]; ring]
    exact hfix
  have hd : ∀ i, i < 3 → (l1 (window o.phase z 1 1 i) (uValues bigU 0)).val = (2 : ℝ) ^ 1024 := by
    intro i hi
    have hg : z.getD (pos o.phase z.length 1 i 0) 0 = Fl.mk (2 ^ 1023) := by
      have : pos o.phase z.length 1 i 0 = 0 ∨ pos o.phase z.length 1 i 0 = 1 ∨ pos o.phase z.length 1 i 0 = 2 := by
        cases o.phase <;> simp [pos, z] <;> omega
      rcases this with h | h | h <;> rw [h] <;> rfl
    have hw : window o.phase z 1 1 i = [Fl.mk (2 ^ 1023)] := by
      simp only [window, List.range_one, List.map_cons, List.map_nil]
      rw [hg]
    rw [hw]
    have hv : uValues bigU 0 = [Fl.mk (-2 ^ 1023)] := rfl
    rw [hv]
    show FloatFormat.float64.r.rnd (0 + |FloatFormat.float64.r.rnd ((2 : ℝ) ^ 1023 - -2 ^ 1023)|) = 2 ^ 1024
    rw [sub_neg_eq_add, hr, abs_of_nonneg (by positivity), zero_add, hfix]
  have hl : ((uDistances o.phase bigU z 0).map Fl.val).length = 3 := by
    cases o.phase <;> simp [uDistances, distances, nWin, z, bigU]
  have hbad : ∀ q, q < ((uDistances o.phase bigU z 0).map Fl.val).length →
      UBad o.phase bigU (z.map Fl.ieee) z 0 q := by
    intro q hq
    right
    have hq3 : q < 3 := hl ▸ hq
    have hn : q < nWin o.phase z.length 1 1 := by
      cases o.phase <;> simp [nWin, z] <;> omega
    have e : (uDistances o.phase bigU z 0).getD q 0 = l1 (window o.phase z 1 1 q) (uValues bigU 0) := by
      unfold uDistances distances
      exact getD_range_map _ hn
    rw [e, hd q hq3]
    exact le_rfl
  obtain ⟨h1, h2⟩ := hf.all hbad
  have h3 := hf.count
  classical
  rw [Finset.card_eq_zero.2 (Finset.filter_eq_empty_iff.2 fun q hq h => h.1 (hbad q (Finset.mem_range.1 hq)))] at h3
  have e : (z.map Fl.ieee : List (Ieee .float64)) = [.fin (2 ^ 1023), .fin (2 ^ 1023), .fin (2 ^ 1023)] := rfl
  rw [e] at h1 h2 h3
  simp only [List.map_cons, List.map_nil, uRow, show bigU.ieee.lengths.length = 1 from rfl, List.range_one,
    List.flatMap_cons, List.flatMap_nil, List.append_nil, cells, List.getD_cons_zero, h1, h2, h3]

/-- The hypotheses of `C110_range_does_not_matter` are met by three series of ones. -/
example {o : Rdst (Fl F.r) R} {o' : Rdst (Ieee F) R} (hph : o'.phase = o.phase) (ht : o.transformType = .uni)
    (ht' : o'.transformType = .uni) (hS : o.shapelets = some (.u (infU F false)))
    (hS' : o'.shapelets = some (.u (infU F false).ieee)) :
    ∃ M, o.transform (.array .float64 ⟨[[[1, 1, 1]]], 1, 3⟩) = .ok M ∧
      o'.transform (.array .float64 ⟨[[[.fin 1, .fin 1, .fin 1]]], 1, 3⟩) =
        .ok (M.map fun row => row.map fun a => Ieee.over a.val) := by
  have w1 : (XIn.array DType.float64 (⟨[[[1, 1, 1]]], 1, 3⟩ : Arr3 (Fl F.r))).WF := by
    intro s hs
    simp only [List.mem_cons, List.not_mem_nil, or_false] at hs
    subst hs
    exact ⟨rfl, by intro r hr; simp at hr; subst hr; rfl⟩
  have w2 : (XIn.array DType.float64 (⟨[[[.fin 1, .fin 1, .fin 1]]], 1, 3⟩ : Arr3 (Ieee F))).WF := by
    intro s hs
    simp only [List.mem_cons, List.not_mem_nil, or_false] at hs
    subst hs
    exact ⟨rfl, by intro r hr; simp at hr; subst hr; rfl⟩
  have h1 := transform_array_uni ht hS (infU_wf false) w1 (by simp) (by simp) (by simp)
    (by intro k hk; simp [infU] at hk; subst hk; simp [infU])
  have h2 := transform_array_uni ht' hS' (ieee_uwf (infU_wf false)) w2 (by simp) (by simp) (by simp)
    (by intro k hk; simp [infU, UShp.ieee] at hk; subst hk; simp [infU, UShp.ieee])
  refine ⟨_, h1, ?_⟩
  rw [h2]
  refine congrArg Except.ok (C110_range_does_not_matter (S := .u (infU F false)) (nf := 1) hph hS hS' (infU_wf false)
    ?_ ?_ w1 w2 (xs := [⟨[[1, 1, 1]], 3⟩]) rfl rfl (by simp) ?_ ?_ h1 h2)
  · intro v hv a ha
    simp [infU] at hv
    subst hv
    simp at ha
    subst ha
    exact one_grid
  · intro k hk
    simp [infU] at hk
    subst hk
    exact ⟨rfl, by show (0 : ℝ) < F.top; linarith [F.top_gt]⟩
  · intro x hx row hrow a ha
    simp at hx
    subst hx
    simp at hrow
    subst hrow
    simp at ha
    subst ha
    exact one_grid
  · intro x hx k hk
    simp at hx
    subst hx
    simp [infU] at hk
    subst hk
    have hw : 0 < nWin o.phase 3 2 1 := by cases o.phase <;> simp [nWin]
    refine ⟨l1 (window o.phase ([1, 1, 1] : List (Fl F.r)) 2 1 0) [1, 1],
      List.mem_map.2 ⟨0, List.mem_range.2 hw, rfl⟩, ?_⟩
    have e : window o.phase ([1, 1, 1] : List (Fl F.r)) 2 1 0 = [1, 1] := by
      cases o.phase <;> simp [window, pos, List.range_succ]
    rw [e]
    have r0 : F.r.rnd 0 = 0 := F.r.zero
    have : (l1 ([1, 1] : List (Fl F.r)) [1, 1]).val = 0 := by simp [l1, List.range_succ, r0]
    rw [this]
    linarith [F.top_gt]

/-- One multivariate shapelet `1, 1` on the first channel. -/
noncomputable def infM (F : FloatFormat) (norm : Bool) : MShp (Fl F.r) := ⟨[1, 1], [2], [1], [0], [norm], [1], [0]⟩

theorem infM_wf (norm : Bool) : MWF (infM F norm) 1 where
  dilations := rfl
  threshold := rfl
  normalize := rfl
  nChannels := rfl
  pos := by intro k hk; simp [infM] at hk; subst hk; simp [infM]
  values := rfl
  channels := rfl
  range := by simp [infM]

/-- The hypotheses of `C110_multivariate` and `C110_normalised_multivariate` are met. -/
example {o o' : Rdst (Ieee F) R} (ht : o.transformType = .multi) (hS : o.shapelets = some (.m (infM F false).ieee))
    (ht' : o'.transformType = .multi) (hS' : o'.shapelets = some (.m (infM F true).ieee)) :
    (∃ M, o.transform (.array .float64 (infX F)) = .ok M ∧ ∀ a ∈ (infM F false).values, a.val ∈ F.grid) ∧
    ∃ row, o'.transform (.array .float64 (infX F)) = .ok [row] ∧ row[0]? = some .nan := by
  refine ⟨⟨_, transform_array_multi ht hS (ieee_mwf (infM_wf false)) infX_wf (by simp [infX]) (by simp [infX])
    (by simp [infX]) (by intro k hk; simp [infM, MShp.ieee] at hk; subst hk; simp [infM, infX, MShp.ieee]), ?_⟩, ?_⟩
  · intro a ha
    simp [infM] at ha
    subst ha
    exact one_grid
  · have h := transform_array_multi ht' hS' (ieee_mwf (infM_wf true)) infX_wf (by simp [infX]) (by simp [infX])
      (by simp [infX]) (by intro k hk; simp [infM, MShp.ieee] at hk; subst hk; simp [infM, infX, MShp.ieee])
    refine ⟨_, h, ?_⟩
    obtain ⟨-, h2⟩ := C110_normalised_multivariate hS' (nf := 1) (ieee_mwf (infM_wf true)) infX_wf
      (xs := [⟨[[.inf false, .fin 1, .fin 1, .fin 1]], 4⟩]) rfl (by simp) h
    obtain ⟨-, h3⟩ := h2 0 _ _ rfl rfl (by
      intro k hk
      simp [infM, MShp.ieee] at hk
      subst hk
      apply hasWindow_of_lt
      simp [infM, MShp.ieee])
    obtain ⟨f, e1, -, -, e2⟩ := h3 0 (by simp [infM, MShp.ieee])
    have := (e2 rfl).first ⟨0, by simp [mChannels, infM, MShp.ieee, mChanOff], Or.inl ⟨0, false, by
      simp [infM, MShp.ieee], by cases o'.phase <;> simp [pos]⟩⟩
    rw [this.1] at e1
    exact e1

/-- The hypotheses of the two bounds are met by values up to 1 in magnitude. -/
example : (2 : ℕ) * ((1 + FloatFormat.float64.r.u) ^ (2 + 1) * (2 * 1)) < FloatFormat.float64.top := by
  have hu : FloatFormat.float64.r.u < 1 := FloatFormat.float64.r.u_lt
  have h0 := FloatFormat.float64.r.u_nonneg
  have h1 : (1 + FloatFormat.float64.r.u) ^ (2 + 1) ≤ (2 : ℝ) ^ 3 := pow_le_pow_left₀ (by linarith) (by linarith) _
  have h2 : (2 : ℝ) ^ 6 ≤ FloatFormat.float64.top := pow_le_pow_right₀ (by norm_num) (by norm_num)
  push_cast
  norm_num at h1 h2 ⊢
  linarith

end Convst.Props
