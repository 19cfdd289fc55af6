import Verif.Spec.Ieee
import Verif.Proofs.Missing
import Verif.Proofs.EarlyAbandon

/-! # Kernels on numbers of a bounded range -/

set_option autoImplicit false
set_option linter.unusedSectionVars false

namespace Convst
open Spec Ieee

variable {F : FloatFormat}

/-! ## Operations -/

theorem over_top {x : ℝ} (h : F.top ≤ x) : (over x : Ieee F) = inf false := if_pos h

theorem over_fin {x : ℝ} (h : |x| < F.top) : (over x : Ieee F) = fin x := by
  obtain ⟨h1, h2⟩ := abs_lt.1 h
  unfold over
  rw [if_neg (not_le.2 h2), if_neg (not_le.2 h1)]

theorem over_nonneg {x : ℝ} (h : 0 ≤ x) (h' : x < F.top) : (over x : Ieee F) = fin x :=
  over_fin (by rwa [abs_of_nonneg h])

theorem abs_over (x : ℝ) : Scalar.abs (over x : Ieee F) = over |x| := by
  have ht := F.top_gt
  by_cases h : |x| < F.top
  · rw [over_fin h, over_fin (by rwa [abs_abs])]; rfl
  · rw [over_top (not_lt.1 h)]
    unfold over
    split_ifs with h1 h2
    · rfl
    · rfl
    · exact absurd (abs_lt.2 ⟨not_le.1 h2, not_le.1 h1⟩) h

theorem ieee_fin_add (x y : ℝ) : (fin x + fin y : Ieee F) = over (F.rnd (x + y)) := rfl
theorem ieee_fin_sub (x y : ℝ) : (fin x - fin y : Ieee F) = over (F.rnd (x - y)) := by
  rw [sub_eq_add_neg]; rfl
theorem ieee_inf_add_fin (s : Bool) (y : ℝ) : (inf s + fin y : Ieee F) = inf s := rfl
theorem ieee_fin_add_inf (s : Bool) (y : ℝ) : (fin y + inf s : Ieee F) = inf s := rfl
theorem ieee_inf_add_inf : (inf false + inf false : Ieee F) = inf false := rfl
theorem ieee_nan_add (x : Ieee F) : nan + x = nan := rfl
theorem ieee_add_nan (x : Ieee F) : x + nan = nan := by cases x <;> rfl
theorem ieee_nan_sub (x : Ieee F) : nan - x = nan := rfl
theorem ieee_abs_nan : Scalar.abs (nan : Ieee F) = nan := rfl
theorem ieee_inf_sub_fin (s : Bool) (y : ℝ) : (inf s - fin y : Ieee F) = inf s := rfl
theorem ieee_abs_inf (s : Bool) : Scalar.abs (inf s : Ieee F) = inf false := rfl
theorem ieee_zero : (0 : Ieee F) = fin 0 := rfl

/-- Numbers which are sums of distances in the unbounded range. -/
structure Sound (F : FloatFormat) (a : ℝ) : Prop where
  nonneg : 0 ≤ a
  grid : a ∈ F.grid
  fixed : F.r.rnd a = a

theorem sound_zero : Sound F 0 := ⟨le_rfl, F.grid_zero, F.r.zero⟩

theorem sound_add {a b : ℝ} (ha : Sound F a) (hb : Sound F b) : Sound F (F.r.rnd (a + b)) := by
  have h0 : 0 ≤ F.r.rnd (a + b) := F.r.nonneg (add_nonneg ha.nonneg hb.nonneg)
  refine ⟨h0, ?_, ?_⟩
  · rw [← F.rnd_add a ha.grid b hb.grid]; exact F.rnd_grid _
  · have := F.rnd_abs (a + b)
    rwa [abs_of_nonneg h0] at this

theorem rnd_sub {x v : ℝ} (hx : x ∈ F.grid) (hv : v ∈ F.grid) : F.rnd (x - v) = F.r.rnd (x - v) := by
  rw [sub_eq_add_neg]; exact F.rnd_add x hx _ (F.grid_neg v hv)

theorem sound_term {x v : ℝ} (hx : x ∈ F.grid) (hv : v ∈ F.grid) : Sound F |F.r.rnd (x - v)| := by
  refine ⟨abs_nonneg _, ?_, F.rnd_abs _⟩
  have h : F.r.rnd (x - v) ∈ F.grid := by rw [← rnd_sub hx hv]; exact F.rnd_grid _
  rcases abs_choice (F.r.rnd (x - v)) with e | e
  · rw [e]; exact h
  · rw [e]; exact F.grid_neg _ h

/-- Adding what overflowed or not is adding, then looking whether the sum overflows. -/
theorem over_add {a b : ℝ} (ha : Sound F a) (hb : Sound F b) :
    (over a + over b : Ieee F) = over (F.r.rnd (a + b)) := by
  have hle : a ≤ F.r.rnd (a + b) := by
    have h := F.r.mono (show a ≤ a + b by linarith [hb.nonneg])
    rwa [ha.fixed] at h
  have hle' : b ≤ F.r.rnd (a + b) := by
    have h := F.r.mono (show b ≤ a + b by linarith [ha.nonneg])
    rwa [hb.fixed] at h
  rcases lt_or_ge a F.top with h | h
  · rcases lt_or_ge b F.top with h' | h'
    · rw [over_nonneg ha.nonneg h, over_nonneg hb.nonneg h', ieee_fin_add, F.rnd_add a ha.grid b hb.grid]
    · rw [over_nonneg ha.nonneg h, over_top h', ieee_fin_add_inf, over_top (h'.trans hle')]
  · rw [over_top h, over_top (h.trans hle)]
    rcases lt_or_ge b F.top with h' | h'
    · rw [over_nonneg hb.nonneg h', ieee_inf_add_fin]
    · rw [over_top h']; rfl

theorem over_term {x v : ℝ} (hx : x ∈ F.grid) (hv : v ∈ F.grid) :
    Scalar.abs (fin x - fin v : Ieee F) = over |F.r.rnd (x - v)| := by
  rw [ieee_fin_sub, rnd_sub hx hv, abs_over]

/-! ## Distances of vectors -/

theorem ieee_getD (w : List (Fl F.r)) (j : Nat) :
    (w.map Fl.ieee).getD j (0 : Ieee F) = fin (w.getD j 0).val := by
  rw [List.getD_eq_getElem?_getD, List.getD_eq_getElem?_getD, List.getElem?_map]
  cases w[j]? <;> rfl

theorem grid_getD {w : List (Fl F.r)} (h : ∀ x ∈ w, x.val ∈ F.grid) (j : Nat) : (w.getD j 0).val ∈ F.grid := by
  rw [List.getD_eq_getElem?_getD]
  cases e : w[j]? with
  | none => exact F.grid_zero
  | some x => exact h x (List.mem_of_getElem? e)

/-- Sums of sound terms. -/
theorem foldl_sound {f : Nat → Ieee F} {g : Nat → Fl F.r} (is : List Nat)
    (h : ∀ j ∈ is, Sound F (g j).val ∧ f j = over (g j).val) (a : Fl F.r) (ha : Sound F a.val) :
    is.foldl (fun s j => s + f j) (over a.val) = over (is.foldl (fun s j => s + g j) a).val ∧
      Sound F (is.foldl (fun s j => s + g j) a).val := by
  induction is generalizing a with
  | nil => exact ⟨rfl, ha⟩
  | cons j is ih =>
    obtain ⟨h1, h2⟩ := h j (by simp)
    simp only [List.foldl_cons]
    rw [h2, over_add ha h1]
    exact ih (fun i hi => h i (by simp [hi])) (a + g j) (sound_add ha h1)

theorem over_zero : (over 0 : Ieee F) = 0 := over_nonneg le_rfl (by linarith [F.top_gt])

theorem l1_ieee {w v : List (Fl F.r)} (hw : ∀ x ∈ w, x.val ∈ F.grid) (hv : ∀ x ∈ v, x.val ∈ F.grid) :
    l1 (w.map Fl.ieee) (v.map Fl.ieee) = (over (l1 w v).val : Ieee F) ∧ Sound F (l1 w v).val := by
  unfold l1
  rw [List.length_map]
  have h := foldl_sound (F := F)
    (f := fun j => Scalar.abs ((w.map Fl.ieee).getD j (0 : Ieee F) - (v.map Fl.ieee).getD j 0))
    (g := fun j => Scalar.abs (w.getD j 0 - v.getD j 0)) (List.range w.length) (by
      intro j _
      refine ⟨sound_term (grid_getD hw j) (grid_getD hv j), ?_⟩
      rw [ieee_getD, ieee_getD]
      exact over_term (grid_getD hw j) (grid_getD hv j)) 0 sound_zero
  rwa [show (over (0 : Fl F.r).val : Ieee F) = 0 from over_zero] at h

/-- Either infinite (with a positive sign) or finite and not negative. -/
def PosOrInf (a : Ieee F) : Prop := a = inf false ∨ ∃ x : ℝ, 0 ≤ x ∧ a = fin x

theorem posOrInf_over {x : ℝ} (h : 0 ≤ x) : PosOrInf (over x : Ieee F) := by
  rcases lt_or_ge x F.top with h' | h'
  · exact Or.inr ⟨x, h, over_nonneg h h'⟩
  · exact Or.inl (over_top h')

theorem inf_add_posOrInf {a : Ieee F} (h : PosOrInf a) : inf false + a = inf false := by
  rcases h with rfl | ⟨x, -, rfl⟩ <;> rfl

theorem posOrInf_add_inf {a : Ieee F} (h : PosOrInf a) : a + inf false = inf false := by
  rcases h with rfl | ⟨x, -, rfl⟩ <;> rfl

theorem rnd_nonneg_add {x y : ℝ} (hx : x ∈ F.grid) (hy : y ∈ F.grid) (h : 0 ≤ x + y) : 0 ≤ F.rnd (x + y) := by
  rw [F.rnd_add x hx y hy]; exact F.r.nonneg h

/-- As soon as a term is infinite, so is the sum. -/
theorem foldl_inf {f : Nat → Ieee F} (is : List Nat)
    (h : ∀ j ∈ is, f j = inf false ∨ ∃ x, Sound F x ∧ f j = over x) (a : Ieee F)
    (ha : a = inf false ∨ ∃ x, Sound F x ∧ a = over x) :
    (a = inf false ∨ ∃ j ∈ is, f j = inf false) → is.foldl (fun s j => s + f j) a = inf false := by
  induction is generalizing a with
  | nil =>
    rintro (h | ⟨j, hj, -⟩)
    · exact h
    · simp at hj
  | cons k is ih =>
    intro hh
    have hk := h k (by simp)
    have pos : ∀ b : Ieee F, (b = inf false ∨ ∃ x, Sound F x ∧ b = over x) → PosOrInf b := by
      rintro b (rfl | ⟨x, hx, rfl⟩)
      · exact Or.inl rfl
      · exact posOrInf_over hx.nonneg
    simp only [List.foldl_cons]
    have hsum : a + f k = inf false ∨ ∃ x, Sound F x ∧ a + f k = over x := by
      rcases ha with rfl | ⟨x, hx, rfl⟩
      · exact Or.inl (inf_add_posOrInf (pos _ hk))
      · rcases hk with e | ⟨y, hy, e⟩
        · rw [e]; exact Or.inl (posOrInf_add_inf (posOrInf_over hx.nonneg))
        · rw [e, over_add hx hy]; exact Or.inr ⟨_, sound_add hx hy, rfl⟩
    apply ih (fun j hj => h j (by simp [hj])) _ hsum
    rcases hh with rfl | ⟨j, hj, e⟩
    · exact Or.inl (inf_add_posOrInf (pos _ hk))
    · rcases List.mem_cons.1 hj with rfl | hj
      · rw [e]; exact Or.inl (posOrInf_add_inf (pos _ ha))
      · exact Or.inr ⟨j, hj, e⟩

theorem l1_inf {w : List (Ieee F)} {v : List (Fl F.r)} (hw : OnGrid w) (hn : NoNan w)
    (hv : ∀ x ∈ v, x.val ∈ F.grid) {s : Bool} (hs : inf s ∈ w) : l1 w (v.map Fl.ieee) = inf false := by
  unfold l1
  obtain ⟨j, hj, e⟩ := List.getElem_of_mem hs
  refine foldl_inf _ ?_ 0 (Or.inr ⟨0, sound_zero, over_zero.symm⟩) (Or.inr ⟨j, List.mem_range.2 hj, ?_⟩)
  · intro i _
    rw [ieee_getD, List.getD_eq_getElem?_getD]
    cases e : w[i]? with
    | none => exact Or.inr ⟨_, sound_term F.grid_zero (grid_getD hv i), over_term F.grid_zero (grid_getD hv i)⟩
    | some a =>
      have ha := List.mem_of_getElem? e
      cases a with
      | nan => exact absurd ha hn
      | inf s => exact Or.inl rfl
      | fin x => exact Or.inr ⟨_, sound_term (hw x ha) (grid_getD hv i), over_term (hw x ha) (grid_getD hv i)⟩
  · rw [ieee_getD, List.getD_eq_getElem?_getD, List.getElem?_eq_getElem hj, e]
    rfl

/-! ## Windows -/

theorem window_grid {phase : Bool} {x : List (Ieee F)} (hx : OnGrid x) {l d i : Nat} :
    OnGrid (window phase x l d i) := by
  intro v hv
  obtain ⟨j, -, e⟩ := List.mem_map.1 hv
  rw [List.getD_eq_getElem?_getD] at e
  cases h : x[pos phase x.length d i j]? with
  | none => rw [h] at e; cases e; exact F.grid_zero
  | some a => rw [h] at e; subst e; exact hx v (List.mem_of_getElem? h)

theorem window_noNan {phase : Bool} {x : List (Ieee F)} (hx : NoNan x) {l d i : Nat} :
    NoNan (window phase x l d i) := by
  intro hv
  obtain ⟨j, -, e⟩ := List.mem_map.1 hv
  rw [List.getD_eq_getElem?_getD] at e
  cases h : x[pos phase x.length d i j]? with
  | none => rw [h] at e; cases e
  | some a => rw [h] at e; subst e; exact hx (List.mem_of_getElem? h)

theorem window_hitInf {phase : Bool} {x : List (Ieee F)} {l d i : Nat} (h : HitInf phase x l d i) :
    ∃ s, inf s ∈ window phase x l d i := by
  obtain ⟨j, s, hj, e⟩ := h
  refine ⟨s, List.mem_map.2 ⟨j, List.mem_range.2 hj, ?_⟩⟩
  rw [List.getD_eq_getElem?_getD, e]; rfl

theorem window_finite {phase : Bool} {x : List (Ieee F)} {z : List (Fl F.r)} (hz : FiniteParts z x)
    (hn : NoNan x) {l d i : Nat} (h : ¬ HitInf phase x l d i) :
    window phase x l d i = (window phase z l d i).map Fl.ieee := by
  unfold window
  rw [List.map_map]
  apply List.map_congr_left
  intro j hj
  rw [Function.comp_apply, hz.1, List.getD_eq_getElem?_getD, List.getD_eq_getElem?_getD]
  cases e : x[pos phase x.length d i j]? with
  | none =>
    have : z[pos phase x.length d i j]? = none := by
      rw [List.getElem?_eq_none_iff] at e ⊢; rw [hz.1]; exact e
    rw [this]; rfl
  | some v =>
    cases v with
    | nan => exact absurd (List.mem_of_getElem? e) hn
    | inf s => exact absurd ⟨j, s, List.mem_range.1 hj, e⟩ h
    | fin v => rw [hz.2 _ _ e]; rfl

theorem grid_of_map {w : List (Fl F.r)} {u : List (Ieee F)} (hu : OnGrid u) (h : u = w.map Fl.ieee) :
    ∀ x ∈ w, x.val ∈ F.grid := by
  intro x hx
  apply hu x.val
  rw [h]
  exact List.mem_map.2 ⟨x, hx, rfl⟩

/-! ## The scan -/

theorem ieee_ltb_fin (x y : ℝ) : Scalar.ltb (fin x : Ieee F) (fin y) = decide (x < y) := by
  show decide _ = decide _; congr
theorem ieee_eqb_neg (x : ℝ) : Scalar.eqb (fin x : Ieee F) (-1 : Ieee F) = decide (x = -1) := by
  show decide _ = decide _; congr
theorem ieee_eqb_inf (s : Bool) : Scalar.eqb (inf s : Ieee F) (-1 : Ieee F) = false := rfl
theorem ieee_ltb_inf (x : ℝ) : Scalar.ltb (fin x : Ieee F) (inf false) = true := rfl
theorem ieee_inf_ltb (a : Ieee F) : Scalar.ltb (inf false : Ieee F) a = false := by cases a <;> rfl
theorem ieee_leb_fin (x y : ℝ) : Scalar.leb (fin x : Ieee F) (fin y) = decide (x ≤ y) := by
  show (decide _ || decide _) = decide _
  rw [Bool.eq_iff_iff]
  simp [le_iff_lt_or_eq]
theorem ieee_inf_leb (y : ℝ) : Scalar.leb (inf false : Ieee F) (fin y) = false := rfl

/-- The scan, started at a finite number which is not negative. -/
theorem scanMin_fin (D : List (Ieee F)) (i : Nat) (m : ℝ) (a : Nat) (hm : 0 ≤ m)
    (hD : ∀ x ∈ D, PosOrInf x) :
    (scanMin D i (fin m) a = (fin m, a) ∧ ∀ v, fin v ∈ D → m ≤ v) ∨
    (∃ (p : Nat) (w : ℝ), scanMin D i (fin m) a = (fin w, i + p) ∧ D[p]? = some (fin w) ∧ w < m ∧
      (∀ v, fin v ∈ D → w ≤ v) ∧ ∀ (q : Nat) (v : ℝ), q < p → D[q]? = some (fin v) → w < v) := by
  induction D generalizing i m a with
  | nil => left; exact ⟨rfl, by simp⟩
  | cons y D ih =>
    have hD' : ∀ x ∈ D, PosOrInf x := fun v hv => hD v (by simp [hv])
    have hne : m ≠ -1 := by linarith
    rcases hD y (by simp) with rfl | ⟨y, hy, rfl⟩
    · have e : scanMin (inf false :: D) i (fin m) a = scanMin D (i + 1) (fin m) a := by
        rw [scanMin, ieee_eqb_neg, ieee_inf_ltb]; simp [hne]
      rw [e]
      rcases ih (i + 1) m a hm hD' with ⟨h1, h2⟩ | ⟨p, w, h1, h2, h3, h4, h5⟩
      · left
        refine ⟨h1, fun v hv => ?_⟩
        rcases List.mem_cons.1 hv with h | h
        · cases h
        · exact h2 v h
      · right
        refine ⟨p + 1, w, by rw [h1]; congr 1; omega, by simpa using h2, h3, fun v hv => ?_, ?_⟩
        · rcases List.mem_cons.1 hv with h | h
          · cases h
          · exact h4 v h
        · intro q v hq hv
          cases q with
          | zero => simp at hv
          | succ q => exact h5 q v (by omega) (by simpa using hv)
    · by_cases hlt : y < m
      · have e : scanMin (fin y :: D) i (fin m) a = scanMin D (i + 1) (fin y) i := by
          rw [scanMin, ieee_ltb_fin]; simp [hlt]
        rw [e]
        right
        rcases ih (i + 1) y i hy hD' with ⟨h1, h2⟩ | ⟨p, w, h1, h2, h3, h4, h5⟩
        · refine ⟨0, y, by rw [h1]; rfl, rfl, hlt, fun v hv => ?_, by simp⟩
          rcases List.mem_cons.1 hv with h | h
          · cases h; exact le_rfl
          · exact h2 v h
        · refine ⟨p + 1, w, by rw [h1]; congr 1; omega, by simpa using h2, by linarith, fun v hv => ?_, ?_⟩
          · rcases List.mem_cons.1 hv with h | h
            · cases h; exact h3.le
            · exact h4 v h
          · intro q v hq hv
            cases q with
            | zero => simp at hv; subst hv; exact h3
            | succ q => exact h5 q v (by omega) (by simpa using hv)
      · have e : scanMin (fin y :: D) i (fin m) a = scanMin D (i + 1) (fin m) a := by
          rw [scanMin, ieee_ltb_fin, ieee_eqb_neg]; simp [hlt, hne]
        rw [e]
        rcases ih (i + 1) m a hm hD' with ⟨h1, h2⟩ | ⟨p, w, h1, h2, h3, h4, h5⟩
        · left
          refine ⟨h1, fun v hv => ?_⟩
          rcases List.mem_cons.1 hv with h | h
          · cases h; exact not_lt.1 hlt
          · exact h2 v h
        · right
          refine ⟨p + 1, w, by rw [h1]; congr 1; omega, by simpa using h2, h3, fun v hv => ?_, ?_⟩
          · rcases List.mem_cons.1 hv with h | h
            · cases h; linarith [not_lt.1 hlt]
            · exact h4 v h
          · intro q v hq hv
            cases q with
            | zero => simp at hv; subst hv; linarith [not_lt.1 hlt]
            | succ q => exact h5 q v (by omega) (by simpa using hv)

/-- The scan, started at an infinite distance. -/
theorem scanMin_inf (D : List (Ieee F)) (i a : Nat) (hD : ∀ x ∈ D, PosOrInf x) :
    (scanMin D i (inf false) a = (inf false, a) ∧ ∀ v, fin v ∉ D) ∨
    (∃ (p : Nat) (w : ℝ), scanMin D i (inf false) a = (fin w, i + p) ∧ D[p]? = some (fin w) ∧
      (∀ v, fin v ∈ D → w ≤ v) ∧ ∀ (q : Nat) (v : ℝ), q < p → D[q]? = some (fin v) → w < v) := by
  induction D generalizing i with
  | nil => left; exact ⟨rfl, by simp⟩
  | cons y D ih =>
    have hD' : ∀ x ∈ D, PosOrInf x := fun v hv => hD v (by simp [hv])
    rcases hD y (by simp) with rfl | ⟨y, hy, rfl⟩
    · have e : scanMin (inf false :: D) i (inf false) a = scanMin D (i + 1) (inf false) a := by
        rw [scanMin, ieee_eqb_inf, ieee_inf_ltb]; simp
      rw [e]
      rcases ih (i + 1) hD' with ⟨h1, h2⟩ | ⟨p, w, h1, h2, h4, h5⟩
      · left
        refine ⟨h1, fun v hv => ?_⟩
        rcases List.mem_cons.1 hv with h | h
        · cases h
        · exact h2 v h
      · right
        refine ⟨p + 1, w, by rw [h1]; congr 1; omega, by simpa using h2, fun v hv => ?_, ?_⟩
        · rcases List.mem_cons.1 hv with h | h
          · cases h
          · exact h4 v h
        · intro q v hq hv
          cases q with
          | zero => simp at hv
          | succ q => exact h5 q v (by omega) (by simpa using hv)
    · have e : scanMin (fin y :: D) i (inf false) a = scanMin D (i + 1) (fin y) i := by
        rw [scanMin, ieee_ltb_inf]; simp
      rw [e]
      right
      rcases scanMin_fin D (i + 1) y i hy hD' with ⟨h1, h2⟩ | ⟨p, w, h1, h2, h3, h4, h5⟩
      · refine ⟨0, y, by rw [h1]; rfl, rfl, fun v hv => ?_, by simp⟩
        rcases List.mem_cons.1 hv with h | h
        · cases h; exact le_rfl
        · exact h2 v h
      · refine ⟨p + 1, w, by rw [h1]; congr 1; omega, by simpa using h2, fun v hv => ?_, ?_⟩
        · rcases List.mem_cons.1 hv with h | h
          · cases h; exact h3.le
          · exact h4 v h
        · intro q v hq hv
          cases q with
          | zero => simp at hv; subst hv; exact h3
          | succ q => exact h5 q v (by omega) (by simpa using hv)

theorem ieee_init : Scalar.eqb (-1 : Ieee F) (-1) = true := by
  show Scalar.eqb (fin (-1) : Ieee F) (-1 : Ieee F) = true
  rw [ieee_eqb_neg]; simp

/-- The whole scan. -/
theorem scanMin_all {D : List (Ieee F)} (hne : D ≠ []) (hD : ∀ x ∈ D, PosOrInf x) :
    (scanMin D 0 (-1) 0 = (inf false, 0) ∧ ∀ v, fin v ∉ D) ∨
    (∃ (p : Nat) (w : ℝ), scanMin D 0 (-1) 0 = (fin w, p) ∧ D[p]? = some (fin w) ∧
      (∀ v, fin v ∈ D → w ≤ v) ∧ ∀ (q : Nat) (v : ℝ), q < p → D[q]? = some (fin v) → w < v) := by
  match D, hne, hD with
  | y :: D, _, hD =>
    have h1 : scanMin (y :: D) 0 (-1) 0 = scanMin D 1 y 0 := by rw [scanMin, ieee_init]; simp
    have h2 : scanMin (y :: D) 0 (inf false) 0 = scanMin D 1 y 0 := by
      rcases hD y (by simp) with rfl | ⟨y, hy, rfl⟩
      · rw [scanMin, ieee_eqb_inf, ieee_inf_ltb]; simp
      · rw [scanMin, ieee_ltb_inf]; simp
    rw [h1, ← h2]
    simpa using scanMin_inf (y :: D) 0 0 hD

open Classical in
/-- Distances, some of them infinite. -/
noncomputable def infMask (bad : Nat → Prop) (D : List ℝ) : List (Ieee F) :=
  (List.range D.length).map fun i => if bad i then inf false else fin (D.getD i 0)

theorem infMask_length (bad : Nat → Prop) (D : List ℝ) : (infMask (F := F) bad D).length = D.length := by
  simp [infMask]

theorem infMask_fin {bad : Nat → Prop} {D : List ℝ} {i : Nat} {v : ℝ} :
    (infMask (F := F) bad D)[i]? = some (fin v) ↔ D[i]? = some v ∧ ¬ bad i := by
  unfold infMask
  rw [List.getElem?_map]
  by_cases hi : i < D.length
  · rw [List.getElem?_range hi, List.getElem?_eq_getElem hi]
    by_cases hb : bad i
    · simp [hb]
    · simp [hb, List.getElem?_eq_getElem hi]
  · rw [List.getElem?_eq_none (by simpa using hi), List.getElem?_eq_none (by simpa using hi)]
    simp

open Classical in
theorem features_infMask {D : List ℝ} (hne : D ≠ []) (hD : ∀ x ∈ D, 0 ≤ x) (bad : Nat → Prop) (thr : ℝ) :
    InfiniteFeatures D bad thr (features (infMask (F := F) bad D) (fin thr)) := by
  have hpos := List.length_pos_of_ne_nil hne
  have hP : ∀ x ∈ infMask (F := F) bad D, PosOrInf x := by
    intro x hx
    obtain ⟨i, hi, rfl⟩ := List.mem_map.1 hx
    by_cases hb : bad i
    · rw [if_pos hb]; exact Or.inl rfl
    · rw [if_neg hb]
      have hi : i < D.length := List.mem_range.1 hi
      exact Or.inr ⟨_, hD _ (by rw [getD_lt _ hi]; exact List.getElem_mem hi), rfl⟩
  have hne' : infMask (F := F) bad D ≠ [] := by
    apply List.ne_nil_of_length_pos
    rw [infMask_length]; exact hpos
  have hc : (infMask (F := F) bad D).countP (fun x => Scalar.leb x (fin thr)) =
      ((Finset.range D.length).filter fun q => ¬ bad q ∧ D.getD q 0 ≤ thr).card := by
    unfold infMask
    rw [List.countP_map, countP_eq_card]
    congr 1
    apply Finset.filter_congr
    intro i _
    by_cases hb : bad i
    · simp [hb, ieee_inf_leb]
    · simp [hb, ieee_leb_fin]
  have hmem : ∀ q v, D[q]? = some v → ¬ bad q → (fin v : Ieee F) ∈ infMask bad D := fun q v h hb =>
    List.mem_of_getElem? (infMask_fin.2 ⟨h, hb⟩)
  refine ⟨?_, ?_, ?_⟩
  · intro hb
    rcases scanMin_all hne' hP with ⟨h, -⟩ | ⟨p, w, -, h2, -⟩
    · unfold features; rw [h]; exact ⟨rfl, rfl⟩
    · obtain ⟨h3, h4⟩ := infMask_fin.1 h2
      obtain ⟨hp, -⟩ := List.getElem?_eq_some_iff.1 h3
      exact absurd (hb p hp) h4
  · rintro ⟨q, hq, hb⟩
    rcases scanMin_all hne' hP with ⟨-, h⟩ | ⟨p, w, h1, h2, h3, h4⟩
    · exact absurd (hmem q _ (List.getElem?_eq_getElem hq) hb) (h _)
    · obtain ⟨h5, h6⟩ := infMask_fin.1 h2
      unfold features; rw [h1]
      exact ⟨p, w, rfl, rfl, h5, h6, fun q v hv hb => h3 v (hmem q v hv hb),
        fun q v hq hv hb => h4 q v hq (infMask_fin.2 ⟨hv, hb⟩)⟩
  · unfold features; rw [hc]

/-! ## Distances -/

theorem ieee_values (S : UShp (Fl F.r)) (k : Nat) : uValues S.ieee k = (uValues S k).map Fl.ieee := by
  unfold uValues UShp.ieee
  simp only [List.map_take]
  congr 1
  rw [List.getD_eq_getElem?_getD, List.getD_eq_getElem?_getD, List.getElem?_map]
  cases S.values[k]? <;> rfl

theorem ieee_threshold (S : UShp (Fl F.r)) (k : Nat) :
    S.ieee.threshold.getD k 0 = fin (S.threshold.getD k 0).val := ieee_getD S.threshold k

theorem ieee_mthreshold (S : MShp (Fl F.r)) (k : Nat) :
    S.ieee.threshold.getD k 0 = fin (S.threshold.getD k 0).val := ieee_getD S.threshold k

theorem ieee_mValues (S : MShp (Fl F.r)) (k c : Nat) : mValues S.ieee k c = (mValues S k c).map Fl.ieee := by
  unfold mValues
  rw [List.map_take, List.map_drop]
  rfl

theorem ieee_mChannels (S : MShp (Fl F.r)) (k : Nat) : mChannels S.ieee k = mChannels S k := rfl

theorem val_getD (D : List (Fl F.r)) (i : Nat) : (D.map Fl.val).getD i 0 = (D.getD i 0).val := by
  rw [List.getD_eq_getElem?_getD, List.getD_eq_getElem?_getD, List.getElem?_map]
  cases D[i]? <;> rfl

/-- One channel of an ordinary (not normalised) shapelet. -/
theorem l1_window {phase : Bool} {x : List (Ieee F)} {z : List (Fl F.r)} (hz : FiniteParts z x) (hx : OnGrid x)
    (hn : NoNan x) {v : List (Fl F.r)} (hv : ∀ a ∈ v, a.val ∈ F.grid) (l d i : Nat) :
    (HitInf phase x l d i → l1 (window phase x l d i) (v.map Fl.ieee) = inf false) ∧
    (¬ HitInf phase x l d i → l1 (window phase x l d i) (v.map Fl.ieee) =
      (over (l1 (window phase z l d i) v).val : Ieee F) ∧ Sound F (l1 (window phase z l d i) v).val) := by
  refine ⟨fun h => ?_, fun h => ?_⟩
  · obtain ⟨s, hs⟩ := window_hitInf h
    exact l1_inf (window_grid hx) (window_noNan hn) hv hs
  · have e := window_finite hz hn h
    rw [e]
    exact l1_ieee (grid_of_map (window_grid hx) e) hv

theorem over_or {a : ℝ} (h : Sound F a) :
    (F.top ≤ a → (over a : Ieee F) = inf false) ∧ (¬ F.top ≤ a → (over a : Ieee F) = fin a) :=
  ⟨over_top, fun h' => over_nonneg h.nonneg (not_le.1 h')⟩

theorem uDistances_ieee (phase : Bool) (S : UShp (Fl F.r)) {x : List (Ieee F)} {z : List (Fl F.r)}
    (hz : FiniteParts z x) (hx : OnGrid x) (hn : NoNan x) {k : Nat} (hk : S.normalize.getD k false = false)
    (hv : ∀ a ∈ uValues S k, a.val ∈ F.grid) :
    uDistances phase S.ieee x k = infMask (UBad phase S x z k) ((uDistances phase S z k).map Fl.val) := by
  unfold infMask
  rw [List.length_map]
  have hl : (uDistances phase S z k).length = nWin phase x.length (S.lengths.getD k 0) (S.dilations.getD k 0) := by
    simp [uDistances, distances, hz.1]
  rw [hl]
  have e1 : uDistances phase S.ieee x k =
      (List.range (nWin phase x.length (S.lengths.getD k 0) (S.dilations.getD k 0))).map fun i =>
        l1 (window phase x (S.lengths.getD k 0) (S.dilations.getD k 0) i) ((uValues S k).map Fl.ieee) := by
    unfold uDistances distances
    rw [ieee_values, show S.ieee.normalize.getD k false = false from hk]; rfl
  rw [e1]
  apply List.map_congr_left
  intro i hi
  replace hi : i < nWin phase x.length (S.lengths.getD k 0) (S.dilations.getD k 0) := List.mem_range.1 hi
  have hD : (uDistances phase S z k).getD i 0 =
      l1 (window phase z (S.lengths.getD k 0) (S.dilations.getD k 0) i) (uValues S k) := by
    unfold uDistances distances
    rw [hz.1, getD_range_map _ hi, hk]; rfl
  rw [val_getD]
  obtain ⟨h1, h2⟩ := l1_window (phase := phase) hz hx hn hv (S.lengths.getD k 0) (S.dilations.getD k 0) i
  by_cases hh : HitInf phase x (S.lengths.getD k 0) (S.dilations.getD k 0) i
  · rw [if_pos (show UBad phase S x z k i from Or.inl hh), h1 hh]
  · obtain ⟨e, hs⟩ := h2 hh
    rw [e, hD]
    by_cases ht : F.top ≤ (l1 (window phase z (S.lengths.getD k 0) (S.dilations.getD k 0) i) (uValues S k)).val
    · rw [if_pos (show UBad phase S x z k i from Or.inr (by rw [hD]; exact ht))]
      exact (over_or hs).1 ht
    · rw [if_neg (show ¬ UBad phase S x z k i by
        rintro (h | h)
        · exact hh h
        · rw [hD] at h; exact ht h)]
      exact (over_or hs).2 ht

theorem mDistances_ieee (phase : Bool) (S : MShp (Fl F.r)) {x : List (List (Ieee F))} {z : List (List (Fl F.r))}
    {T : Nat} (hz : ∀ c, FiniteParts (z.getD c []) (x.getD c [])) (hx : ∀ c, OnGrid (x.getD c []))
    (hn : ∀ c, NoNan (x.getD c [])) {k : Nat} (hk : S.normalize.getD k false = false)
    (hv : ∀ c, ∀ a ∈ mValues S k c, a.val ∈ F.grid) :
    mDistances phase S.ieee x T k = infMask (MBad phase S x z T k) ((mDistances phase S z T k).map Fl.val) := by
  unfold infMask
  rw [List.length_map]
  have hl : (mDistances phase S z T k).length = nWin phase T (S.lengths.getD k 0) (S.dilations.getD k 0) := by
    simp [mDistances]
  rw [hl]
  show (List.range (nWin phase T (S.lengths.getD k 0) (S.dilations.getD k 0))).map (mDist phase S.ieee x k) = _
  apply List.map_congr_left
  intro i hi
  replace hi : i < nWin phase T (S.lengths.getD k 0) (S.dilations.getD k 0) := List.mem_range.1 hi
  have hD : (mDistances phase S z T k).getD i 0 = mDist phase S z k i := by
    unfold mDistances; rw [getD_range_map _ hi]
  rw [val_getD]
  have term := fun c => l1_window (phase := phase) (hz ((mChannels S k).getD c 0)) (hx ((mChannels S k).getD c 0))
    (hn ((mChannels S k).getD c 0)) (hv c) (S.lengths.getD k 0) (S.dilations.getD k 0) i
  have e1 : mDist phase S.ieee x k i = (List.range (mChannels S k).length).foldl (fun s c =>
      s + l1 (window phase (x.getD ((mChannels S k).getD c 0) []) (S.lengths.getD k 0) (S.dilations.getD k 0) i)
        ((mValues S k c).map Fl.ieee)) 0 := by
    unfold mDist
    simp only [ieee_mValues, ieee_mChannels]
    show (List.range (mChannels S k).length).foldl (fun s c => s + l1 (seen (S.normalize.getD k false)
      (window phase (x.getD ((mChannels S k).getD c 0) []) (S.lengths.getD k 0) (S.dilations.getD k 0) i))
        ((mValues S k c).map Fl.ieee)) 0 = _
    rw [hk]; rfl
  have e2 : mDist phase S z k i = (List.range (mChannels S k).length).foldl (fun s c =>
      s + l1 (window phase (z.getD ((mChannels S k).getD c 0) []) (S.lengths.getD k 0) (S.dilations.getD k 0) i)
        (mValues S k c)) 0 := by
    unfold mDist
    rw [hk]; rfl
  by_cases hh : ∃ c ∈ mChannels S k, HitInf phase (x.getD c []) (S.lengths.getD k 0) (S.dilations.getD k 0) i
  · rw [if_pos (show MBad phase S x z T k i from Or.inl hh), e1]
    obtain ⟨c, hc, h⟩ := hh
    obtain ⟨j, hj, rfl⟩ := List.getElem_of_mem hc
    refine foldl_inf _ ?_ 0 (Or.inr ⟨0, sound_zero, over_zero.symm⟩) (Or.inr ⟨j, List.mem_range.2 hj, ?_⟩)
    · intro c _
      by_cases h : HitInf phase (x.getD ((mChannels S k).getD c 0) []) (S.lengths.getD k 0) (S.dilations.getD k 0) i
      · exact Or.inl ((term c).1 h)
      · obtain ⟨e, hs⟩ := (term c).2 h
        exact Or.inr ⟨_, hs, e⟩
    · apply (term j).1
      rw [getD_lt _ hj]; exact h
  · have clean : ∀ c ∈ List.range (mChannels S k).length,
        ¬ HitInf phase (x.getD ((mChannels S k).getD c 0) []) (S.lengths.getD k 0) (S.dilations.getD k 0) i := by
      intro c hc h
      refine hh ⟨_, ?_, h⟩
      rw [getD_lt _ (List.mem_range.1 hc)]; exact List.getElem_mem _
    obtain ⟨h1, h2⟩ := foldl_sound (F := F)
      (f := fun c => l1 (window phase (x.getD ((mChannels S k).getD c 0) []) (S.lengths.getD k 0)
        (S.dilations.getD k 0) i) ((mValues S k c).map Fl.ieee))
      (g := fun c => l1 (window phase (z.getD ((mChannels S k).getD c 0) []) (S.lengths.getD k 0)
        (S.dilations.getD k 0) i) (mValues S k c)) (List.range (mChannels S k).length)
      (fun c hc => ⟨((term c).2 (clean c hc)).2, ((term c).2 (clean c hc)).1⟩) 0 sound_zero
    rw [show (over (0 : Fl F.r).val : Ieee F) = 0 from over_zero, ← e1, ← e2] at h1
    rw [← e2] at h2
    rw [h1, hD]
    by_cases ht : F.top ≤ (mDist phase S z k i).val
    · rw [if_pos (show MBad phase S x z T k i from Or.inr (by rw [hD]; exact ht))]
      exact (over_or h2).1 ht
    · rw [if_neg (show ¬ MBad phase S x z T k i by
        rintro (h | h)
        · exact hh h
        · rw [hD] at h; exact ht h)]
      exact (over_or h2).2 ht

/-! ## Normalised shapelets -/

/-- Infinite or `NaN`. -/
def NotFin (a : Ieee F) : Prop := ∀ x : ℝ, a ≠ fin x

theorem notFin_nan : NotFin (nan : Ieee F) := fun _ h => by cases h
theorem notFin_inf (s : Bool) : NotFin (inf s : Ieee F) := fun _ h => by cases h

theorem notFin_cases {a : Ieee F} (h : NotFin a) : a = nan ∨ ∃ s, a = inf s := by
  cases a with
  | nan => exact Or.inl rfl
  | inf s => exact Or.inr ⟨s, rfl⟩
  | fin x => exact absurd rfl (h x)

theorem notFin_add_left {a : Ieee F} (h : NotFin a) (b : Ieee F) : NotFin (a + b) := by
  rcases notFin_cases h with rfl | ⟨s, rfl⟩
  · exact notFin_nan
  · cases b with
    | nan => exact notFin_nan
    | inf t =>
      show NotFin (if s = t then inf s else nan)
      split
      · exact notFin_inf _
      · exact notFin_nan
    | fin y => exact notFin_inf s

theorem notFin_add_right {b : Ieee F} (h : NotFin b) (a : Ieee F) : NotFin (a + b) := by
  cases a with
  | nan => exact notFin_nan
  | inf s => exact notFin_add_left (notFin_inf s) b
  | fin x =>
    rcases notFin_cases h with rfl | ⟨s, rfl⟩
    · exact notFin_nan
    · exact notFin_inf s

theorem notFin_sub_right {b : Ieee F} (h : NotFin b) (a : Ieee F) : NotFin (a - b) := by
  apply notFin_add_right (b := Ieee.neg b)
  rcases notFin_cases h with rfl | ⟨s, rfl⟩
  · exact notFin_nan
  · exact notFin_inf _

theorem notFin_mul_self {a : Ieee F} (h : NotFin a) : NotFin (a * a) := by
  rcases notFin_cases h with rfl | ⟨s, rfl⟩
  · exact notFin_nan
  · exact notFin_inf _

theorem notFin_div {a : Ieee F} (h : NotFin a) (b : Ieee F) : NotFin (a / b) := by
  rcases notFin_cases h with rfl | ⟨s, rfl⟩
  · exact notFin_nan
  · cases b with
    | nan => exact notFin_nan
    | inf t => exact notFin_nan
    | fin y => exact notFin_inf _

theorem notFin_div_notFin {a b : Ieee F} (ha : NotFin a) (hb : NotFin b) : a / b = nan := by
  rcases notFin_cases ha with rfl | ⟨s, rfl⟩
  · rfl
  · rcases notFin_cases hb with rfl | ⟨t, rfl⟩ <;> rfl

theorem notFin_sqrt {a : Ieee F} (h : NotFin a) : NotFin (Scalar.sqrt a) := by
  rcases notFin_cases h with rfl | ⟨s, rfl⟩
  · exact notFin_nan
  · cases s
    · exact notFin_inf false
    · exact notFin_nan

theorem notFin_foldl (w : List (Ieee F)) (a : Ieee F) (h : NotFin a ∨ ∃ b ∈ w, NotFin b) :
    NotFin (w.foldl (· + ·) a) := by
  induction w generalizing a with
  | nil =>
    rcases h with h | ⟨b, hb, -⟩
    · exact h
    · simp at hb
  | cons b w ih =>
    rw [List.foldl_cons]
    apply ih
    rcases h with h | ⟨c, hc, h⟩
    · exact Or.inl (notFin_add_left h b)
    · rcases List.mem_cons.1 hc with rfl | hc
      · exact Or.inl (notFin_add_right h a)
      · exact Or.inr ⟨c, hc, h⟩

theorem notFin_mean {w : List (Ieee F)} (h : ∃ b ∈ w, NotFin b) : NotFin (mean w) :=
  notFin_div (notFin_foldl w 0 (Or.inr h)) _

/-- Normalising a vector with an infinite or missing value leaves nothing but `NaN`. -/
theorem znorm_notFin {w : List (Ieee F)} (h : ∃ b ∈ w, NotFin b) : ∀ a ∈ znorm w, a = nan := by
  intro a ha
  have hm := notFin_mean h
  unfold znorm at ha
  obtain ⟨v, hv, rfl⟩ := List.mem_map.1 ha
  apply notFin_div_notFin (notFin_sub_right hm v)
  apply notFin_add_left
  unfold std
  apply notFin_sqrt
  apply notFin_mean
  obtain ⟨b, hb, -⟩ := h
  exact ⟨_, List.mem_map.2 ⟨b, hb, rfl⟩, notFin_mul_self (notFin_sub_right hm b)⟩

theorem ieee_foldl_nan {f : Nat → Ieee F} (is : List Nat) : is.foldl (fun s j => s + f j) nan = nan := by
  induction is with
  | nil => rfl
  | cons j is ih => simpa [ieee_nan_add] using ih

theorem ieee_foldl_nan_mem {f : Nat → Ieee F} {is : List Nat} {j : Nat} (hj : j ∈ is) (h : f j = nan)
    (a : Ieee F) : is.foldl (fun s j => s + f j) a = nan := by
  induction is generalizing a with
  | nil => simp at hj
  | cons k is ih =>
    rw [List.foldl_cons]
    rcases List.mem_cons.1 hj with rfl | hj
    · rw [h, ieee_add_nan]; exact ieee_foldl_nan is
    · exact ih hj _

theorem ieee_l1_nan {w : List (Ieee F)} (h : nan ∈ w) (v : List (Ieee F)) : l1 w v = nan := by
  obtain ⟨j, hj, e⟩ := List.getElem_of_mem h
  unfold l1
  refine ieee_foldl_nan_mem (j := j) (List.mem_range.2 hj) ?_ 0
  rw [List.getD_eq_getElem?_getD, List.getElem?_eq_getElem hj, e]
  rfl

theorem window_hitAny {phase : Bool} {x : List (Ieee F)} {l d i : Nat} (h : HitAny phase x l d i) :
    ∃ b ∈ window phase x l d i, NotFin b := by
  rcases h with h | ⟨j, hj, e⟩
  · obtain ⟨s, hs⟩ := window_hitInf h
    exact ⟨_, hs, notFin_inf s⟩
  · refine ⟨nan, List.mem_map.2 ⟨j, List.mem_range.2 hj, ?_⟩, notFin_nan⟩
    rw [List.getD_eq_getElem?_getD, e]; rfl

theorem l1_znorm_hit {phase : Bool} {x : List (Ieee F)} {l d i : Nat} (h : HitAny phase x l d i)
    (v : List (Ieee F)) : l1 (znorm (window phase x l d i)) v = nan := by
  have hw := window_hitAny h
  obtain ⟨b, hb, -⟩ := id hw
  have hpos : 0 < (znorm (window phase x l d i)).length := by
    simpa [znorm] using List.length_pos_of_mem hb
  apply ieee_l1_nan
  have hm : (znorm (window phase x l d i))[0] ∈ znorm (window phase x l d i) := List.getElem_mem hpos
  rw [← znorm_notFin hw _ hm]
  exact hm

/-- What sums of absolute values can be. -/
def Tame (a : Ieee F) : Prop := a = nan ∨ a = inf false ∨ ∃ x, 0 ≤ x ∧ x ∈ F.grid ∧ a = fin x

theorem tame_over {x : ℝ} (h0 : 0 ≤ x) (hg : x ∈ F.grid) : Tame (over x : Ieee F) := by
  rcases lt_or_ge x F.top with h | h
  · exact Or.inr (Or.inr ⟨x, h0, hg, over_nonneg h0 h⟩)
  · exact Or.inr (Or.inl (over_top h))

theorem tame_add {a b : Ieee F} (ha : Tame a) (hb : Tame b) : Tame (a + b) := by
  rcases ha with rfl | rfl | ⟨x, hx, gx, rfl⟩
  · exact Or.inl rfl
  · rcases hb with rfl | rfl | ⟨y, hy, gy, rfl⟩
    · exact Or.inl rfl
    · exact Or.inr (Or.inl rfl)
    · exact Or.inr (Or.inl rfl)
  · rcases hb with rfl | rfl | ⟨y, hy, gy, rfl⟩
    · exact Or.inl rfl
    · exact Or.inr (Or.inl rfl)
    · exact tame_over (rnd_nonneg_add gx gy (add_nonneg hx hy)) (F.rnd_grid _)

/-- A finite value of which is a number of the format. -/
def Gridded (a : Ieee F) : Prop := ∀ x, a = fin x → x ∈ F.grid

theorem over_gridded {x : ℝ} (h : x ∈ F.grid) : Gridded (over x : Ieee F) := by
  intro y e
  unfold over at e
  split_ifs at e
  cases e
  exact h

theorem tame_abs {a : Ieee F} (h : Gridded a) : Tame (Scalar.abs a) := by
  cases a with
  | nan => exact Or.inl rfl
  | inf s => exact Or.inr (Or.inl rfl)
  | fin x =>
    refine Or.inr (Or.inr ⟨|x|, abs_nonneg x, ?_, rfl⟩)
    rcases abs_choice x with e | e
    · rw [e]; exact h x rfl
    · rw [e]; exact F.grid_neg _ (h x rfl)

theorem gridded_sub (a b : Ieee F) : Gridded (a - b) := by
  cases a with
  | nan => intro x h; cases h
  | inf s => exact fun x h => absurd h (notFin_add_left (notFin_inf s) _ x)
  | fin y =>
    cases b with
    | nan => intro x h; cases h
    | inf t => intro x h; cases h
    | fin z => rw [ieee_fin_sub]; exact over_gridded (F.rnd_grid _)

theorem tame_l1 (w v : List (Ieee F)) : Tame (l1 w v) := by
  unfold l1
  have : ∀ (is : List Nat) (a : Ieee F), Tame a →
      Tame (is.foldl (fun s j => s + Scalar.abs (w.getD j 0 - v.getD j 0)) a) := by
    intro is
    induction is with
    | nil => intro a h; exact h
    | cons j is ih => intro a h; exact ih _ (tame_add h (tame_abs (gridded_sub _ _)))
  exact this _ 0 (Or.inr (Or.inr ⟨0, le_rfl, F.grid_zero, rfl⟩))

theorem tame_mDist (phase : Bool) (S : MShp (Ieee F)) (x : List (List (Ieee F))) (k i : Nat) :
    Tame (mDist phase S x k i) := by
  unfold mDist
  generalize (List.range (mChannels S k).length) = is
  have : ∀ (is : List Nat) (f : Nat → Ieee F) (a : Ieee F), (∀ j, Tame (f j)) → Tame a →
      Tame (is.foldl (fun s j => s + f j) a) := by
    intro is f
    induction is with
    | nil => intro a _ h; exact h
    | cons j is ih => intro a hf h; exact ih _ hf (tame_add h (hf j))
  exact this is _ 0 (fun c => tame_l1 _ _) (Or.inr (Or.inr ⟨0, le_rfl, F.grid_zero, rfl⟩))

theorem ieee_ltb_nan_right (x : Ieee F) : Scalar.ltb x nan = false := by cases x <;> rfl
theorem ieee_nan_ltb (x : Ieee F) : Scalar.ltb nan x = false := rfl
theorem ieee_nan_leb (x : Ieee F) : Scalar.leb nan x = false := rfl

theorem scanMin_ieee_nan (D : List (Ieee F)) (i a : Nat) : scanMin D i nan a = (nan, a) := by
  induction D generalizing i with
  | nil => rfl
  | cons x D ih =>
    rw [scanMin, ieee_ltb_nan_right, show Scalar.eqb nan (-1 : Ieee F) = false from rfl]
    exact ih _

/-- Started at something that is not `NaN`, the scan never stops at a `NaN`. -/
theorem scanMin_tame (D : List (Ieee F)) (hD : ∀ x ∈ D, Tame x) (i : Nat) (m : Ieee F) (a : Nat)
    (hm : Tame m) : (scanMin D i m a).2 = a ∨
      ∃ p x, D[p]? = some x ∧ x ≠ nan ∧ (scanMin D i m a).2 = i + p := by
  induction D generalizing i m a with
  | nil => exact Or.inl rfl
  | cons y D ih =>
    have hD' : ∀ x ∈ D, Tame x := fun x hx => hD x (by simp [hx])
    have he : Scalar.eqb m (-1 : Ieee F) = false := by
      rcases hm with rfl | rfl | ⟨x, hx, -, rfl⟩
      · rfl
      · rfl
      · rw [ieee_eqb_neg]; simp; linarith
    rw [scanMin, he, Bool.or_false]
    by_cases hl : Scalar.ltb y m = true
    · rw [if_pos hl]
      have hy : y ≠ nan := by rintro rfl; simp [ieee_nan_ltb] at hl
      right
      rcases ih hD' (i + 1) y i (hD y (by simp)) with h | ⟨p, x, h1, h2, h3⟩
      · exact ⟨0, y, rfl, hy, h⟩
      · exact ⟨p + 1, x, by simpa using h1, h2, by rw [h3]; omega⟩
    · rw [if_neg hl]
      rcases ih hD' (i + 1) m a hm with h | ⟨p, x, h1, h2, h3⟩
      · exact Or.inl h
      · exact Or.inr ⟨p + 1, x, by simpa using h1, h2, by rw [h3]; omega⟩

open Classical in
theorem features_passedOver {D : List (Ieee F)} (hne : D ≠ []) (hD : ∀ x ∈ D, Tame x) {bad : Nat → Prop}
    (hb : ∀ i, i < D.length → bad i → D[i]? = some nan) (thr : Ieee F) :
    PassedOver D.length bad (features D thr) := by
  have hpos := List.length_pos_of_ne_nil hne
  obtain ⟨y, E, rfl⟩ : ∃ y E, D = y :: E := List.exists_cons_of_ne_nil hne
  have h1 : scanMin (y :: E) 0 (-1) 0 = scanMin E 1 y 0 := by rw [scanMin, ieee_init]; simp
  refine ⟨?_, ?_, ?_⟩
  · intro h
    have := hb 0 hpos h
    simp at this
    subst this
    unfold features
    rw [h1, scanMin_ieee_nan]
    exact ⟨rfl, rfl⟩
  · intro h0
    unfold features
    rw [h1]
    rcases scanMin_tame E (fun x hx => hD x (by simp [hx])) 1 y 0 (hD y (by simp)) with h | ⟨p, x, e1, e2, e3⟩
    · exact ⟨0, hpos, h0, by rw [h]⟩
    · obtain ⟨hp, -⟩ := List.getElem?_eq_some_iff.1 e1
      refine ⟨1 + p, by simp; omega, ?_, by rw [e3]⟩
      intro hbad
      have := hb (1 + p) (by simp; omega) hbad
      rw [Nat.add_comm, List.getElem?_cons_succ, e1] at this
      exact e2 (Option.some.inj this)
  · refine ⟨_, rfl, ?_⟩
    generalize y :: E = D at hb
    have : D = (List.range D.length).map fun i => D.getD i 0 := by
      apply List.ext_getElem
      · simp
      · intro i h1 h2; rw [List.getElem_map, List.getElem_range, getD_lt _ h1]
    conv_lhs => rw [this]
    rw [List.countP_map, countP_eq_card]
    apply Finset.card_le_card
    intro i hi
    rw [Finset.mem_filter] at hi ⊢
    refine ⟨hi.1, fun hbad => ?_⟩
    have hlt := Finset.mem_range.1 hi.1
    have h2 := hb i hlt hbad
    have h3 := hi.2
    rw [Function.comp_apply, List.getD_eq_getElem?_getD, h2] at h3
    simp [ieee_nan_leb] at h3

theorem uPassedOver (phase : Bool) (S : UShp (Ieee F)) (x : List (Ieee F)) {k : Nat}
    (hk : S.normalize.getD k false = true)
    (hw : 0 < nWin phase x.length (S.lengths.getD k 0) (S.dilations.getD k 0)) :
    PassedOver (nWin phase x.length (S.lengths.getD k 0) (S.dilations.getD k 0))
      (HitAny phase x (S.lengths.getD k 0) (S.dilations.getD k 0)) (uFeatures phase S x k) := by
  have hl : (uDistances phase S x k).length = nWin phase x.length (S.lengths.getD k 0) (S.dilations.getD k 0) := by
    simp [uDistances, distances]
  rw [← hl] at hw ⊢
  refine features_passedOver (List.ne_nil_of_length_pos hw) ?_ ?_ _
  · intro a ha
    obtain ⟨i, -, rfl⟩ := List.mem_map.1 ha
    exact tame_l1 _ _
  · intro i hi h
    rw [hl] at hi
    unfold uDistances distances
    rw [List.getElem?_map, List.getElem?_range hi, hk]
    exact congrArg some (l1_znorm_hit h _)

theorem mPassedOver (phase : Bool) (S : MShp (Ieee F)) (x : List (List (Ieee F))) {T k : Nat}
    (hk : S.normalize.getD k false = true)
    (hw : 0 < nWin phase T (S.lengths.getD k 0) (S.dilations.getD k 0)) :
    PassedOver (nWin phase T (S.lengths.getD k 0) (S.dilations.getD k 0))
      (fun i => ∃ c ∈ mChannels S k, HitAny phase (x.getD c []) (S.lengths.getD k 0) (S.dilations.getD k 0) i)
      (mFeatures phase S x T k) := by
  have hl : (mDistances phase S x T k).length = nWin phase T (S.lengths.getD k 0) (S.dilations.getD k 0) := by
    simp [mDistances]
  rw [← hl] at hw ⊢
  refine features_passedOver (List.ne_nil_of_length_pos hw) ?_ ?_ _
  · intro a ha
    obtain ⟨i, -, rfl⟩ := List.mem_map.1 ha
    exact tame_mDist _ _ _ _ _
  · rintro i hi ⟨c, hc, h⟩
    rw [hl] at hi
    unfold mDistances
    rw [List.getElem?_map, List.getElem?_range hi]
    obtain ⟨j, hj, rfl⟩ := List.getElem_of_mem hc
    refine congrArg some ?_
    unfold mDist
    refine ieee_foldl_nan_mem (j := j) (List.mem_range.2 hj) ?_ 0
    rw [hk, getD_lt _ hj]
    exact l1_znorm_hit h _

/-! ## Binary formats, and `float64` -/

/-- The position of the leading digit of a multiple of `2 ^ q` is at least `q`. -/
theorem rndBin_fine {p : Nat} {x : ℝ} {q : Int} (N : Int) (hx : x = N * (2 : ℝ) ^ q) (hq : binExp x - p ≤ q) :
    rndBin p x = x := by
  obtain ⟨n, hn⟩ := Int.eq_ofNat_of_zero_le (show 0 ≤ q - (binExp x - p) by omega)
  unfold rndBin
  have e : x * (2 : ℝ) ^ ((p : Int) - binExp x) = ((N * 2 ^ n : Int) : ℝ) := by
    conv_lhs => rw [hx]
    rw [mul_assoc, ← zpow_add₀ (by norm_num), ← hx, show q + ((p : Int) - binExp x) = (n : Int) by omega, zpow_natCast]
    push_cast; rfl
  rw [e, round_intCast, ← e, mul_assoc, ← zpow_add₀ (by norm_num)]
  simp

/-- Rounding to the nearest with `p + 1` binary digits and a spacing of at least `2 ^ q`. -/
noncomputable def rndSub (p : Nat) (q : Int) (x : ℝ) : ℝ :=
  if q ≤ binExp x - (p : Int) then rndBin p x else (round (x * (2 : ℝ) ^ (-q)) : ℝ) * (2 : ℝ) ^ q

theorem rndSub_fine {p : Nat} {q : Int} {x : ℝ} (N : Int) (hx : x = N * (2 : ℝ) ^ q) :
    rndSub p q x = rndBin p x := by
  unfold rndSub
  split
  · rfl
  · rename_i h
    rw [rndBin_fine N hx (by omega)]
    have e : x * (2 : ℝ) ^ (-q) = (N : ℝ) := by
      rw [hx, mul_assoc, ← zpow_add₀ (by norm_num)]; simp
    rw [e, round_intCast]
    exact hx.symm

theorem rndBin_abs (p : Nat) (x : ℝ) : rndBin p |rndBin p x| = |rndBin p x| := by
  -- a rounded number is an integer of `p + 1` digits times a power of two, and so is its opposite
  by_cases h0 : rndBin p x = 0
  · rw [h0]; simp [rndBin]
  have hi := rndBin_idem p x
  rcases abs_choice (rndBin p x) with e | e
  · rw [e]; exact hi
  · rw [e]
    set y := rndBin p x with hy
    have hb : binExp (-y) = binExp y := by unfold binExp; rw [abs_neg]
    -- `y` is a multiple of its own spacing
    have hm : y = (round (y * (2 : ℝ) ^ ((p : Int) - binExp y)) : ℝ) * (2 : ℝ) ^ (binExp y - (p : Int)) := hi.symm
    refine rndBin_fine (q := binExp y - p) (-(round (y * (2 : ℝ) ^ ((p : Int) - binExp y)))) ?_ (by rw [hb])
    push_cast
    rw [neg_mul, ← hm]

/-- Numbers with `p + 1` binary digits, spaced by at least `2 ^ q`, of magnitude below `2 ^ E`. -/
noncomputable def FloatFormat.binary (p : Nat) (q : Int) (hq : q + p ≤ 0) (E : Nat) (hE : 1 ≤ E) : FloatFormat where
  r := Rounding.binary p
  rnd := rndSub p q
  top := (2 : ℝ) ^ E
  top_gt := one_lt_pow₀ (by norm_num) (by omega)
  grid := {x | ∃ N : Int, x = N * (2 : ℝ) ^ q}
  grid_zero := ⟨0, by simp⟩
  grid_neg := by rintro x ⟨N, rfl⟩; exact ⟨-N, by push_cast; ring⟩
  rnd_grid := by
    intro x
    unfold rndSub
    split
    · rename_i h
      obtain ⟨n, hn⟩ := Int.eq_ofNat_of_zero_le (show 0 ≤ binExp x - p - q by omega)
      refine ⟨round (x * (2 : ℝ) ^ ((p : Int) - binExp x)) * 2 ^ n, ?_⟩
      unfold rndBin
      rw [show binExp x - (p : Int) = n + q by omega, zpow_add₀ (by norm_num), zpow_natCast]
      push_cast; ring
    · exact ⟨_, rfl⟩
  rnd_add := by
    rintro x ⟨N, hN⟩ y ⟨M, hM⟩
    exact rndSub_fine (N + M) (by rw [hN, hM]; push_cast; ring)
  rnd_nat := by
    intro n
    obtain ⟨m, hm⟩ := Int.eq_ofNat_of_zero_le (show 0 ≤ -q by omega)
    refine rndSub_fine (n * 2 ^ m) ?_
    rw [show q = -(m : Int) by omega, zpow_neg, zpow_natCast]
    push_cast
    field_simp
  rnd_abs := rndBin_abs p

/-- `float64`: 53 binary digits, spacing `2⁻¹⁰⁷⁴`, magnitudes below `2¹⁰²⁴`.  (Ties are rounded upwards here, to
even numbers in IEEE 754; the theorems hold for every `FloatFormat`.) -/
noncomputable def FloatFormat.float64 : FloatFormat :=
  FloatFormat.binary 52 (-1074) (by norm_num) 1024 (by norm_num)

end Convst
