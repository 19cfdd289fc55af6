import Verif.Proofs.Law
import Mathlib.Probability.ProductMeasure
import Mathlib.MeasureTheory.Function.Floor

/-!
# An ideal generator

A sequence of independent uniform numbers, read one by one, is a fair generator.
-/

set_option autoImplicit false
set_option linter.unusedSectionVars false

namespace Convst
open Spec MeasureTheory
open scoped ENNReal

/-- The numbers still to be read. -/
abbrev Tape : Type := Nat → ℝ

noncomputable instance : Gen Tape ℝ where
  randint lo hi g := (lo + ⌊Int.fract (g 0) * ((hi - lo : Nat) : ℝ)⌋.toNat, fun n => g (n + 1))
  unit g := (Int.fract (g 0), fun n => g (n + 1))

theorem floor_lt {u : ℝ} (h0 : 0 ≤ u) (h1 : u < 1) {n : Nat} (hn : 0 < n) : ⌊u * (n : ℝ)⌋.toNat < n := by
  have hn' : (0 : ℝ) < n := by exact_mod_cast hn
  have h2 : u * (n : ℝ) < n := by nlinarith
  have h3 : ⌊u * (n : ℝ)⌋ < (n : Int) := Int.floor_lt.2 (by exact_mod_cast h2)
  omega

instance : LawfulGen Tape where
  randint_ge _ _ _ _ := Nat.le_add_right _ _
  randint_lt lo hi g h := by
    have := floor_lt (Int.fract_nonneg (g 0)) (Int.fract_lt_one (g 0)) (n := hi - lo) (by omega)
    show lo + _ < hi
    omega
  unit_nonneg g := Int.fract_nonneg _
  unit_lt g := Int.fract_lt_one _

/-- The uniform law on `[0, 1)`. -/
noncomputable def u01 : Measure ℝ := volume.restrict (Set.Ico 0 1)

instance : IsProbabilityMeasure u01 := ⟨by simp [u01]⟩

/-- The law of a sequence of independent uniform numbers. -/
noncomputable def tapeLaw : Measure Tape := Measure.infinitePi fun _ => u01

instance : IsProbabilityMeasure tapeLaw := by unfold tapeLaw; infer_instance

/-- A number put before the others. -/
def consTape (p : ℝ × Tape) : Tape
  | 0 => p.1
  | n + 1 => p.2 n

theorem measurable_consTape : Measurable consTape := by
  rw [measurable_pi_iff]
  intro n
  cases n with
  | zero => exact measurable_fst
  | succ n => exact (measurable_pi_apply n).comp measurable_snd

/-- The first number is independent of the others, and these have the law of the whole. -/
theorem map_consTape : (u01.prod tapeLaw).map consTape = tapeLaw := by
  classical
  refine Measure.eq_infinitePi _ ?_
  intro s t ht
  obtain ⟨N, hN⟩ : ∃ N, s ⊆ Finset.range (N + 1) :=
    ⟨s.sup id, fun i hi => Finset.mem_range.2 (Nat.lt_succ_of_le (Finset.le_sup (f := id) hi))⟩
  set t' : Nat → Set ℝ := fun i => if i ∈ s then t i else Set.univ with ht'
  have hm' : ∀ i, MeasurableSet (t' i) := by
    intro i
    simp only [ht']
    split
    · exact ht i
    · exact MeasurableSet.univ
  have hp : ∏ i ∈ s, u01 (t i) = ∏ i ∈ Finset.range (N + 1), u01 (t' i) := by
    rw [← Finset.prod_subset hN (f := fun i => u01 (t' i))]
    · refine Finset.prod_congr rfl fun i hi => ?_
      simp only [ht', if_pos hi]
    · intro i _ hi
      simp only [ht', if_neg hi, measure_univ]
  have hs : Set.pi (s : Set Nat) t = Set.pi (Finset.range (N + 1) : Set Nat) t' := by
    ext x
    simp only [Set.mem_pi]
    constructor
    · intro h i _
      simp only [ht']
      split
      · rename_i hi; exact h i hi
      · trivial
    · intro h i hi
      have := h i (by exact_mod_cast hN (by exact_mod_cast hi))
      simp only [ht'] at this
      rwa [if_pos (by exact_mod_cast hi)] at this
  rw [hp, hs, Measure.map_apply measurable_consTape (MeasurableSet.pi (Finset.countable_toSet _) fun i _ => hm' i)]
  have hpre : consTape ⁻¹' Set.pi (Finset.range (N + 1) : Set Nat) t' =
      t' 0 ×ˢ Set.pi (Finset.range N : Set Nat) fun n => t' (n + 1) := by
    ext p
    simp only [Set.mem_preimage, Set.mem_pi, Set.mem_prod, Finset.coe_range, Set.mem_Iio]
    constructor
    · intro h
      exact ⟨h 0 (by omega), fun n hn => h (n + 1) (by omega)⟩
    · rintro ⟨h1, h2⟩ i hi
      cases i with
      | zero => exact h1
      | succ n => exact h2 n (by omega)
  rw [hpre, Measure.prod_prod]
  unfold tapeLaw
  rw [Measure.infinitePi_pi (μ := fun _ : Nat => u01) (fun i _ => hm' (i + 1)), Finset.prod_range_succ', mul_comm]

/-- Probability of an event on the first number and on the others. -/
theorem tape_first (B : Set ℝ) (A : Set Tape) (hB : MeasurableSet B) (hA : MeasurableSet A) :
    MeasurableSet {g : Tape | g 0 ∈ B ∧ (fun n => g (n + 1)) ∈ A} ∧
      tapeLaw {g : Tape | g 0 ∈ B ∧ (fun n => g (n + 1)) ∈ A} = u01 B * tapeLaw A := by
  have hm : MeasurableSet {g : Tape | g 0 ∈ B ∧ (fun n => g (n + 1)) ∈ A} := by
    refine MeasurableSet.inter ?_ ?_
    · exact (measurable_pi_apply 0) hB
    · have : Measurable fun g : Tape => fun n => g (n + 1) := by
        rw [measurable_pi_iff]; intro n; exact measurable_pi_apply _
      exact this hA
  refine ⟨hm, ?_⟩
  conv_lhs => rw [← map_consTape]
  rw [Measure.map_apply measurable_consTape hm]
  have : consTape ⁻¹' {g : Tape | g 0 ∈ B ∧ (fun n => g (n + 1)) ∈ A} = B ×ˢ A := by
    ext p
    exact Iff.rfl
  rw [this, Measure.prod_prod]

theorem fract_self {u : ℝ} (h : u ∈ Set.Ico (0 : ℝ) 1) : Int.fract u = u := Int.fract_eq_self.2 h

/-- A sequence of independent uniform numbers is a fair generator. -/
theorem tape_fair : Fair Tape tapeLaw where
  prob := inferInstance
  randint := by
    intro lo hi j hlo hhi A hA
    have hn : (0 : ℝ) < ((hi - lo : Nat) : ℝ) := by
      have : 0 < hi - lo := by omega
      exact_mod_cast this
    set n : Nat := hi - lo with hn'
    have hj : j = lo + (j - lo) := by omega
    set k := j - lo with hk
    have hkn : k < n := by omega
    have hB : MeasurableSet {u : ℝ | ⌊Int.fract u * (n : ℝ)⌋.toNat = k} := by
      have : Measurable fun u : ℝ => ⌊Int.fract u * (n : ℝ)⌋.toNat :=
        (measurable_from_top (f := Int.toNat)).comp (Int.measurable_floor.comp (measurable_fract.mul_const _))
      exact this (measurableSet_singleton k)
    obtain ⟨h1, h2⟩ := tape_first _ A hB hA
    have hset : {g : Tape | (Gen.randint lo hi g).1 = j ∧ (Gen.randint lo hi g).2 ∈ A} =
        {g : Tape | g 0 ∈ {u : ℝ | ⌊Int.fract u * (n : ℝ)⌋.toNat = k} ∧ (fun n => g (n + 1)) ∈ A} := by
      ext g
      simp only [Set.mem_setOf_eq]
      refine and_congr ?_ Iff.rfl
      show lo + _ = j ↔ _
      rw [hj]
      simp only [← hn']
      omega
    rw [hset]
    refine ⟨h1, ?_⟩
    rw [h2]
    congr 1
    unfold u01
    rw [Measure.restrict_apply hB]
    have hI : {u : ℝ | ⌊Int.fract u * (n : ℝ)⌋.toNat = k} ∩ Set.Ico 0 1 = Set.Ico ((k : ℝ) / n) ((k + 1) / n) := by
      ext u
      simp only [Set.mem_inter_iff, Set.mem_setOf_eq, Set.mem_Ico]
      rw [div_le_iff₀ hn, lt_div_iff₀ hn]
      constructor
      · rintro ⟨h1, h2⟩
        rw [fract_self h2] at h1
        have h0 : 0 ≤ u * (n : ℝ) := mul_nonneg h2.1 hn.le
        have h3 : ⌊u * (n : ℝ)⌋ = (k : Int) := by
          have := Int.floor_nonneg.2 h0
          omega
        rw [Int.floor_eq_iff] at h3
        exact_mod_cast h3
      · rintro ⟨h1, h2⟩
        have hk0 : (0 : ℝ) ≤ k := Nat.cast_nonneg k
        have h3 : 0 ≤ u := by
          by_contra hc
          push Not at hc
          nlinarith
        have h4 : u < 1 := by
          by_contra hc
          push Not at hc
          have : ((k : ℝ) + 1) ≤ n := by exact_mod_cast hkn
          nlinarith
        refine ⟨?_, h3, h4⟩
        rw [fract_self ⟨h3, h4⟩]
        have : ⌊u * (n : ℝ)⌋ = (k : Int) := by
          rw [Int.floor_eq_iff]
          constructor
          · exact_mod_cast h1
          · exact_mod_cast h2
        omega
    rw [hI, Real.volume_Ico]
    have : ((k : ℝ) + 1) / n - k / n = (n : ℝ)⁻¹ := by field_simp; ring
    rw [this, ENNReal.ofReal_inv_of_pos hn, ENNReal.ofReal_natCast]
  unit := by
    intro B A hB hA
    have hB' : MeasurableSet {u : ℝ | Int.fract u ∈ B} := measurable_fract hB
    obtain ⟨h1, h2⟩ := tape_first _ A hB' hA
    refine ⟨h1, ?_⟩
    show tapeLaw {g : Tape | g 0 ∈ {u : ℝ | Int.fract u ∈ B} ∧ (fun n => g (n + 1)) ∈ A} = _
    rw [h2]
    congr 1
    unfold u01
    rw [Measure.restrict_apply hB']
    congr 1
    ext u
    simp only [Set.mem_inter_iff, Set.mem_setOf_eq]
    constructor
    · rintro ⟨e1, e2⟩; rw [fract_self e2] at e1; exact ⟨e1, e2⟩
    · rintro ⟨e1, e2⟩; rw [fract_self e2]; exact ⟨e1, e2⟩

end Convst
