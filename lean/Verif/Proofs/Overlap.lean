import Verif.Proofs.FitFacts
import Mathlib.Data.Finset.Card
import Mathlib.Data.Int.ModEq
import Mathlib.Data.Finset.Lattice.Lemmas

/-! # Overlap of two shapelets read from the same series -/

set_option autoImplicit false
set_option linter.unusedSectionVars false

namespace Convst
open Spec
variable {L : Type} [DecidableEq L]

theorem pos_modEq {phase : Bool} {T d t j : Nat} :
    ((pos phase T d t j : Nat) : Int) ≡ (t : Int) + j * d [ZMOD T] := by
  unfold pos
  cases phase
  · simp
  · simp only [if_true]
    push_cast
    exact Int.mod_modEq _ _

theorem shared_cases {phase : Bool} {T l1 d t1 t2 allow : Nat}
    (h2 : t2 < T) (hnear : ¬ Near T l1 d allow t1 t2) {j j' : Nat}
    (hp : pos phase T d t1 j = pos phase T d t2 j') :
    if j' ≤ j then l1 ≤ j - j' + allow else l1 ≤ j' - j + allow := by
  have e1 : (t1 : Int) + j * d ≡ (t2 : Int) + j' * d [ZMOD T] := by
    have a1 := pos_modEq (phase := phase) (T := T) (d := d) (t := t1) (j := j)
    have a2 := pos_modEq (phase := phase) (T := T) (d := d) (t := t2) (j := j')
    rw [hp] at a1
    exact a1.symm.trans a2
  have e2 : (t1 : Int) + ((j : Int) - j') * d ≡ t2 [ZMOD T] := by
    have := Int.ModEq.sub_right ((j' : Int) * d) e1
    have h' : (t2 : Int) + j' * d - j' * d = t2 := by ring
    rw [h'] at this
    have h'' : (t1 : Int) + j * d - j' * d = (t1 : Int) + ((j : Int) - j') * d := by ring
    rwa [h''] at this
  have e3 : (t2 : Int) = ((t1 : Int) + ((j : Int) - j') * d) % T := by
    rw [e2, Int.emod_eq_of_lt (by omega) (by omega)]
  split
  · rename_i hle
    by_contra hc
    refine hnear ⟨j - j', by omega, Or.inr ?_⟩
    rw [Nat.cast_sub hle]; exact e3
  · rename_i hle
    by_contra hc
    refine hnear ⟨j' - j, by omega, Or.inl ?_⟩
    rw [Nat.cast_sub (by omega)]
    rw [e3]; congr 1; ring

theorem shared_le {phase : Bool} {T l1 l2 d t1 t2 allow : Nat} (hd : 1 ≤ d)
    (h2 : t2 < T) (hl : l2 ≤ l1) (hnear : ¬ Near T l1 d allow t1 t2) :
    (timePoints phase T l1 d t1 ∩ timePoints phase T l2 d t2).card ≤
      (if phase then 2 else 1) * allow := by
  have hA : ((Finset.Ico (l1 - allow) l1).image (pos phase T d t1)).card ≤ allow :=
    Finset.card_image_le.trans (by rw [Nat.card_Ico]; omega)
  have hB : ((Finset.Ico (l2 - allow) l2).image (pos phase T d t2)).card ≤ allow :=
    Finset.card_image_le.trans (by rw [Nat.card_Ico]; omega)
  have hmem : ∀ p, p ∈ timePoints phase T l1 d t1 ∩ timePoints phase T l2 d t2 →
      ∃ j j', j < l1 ∧ j' < l2 ∧ pos phase T d t1 j = p ∧ pos phase T d t2 j' = p := by
    intro p hp
    rw [Finset.mem_inter] at hp
    obtain ⟨j, hj, e⟩ := Finset.mem_image.1 hp.1
    obtain ⟨j', hj', e'⟩ := Finset.mem_image.1 hp.2
    exact ⟨j, j', Finset.mem_range.1 hj, Finset.mem_range.1 hj', e, e'⟩
  have hfst : ∀ p j j', j < l1 → j' < l2 → pos phase T d t1 j = p → pos phase T d t2 j' = p →
      j' ≤ j → p ∈ (Finset.Ico (l1 - allow) l1).image (pos phase T d t1) := by
    intro p j j' hj hj' e e' hle
    have := shared_cases h2 hnear (e.trans e'.symm)
    rw [if_pos hle] at this
    exact Finset.mem_image.2 ⟨j, Finset.mem_Ico.2 ⟨by omega, hj⟩, e⟩
  have hsnd : ∀ p j j', j < l1 → j' < l2 → pos phase T d t1 j = p → pos phase T d t2 j' = p →
      ¬ j' ≤ j → p ∈ (Finset.Ico (l2 - allow) l2).image (pos phase T d t2) := by
    intro p j j' hj hj' e e' hle
    have := shared_cases h2 hnear (e.trans e'.symm)
    rw [if_neg hle] at this
    exact Finset.mem_image.2 ⟨j', Finset.mem_Ico.2 ⟨by omega, hj'⟩, e'⟩
  cases phase with
  | true =>
    rw [if_pos rfl, Nat.two_mul]
    refine (Finset.card_le_card (t := (Finset.Ico (l1 - allow) l1).image (pos true T d t1) ∪
      (Finset.Ico (l2 - allow) l2).image (pos true T d t2)) ?_).trans
      ((Finset.card_union_le _ _).trans (Nat.add_le_add hA hB))
    intro p hp
    obtain ⟨j, j', hj, hj', e, e'⟩ := hmem p hp
    rw [Finset.mem_union]
    by_cases hle : j' ≤ j
    · exact Or.inl (hfst p j j' hj hj' e e' hle)
    · exact Or.inr (hsnd p j j' hj hj' e e' hle)
  | false =>
    rw [if_neg (by simp), Nat.one_mul]
    rcases Nat.le_total t1 t2 with ht | ht
    · refine (Finset.card_le_card ?_).trans hA
      intro p hp
      obtain ⟨j, j', hj, hj', e, e'⟩ := hmem p hp
      refine hfst p j j' hj hj' e e' ?_
      have : t1 + j * d = t2 + j' * d := by simpa [pos] using e.trans e'.symm
      by_contra hc
      have : (j + 1) * d ≤ j' * d := Nat.mul_le_mul_right d (by omega)
      rw [Nat.succ_mul] at this
      omega
    · refine (Finset.card_le_card ?_).trans (Nat.le_refl _ |>.trans hB)
      intro p hp
      obtain ⟨j, j', hj, hj', e, e'⟩ := hmem p hp
      by_cases hle : j' ≤ j
      · have h3 : t1 + j * d = t2 + j' * d := by simpa [pos] using e.trans e'.symm
        have h4 : j' * d ≤ j * d := Nat.mul_le_mul_right d hle
        have h5 : t1 = t2 ∧ j * d = j' * d := by omega
        have h6 : j = j' := Nat.eq_of_mul_eq_mul_right (by omega) h5.2
        have := shared_cases h2 hnear (e.trans e'.symm)
        rw [if_pos hle] at this
        exact Finset.mem_image.2 ⟨j', Finset.mem_Ico.2 ⟨by omega, hj'⟩, e'⟩
      · exact hsnd p j j' hj hj' e e' hle

theorem exists_minLength (P : Par) {i : Nat} (hi : i < P.n) : ∃ m, IsMinLength P i m := by
  classical
  have hex : ∃ m, ∃ j, j < P.n ∧ P.dilation j = P.dilation i ∧ P.length j = m := ⟨_, i, hi, rfl, rfl⟩
  refine ⟨Nat.find hex, Nat.find_spec hex, ?_⟩
  intro j hj hd
  exact Nat.find_min' hex ⟨j, hj, hd, rfl⟩

end Convst
