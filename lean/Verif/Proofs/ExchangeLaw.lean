import Verif.Proofs.Exchange
import Verif.Spec.Law

/-!
# The law of `fit` and the numbers of the samples and channels

Lemmas for C127: the weights of `Verif/Spec/Law.lean` do not depend on the numbers given to the samples and to the
channels.
-/

set_option autoImplicit false
set_option linter.unusedSectionVars false

namespace Convst
open Spec
open scoped ENNReal

namespace Renamed
variable {L : Type} {T T' : Train L} {σ τ : Equiv.Perm Nat}

theorem channelsOK_iff (h : Renamed T T' σ τ) {multi : Bool} (hm : multi = false → τ.symm 0 = 0) {n : Nat}
    {channels : List Nat} : ChannelsOK multi T'.nf n (channels.map τ.symm) ↔ ChannelsOK multi T.nf n channels := by
  refine ⟨fun hc => ?_, h.channelsOK hm⟩
  have hm' : multi = false → τ.symm.symm 0 = 0 := fun e => by
    have := hm e
    rw [Equiv.symm_apply_eq] at this
    simpa using this.symm
  have := h.symm.channelsOK hm' hc
  simpa [List.map_map, Function.comp_def] using this

theorem channelWeight (h : Renamed T T' σ τ) {multi : Bool} (hm : multi = false → τ.symm 0 = 0) (n : Nat)
    (channels : List Nat) :
    channelWeight multi T'.nf n (channels.map τ.symm) = channelWeight multi T.nf n channels := by
  unfold Spec.channelWeight
  have hi := h.channelsOK_iff hm (n := n) (channels := channels)
  by_cases hc : ChannelsOK multi T.nf n channels
  · rw [if_pos hc, if_pos (hi.2 hc), h.nf]
  · rw [if_neg hc, if_neg (fun h' => hc (hi.1 h'))]

section pos
variable {multi : Bool} {P : Par} {o : Opt} {rec : Nat → Option Src} {i : Nat} {channels : List Nat}

theorem positions (h : Renamed T T' σ τ) (hm : multi = false → τ.symm 0 = 0) :
    positions T' P o multi (fun i => (rec i).map (src σ τ)) i (channels.map τ.symm) =
      Prod.map σ.symm id '' positions T P o multi rec i channels := by
  ext ⟨s, t⟩
  unfold Spec.positions
  rw [Set.mem_setOf_eq, Set.mem_image]
  constructor
  · intro ha
    refine ⟨(σ s, t), (h.admissible hm).1 (by simpa using ha), by simp⟩
  · rintro ⟨⟨s', t'⟩, ha, e⟩
    simp only [Prod.map_apply, id, Prod.mk.injEq] at e
    obtain ⟨rfl, rfl⟩ := e
    exact (h.admissible hm).2 ha

theorem posWeight (h : Renamed T T' σ τ) (hm : multi = false → τ.symm 0 = 0) (sl : Bool) (s t : Nat) :
    posWeight sl T' P o multi (fun i => (rec i).map (src σ τ)) i (channels.map τ.symm) (σ.symm s) t =
      posWeight sl T P o multi rec i channels s t := by
  unfold Spec.posWeight
  have hA := h.admissible hm (P := P) (o := o) (rec := rec) (i := i) (s := s) (t := t) (channels := channels)
  have e1 : (Spec.positions T' P o multi (fun i => (rec i).map (src σ τ)) i (channels.map τ.symm)).ncard =
      (Spec.positions T P o multi rec i channels).ncard := by
    rw [h.positions hm, Set.ncard_image_of_injective _ (σ.symm.injective.prodMap Function.injective_id)]
  have e2 : {s | ∃ t, Admissible T' P o multi (fun i => (rec i).map (src σ τ)) i (channels.map τ.symm) s t}.ncard =
      {s | ∃ t, Admissible T P o multi rec i channels s t}.ncard := by
    rw [← Set.ncard_image_of_injective {s | ∃ t, Admissible T P o multi rec i channels s t} σ.symm.injective]
    congr 1
    ext u
    rw [Set.mem_setOf_eq, Set.mem_image]
    constructor
    · rintro ⟨t, ht⟩
      exact ⟨σ u, ⟨t, (h.admissible hm).1 (by simpa using ht)⟩, by simp⟩
    · rintro ⟨v, ⟨t, ht⟩, rfl⟩
      exact ⟨t, (h.admissible hm).2 ht⟩
  have e3 : {t | Admissible T' P o multi (fun i => (rec i).map (src σ τ)) i (channels.map τ.symm) (σ.symm s) t} =
      {t | Admissible T P o multi rec i channels s t} := by
    ext u
    exact h.admissible hm
  rw [e1, e2, e3]
  by_cases hc : Admissible T P o multi rec i channels s t
  · rw [if_pos hc, if_pos (hA.2 hc)]
  · rw [if_neg hc, if_neg (fun h' => hc (hA.1 h'))]

theorem others_eq (h : Renamed T T' σ τ) (s : Nat) : others T' (σ.symm s) = σ.symm '' others T s := by
  ext u
  unfold others
  rw [Set.mem_setOf_eq, Set.mem_image]
  constructor
  · rintro ⟨h1, h2, h3⟩
    refine ⟨σ u, ⟨(h.sample u).2 (h.ns ▸ h1), ?_, ?_⟩, by simp⟩
    · intro e
      exact h2 (by rw [← e]; simp)
    · rw [h.label, h.label] at h3
      simpa using h3
  · rintro ⟨v, ⟨h1, h2, h3⟩, rfl⟩
    have hs := h.symm.sample v
    refine ⟨hs.2 (by rw [h.ns]; exact h1), ?_, ?_⟩
    · intro e
      exact h2 (σ.symm.injective e)
    · rw [h.label, h.label]
      simpa using h3

theorem testWeight (h : Renamed T T' σ τ) (s t : Nat) : testWeight T' (σ.symm s) (σ.symm t) = testWeight T s t := by
  unfold Spec.testWeight
  rw [h.others_eq, Set.ncard_image_of_injective _ σ.symm.injective]
  have e1 : σ.symm '' others T s = ∅ ↔ others T s = ∅ := Set.image_eq_empty
  have e2 : σ.symm t ∈ σ.symm '' others T s ↔ t ∈ others T s := σ.symm.injective.mem_set_image
  have e3 : σ.symm t = σ.symm s ↔ t = s := σ.symm.injective.eq_iff
  by_cases h1 : others T s = ∅
  · rw [if_pos h1, if_pos (e1.2 h1)]
    by_cases h3 : t = s
    · rw [if_pos h3, if_pos (e3.2 h3)]
    · rw [if_neg h3, if_neg (fun h' => h3 (e3.1 h'))]
  · rw [if_neg h1, if_neg (fun h' => h1 (e1.1 h'))]
    by_cases h2 : t ∈ others T s
    · rw [if_pos h2, if_pos (e2.2 h2)]
    · rw [if_neg h2, if_neg (fun h' => h2 (e2.1 h'))]

theorem stepWeight (h : Renamed T T' σ τ) (hm : multi = false → τ.symm 0 = 0) (sl : Bool) (nch : Nat → Nat)
    (chs : Nat → List Nat) (x : Nat → ℝ) :
    stepWeight sl T' P o multi nch (fun i => (chs i).map τ.symm) (fun i => (rec i).map (src σ τ)) x i =
      stepWeight sl T P o multi nch chs rec x i := by
  unfold Spec.stepWeight
  rw [h.channelWeight hm]
  congr 1
  cases hr : rec i with
  | none =>
    have e0 : Option.map (src σ τ) (rec i) = none := by rw [hr]; rfl
    simp only [e0]
    have : Spec.positions T' P o multi (fun i => (rec i).map (src σ τ)) i ((chs i).map τ.symm) = ∅ ↔
        Spec.positions T P o multi rec i (chs i) = ∅ := by rw [h.positions hm, Set.image_eq_empty]
    by_cases he : Spec.positions T P o multi rec i (chs i) = ∅
    · rw [if_pos he, if_pos (this.2 he)]
    · rw [if_neg he, if_neg (fun h' => he (this.1 h'))]
  | some r =>
    have e0 : Option.map (src σ τ) (rec i) = some (src σ τ r) := by rw [hr]; rfl
    simp only [e0]
    have e : (src σ τ r).channels = (chs i).map τ.symm ↔ r.channels = chs i :=
      (List.map_injective_iff.2 τ.symm.injective).eq_iff
    have e1 : Spec.posWeight sl T' P o multi (fun i => (rec i).map (src σ τ)) i ((chs i).map τ.symm) (src σ τ r).sample
        (src σ τ r).index = Spec.posWeight sl T P o multi rec i (chs i) r.sample r.index := h.posWeight hm sl _ _
    have e2 : Spec.testWeight T' (src σ τ r).sample (src σ τ r).test = Spec.testWeight T r.sample r.test := h.testWeight _ _
    have e3 : distTo T' P o i (src σ τ r) (src σ τ r).test = distTo T P o i r r.test := h.distTo_eq
    rw [e1, e2, e3]
    by_cases hc : r.channels = chs i
    · rw [if_pos hc, if_pos (e.2 hc)]
    · rw [if_neg hc, if_neg (fun h' => hc (e.1 h'))]

end pos

/-- The same choices in the numbering of `T'`. -/
def choices (σ τ : Equiv.Perm Nat) (d : Choices) : Choices :=
  { d with channels := fun i => (d.channels i).map τ.symm, src := fun i => (d.src i).map (src σ τ) }

theorem lawOf (h : Renamed T T' σ τ) {multi : Bool} (hm : multi = false → τ.symm 0 = 0) {a b : FitArgs ℝ L} {n mc : Nat}
    (hab : ∀ d, paramsLaw b n mc d = paramsLaw a n mc d) (hob : optOf b = optOf a) (sl : Bool) (d : Choices) :
    lawOf sl T' b n multi mc (choices σ τ d) = lawOf sl T a n multi mc d := by
  unfold Spec.lawOf
  rw [hab, hob]
  have e1 : paramsLaw a n mc (choices σ τ d) = paramsLaw a n mc d := rfl
  rw [e1]
  congr 1
  apply Finset.prod_congr rfl
  intro i _
  exact h.stepWeight hm sl _ _ _

theorem choices_out (h : Renamed T T' σ τ) (o : Opt) (d : Choices) (i : Nat) :
    (choices σ τ d).out T' o i = (d.out T o i).map (out τ) := by
  show ((d.src i).map (src σ τ)).map _ = ((d.src i).map _).map _
  cases d.src i with
  | none => rfl
  | some r =>
    simp only [Option.map_some, Option.some.injEq, src, out, Out.mk.injEq, List.flatMap_map]
    refine ⟨List.flatMap_congr fun c _ => ?_, trivial, rfl⟩
    exact h.subseq_eq

end Renamed
end Convst
