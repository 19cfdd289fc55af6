import Verif.Proofs.SamplingRules
import Verif.Proofs.SamplingAll

/-!
# How many shapelets are kept, in any arithmetic

Each dropped shapelet leaves at least one kept shapelet per training series.
-/

set_option autoImplicit false
set_option linter.unusedSectionVars false

namespace Convst
open Spec

section
variable {K L : Type} [Scalar K] {E : Setting K L} {P : Par}

theorem nWin_drawn (h : ParTraced E P) (hpos : 1 ≤ E.n) {i len : Nat} (hi : i < P.n) (hlen : E.n ≤ len) :
    0 < nWin E.phase len (P.length i) (P.dilation i) := by
  obtain ⟨hd, hfit⟩ := h.dilation i hi
  unfold nWin
  split <;> omega

theorem traced_count {multi : Bool} {nch : Nat → Nat} {rec : Nat → Option Src} {out : Nat → Option (Out K)}
    {kept : List Nat} (hgood : ∀ i, i < P.n → Traced E P multi nch rec out i)
    (hwin : ∀ i, i < P.n → ∀ s, s < E.ns → 0 < nWin E.phase (E.len s) (P.length i) (P.dilation i))
    (he : multi = true → ∀ i, i < P.n → enoughOf E.alpha (nch i) (nch i) = true)
    (hsort : kept.Pairwise (· < ·)) (hmem : ∀ i, i ∈ kept ↔ i < P.n ∧ ∃ v, out i = some v) :
    min P.n E.ns ≤ kept.length := by
  classical
  have hnd : kept.Nodup := hsort.imp fun h => Nat.ne_of_lt h
  by_cases hall : ∀ i, i < P.n → i ∈ kept
  · have : P.n ≤ kept.length := by
      rw [← List.toFinset_card_of_nodup hnd, ← Finset.card_range P.n]
      exact Finset.card_le_card fun i hi => List.mem_toFinset.2 (hall i (Finset.mem_range.1 hi))
    omega
  · push Not at hall
    obtain ⟨i, hi, hik⟩ := hall
    obtain ⟨ch, hch, ⟨h1, h2, h3⟩ | ⟨r, v, h1, h2, h4⟩⟩ := hgood i hi
    · have hused : ∀ s, s < E.ns → ∃ j r, j < i ∧ rec j = some r ∧ r.sample = s := by
        intro s hs
        by_contra hc
        push Not at hc
        have hfree : ∀ c, ¬ Taken E P rec i s c 0 := by
          rintro c ⟨j, m, r, hj, -, -, hr, hrs, -⟩
          exact hc j r hj hr hrs
        refine h3 s 0 ⟨hs, hwin i hi s hs, ?_⟩
        unfold FreeEnough
        by_cases hm : multi = true
        · rw [if_pos hm]
          subst hm
          obtain ⟨-, hnl, -⟩ : ch.Nodup ∧ ch.length = nch i ∧ ∀ c ∈ ch, c < E.nf := by
            simpa [ChannelsOK] using hch
          have : ch.countP (fun c => decide (¬ Taken E P rec i s c 0)) = ch.length :=
            List.countP_eq_length.2 fun c _ => decide_eq_true (hfree c)
          have e := he rfl i hi
          rw [← hnl] at e
          convert e using 2
        · rw [if_neg hm]
          exact hfree 0
      have hinj : E.ns ≤ kept.length := by
        have hsub : Finset.range E.ns ⊆ kept.toFinset.image fun j => (rec j).elim 0 Src.sample := by
          intro s hs
          obtain ⟨j, r, hj, hr, hrs⟩ := hused s (Finset.mem_range.1 hs)
          refine Finset.mem_image.2 ⟨j, List.mem_toFinset.2 ((hmem j).2 ⟨by omega, ?_⟩), by rw [hr]; exact hrs⟩
          obtain ⟨-, -, ⟨q1, -⟩ | ⟨-, v, -, q2, -⟩⟩ := hgood j (by omega)
          · rw [hr] at q1; cases q1
          · exact ⟨v, q2⟩
        calc E.ns = (Finset.range E.ns).card := (Finset.card_range _).symm
          _ ≤ _ := Finset.card_le_card hsub
          _ ≤ kept.toFinset.card := Finset.card_image_le
          _ = kept.length := List.toFinset_card_of_nodup hnd
      omega
    · exact absurd ((hmem i).2 ⟨hi, v, h2⟩) hik

theorem window_mem {phase : Bool} {x : List K} {l d t : Nat} (ht : t < nWin phase x.length l d)
    {v : K} (hv : v ∈ window phase x l d t) : v ∈ x := by
  obtain ⟨j, hj, rfl⟩ := List.mem_map.1 hv
  rw [List.mem_range] at hj
  have hpos : pos phase x.length d t j < x.length := by
    unfold pos
    unfold nWin at ht
    split
    · rename_i h
      rw [if_pos h] at ht
      exact Nat.mod_lt _ (by omega)
    · rename_i h
      rw [if_neg h] at ht
      have : j * d ≤ (l - 1) * d := Nat.mul_le_mul_right _ (by omega)
      omega
  rw [getD_lt _ hpos]
  exact List.getElem_mem hpos

theorem mTraced_count {mc : Nat} {nch : Nat → Nat} {rec : Nat → Option Src} {out : Nat → Option (Out K)}
    {kept : List Nat} {S : MShp K} (h : MTraced E mc P nch rec out kept S) (hpos : 1 ≤ E.n)
    (hlen : ∀ s, s < E.ns → E.n ≤ E.len s) (he : ∀ n, n ≤ mc → enoughOf E.alpha n n = true) :
    min E.nShp E.ns ≤ S.lengths.length := by
  rw [h.from_.count, ← h.drawn.count]
  exact traced_count h.good (fun i hi s hs => nWin_drawn h.drawn hpos hi (hlen s hs))
    (fun _ i hi => he _ (h.channels i hi).2) h.from_.sorted h.from_.mem

theorem uTraced_count {rec : Nat → Option Src} {out : Nat → Option (Out K)}
    {kept : List Nat} {S : UShp K} (h : UTraced E P rec out kept S) (hpos : 1 ≤ E.n)
    (hb : ∀ l ∈ E.sizes, 1 ≤ l) (hlen : ∀ s, s < E.ns → E.n ≤ E.len s)
    (hser : ∀ s, s < E.ns → (E.series s 0).length = E.len s)
    (hflag : ∀ u, E.draw u → Scalar.ltb u E.pNorm = false)
    (hnz : ∀ s, s < E.ns → ∀ v ∈ E.series s 0, v ≠ 0) : min E.nShp E.ns ≤ S.lengths.length := by
  rw [h.from_.count, ← h.drawn.count]
  refine traced_count h.good (fun i hi s hs => nWin_drawn h.drawn hpos hi (hlen s hs))
    (fun h => by cases h) h.from_.sorted fun i => ?_
  rw [h.from_.mem]
  constructor
  · rintro ⟨hi, v, hv, -⟩
    exact ⟨hi, v, hv⟩
  · rintro ⟨hi, v, hv⟩
    refine ⟨hi, v, hv, ?_⟩
    obtain ⟨ch, hch, ⟨-, h2, -⟩ | ⟨r, v', h1, h2, h3, h4, h5, h6, -⟩⟩ := h.good i hi
    · rw [hv] at h2; cases h2
    · rw [hv] at h2
      obtain rfl := Option.some.inj h2
      have hch : ch = [0] := by simpa [ChannelsOK] using hch
      obtain ⟨u, hu, hf⟩ := h.drawn.flag i hi
      rw [hflag u hu] at hf
      have hvals : v.values = window E.phase (E.series r.sample 0) (P.length i) (P.dilation i) r.index := by
        rw [h6, hch]
        simp [readAt, seen, hf]
      have hl := hb _ (h.drawn.length i hi)
      have hne : v.values ≠ [] := by
        rw [hvals]
        intro h0
        have := congrArg List.length h0
        simp [window] at this
        omega
      obtain ⟨x, hx⟩ := List.exists_mem_of_ne_nil _ hne
      refine ⟨x, hx, hnz _ h5.1 x ?_⟩
      rw [hvals] at hx
      refine window_mem ?_ hx
      rw [hser _ h5.1]
      exact h5.2.1

end

end Convst
