import Verif.Spec.Law
import Verif.Proofs.Random
import Mathlib.Data.Set.Card

/-!
# The law for series of equal length against the law for series of different lengths
-/

set_option autoImplicit false
set_option linter.unusedSectionVars false

namespace Convst
open Spec MeasureTheory
open scoped ENNReal

variable {L : Type}

/-- Two descriptions of the same training set. -/
structure SameTrain (T T' : Train L) : Prop where
  ns : T'.ns = T.ns
  nf : T'.nf = T.nf
  label : ∀ s, T'.label s = T.label s
  len : ∀ s, s < T.ns → T'.len s = T.len s
  series : ∀ s c, s < T.ns → T'.series s c = T.series s c

theorem SameTrain.admissible {T T' : Train L} (h : SameTrain T T') (P : Par) (o : Opt) (multi : Bool)
    (rec : Nat → Option Src) (i : Nat) :
    Admissible T' P o multi rec i = Admissible T P o multi rec i := by
  funext ch s t
  unfold Admissible
  rw [h.ns]
  by_cases hs : s < T.ns
  · have e : (fun c => Blocked T' P o rec i s c t) = fun c => Blocked T P o rec i s c t := by
      funext c
      unfold Blocked
      rw [h.len s hs]
    rw [h.len s hs, e]
  · simp [hs]

theorem SameTrain.stepWeight {T T' : Train L} (h : SameTrain T T') (sl : Bool) (P : Par) (o : Opt) (multi : Bool)
    (nch : Nat → Nat) (channels : Nat → List Nat) (rec : Nat → Option Src) (x : Nat → ℝ) (i : Nat) :
    Spec.stepWeight sl T' P o multi nch channels rec x i = Spec.stepWeight sl T P o multi nch channels rec x i := by
  have hadm := h.admissible P o multi rec i
  have hpos : positions T' P o multi rec i (channels i) = positions T P o multi rec i (channels i) := by
    unfold positions; rw [hadm]
  have hpw : ∀ s t, posWeight sl T' P o multi rec i (channels i) s t = posWeight sl T P o multi rec i (channels i) s t := by
    intro s t
    unfold posWeight
    rw [hadm, hpos]
  have hoth : ∀ s, others T' s = others T s := by
    intro s
    unfold others
    rw [h.ns]
    simp only [h.label]
  have htest : ∀ s t, testWeight T' s t = testWeight T s t := by
    intro s t
    unfold testWeight
    rw [hoth]
  unfold Spec.stepWeight
  rw [h.nf]
  congr 1
  cases hr : rec i with
  | none => simp only [hpos]
  | some r =>
    simp only
    by_cases hc : r.channels = channels i
    · rw [if_pos hc, if_pos hc, hpw, htest]
      by_cases ha : Admissible T P o multi rec i (channels i) r.sample r.index
      · by_cases ht : r.test < T.ns
        · congr 2
          unfold distTo
          rw [h.len _ ht]
          refine List.map_congr_left fun t _ => ?_
          congr 1
          refine List.map_congr_left fun c _ => ?_
          unfold subseq
          rw [h.series _ _ ht, h.series _ _ ha.1]
        · have : testWeight T r.sample r.test = 0 := by
            unfold testWeight
            split
            · rw [if_neg]
              intro e
              rw [e] at ht
              exact ht ha.1
            · rw [if_neg]
              intro e
              exact ht e.1
          rw [this, mul_zero, zero_mul, zero_mul]
      · have : posWeight sl T P o multi rec i (channels i) r.sample r.index = 0 := by
          unfold posWeight; rw [if_neg ha]
        rw [this, zero_mul, zero_mul, zero_mul]
    · rw [if_neg hc, if_neg hc]

theorem SameTrain.lawOf {T T' : Train L} (h : SameTrain T T') (sl : Bool) (a : FitArgs ℝ L) (n : Nat) (multi : Bool)
    (mc : Nat) (d : Choices) : Spec.lawOf sl T' a n multi mc d = Spec.lawOf sl T a n multi mc d := by
  unfold Spec.lawOf
  simp only [h.stepWeight]

theorem sameTrain_full {a : FitArgs ℝ L} (hd : DataSL a) {xLen : List Nat}
    (hx : ∀ s, s < a.X.length → xLen.getD s 0 = a.nt) : SameTrain (trainSL a) (trainVL a xLen) where
  ns := rfl
  nf := rfl
  label _ := rfl
  len s hs := hx s hs
  series s c hs := by
    have hs : s < a.X.length := hs
    show ((a.X.getD s []).getD c []).take (xLen.getD s 0) = (a.X.getD s []).getD c []
    rw [hx s hs]
    apply List.take_of_length_le
    rw [List.getD_eq_getElem _ _ hs]
    by_cases hc : c < (a.X[s]).length
    · rw [List.getD_eq_getElem _ _ hc, hd.nt _ (List.getElem_mem hs) _ (List.getElem_mem hc)]
    · rw [List.getD_eq_default _ _ (by omega)]
      simp

/-- The same number of admissible positions in every sample: the two rules agree. -/
theorem posWeight_rect {T : Train L} {P : Par} {o : Opt} {multi : Bool} {rec : Nat → Option Src} {i : Nat}
    {ch : List Nat} {W : Nat} {C : Prop}
    (h : ∀ s t, Admissible T P o multi rec i ch s t ↔ s < T.ns ∧ t < W ∧ C) (s t : Nat) :
    posWeight true T P o multi rec i ch s t = posWeight false T P o multi rec i ch s t := by
  unfold posWeight
  by_cases ha : Admissible T P o multi rec i ch s t
  · rw [if_pos ha, if_pos ha, if_pos rfl, if_neg (by simp)]
    obtain ⟨h1, h2, h3⟩ := (h s t).1 ha
    have e1 : positions T P o multi rec i ch = ((Finset.range T.ns ×ˢ Finset.range W : Finset (Nat × Nat)) : Set _) := by
      ext p
      unfold positions
      rw [Set.mem_setOf_eq, h]
      simp [h3]
    have e2 : {s | ∃ t, Admissible T P o multi rec i ch s t} = ((Finset.range T.ns : Finset Nat) : Set Nat) := by
      ext s'
      rw [Set.mem_setOf_eq]
      simp only [h, Finset.coe_range, Set.mem_Iio]
      exact ⟨fun ⟨t, ht, _⟩ => ht, fun hs' => ⟨t, hs', h2, h3⟩⟩
    have e3 : {t | Admissible T P o multi rec i ch s t} = ((Finset.range W : Finset Nat) : Set Nat) := by
      ext t'
      rw [Set.mem_setOf_eq, h]
      simp [h1, h3]
    rw [e1, e2, e3, Set.ncard_coe_finset, Set.ncard_coe_finset, Set.ncard_coe_finset, Finset.card_product,
      Finset.card_range, Finset.card_range, Nat.cast_mul,
      ENNReal.mul_inv (Or.inr (ENNReal.natCast_ne_top _)) (Or.inl (ENNReal.natCast_ne_top _))]
  · rw [if_neg ha, if_neg ha]

/-- One shapelet, series of equal length: the two laws agree. -/
theorem lawOf_one {T : Train L} {a : FitArgs ℝ L} {n N : Nat} {multi : Bool} {mc : Nat} (h1 : a.nShp = 1)
    (hlen : ∀ s, s < T.ns → T.len s = N) (d : Choices) :
    lawOf true T a n multi mc d = lawOf false T a n multi mc d := by
  unfold lawOf
  by_cases hn : d.par.n = a.nShp
  · rw [hn, h1, Finset.prod_range_one, Finset.prod_range_one]
    congr 1
    have hadm : ∀ s t, Admissible T d.par (optOf a) multi d.src 0 (d.channels 0) s t ↔
        s < T.ns ∧ t < nWin (optOf a).phase N (d.par.length 0) (d.par.dilation 0) ∧
          EnoughFree multi (optOf a).alpha (d.channels 0) fun _ => False := by
      intro s t
      have hb : (fun c => Blocked T d.par (optOf a) d.src 0 s c t) = fun _ => False := by
        funext c
        refine propext ⟨?_, False.elim⟩
        rintro ⟨j, m, r, hj, -⟩
        exact absurd hj (Nat.not_lt_zero _)
      unfold Admissible
      rw [hb]
      constructor
      · rintro ⟨e1, e2, e3⟩
        rw [hlen s e1] at e2
        exact ⟨e1, e2, e3⟩
      · rintro ⟨e1, e2, e3⟩
        rw [← hlen s e1] at e2
        exact ⟨e1, e2, e3⟩
    unfold stepWeight
    simp only [posWeight_rect hadm]
  · unfold paramsLaw parWeight
    rw [if_neg hn, zero_mul, zero_mul, zero_mul]

/-- A bound large enough is reached with probability 1. -/
theorem thrWeight_large {o : Opt} {D : List ℝ} (hD : D ≠ []) (h0 : 0 ≤ o.pMin) (h1 : o.pMin ≤ 100) (h2 : 0 ≤ o.pMax)
    (h3 : o.pMax ≤ 100) (hm : o.pMin ≤ o.pMax) : ∃ x, thrWeight o D x = 1 := by
  obtain ⟨p0, e0, -⟩ := percentile_ok hD h0 h1
  obtain ⟨p1, e1, -⟩ := percentile_ok hD h2 h3
  have hle : p0 ≤ p1 := percentile_mono h0 hm h3 e0 e1 hD
  refine ⟨p1 + 1, ?_⟩
  unfold thrWeight
  rw [e0, e1]
  simp only
  unfold uniformCdf
  by_cases h : p0 = p1
  · rw [if_pos h, if_pos (by linarith)]
  · rw [if_neg h]
    have hlt : p0 < p1 := lt_of_le_of_ne hle h
    have : 1 ≤ (p1 + 1 - p0) / (p1 - p0) := by
      rw [le_div_iff₀ (by linarith)]
      linarith
    rw [max_eq_right (by linarith), min_eq_left this, ENNReal.ofReal_one]

end Convst
