import Verif.Proofs.Law
import Verif.Proofs.Complete
import Mathlib.Algebra.BigOperators.Intervals

/-! # Probabilities of the draws of `fit` -/

set_option autoImplicit false
set_option linter.unusedSectionVars false

namespace Convst
open Spec MeasureTheory
open scoped ENNReal

variable {G α β γ : Type} [Gen G ℝ] [LawfulGen G] [MeasurableSpace G] {μ : Measure G}

/-! ## Integers -/

theorem draw_support {lo hi : Nat} {g g' : G} {j : Nat} (h : draw lo hi g = .ok (j, g')) : lo ≤ j ∧ j < hi := by
  by_cases hl : lo < hi
  · obtain ⟨a, g1, e, h1⟩ := wp_draw (G := G) hl g
    rw [h] at e
    cases e
    exact h1
  · unfold draw at h
    rw [if_neg hl] at h
    cases h

theorem choice1_support {a : List α} {g g' : G} {v : α} (h : choice1 a g = .ok (v, g')) : v ∈ a := by
  unfold choice1 at h
  rw [RM.bind_apply, Res.bind_eq_ok] at h
  obtain ⟨⟨j, g1⟩, h1, h2⟩ := h
  simp only at h2
  cases ha : aget a j with
  | error e => rw [ha] at h2; cases h2
  | ok w =>
    rw [ha] at h2
    cases h2
    rw [aget_eq_ok] at ha
    exact List.mem_of_getElem? ha

theorem card_filter_getElem? [DecidableEq α] (a : List α) (v : α) :
    ((Finset.range a.length).filter fun j => a[j]? = some v).card = a.count v := by
  induction a with
  | nil => simp
  | cons b l ih =>
    rw [List.length_cons, Finset.range_add_one', Finset.filter_insert, Finset.filter_map, List.count_cons]
    have e : ((Finset.range l.length).filter
        ((fun j => (b :: l)[j]? = some v) ∘ ⇑(⟨fun i => i + 1, fun _ _ => by simp⟩ : Nat ↪ Nat))) =
        (Finset.range l.length).filter fun j => l[j]? = some v := by
      ext j
      rw [Finset.mem_filter, Finset.mem_filter]
      exact Iff.rfl
    rw [e]
    by_cases hb : b = v
    · rw [if_pos (by simp [hb]), Finset.card_insert_of_notMem (by simp), Finset.card_map, ih]
      simp [hb]
    · rw [if_neg (by simp [hb]), Finset.card_map, ih]
      simp [hb]

/-- `np.random.choice(a)` returns `v` in proportion to the number of times it occurs in `a`. -/
theorem prob_choice1 [DecidableEq α] (hf : Fair G μ) (a : List α) (v : α) :
    HasProb μ (choice1 a) (· = v) (a.count v / a.length) := by
  have h := HasProb.sum (μ := μ) (s := (Finset.range a.length).filter fun j => a[j]? = some v)
    (c := draw 0 a.length) (E := fun j => a[j]? = some v ∧ j < a.length) (F := fun j k => k = j)
    (w := fun _ => ((a.length - 0 : Nat) : ℝ≥0∞)⁻¹) (by
      intro j hj
      rw [Finset.mem_filter, Finset.mem_range] at hj
      exact hf.draw (Nat.zero_le _) hj.1) (by
      intro k
      simp [and_comm]) (by
      rintro k j - j' - rfl h; exact h)
  rw [Finset.sum_const, nsmul_eq_mul, card_filter_getElem?, Nat.sub_zero, ← div_eq_mul_inv] at h
  unfold choice1
  have := HasProb.bind (f := fun j => ofRes (aget a j)) (E := (· = v)) (c0 := (pure () : RM G Unit))
    (E0 := fun _ => True) h (HasProb.pure trivial) (by
      intro g j g' A _ hj
      have : aget a j = .ok v := aget_eq_ok.2 hj.1
      classical
      rw [this, ev_pure, if_pos trivial]
      have e : (ofRes (.ok v) : RM G α) = pure v := rfl
      rw [e, ev_pure, if_pos rfl]) (by
      intro g j g' A hg hj
      have hlt := (draw_support hg).2
      rw [aget_ok hlt]
      have e : (ofRes (.ok a[j]) : RM G α) = pure a[j] := rfl
      classical
      rw [e, ev_pure, if_neg]
      intro h
      exact hj ⟨by rw [List.getElem?_eq_getElem hlt, h], hlt⟩)
  simpa using this

theorem prob_choice1_nodup [DecidableEq α] (hf : Fair G μ) {a : List α} {v : α} (hn : a.Nodup) (hv : v ∈ a) :
    HasProb μ (choice1 a) (· = v) (a.length : ℝ≥0∞)⁻¹ := by
  have := prob_choice1 hf a v
  rw [List.count_eq_one_of_mem hn hv] at this
  simpa using this

theorem prob_choiceN [DecidableEq α] (hf : Fair G μ) (a : List α) (vs : List α) :
    HasProb μ (choiceN a vs.length) (· = vs) ((vs.map fun v => (a.count v / a.length : ℝ≥0∞)).prod) := by
  have h := HasProb.mapM (μ := μ) (f := fun (_ : Nat) => choice1 a) (l := List.range vs.length) (bs := vs)
    (R := fun v w => w = v) (w := fun _ v => (a.count v / a.length : ℝ≥0∞)) (by simp)
    (fun i h1 h2 => prob_choice1 hf a _)
  have e : List.zipWith (fun (_ : Nat) v => (a.count v / a.length : ℝ≥0∞)) (List.range vs.length) vs =
      vs.map fun v => (a.count v / a.length : ℝ≥0∞) := by
    apply List.ext_getElem
    · simp
    · intro i h1 h2; simp
  rw [e] at h
  unfold choiceN
  refine h.congr ?_
  intro g ws g' _
  constructor
  · intro h
    have : List.Forall₂ (fun v w => v = w) vs ws := h.imp fun _ _ h => h.symm
    exact (List.forall₂_eq_eq_eq ▸ this : vs = ws).symm
  · rintro rfl
    exact List.forall₂_same.2 fun _ _ => rfl

/-! ## Choice without repetition -/

/-- One exchange of the partial shuffle. -/
def noRepStep (a : List α) (x : List α × List α) (i : Nat) : RM G (List α × List α) := do
  let j ← draw i a.length
  let v ← ofRes (aget x.1 j)
  let si ← ofRes (aget x.1 i)
  let src' ← ofRes (aset x.1 j si)
  pure (src', x.2 ++ [v])

theorem foldl_noRep_prefix {a : List α} {l : List Nat} {s s' : List α × List α} {g g' : G}
    (h : (l.foldlM (noRepStep (G := G) a) s) g = .ok (s', g')) :
    s.2 <+: s'.2 := by
  induction l generalizing s g with
  | nil => cases h; exact List.prefix_rfl
  | cons i l ih =>
    rw [List.foldlM_cons, RM.bind_apply, Res.bind_eq_ok] at h
    obtain ⟨⟨s1, g1⟩, h1, h2⟩ := h
    refine List.IsPrefix.trans ?_ (ih h2)
    unfold noRepStep at h1
    rw [RM.bind_apply, Res.bind_eq_ok] at h1
    obtain ⟨⟨j, g2⟩, -, h1⟩ := h1
    rw [RM.bind_apply, Res.bind_eq_ok] at h1
    obtain ⟨⟨v, g3⟩, -, h1⟩ := h1
    rw [RM.bind_apply, Res.bind_eq_ok] at h1
    obtain ⟨⟨si, g4⟩, -, h1⟩ := h1
    rw [RM.bind_apply, Res.bind_eq_ok] at h1
    obtain ⟨⟨src', g5⟩, -, h1⟩ := h1
    cases h1
    exact List.prefix_append _ _

theorem ofRes_bind_of_ok {r : Res α} {a : α} {f : α → RM G β} (h : r = .ok a) : (ofRes r >>= f) = f a := by
  subst h; rfl

theorem prob_noRep_from (hf : Fair G μ) {a r : List α} (ha : a.Nodup) (hr : r.Nodup) (hsub : ∀ v ∈ r, v ∈ a)
    {m i : Nat} (hm : i + m = r.length) {src out : List α} (h1 : out = r.take i) (h2 : src.length = a.length)
    (h3 : (out ++ src.drop i).Perm a) :
    HasProb μ ((List.range' i m).foldlM (noRepStep (G := G) a) (src, out)) (fun s => s.2 = r)
      (∏ k ∈ Finset.range m, ((a.length - (i + k) : Nat) : ℝ≥0∞)⁻¹) := by
  have hk : r.length ≤ a.length := (List.Nodup.subperm hr hsub).length_le
  induction m generalizing i src out with
  | zero =>
    simp only [List.range'_zero, List.foldlM_nil, Finset.range_zero, Finset.prod_empty]
    refine HasProb.pure ?_
    rw [h1, List.take_of_length_le (by omega)]
  | succ m ih =>
    have hi : i < r.length := by omega
    have hi' : i < src.length := by omega
    have hmem : r[i] ∈ src.drop i := by
      have : r[i] ∈ out ++ src.drop i := h3.symm.subset (hsub _ (List.getElem_mem hi))
      rcases List.mem_append.1 this with h | h
      · exfalso
        rw [h1] at h
        obtain ⟨j, hj, e⟩ := List.mem_take_iff_getElem.1 h
        have := (List.Nodup.getElem_inj_iff hr).1 e
        omega
      · exact h
    have hnd : (src.drop i).Nodup := by
      have := h3.nodup_iff.2 ha
      exact (List.nodup_append.1 this).2.1
    obtain ⟨j0, hj0, e⟩ := List.mem_iff_getElem.1 hmem
    rw [List.getElem_drop] at e
    rw [List.length_drop] at hj0
    have hj' : i + j0 < src.length := by omega
    rw [List.range'_succ, List.foldlM_cons, Finset.prod_range_succ']
    rw [mul_comm]
    have hperm : ((out ++ [src[i + j0]]) ++ (src.set (i + j0) src[i]).drop (i + 1)).Perm a := by
      refine List.Perm.trans ?_ h3
      rw [List.append_assoc]
      refine List.Perm.append_left _ ?_
      have hd : src.drop i = src[i] :: src.drop (i + 1) := List.drop_eq_getElem_cons hi'
      rw [hd]
      rcases Nat.eq_zero_or_pos j0 with heq | hlt
      · subst heq
        rw [List.drop_set_of_lt (by omega)]
        simp
      · have hset : (src.set (i + j0) src[i]).drop (i + 1) =
            (src.drop (i + 1)).set (i + j0 - (i + 1)) src[i] := by
          rw [List.drop_set, if_neg (by omega)]
        rw [hset]
        have hk' : i + j0 - (i + 1) < (src.drop (i + 1)).length := by
          rw [List.length_drop]; omega
        have hv : (src.drop (i + 1))[i + j0 - (i + 1)] = src[i + j0] := by
          rw [List.getElem_drop]
          congr 1
          omega
        have := perm_cons_set src[i] (src.drop (i + 1)) (i + j0 - (i + 1)) hk'
        rw [hv] at this
        exact this
    have hrest := ih (i := i + 1) (by omega) (src := src.set (i + j0) src[i]) (out := out ++ [src[i + j0]])
      (by rw [h1, e, List.take_succ_eq_append_getElem hi]) (by simpa using h2) hperm
    have hstep : HasProb μ (noRepStep (G := G) a (src, out) i)
        (· = (src.set (i + j0) src[i], out ++ [src[i + j0]])) (((a.length - i : Nat) : ℝ≥0∞)⁻¹ * 1) := by
      refine HasProb.bindEq (hf.draw (j := i + j0) (by omega) (by omega)) ?_ ?_
      · rw [ofRes_bind_of_ok (aget_ok hj'), ofRes_bind_of_ok (aget_ok hi'), ofRes_bind_of_ok (aset_ok hj')]
        exact HasProb.pure rfl
      · rintro g0 j g b g' hg hne hb hbr
        obtain ⟨hj1, hj2⟩ := draw_support hg
        simp only at hb
        rw [ofRes_bind_of_ok (aget_ok (by omega)), ofRes_bind_of_ok (aget_ok hi'),
          ofRes_bind_of_ok (aset_ok (by omega))] at hb
        cases hb
        have : src[j] = src[i + j0] := by
          have := List.append_cancel_left (Prod.ext_iff.1 hbr).2
          simpa using this
        have hj3 : j - i < (src.drop i).length := by rw [List.length_drop]; omega
        have hj4 : j0 < (src.drop i).length := by rw [List.length_drop]; omega
        have : (src.drop i)[j - i] = (src.drop i)[j0] := by
          rw [List.getElem_drop, List.getElem_drop]
          rw [← this]
          congr 1
          omega
        have := (List.Nodup.getElem_inj_iff hnd).1 this
        omega
    rw [mul_one] at hstep
    have key := HasProb.bindEq (f := fun s => (List.range' (i + 1) m).foldlM (noRepStep (G := G) a) s) hstep hrest (by
      rintro g0 ⟨src1, out1⟩ g b g' hg hne hb hbr
      have hp := foldl_noRep_prefix hb
      rw [hbr] at hp
      apply hne
      unfold noRepStep at hg
      rw [RM.bind_apply, Res.bind_eq_ok] at hg
      obtain ⟨⟨j, g2⟩, hj, hg⟩ := hg
      obtain ⟨hj1, hj2⟩ := draw_support hj
      simp only at hg
      rw [ofRes_bind_of_ok (aget_ok (by omega)), ofRes_bind_of_ok (aget_ok hi'),
        ofRes_bind_of_ok (aset_ok (by omega))] at hg
      cases hg
      -- the value drawn is the one required
      have hlen : out.length = i := by rw [h1, List.length_take]; omega
      have hv : src[j] = r[i] := by
        obtain ⟨t, ht⟩ := hp
        have : r[i]? = some src[j] := by
          rw [← ht]
          simp [hlen]
        rw [List.getElem?_eq_getElem hi] at this
        exact (Option.some.inj this).symm
      have hj3 : j - i < (src.drop i).length := by rw [List.length_drop]; omega
      have hj4 : j0 < (src.drop i).length := by rw [List.length_drop]; omega
      have : (src.drop i)[j - i] = (src.drop i)[j0] := by
        rw [List.getElem_drop, List.getElem_drop, e, ← hv]
        congr 1
        omega
      have := (List.Nodup.getElem_inj_iff hnd).1 this
      have : j = i + j0 := by omega
      subst this
      rfl)
    have e2 : ∀ k, a.length - (i + (k + 1)) = a.length - (i + 1 + k) := fun k => by omega
    simpa [e2] using key

theorem prod_inv_desc (n k : Nat) :
    (∏ j ∈ Finset.range k, ((n - (0 + j) : Nat) : ℝ≥0∞)⁻¹) = (n.descFactorial k : ℝ≥0∞)⁻¹ := by
  induction k with
  | zero => simp
  | succ k ih =>
    rw [Finset.prod_range_succ, ih, Nat.descFactorial_succ, Nat.cast_mul, ENNReal.mul_inv, mul_comm, Nat.zero_add]
    · exact Or.inr (ENNReal.natCast_ne_top _)
    · exact Or.inl (ENNReal.natCast_ne_top _)

theorem prob_choiceNoRep (hf : Fair G μ) {a r : List α} (ha : a.Nodup) (hr : r.Nodup) (hsub : ∀ v ∈ r, v ∈ a) :
    HasProb μ (choiceNoRep a r.length) (· = r) (a.length.descFactorial r.length : ℝ≥0∞)⁻¹ := by
  have hk : r.length ≤ a.length := (List.Nodup.subperm hr hsub).length_le
  unfold choiceNoRep
  rw [if_neg (by omega)]
  refine HasProb.map (f := fun (s : List α × List α) => s.2) ?_
  have := prob_noRep_from hf ha hr hsub (m := r.length) (i := 0) (by omega) (src := a) (out := []) (by simp) rfl
    (by simp)
  rw [prod_inv_desc] at this
  rw [List.range_eq_range']
  exact this

/-! ## Reals -/

theorem volume_between {S : Set ℝ} {a b : ℝ} (h1 : Set.Ioo a b ⊆ S) (h2 : S ⊆ Set.Icc a b) :
    volume S = ENNReal.ofReal (b - a) := by
  refine le_antisymm ?_ ?_
  · exact (measure_mono h2).trans_eq Real.volume_Icc
  · exact (Real.volume_Ioo (a := a) (b := b)).symm.le.trans (measure_mono h1)

theorem unit_between (hf : Fair G μ) {B : ℝ → Prop} (hB : MeasurableSet {u | B u}) {a b : ℝ}
    (h1 : ∀ u, 0 ≤ u → u < 1 → a < u → u < b → B u) (h2 : ∀ u, 0 ≤ u → u < 1 → B u → a ≤ u ∧ u ≤ b)
    (ha : 0 ≤ a) (hb : b ≤ 1) : HasProb μ (unitM : RM G ℝ) B (ENNReal.ofReal (b - a)) := by
  have := hf.unitM hB
  rw [volume_between (a := a) (b := b)] at this
  · exact this
  · intro u hu
    exact ⟨h1 u (by linarith [hu.1]) (by linarith [hu.2]) hu.1 hu.2, by linarith [hu.1], by linarith [hu.2]⟩
  · intro u hu
    exact h2 u hu.2.1 hu.2.2 hu.1

theorem prob_flag (hf : Fair G μ) (p : ℝ) (b : Bool) :
    HasProb μ (unitM : RM G ℝ) (fun u => Scalar.ltb u p = b) (flagWeight p b) := by
  unfold flagWeight
  cases b with
  | true =>
    simp only [if_true]
    have := unit_between hf (B := fun u => u < p) measurableSet_Iio (a := 0) (b := min 1 (max 0 p))
      (by
        intro u h0 h1 _ h3
        rw [lt_min_iff, lt_max_iff] at h3
        rcases h3.2 with h | h
        · linarith
        · exact h) (by
        intro u h0 h1 h2
        exact ⟨h0, le_min h1.le (le_max_of_le_right h2.le)⟩) (le_refl _) (min_le_left _ _)
    rw [sub_zero] at this
    refine this.congr fun g u g' _ => ?_
    simp
  | false =>
    simp only [Bool.false_eq_true, if_false]
    have := unit_between hf (B := fun u => p ≤ u) measurableSet_Ici (a := min 1 (max 0 p)) (b := 1)
      (by
        intro u h0 h1 h2 _
        rw [min_lt_iff, max_lt_iff] at h2
        rcases h2 with h | h
        · linarith
        · exact h.2.le) (by
        intro u h0 h1 h2
        exact ⟨min_le_of_right_le (max_le h0 h2), h1.le⟩) (le_min zero_le_one (le_max_left _ _)) (le_refl _)
    refine this.congr fun g u g' _ => ?_
    simp

/-- The threshold. -/
theorem prob_uniform (hf : Fair G μ) {p0 p1 : ℝ} (h : p0 ≤ p1) (x : ℝ) :
    HasProb μ (uniformM p0 p1 : RM G ℝ) (· < x) (uniformCdf p0 p1 x) := by
  unfold uniformM
  refine HasProb.map (f := fun u => p0 + (p1 - p0) * u) ?_
  unfold uniformCdf
  split
  · rename_i he
    subst he
    split
    · rename_i hx
      have := unit_between hf (B := fun _ => True) (by simp) (a := 0) (b := 1) (by simp)
        (fun u h0 h1 _ => ⟨h0, h1.le⟩) (le_refl _) (le_refl _)
      rw [sub_zero, ENNReal.ofReal_one] at this
      refine this.congr fun g u g' _ => ?_
      simpa using hx
    · rename_i hx
      refine HasProb.never fun g u g' _ => ?_
      simpa using hx
  · rename_i hne
    have hlt : 0 < p1 - p0 := by
      have := lt_of_le_of_ne h hne
      linarith
    have e : ∀ u, p0 + (p1 - p0) * u < x ↔ u < (x - p0) / (p1 - p0) := by
      intro u
      rw [lt_div_iff₀ hlt, mul_comm]
      constructor <;> intro h <;> linarith
    have := unit_between hf (B := fun u => u < (x - p0) / (p1 - p0)) measurableSet_Iio (a := 0)
      (b := min 1 (max 0 ((x - p0) / (p1 - p0))))
      (by
        intro u h0 h1 _ h3
        rw [lt_min_iff, lt_max_iff] at h3
        rcases h3.2 with h | h
        · linarith
        · exact h) (by
        intro u h0 h1 h2
        exact ⟨h0, le_min h1.le (le_max_of_le_right h2.le)⟩) (le_refl _) (min_le_left _ _)
    rw [sub_zero] at this
    refine this.congr fun g u g' _ => ?_
    exact (e u).symm

theorem prob_drawThreshold (hf : Fair G μ) {D : List ℝ} {o : Opt} (hD : D ≠ []) (h0 : 0 ≤ o.pMin)
    (h1 : o.pMin ≤ o.pMax) (h2 : o.pMax ≤ 100) (x : ℝ) :
    HasProb μ (drawThreshold D o.pMin o.pMax : RM G ℝ) (· < x) (thrWeight o D x) := by
  obtain ⟨p0, e0, -⟩ := percentile_ok hD h0 (h1.trans h2)
  obtain ⟨p1, e1, -⟩ := percentile_ok hD (h0.trans h1) h2
  unfold drawThreshold thrWeight
  rw [ofRes_bind_of_ok e0, ofRes_bind_of_ok e1, e0, e1]
  exact prob_uniform hf (percentile_mono h0 h1 h2 e0 e1 hD) x

end Convst
