import Verif.Proofs.LawVariants
import Verif.Proofs.ParamLaw

/-!
# More channels asked for than there are

Lemmas for C131: `fit` of the multivariate transformers when `max_channels` is not bounded by the number of channels.
-/

set_option autoImplicit false
set_option linter.unusedSectionVars false

namespace Convst.ManyChannels
open Convst Spec MeasureTheory
open scoped ENNReal

section runs
variable {G L : Type} [Gen G ℝ] [LawfulGen G] [DecidableEq L]

/-! ## When all the numbers of channels drawn can be met -/

theorem mslGenerate_fits {a : FitArgs ℝ L} (hv : ValidSL a) {mc : Nat} (hmc : 1 ≤ mc)
    {g0 : G} (gs : Nat → G) {P : MShp ℝ} {g' : G}
    (hP : mInit a.nShp a.sizes a.nt a.pNorm mc a.prime g0 = .ok (P, g')) (hfit : ∀ c ∈ P.nChannels, c ≤ a.nf) :
    ∃ P nch rec out kept S, MFitted (trainSL a) a a.nt (min mc a.nf) P nch rec out kept S ∧
      ∀ order, IsSchedule order → mslGenerate a mc g0 gs order = .ok S := by
  obtain ⟨P1, g1, hP1, hI, hthr, hncl, hnc, hch, hval⟩ :=
    mInit_wp a.pNorm a.prime hv.nShp hv.sizes hv.bounds hmc g0
  rw [hP] at hP1
  obtain ⟨rfl, rfl⟩ := Prod.mk.inj (Except.ok.inj hP1)
  have hpok := parOK_of_init hv.bounds hI
  have hncl' : P.nChannels.length = P.lengths.length := by rw [hncl, hI.len]
  have h0 := mArr0_eq hI.len hncl hthr hch hval
  obtain ⟨rec, out, hgood, hrun⟩ := fitLoop_ok (T := trainSL a) (o := optOf a) (multi := true)
    (nch := fun i => P.nChannels.getD i 0) (normalize := P.normalize) hpok.dil
    (write := mWrite (offValues P.nChannels P.lengths) (offChannels P.nChannels))
    (target := mTarget P.lengths P.nChannels)
    (shape := fun i v => ∀ o, v = some o →
      o.values.length = P.nChannels.getD i 0 * P.lengths.getD i 0 ∧
      o.channels.length = P.nChannels.getD i 0)
    (fun S i v hi hS hvv => mWrite_ok hncl' S i v hi hS hvv)
    (fun rec out i _ h o ho => by
      have := goodAt_values h ho
      exact ⟨this.1, (this.2 rfl).1⟩)
    (m0 := fun _ _ _ _ => true) (fun _ _ _ _ _ _ => rfl)
    (step := mslStep a P.lengths P.dilations P.normalize P.nChannels)
    (fun minL m i hi => mslStep_wp hv.data hv.perc hpok hi hncl'
      hfit minL m) gs
  obtain ⟨S, kept, hfin, hfrom, hwf⟩ := mFinish_from hpok.dil hpok.norm hncl' (out := out) (nf := a.nf)
    (fun i v hi hvv => by
      have := goodAt_values (hgood i hi) hvv
      exact ⟨this.1, this.2 rfl⟩) hpok.pos
  refine ⟨_, _, rec, out, kept, S, ⟨parDrawn_of_init hI, ?_, hgood, hfrom, hwf⟩, ?_⟩
  · intro i hi
    have hi : i < P.nChannels.length := by rw [hncl']; exact hi
    show 1 ≤ P.nChannels.getD i 0 ∧ P.nChannels.getD i 0 ≤ min mc a.nf
    rw [getD_lt _ hi]
    have hm := List.getElem_mem hi
    exact ⟨(hnc _ hm).1, le_min (hnc _ hm).2 (hfit _ hm)⟩
  intro order ho
  obtain ⟨masks, hm⟩ := hrun (order (uniqueSorted P.dilations).length) (ho _)
  unfold mslGenerate
  rw [hP, Res.bind_ok]
  simp only
  rw [h0, hm, Res.bind_ok]
  exact hfin

theorem mvlGenerate_fits {a : FitArgs ℝ L} {minLen : Nat} {xLen : List Nat}
    (hv : ValidVL a minLen xLen) {mc : Nat} (hmc : 1 ≤ mc)
    {g0 : G} (gs : Nat → G) {P : MShp ℝ} {g' : G}
    (hP : mInit a.nShp a.sizes minLen a.pNorm mc a.prime g0 = .ok (P, g')) (hfit : ∀ c ∈ P.nChannels, c ≤ a.nf) :
    ∃ P nch rec out kept S, MFitted (trainVL a xLen) a minLen (min mc a.nf) P nch rec out kept S ∧
      ∀ order, IsSchedule order → mvlGenerate a mc minLen xLen g0 gs order = .ok S := by
  obtain ⟨P1, g1, hP1, hI, hthr, hncl, hnc, hch, hval⟩ :=
    mInit_wp a.pNorm a.prime hv.nShp hv.sizes hv.bounds hmc g0
  rw [hP] at hP1
  obtain ⟨rfl, rfl⟩ := Prod.mk.inj (Except.ok.inj hP1)
  obtain ⟨maxLen, hM1, hM2⟩ := maxLen_ok hv.data hv.ne
  obtain ⟨lens, hlens⟩ := lens_read hv.data
  have hpok := parOK_of_init hv.bounds hI
  have hncl' : P.nChannels.length = P.lengths.length := by rw [hncl, hI.len]
  have h0 := mArr0_eq hI.len hncl hthr hch hval
  obtain ⟨rec, out, hgood, hrun⟩ := fitLoop_ok (T := trainVL a xLen) (o := optOf a) (multi := true)
    (nch := fun i => P.nChannels.getD i 0) (normalize := P.normalize) hpok.dil
    (write := mWrite (offValues P.nChannels P.lengths) (offChannels P.nChannels))
    (target := mTarget P.lengths P.nChannels)
    (shape := fun i v => ∀ o, v = some o →
      o.values.length = P.nChannels.getD i 0 * P.lengths.getD i 0 ∧
      o.channels.length = P.nChannels.getD i 0)
    (fun S i v hi hS hvv => mWrite_ok hncl' S i v hi hS hvv)
    (fun rec out i _ h o ho => by
      have := goodAt_values h ho
      exact ⟨this.1, (this.2 rfl).1⟩)
    (m0 := fun _ s _ t => decide (t < xLen.getD s 0))
    (fun _ _ _ _ _ ht => decide_eq_true ht)
    (step := mvlStep a xLen maxLen P.lengths P.dilations P.normalize P.nChannels)
    (fun minL m i hi => mvlStep_wp hv.data hv.perc hpok hi hncl'
      hfit hM2 minL m) gs
  obtain ⟨S, kept, hfin, hfrom, hwf⟩ := mFinish_from hpok.dil hpok.norm hncl' (out := out) (nf := a.nf)
    (fun i v hi hvv => by
      have := goodAt_values (hgood i hi) hvv
      exact ⟨this.1, this.2 rfl⟩) hpok.pos
  refine ⟨_, _, rec, out, kept, S, ⟨parDrawn_of_init hI, ?_, hgood, hfrom, hwf⟩, ?_⟩
  · intro i hi
    have hi : i < P.nChannels.length := by rw [hncl']; exact hi
    show 1 ≤ P.nChannels.getD i 0 ∧ P.nChannels.getD i 0 ≤ min mc a.nf
    rw [getD_lt _ hi]
    have hm := List.getElem_mem hi
    exact ⟨(hnc _ hm).1, le_min (hnc _ hm).2 (hfit _ hm)⟩
  intro order ho
  obtain ⟨masks, hm⟩ := hrun (order (uniqueSorted P.dilations).length) (ho _)
  unfold mvlGenerate
  rw [hM1, Res.bind_ok, hP, Res.bind_ok]
  simp only
  rw [hlens, Res.bind_ok, h0, hm, Res.bind_ok]
  exact hfin

/-! ## When one of them cannot -/

theorem bind_inv {α β : Type} {m : RM G α} {f : α → RM G β} {g : G} {r : β × G} (h : (m >>= f) g = .ok r) :
    ∃ x g', m g = .ok (x, g') ∧ f x g' = .ok r := by
  rw [RM.bind_apply, Res.bind_eq_ok] at h
  obtain ⟨⟨x, g'⟩, h1, h2⟩ := h
  exact ⟨x, g', h1, h2⟩

theorem ofRes_inv {α : Type} {r : Res α} {g : G} {x : α} {g' : G} (h : (ofRes r : RM G α) g = .ok (x, g')) : r = .ok x := by
  unfold ofRes at h
  cases r with
  | ok y =>
    obtain ⟨rfl, -⟩ := Prod.mk.inj (Except.ok.inj h)
    rfl
  | error e => cases h

theorem foldlM_mem {α σ ε : Type} {f : σ → α → Except ε σ} {l : List α} {s s' : σ} (h : l.foldlM f s = .ok s') {x : α}
    (hx : x ∈ l) : ∃ s1 s2, f s1 x = .ok s2 := by
  induction l generalizing s with
  | nil => cases hx
  | cons b l ih =>
    rw [List.foldlM_cons, Res.bind_eq_ok] at h
    obtain ⟨s1, h1, h2⟩ := h
    rcases List.mem_cons.1 hx with rfl | hx
    · exact ⟨s, s1, h1⟩
    · exact ih h2 hx

theorem foldlM_mem_rm {α σ : Type} {f : σ → α → RM G σ} {l : List α} {s : σ} {g : G} {r : σ × G}
    (h : (l.foldlM f s) g = .ok r) {x : α} (hx : x ∈ l) : ∃ s1 g1 r1, f s1 x g1 = .ok r1 := by
  induction l generalizing s g with
  | nil => cases hx
  | cons b l ih =>
    rw [List.foldlM_cons] at h
    obtain ⟨s1, g1, h1, h2⟩ := bind_inv h
    rcases List.mem_cons.1 hx with rfl | hx
    · exact ⟨s, g, _, h1⟩
    · exact ih h2 hx

/-- Every shapelet is sampled when the loop ends without an error. -/
theorem fitLoop_step {A : Type} {lengths dilations : List Nat} {step : Nat → SubMask → Nat → RM G (SubMask × Option (Out ℝ))}
    {write : A → Nat → Option (Out ℝ) → Res A} {gs : Nat → G} {order : List Nat}
    (ho : order.Perm (List.range (uniqueSorted dilations).length)) {st st' : FitState A}
    (h : fitLoop lengths dilations step write gs order st = .ok st') {i : Nat} (hi : i < dilations.length) :
    ∃ minL m g r, step minL m i g = .ok r := by
  have hm : dilations[i] ∈ uniqueSorted dilations := mem_uniqueSorted.2 (List.getElem_mem hi)
  obtain ⟨iD, h1, h2⟩ := List.mem_iff_getElem.1 hm
  unfold fitLoop at h
  obtain ⟨s1, s2, e⟩ := foldlM_mem h (ho.mem_iff.2 (List.mem_range.2 h1))
  rw [Res.bind_eq_ok] at e
  obtain ⟨⟨s3, g3⟩, e1, -⟩ := e
  unfold fitGroup at e1
  obtain ⟨d, g4, e2, e1⟩ := bind_inv e1
  have e2 := ofRes_inv e2
  rw [aget_ok h1, h2] at e2
  obtain rfl := Except.ok.inj e2
  obtain ⟨ls, g5, -, e1⟩ := bind_inv e1
  obtain ⟨minL, g6, -, e1⟩ := bind_inv e1
  obtain ⟨s4, g7, r, e3⟩ := foldlM_mem_rm e1 (mem_groupIds.2 (List.getElem?_eq_getElem hi))
  obtain ⟨y, g8, e4, -⟩ := bind_inv e3
  exact ⟨minL, _, _, _, e4⟩

theorem choiceNoRep_inv {α : Type} {l : List α} {k : Nat} {g : G} {r : List α × G}
    (h : (choiceNoRep l k : RM G (List α)) g = .ok r) : k ≤ l.length := by
  by_contra hc
  unfold choiceNoRep at h
  rw [if_pos (by omega)] at h
  have h : (ofRes (.error .valueError : Res (List α)) : RM G (List α)) g = .ok (r.1, r.2) := h
  cases ofRes_inv h

theorem mslStep_inv {a : FitArgs ℝ L} {lengths dilations : List Nat} {normalize : List Bool} {nChannels : List Nat} {minL : Nat}
    {m : SubMask} {i : Nat} {g : G} {r : (SubMask × Option (Out ℝ)) × G}
    (h : mslStep a lengths dilations normalize nChannels minL m i g = .ok r) {c : Nat} (hc : nChannels[i]? = some c) :
    c ≤ a.nf := by
  unfold mslStep at h
  obtain ⟨d, g1, -, h⟩ := bind_inv h
  obtain ⟨l, g2, -, h⟩ := bind_inv h
  obtain ⟨n, g3, -, h⟩ := bind_inv h
  obtain ⟨nc, g4, e, h⟩ := bind_inv h
  have e := ofRes_inv e
  rw [aget_eq_ok, hc] at e
  obtain rfl := Option.some.inj e
  obtain ⟨ch, g5, e, h⟩ := bind_inv h
  have := choiceNoRep_inv e
  rwa [List.length_range] at this

theorem mvlStep_inv {a : FitArgs ℝ L} {xLen : List Nat} {maxLen : Nat} {lengths dilations : List Nat} {normalize : List Bool}
    {nChannels : List Nat} {minL : Nat} {m : SubMask} {i : Nat} {g : G} {r : (SubMask × Option (Out ℝ)) × G}
    (h : mvlStep a xLen maxLen lengths dilations normalize nChannels minL m i g = .ok r) {c : Nat} (hc : nChannels[i]? = some c) :
    c ≤ a.nf := by
  unfold mvlStep at h
  obtain ⟨d, g1, -, h⟩ := bind_inv h
  obtain ⟨l, g2, -, h⟩ := bind_inv h
  obtain ⟨n, g3, -, h⟩ := bind_inv h
  obtain ⟨nc, g4, e, h⟩ := bind_inv h
  have e := ofRes_inv e
  rw [aget_eq_ok, hc] at e
  obtain rfl := Option.some.inj e
  obtain ⟨ch, g5, e, h⟩ := bind_inv h
  have := choiceNoRep_inv e
  rwa [List.length_range] at this

theorem mslGenerate_inv {a : FitArgs ℝ L} {mc : Nat} {g0 : G} {gs : Nat → G} {P : MShp ℝ} {g' : G}
    (hP : mInit a.nShp a.sizes a.nt a.pNorm mc a.prime g0 = .ok (P, g')) (hl : P.nChannels.length = P.dilations.length)
    {order : Nat → List Nat} (ho : IsSchedule order) {S : MShp ℝ} (h : mslGenerate a mc g0 gs order = .ok S) :
    ∀ c ∈ P.nChannels, c ≤ a.nf := by
  intro c hc
  obtain ⟨i, hi, rfl⟩ := List.mem_iff_getElem.1 hc
  unfold mslGenerate at h
  rw [hP, Res.bind_ok, Res.bind_eq_ok] at h
  obtain ⟨r, h1, -⟩ := h
  obtain ⟨minL, m, g, r, e⟩ := fitLoop_step (ho _) h1 (hl ▸ hi)
  exact mslStep_inv e (List.getElem?_eq_getElem hi)

theorem mvlGenerate_inv {a : FitArgs ℝ L} {mc minLen : Nat} {xLen : List Nat} {g0 : G} {gs : Nat → G} {P : MShp ℝ} {g' : G}
    (hP : mInit a.nShp a.sizes minLen a.pNorm mc a.prime g0 = .ok (P, g')) (hl : P.nChannels.length = P.dilations.length)
    {order : Nat → List Nat} (ho : IsSchedule order) {S : MShp ℝ} (h : mvlGenerate a mc minLen xLen g0 gs order = .ok S) :
    ∀ c ∈ P.nChannels, c ≤ a.nf := by
  intro c hc
  obtain ⟨i, hi, rfl⟩ := List.mem_iff_getElem.1 hc
  unfold mvlGenerate at h
  rw [Res.bind_eq_ok] at h
  obtain ⟨maxLen, -, h⟩ := h
  rw [hP, Res.bind_ok, Res.bind_eq_ok] at h
  obtain ⟨x, -, h⟩ := h
  rw [Res.bind_eq_ok] at h
  obtain ⟨r, h1, -⟩ := h
  obtain ⟨minL, m, g, r, e⟩ := fitLoop_step (ho _) h1 (hl ▸ hi)
  exact mvlStep_inv e (List.getElem?_eq_getElem hi)

/-- No number of channels can be drawn. -/
theorem mInit_zero {nShp : Nat} {sizes : List Nat} {n : Nat} {pNorm : ℝ} {prime : Bool} (hn : 1 ≤ nShp) {g : G} {r : MShp ℝ × G} :
    (mInit nShp sizes n pNorm 0 prime : RM G (MShp ℝ)) g ≠ .ok r := by
  intro h
  unfold mInit at h
  obtain ⟨ls, g1, -, h⟩ := bind_inv h
  obtain ⟨ds, g2, -, h⟩ := bind_inv h
  obtain ⟨ch, g3, e, h⟩ := bind_inv h
  obtain ⟨m, rfl⟩ : ∃ m, nShp = m + 1 := ⟨nShp - 1, by omega⟩
  unfold choiceN at e
  rw [List.range_succ_eq_map, List.mapM_cons] at e
  obtain ⟨c, g4, e, -⟩ := bind_inv e
  unfold choice1 at e
  obtain ⟨j, g5, e, -⟩ := bind_inv e
  unfold draw at e
  simp at e

end runs

/-! ## How often -/

section law
variable {G L : Type} [MeasurableSpace G] [Gen G ℝ] [LawfulGen G] [DecidableEq L] {μ : Measure G}

theorem sum_nch {mc nf : Nat} :
    (∑ c ∈ Finset.range (mc + 1), if c ≤ nf then nchWeight mc c else 0) = (min nf mc : Nat) / (mc : ℝ≥0∞) := by
  rw [Finset.sum_range_succ']
  have h0 : nchWeight mc 0 = 0 := by unfold nchWeight; simp
  rw [h0, ite_self, add_zero]
  have h1 : ∀ k ∈ Finset.range mc, (if k + 1 ≤ nf then nchWeight mc (k + 1) else 0) =
      if k < nf then (mc : ℝ≥0∞)⁻¹ else 0 := by
    intro k hk
    have := Finset.mem_range.1 hk
    unfold nchWeight
    rw [if_pos (show 1 ≤ k + 1 ∧ k + 1 ≤ mc from ⟨by omega, by omega⟩)]
    rfl
  rw [Finset.sum_congr rfl h1, ← Finset.sum_filter, Finset.sum_const, nsmul_eq_mul, div_eq_mul_inv]
  congr 2
  have : (Finset.range mc).filter (fun k => k < nf) = Finset.range (min nf mc) := by
    ext k
    simp only [Finset.mem_filter, Finset.mem_range]
    omega
  rw [this, Finset.card_range]

open Classical in
theorem sum_fit {a : FitArgs ℝ L} {n mc nf : Nat} (hne : a.sizes ≠ []) (hs : ∀ l ∈ a.sizes, 2 ≤ l ∧ l ≤ n) :
    (∑ v ∈ a.sizes.toFinset ×ˢ Finset.range (n + 1) ×ˢ (Finset.univ : Finset Bool) ×ˢ Finset.range (mc + 1),
      if v.2.2.2 ≤ nf then oneWeight a n mc v.1 v.2.1 v.2.2.1 v.2.2.2 else 0) = (min nf mc : Nat) / (mc : ℝ≥0∞) := by
  rw [← sum_nch]
  set S := (∑ c ∈ Finset.range (mc + 1), if c ≤ nf then nchWeight mc c else 0) with hS
  rw [Finset.sum_product, ← one_mul S, ← sum_lengthWeight hne, Finset.sum_mul]
  refine Finset.sum_congr rfl fun l hl => ?_
  obtain ⟨h2, hn⟩ := hs l (List.mem_toFinset.1 hl)
  rw [Finset.sum_product]
  have : ∀ d ∈ Finset.range (n + 1), ∑ x ∈ (Finset.univ : Finset Bool) ×ˢ Finset.range (mc + 1),
      (if x.2 ≤ nf then oneWeight a n mc l d x.1 x.2 else 0) =
      dilWeight n a.prime l d * (lengthWeight a.sizes l * S) := by
    intro d _
    rw [Finset.sum_product]
    have hb : ∀ b ∈ (Finset.univ : Finset Bool), (∑ c ∈ Finset.range (mc + 1), if c ≤ nf then oneWeight a n mc l d b c else 0) =
        flagWeight a.pNorm b * (dilWeight n a.prime l d * (lengthWeight a.sizes l * S)) := by
      intro b _
      rw [hS, Finset.mul_sum, Finset.mul_sum, Finset.mul_sum]
      refine Finset.sum_congr rfl fun c _ => ?_
      unfold oneWeight
      split
      · ring
      · simp
    rw [Finset.sum_congr rfl hb, ← Finset.sum_mul, sum_flagWeight, one_mul]
  rw [Finset.sum_congr rfl this, ← Finset.sum_mul, sum_dilWeight _ h2 hn, one_mul]

/-- Probability that all the numbers of channels drawn are at most `nf`. -/
theorem prob_fit [IsProbabilityMeasure μ] (hf : Fair G μ) {a : FitArgs ℝ L} {n mc : Nat} (hN : 1 ≤ a.nShp)
    (hne : a.sizes ≠ []) (hb : ∀ l ∈ a.sizes, 2 ≤ l ∧ l ≤ n) (hmc : 1 ≤ mc) (nf : Nat) :
    MeasurableSet {ω : G × (Nat → G) | ∃ P g', mInit a.nShp a.sizes n a.pNorm mc a.prime ω.1 = .ok (P, g') ∧
      ∀ c ∈ P.nChannels, c ≤ nf} ∧
    tapes μ {ω | ∃ P g', mInit a.nShp a.sizes n a.pNorm mc a.prime ω.1 = .ok (P, g') ∧ ∀ c ∈ P.nChannels, c ≤ nf} =
      ((min nf mc : Nat) / (mc : ℝ≥0∞)) ^ a.nShp := by
  classical
  set V : Scheme L := ⟨true, false, true, trainSL a, a.y, optOf a, fun _ _ _ _ => true⟩ with hV
  set init : RM G (MShp ℝ) := mInit a.nShp a.sizes n a.pNorm mc a.prime with hinit
  have hsupp : ∀ g Q g', init g = .ok (Q, g') → ParOK Q.lengths Q.dilations Q.normalize n ∧
      Q.lengths.length = a.nShp ∧ Q.nChannels.length = a.nShp := by
    intro g Q g' hQ
    obtain ⟨Q1, g1, hQ1, hI, -, hncl, hnc, -⟩ := mInit_wp a.pNorm a.prime hN hne hb hmc g
    have hQ' : mInit a.nShp a.sizes n a.pNorm mc a.prime g = .ok (Q, g') := hQ
    rw [hQ'] at hQ1
    obtain ⟨rfl, rfl⟩ := Prod.mk.inj (Except.ok.inj hQ1)
    exact ⟨parOK_of_init hb hI, hI.len, hncl⟩
  have htot : ∀ g, ∃ Q g', init g = .ok (Q, g') := by
    intro g
    obtain ⟨Q1, g1, hQ1, -⟩ := mInit_wp a.pNorm a.prime hN hne hb hmc g
    exact ⟨Q1, g1, hQ1⟩
  set pick := V.pick init (·.lengths) (·.dilations) (·.normalize) (·.nChannels) with hpick
  have hn : ∀ ω, (pick ω).par.n = a.nShp := pick_n fun g => by
    obtain ⟨Q, g', hQ⟩ := htot g
    exact ⟨Q, g', hQ, (hsupp _ _ _ hQ).2.1⟩
  have hlaw : ∀ d, MeasurableSet {ω | (pick ω).SameParams d} ∧ tapes μ {ω | (pick ω).SameParams d} = paramsLaw a n mc d := by
    intro d
    by_cases hd : d.par.n = a.nShp
    · exact params_core (V := V) (n := n) (nShp := a.nShp) hsupp htot (by
            unfold paramsLaw parWeight
            rw [if_pos hd]
            exact prob_mInit hf a.pNorm a.prime hN hb hd d.nch)
    · have hempty : {ω | (pick ω).SameParams d} = ∅ := by
        ext ω
        constructor
        · intro h
          have h1 := h.1
          rw [hn] at h1
          exact absurd h1.symm hd
        · intro h; exact absurd h (Set.notMem_empty _)
      rw [hempty, measure_empty]
      unfold paramsLaw parWeight
      rw [if_neg hd, zero_mul]
      exact ⟨MeasurableSet.empty, rfl⟩
  have hset : {ω : G × (Nat → G) | ∃ P g', init ω.1 = .ok (P, g') ∧ ∀ c ∈ P.nChannels, c ≤ nf} =
      {ω | ∀ i, i < a.nShp → (Choices.one (pick ω) i).2.2.2 ≤ nf} := by
    ext ω
    obtain ⟨Q, g', hQ⟩ := htot ω.1
    obtain ⟨-, -, hl⟩ := hsupp _ _ _ hQ
    have hp : ∀ i, (Choices.one (pick ω) i).2.2.2 = Q.nChannels.getD i 0 := by
      intro i
      rw [hpick]
      unfold Scheme.pick
      rw [hQ]
      rfl
    simp only [Set.mem_setOf_eq, hp]
    constructor
    · rintro ⟨P, g1, h1, h2⟩ i hi
      rw [hQ] at h1
      obtain ⟨rfl, rfl⟩ := Prod.mk.inj (Except.ok.inj h1)
      rw [getD_lt _ (by rw [hl]; exact hi)]
      exact h2 _ (List.getElem_mem _)
    · intro h
      refine ⟨Q, g', hQ, fun c hc => ?_⟩
      obtain ⟨i, hi, rfl⟩ := List.mem_iff_getElem.1 hc
      have := h i (by rw [← hl]; exact hi)
      rwa [getD_lt _ hi] at this
  have hI := independent_of_law hn hb hlaw (fun _ v => v.2.2.2 ≤ nf)
  rw [hset]
  refine ⟨hI.1, hI.2.trans ?_⟩
  have hone := sum_fit (mc := mc) (nf := nf) hne hb
  rw [Finset.prod_congr rfl (g := fun _ => (min nf mc : Nat) / (mc : ℝ≥0∞)) fun i _ => by
    rw [← hone]; exact Finset.sum_congr rfl fun v _ => by congr, Finset.prod_const, Finset.card_range]

end law
end Convst.ManyChannels
