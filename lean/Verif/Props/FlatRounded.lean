import Verif.Props.Digital
import Verif.Props.RoundedZ
import Verif.Props.SamplingCount
import Verif.Proofs.RoundedRidge
import Verif.Spec.FlatRounded

/-!
# C125: flat training series in floating-point arithmetic

`fit` drops a univariate shapelet whose values are all 0, which is what the normalisation makes of a flat window (C32).  The
test is an exact comparison with 0, so it depends on the rounding of the mean.
-/

set_option autoImplicit false
set_option linter.unusedSectionVars false

namespace Convst.Props

open Convst Spec

section anyArith
variable {G K R L : Type} [Scalar K] [Gen G K] [LawfulInt G] [DecidableEq L]

/-- Univariate `fit` on a 3D array, in any arithmetic: it succeeds and its shapelets are a result of the sampling. -/
theorem object_uni (heq : ∀ x : K, Scalar.eqb x 0 = true ↔ x = 0) (env : Env G R L) (o : Rdst K R)
    (w : World R) (dt : DType) (A : Arr3 K) (y : List L)
    (hty : o.transformType = .uni ∨ o.transformType = .auto ∧ dt ≠ .otherDtype ∧ A.nf = 1)
    (hWF : (XIn.array dt A).WF) (hne : A.data ≠ []) (hnf : 1 ≤ A.nf) (hnt : 4 ≤ A.nt)
    (hy : y.length = A.data.length) (hp : AnyParams o A.nt) (hD : DrawSafe G K A.nt) (gs : Nat → G) :
    ∃ o' w' S, ∃ sizes : List Nat, (∀ order, IsSchedule order → o.fit env gs order w (.array dt A) y = (o', w', .ok ())) ∧
      o'.shapelets = some (.u S) ∧ (∀ l ∈ sizes, 2 ≤ l ∧ l ≤ A.nt) ∧
      ((∀ z ∈ (setLengths o.lens o.bounds o.reduction A.nt).astypeInt, z ≤ A.nt) →
        ∀ l ∈ sizes, (l : Int) ∈ (setLengths o.lens o.bounds o.reduction A.nt).astypeInt) ∧
      ∃ P rec out kept, UTraced (arraySetting (Drawable G) o A y sizes) P rec out kept S := by
  have harr : toArr3 (.array dt A) = .ok A := toArr3_array hne hnf (by omega)
  have hset : setFitTransform o (.array dt A) = ({ o with transformType := .uni }, .ok ()) := by
    rcases hty with h | ⟨h, hdt, h1⟩
    · rw [C34_fixed_type o (Or.inl h), ← h]
    · have hc : autoClass (.array dt A) = .ok (if A.nf > 1 then .multi else .uni) := by
        simp [autoClass, hdt, harr, Bind.bind, Except.bind, pure, Except.pure]
      rw [if_neg (by omega)] at hc
      simp [setFitTransform, h, hc]
  have htc : (TType.uni).Concrete := by simp [TType.Concrete]
  have htv : ¬ (TType.uni).Var := by simp [TType.Var]
  obtain ⟨sizes, hcp, hsne, hsb, hsub⟩ := checkParams_sizes hnt hp.ne hp.gt
  obtain ⟨o1, w1, c, seed, hprep, e1, e2, -, ha, k1, k2, -, -⟩ := prepare_forward env o w y htc hset
    (loadTrain_same (o := { o with transformType := .uni }) htv harr) hp.nSamples hcp
  have hv : SafeSL c.args := by
    rw [ha]
    exact {
      data := ⟨hy, fun s hs => (hWF s hs).1, fun s hs => (hWF s hs).2⟩
      nf := hnf
      nShp := hp.nShp
      sizes := hsne
      bounds := hsb }
  have hD' : DrawSafe G K c.args.nt := by rw [ha]; exact hD
  have hp0 : PercSafe c.args.pMin := by rw [ha]; exact hp.pMin
  have hp1 : PercSafe c.args.pMax := by rw [ha]; exact hp.pMax
  obtain ⟨S, P, rec, out, kept, hT, hS⟩ := uslGenerate_any heq hv hD' hp0 hp1 (env.seedG seed) gs
  have hE : settingSL G c.args = arraySetting (Drawable G) o A y sizes := by rw [ha]; rfl
  rw [hE] at hT
  refine ⟨{ o1 with shapelets := some (.u S) }, w1, S, sizes, ?_, rfl, hsb, hsub, ⟨P, rec, out, kept, hT⟩⟩
  intro order ho
  unfold Rdst.fit
  rw [hprep]
  simp only
  rw [k1 rfl]
  simp [Call.run, hS order ho, Except.map]

/-- A window of a flat series is flat. -/
theorem window_flat {phase : Bool} {x : List K} {c : K} (hc : ∀ v ∈ x, v = c) {l d t : Nat} (hn : 0 < x.length)
    (ht : t < nWin phase x.length l d) : ∀ v ∈ window phase x l d t, v = c := by
  intro v hv
  obtain ⟨j, hj, rfl⟩ := List.mem_map.1 hv
  rw [List.mem_range] at hj
  have hpos : pos phase x.length d t j < x.length := by
    unfold nWin at ht
    unfold pos
    split
    · exact Nat.mod_lt _ hn
    · rename_i hph
      rw [if_neg hph] at ht
      have : j * d ≤ (l - 1) * d := Nat.mul_le_mul_right _ (by omega)
      omega
  rw [getD_lt _ hpos]
  exact hc _ (List.getElem_mem hpos)

end anyArith

section rounded
variable {r : Rounding}

/-- The normalisation of a flat window: every value is the same rounded quotient. -/
theorem znorm_flat {c : ℝ} {w : List (Fl r)} (hc : ∀ v ∈ w, v.val = c) : ∀ x ∈ znorm w, x.val =
    r.rnd (r.rnd (c - (mean w).val) / r.rnd ((std w).val + r.rnd (1 / 10 ^ 8))) := by
  intro x hx
  unfold znorm at hx
  obtain ⟨v, hv, rfl⟩ := List.mem_map.1 hx
  rw [fl_div, fl_sub, fl_add, fl_eps, hc v hv]

/-- The mean of a flat window of digitised numbers is exact. -/
theorem mean_flat_digital (hr : ExactDigits r) {e : Int} {B : Nat} {c : ℝ} (hd : Digital e B c) {w : List (Fl r)}
    (hw : w ≠ []) (hc : ∀ v ∈ w, v.val = c) (hB : w.length * B ≤ 2 ^ 53) (hl : w.length ≤ 2 ^ 53) : (mean w).val = c := by
  unfold mean
  rw [fl_div, fl_ofNat, exactDigits_nat hr hl]
  have h1 := (sumsTo_exact hr (ssum_sumsTo w) (e := e) (C := B)
    (by
      intro t ht
      obtain ⟨v, hv, rfl⟩ := List.mem_map.1 ht
      rw [hc v hv]
      exact hd) (by rwa [List.length_map])).1
  have h2 : w.map Fl.val = List.replicate w.length c := by
    rw [List.eq_replicate_iff]
    exact ⟨by simp, fun b hb => by
      obtain ⟨v, hv, rfl⟩ := List.mem_map.1 hb
      exact hc v hv⟩
  rw [h1, h2, List.sum_replicate, nsmul_eq_mul]
  have h3 : (w.length : ℝ) ≠ 0 := by
    have : 0 < w.length := List.length_pos_iff.2 hw
    exact_mod_cast this.ne'
  rw [mul_div_cancel_left₀ _ h3]
  refine digital_rnd hr (B := B) ?_ hd
  have : 1 ≤ w.length := List.length_pos_iff.2 hw
  nlinarith

theorem znorm_flat_small {c : ℝ} {w : List (Fl r)} (hw : w ≠ []) (hc : ∀ v ∈ w, v.val = c) (hn : r.rnd w.length = w.length) :
    ∀ x ∈ znorm w, |x.val| ≤ flatResidue r.u w.length * |c| := by
  intro x hx
  rw [znorm_flat hc x hx]
  have hu := r.u_nonneg
  have hu1 := r.u_lt
  have hn0 : (0 : ℝ) < w.length := by exact_mod_cast List.length_pos_iff.2 hw
  have hP : 1 ≤ (1 + r.u) ^ w.length := one_le_pow₀ (by linarith)
  -- the mean
  have hmean : |c - (mean w).val| ≤ ((1 + r.u) ^ (w.length + 1) - 1) * |c| := by
    have h1 := sumsTo_signed (ssum_sumsTo w)
    have h2 : w.map Fl.val = List.replicate w.length c := by
      rw [List.eq_replicate_iff]
      exact ⟨by simp, fun b hb => by
        obtain ⟨v, hv, rfl⟩ := List.mem_map.1 hb
        exact hc v hv⟩
    rw [h2, List.map_replicate, List.sum_replicate, List.sum_replicate, nsmul_eq_mul, nsmul_eq_mul] at h1
    have h3 : |(ssum w).val / w.length - c| ≤ ((1 + r.u) ^ w.length - 1) * |c| := by
      have e : (ssum w).val / w.length - c = ((ssum w).val - w.length * c) / w.length := by
        rw [sub_div, mul_div_cancel_left₀ _ hn0.ne']
      rw [e, abs_div, abs_of_pos hn0, div_le_iff₀ hn0]
      calc _ ≤ _ := h1
        _ = _ := by ring
    have h4 : (mean w).val = r.rnd ((ssum w).val / w.length) := by
      unfold mean
      rw [fl_div, fl_ofNat, hn]
    rw [h4]
    have h5 := r.err ((ssum w).val / w.length)
    have h6 : |(ssum w).val / w.length| ≤ (1 + r.u) ^ w.length * |c| := by
      have := abs_add_le ((ssum w).val / w.length - c) c
      rw [sub_add_cancel] at this
      linarith
    have h7 : |c - r.rnd ((ssum w).val / w.length)| ≤
        |r.rnd ((ssum w).val / w.length) - (ssum w).val / w.length| + |(ssum w).val / w.length - c| := by
      rw [abs_sub_comm]
      have := abs_add_le (r.rnd ((ssum w).val / w.length) - (ssum w).val / w.length) ((ssum w).val / w.length - c)
      rwa [sub_add_sub_cancel] at this
    have h8 := mul_le_mul_of_nonneg_left h6 hu
    rw [pow_succ]
    nlinarith
  -- the denominator
  have hs : 0 ≤ (std w).val := by
    unfold std
    rw [fl_sqrt]
    exact r.nonneg (Real.sqrt_nonneg _)
  have hden : (1 - r.u) ^ 2 / 10 ^ 8 ≤ r.rnd ((std w).val + r.rnd (1 / 10 ^ 8)) := by
    have h1 := r.ge_of (x := 1 / 10 ^ 8) (by positivity)
    have h2 := r.ge_of (x := (std w).val + r.rnd (1 / 10 ^ 8)) (add_nonneg hs (r.nonneg (by positivity)))
    have h3 : (1 - r.u) * ((1 - r.u) * (1 / 10 ^ 8)) ≤ (1 - r.u) * ((std w).val + r.rnd (1 / 10 ^ 8)) :=
      mul_le_mul_of_nonneg_left (by linarith) (by linarith)
    calc (1 - r.u) ^ 2 / 10 ^ 8 = (1 - r.u) * ((1 - r.u) * (1 / 10 ^ 8)) := by ring
      _ ≤ _ := h3.trans h2
  have hpos : 0 < (1 - r.u) ^ 2 / 10 ^ 8 := by
    have : 0 < 1 - r.u := by linarith
    positivity
  have hnum := r.abs_le_of (c - (mean w).val)
  have hnum2 : |r.rnd (c - (mean w).val)| ≤ (1 + r.u) * (((1 + r.u) ^ (w.length + 1) - 1) * |c|) :=
    hnum.trans (mul_le_mul_of_nonneg_left hmean (by linarith))
  refine (r.abs_le_of _).trans ?_
  rw [abs_div, abs_of_pos (hpos.trans_le hden)]
  have hq : |r.rnd (c - (mean w).val)| / r.rnd ((std w).val + r.rnd (1 / 10 ^ 8)) ≤
      (1 + r.u) * (((1 + r.u) ^ (w.length + 1) - 1) * |c|) / ((1 - r.u) ^ 2 / 10 ^ 8) :=
    div_le_div₀ ((abs_nonneg _).trans hnum2) hnum2 hpos hden
  refine (mul_le_mul_of_nonneg_left hq (by linarith)).trans (le_of_eq ?_)
  unfold flatResidue
  ring

end rounded

section witness

/-- A number rounded to 53 digits. -/
theorem rndBin_eval {x : ℝ} (e n : Int) (h1 : (2 : ℝ) ^ e ≤ x) (h2 : x < (2 : ℝ) ^ (e + 1))
    (h3 : (n : ℝ) ≤ x * (2 : ℝ) ^ (52 - e) + 1 / 2) (h4 : x * (2 : ℝ) ^ (52 - e) + 1 / 2 < n + 1) :
    rndBin 52 x = n * (2 : ℝ) ^ (e - 52) := by
  have hx : 0 < x := lt_of_lt_of_le (zpow_pos (by norm_num) _) h1
  have hb : binExp x = e := binExp_eq (by rwa [abs_of_pos hx]) (by rwa [abs_of_pos hx])
  unfold rndBin
  rw [hb]
  have : round (x * (2 : ℝ) ^ (((52 : Nat) : Int) - e)) = n := by
    rw [round_eq, Int.floor_eq_iff]
    exact ⟨h3, h4⟩
  rw [this]
  rfl

/-- Five times the greatest double below 1, added up from the left and divided by 5, gives the next smaller double. -/
theorem mean_five {w : List (Fl Rounding.double)} (hl : w.length = 5) (hc : ∀ v ∈ w, v.val = 1 - 1 / 2 ^ 53) :
    (mean w).val = 1 - 1 / 2 ^ 52 := by
  obtain ⟨a1, a2, a3, a4, a5, rfl⟩ : ∃ a1 a2 a3 a4 a5, w = [a1, a2, a3, a4, a5] := by
    match w, hl with
    | [a1, a2, a3, a4, a5], _ => exact ⟨a1, a2, a3, a4, a5, rfl⟩
  have e1 := hc a1 (by simp)
  have e2 := hc a2 (by simp)
  have e3 := hc a3 (by simp)
  have e4 := hc a4 (by simp)
  have e5 := hc a5 (by simp)
  have r1 : Rounding.double.rnd (0 + (1 - 1 / 2 ^ 53)) = 1 - 1 / 2 ^ 53 := by
    show rndBin 52 _ = _
    rw [rndBin_eval (-1) (2 ^ 53 - 1)] <;> norm_num
  have r2 : Rounding.double.rnd ((1 - 1 / 2 ^ 53) + (1 - 1 / 2 ^ 53)) = 2 - 1 / 2 ^ 52 := by
    show rndBin 52 _ = _
    rw [rndBin_eval 0 (2 ^ 53 - 1)] <;> norm_num
  have r3 : Rounding.double.rnd ((2 - 1 / 2 ^ 52) + (1 - 1 / 2 ^ 53)) = 3 - 1 / 2 ^ 51 := by
    show rndBin 52 _ = _
    rw [rndBin_eval 1 (3 * 2 ^ 51 - 1)] <;> norm_num
  have r4 : Rounding.double.rnd ((3 - 1 / 2 ^ 51) + (1 - 1 / 2 ^ 53)) = 4 - 1 / 2 ^ 51 := by
    show rndBin 52 _ = _
    rw [rndBin_eval 1 (2 ^ 53 - 1)] <;> norm_num
  have r5 : Rounding.double.rnd ((4 - 1 / 2 ^ 51) + (1 - 1 / 2 ^ 53)) = 5 - 1 / 2 ^ 50 := by
    show rndBin 52 _ = _
    rw [rndBin_eval 2 (5 * 2 ^ 50 - 1)] <;> norm_num
  have r6 : Rounding.double.rnd ((5 - 1 / 2 ^ 50) / 5) = 1 - 1 / 2 ^ 52 := by
    show rndBin 52 _ = _
    rw [rndBin_eval (-1) (2 ^ 53 - 2)] <;> norm_num
  have n5 : Rounding.double.rnd ((5 : Nat) : ℝ) = 5 := by
    have := rndBin_natCast (p := 52) (n := 5) (by norm_num)
    exact_mod_cast this
  show Rounding.double.rnd ((Rounding.double.rnd (Rounding.double.rnd (Rounding.double.rnd (Rounding.double.rnd
    (Rounding.double.rnd (0 + a1.val) + a2.val) + a3.val) + a4.val) + a5.val)) / Rounding.double.rnd ((5 : Nat) : ℝ)) = _
  rw [e1, e2, e3, e4, e5, r1, r2, r3, r4, r5, n5, r6]

/-- Such a window is not 0 after the normalisation. -/
theorem znorm_five {w : List (Fl Rounding.double)} (hl : w.length = 5) (hc : ∀ v ∈ w, v.val = 1 - 1 / 2 ^ 53) :
    ∀ x ∈ znorm w, 0 < x.val := by
  intro x hx
  rw [znorm_flat hc x hx, mean_five hl hc]
  have pos : ∀ t : ℝ, 0 < t → 0 < Rounding.double.rnd t := by
    intro t ht
    have h2 := Rounding.double.ge_of ht.le
    have h3 : 0 < (1 - Rounding.double.u) * t := mul_pos (by linarith [Rounding.double.u_lt]) ht
    linarith
  refine pos _ (div_pos (pos _ (by norm_num)) (pos _ (add_pos_of_nonneg_of_pos ?_ (pos _ (by norm_num)))))
  unfold std
  rw [fl_sqrt]
  exact Rounding.double.nonneg (Real.sqrt_nonneg _)

end witness

section fit
variable {r : Rounding} {δ : ℝ} {N : Nat} {G R L : Type} [Gen G (Fl r)] [LawfulFl G] [DecidableEq L]

/-- With `proba_norm >= 1` every shapelet is normalised. -/
theorem flag_one {o : Rdst (Fl r) R} {A : Arr3 (Fl r)} {y : List L} {sizes : List Nat} {P : Par} (hpn : 1 ≤ o.pNorm.val)
    (h : ParTraced (arraySetting (Drawable G) o A y sizes) P) {i : Nat} (hi : i < P.n) : P.normalize i = true := by
  obtain ⟨u, hu, he⟩ := h.flag i hi
  have := (drawable_fl u hu).2
  rw [he]
  change Scalar.ltb u o.pNorm = true
  rw [fl_ltb]
  linarith

/-- **C125.** Univariate `fit` in rounded arithmetic with `proba_norm >= 1` on flat series of digitised values: no shapelet is
kept, as in exact arithmetic (C32). -/
theorem C125_digital_none_partial (hr : ExactDigits r) (hacc : Accurate r δ N) (hN : 100 ≤ N) {e : Int} {B : Nat} (env : Env G R L)
    (o : Rdst (Fl r) R) (w : World R) (dt : DType) (A : Arr3 (Fl r)) (y : List L)
    (hty : o.transformType = .uni ∨ o.transformType = .auto ∧ dt ≠ .otherDtype ∧ A.nf = 1)
    (hWF : (XIn.array dt A).WF) (hne : A.data ≠ []) (hnf : 1 ≤ A.nf) (hnt : 4 ≤ A.nt) (hntN : A.nt < N)
    (hy : y.length = A.data.length) (hp : FlParams o A.nt N) (hpn : 1 ≤ o.pNorm.val)
    (hflat : ∀ s ∈ A.data, ∃ c : Fl r, Digital e B c.val ∧ ∀ x ∈ s.getD 0 [], x = c)
    (hB : A.nt * B ≤ 2 ^ 53) (hB' : A.nt ≤ 2 ^ 53) (gs : Nat → G) :
    ∃ o' w' S, (∀ order, IsSchedule order → o.fit env gs order w (.array dt A) y = (o', w', .ok ())) ∧
      o'.shapelets = some S ∧ Shapelets.count S = 0 := by
  obtain ⟨o', w', S, sizes, h1, h2, h3, -, P, rec, out, kept, h⟩ := object_uni fl_eqb_zero env o w dt A y hty hWF hne hnf hnt hy
    (FlParams.any hacc hN hntN hp) (drawSafe_fl hacc (by omega)) gs
  refine ⟨o', w', _, h1, h2, ?_⟩
  show S.lengths.length = 0
  rw [h.from_.count, List.length_eq_zero_iff, List.eq_nil_iff_forall_not_mem]
  intro i hi
  obtain ⟨hiP, v, hv, x, hx, hx0⟩ := (h.from_.mem i).1 hi
  obtain ⟨ch, hch, ⟨-, hout, -⟩ | ⟨q, v', hq, hout, -, -, ⟨hs, ht, -⟩, hval, -⟩⟩ := h.good i hiP
  · rw [hv] at hout
    cases hout
  · rw [hv] at hout
    cases hout
    rw [hval, List.mem_flatMap] at hx
    obtain ⟨c, hc, hx⟩ := hx
    have hch0 : ch = [0] := by simpa [ChannelsOK] using hch
    rw [hch0, List.mem_singleton] at hc
    subst hc
    have hs' : q.sample < A.data.length := hs
    obtain ⟨c, hdig, hcs⟩ := hflat _ (List.getElem_mem hs')
    unfold readAt at hx
    rw [flag_one hpn h.drawn hiP] at hx
    change x ∈ znorm (window o.phase ((A.data.getD q.sample []).getD 0 []) (P.length i) (P.dilation i) q.index) at hx
    rw [getD_lt _ hs'] at hx
    have hrow : (A.data[q.sample].getD 0 []).length = A.nt := by
      have hm := hWF _ (List.getElem_mem hs')
      have h0 : 0 < A.data[q.sample].length := by rw [hm.1]; omega
      rw [getD_lt _ h0]
      exact hm.2 _ (List.getElem_mem h0)
    have hw := window_flat (phase := o.phase) hcs (l := P.length i) (d := P.dilation i) (t := q.index) (by omega)
      (by rw [hrow]; exact ht)
    have hlen : (window o.phase (A.data[q.sample].getD 0 []) (P.length i) (P.dilation i) q.index).length = P.length i := by
      simp [window]
    have hsz := h3 _ (h.drawn.length i hiP)
    apply hx0
    have hval' : ∀ v ∈ window o.phase (A.data[q.sample].getD 0 []) (P.length i) (P.dilation i) q.index, v.val = c.val :=
      fun v hv => by rw [hw v hv]
    have hz := znorm_flat hval' x hx
    rw [mean_flat_digital hr hdig (by rw [← List.length_pos_iff, hlen]; omega) hval'
      (by rw [hlen]; exact (Nat.mul_le_mul_right _ hsz.2).trans hB) (by rw [hlen]; omega), sub_self, Rounding.zero,
      zero_div, Rounding.zero] at hz
    exact hz

/-- **C125.** Univariate `fit` in rounded arithmetic on flat series of size at most `C`: every value of every normalised shapelet
it keeps is at most `flatResidue * C`. -/
theorem C125_flat_small (hacc : Accurate r δ N) (hN : 100 ≤ N) (env : Env G R L)
    (o : Rdst (Fl r) R) (w : World R) (dt : DType) (A : Arr3 (Fl r)) (y : List L)
    (hty : o.transformType = .uni ∨ o.transformType = .auto ∧ dt ≠ .otherDtype ∧ A.nf = 1)
    (hWF : (XIn.array dt A).WF) (hne : A.data ≠ []) (hnf : 1 ≤ A.nf) (hnt : 4 ≤ A.nt) (hntN : A.nt < N)
    (hy : y.length = A.data.length) (hp : FlParams o A.nt N) {C : ℝ}
    (hflat : ∀ s ∈ A.data, ∃ c : Fl r, |c.val| ≤ C ∧ ∀ x ∈ s.getD 0 [], x = c) (gs : Nat → G) :
    ∃ o' w' S, (∀ order, IsSchedule order → o.fit env gs order w (.array dt A) y = (o', w', .ok ())) ∧
      o'.shapelets = some (.u S) ∧
      ∀ k, k < S.lengths.length → S.normalize[k]? = some true → ∀ x ∈ uValues S k, |x.val| ≤ flatResidue r.u A.nt * C := by
  obtain ⟨o', w', S, sizes, h1, h2, h3, -, P, rec, out, kept, h⟩ := object_uni fl_eqb_zero env o w dt A y hty hWF hne hnf hnt hy
    (FlParams.any hacc hN hntN hp) (drawSafe_fl hacc (by omega)) gs
  refine ⟨o', w', S, h1, h2, ?_⟩
  intro k hk hflag x hx
  rw [h.from_.count] at hk
  have hki : kept[k]? = some kept[k] := List.getElem?_eq_getElem hk
  obtain ⟨hiP, -⟩ := (h.from_.mem kept[k]).1 (List.getElem_mem hk)
  obtain ⟨v, hv, hval0, -⟩ := h.from_.shapelet k _ hki
  rw [h.from_.normalize k _ hki] at hflag
  have hflag' : P.normalize kept[k] = true := Option.some.inj hflag
  generalize kept[k] = i at *
  rw [hval0] at hx
  obtain ⟨ch, hch, ⟨-, hout, -⟩ | ⟨q, v', hq, hout, -, -, ⟨hs, ht, -⟩, hval, -⟩⟩ := h.good i hiP
  · rw [hv] at hout
    cases hout
  · rw [hv] at hout
    cases hout
    rw [hval, List.mem_flatMap] at hx
    obtain ⟨c, hc, hx⟩ := hx
    have hch0 : ch = [0] := by simpa [ChannelsOK] using hch
    rw [hch0, List.mem_singleton] at hc
    subst hc
    have hs' : q.sample < A.data.length := hs
    obtain ⟨c, hcC, hcs⟩ := hflat _ (List.getElem_mem hs')
    unfold readAt at hx
    rw [hflag'] at hx
    change x ∈ znorm (window o.phase ((A.data.getD q.sample []).getD 0 []) (P.length i) (P.dilation i) q.index) at hx
    rw [getD_lt _ hs'] at hx
    have hrow : (A.data[q.sample].getD 0 []).length = A.nt := by
      have hm := hWF _ (List.getElem_mem hs')
      have h0 : 0 < A.data[q.sample].length := by rw [hm.1]; omega
      rw [getD_lt _ h0]
      exact hm.2 _ (List.getElem_mem h0)
    have hw := window_flat (phase := o.phase) hcs (l := P.length i) (d := P.dilation i) (t := q.index) (by omega)
      (by rw [hrow]; exact ht)
    have hlen : (window o.phase (A.data[q.sample].getD 0 []) (P.length i) (P.dilation i) q.index).length = P.length i := by
      simp [window]
    have hsz := h3 _ (h.drawn.length i hiP)
    have hval' : ∀ v ∈ window o.phase (A.data[q.sample].getD 0 []) (P.length i) (P.dilation i) q.index, v.val = c.val :=
      fun v hv => by rw [hw v hv]
    have hz := znorm_flat_small (by rw [← List.length_pos_iff, hlen]; omega) hval'
      (by rw [hlen]; exact hacc.nat _ (by omega)) x hx
    rw [hlen] at hz
    have hu := r.u_nonneg
    have hu1 := r.u_lt
    have hden : 0 < (1 - r.u) ^ 2 / 10 ^ 8 := by
      have : 0 < 1 - r.u := by linarith
      positivity
    have hpow : (1 + r.u) ^ (P.length i + 1) ≤ (1 + r.u) ^ (A.nt + 1) := pow_le_pow_right₀ (by linarith) (by omega)
    have hone : 1 ≤ (1 + r.u) ^ (P.length i + 1) := one_le_pow₀ (by linarith)
    have hres : flatResidue r.u (P.length i) ≤ flatResidue r.u A.nt := by
      unfold flatResidue
      exact div_le_div_of_nonneg_right (mul_le_mul_of_nonneg_left (by linarith) (by positivity)) hden.le
    have hres0 : 0 ≤ flatResidue r.u A.nt := by
      unfold flatResidue
      exact div_nonneg (mul_nonneg (by positivity) (by linarith)) hden.le
    exact hz.trans ((mul_le_mul_of_nonneg_right hres (abs_nonneg _)).trans (mul_le_mul_of_nonneg_left hcC hres0))

end fit

section violated
variable {G R L : Type} [Gen G (Fl Rounding.double)] [LawfulFl G] [DecidableEq L]

/-- **C125 (violated without the bound on the digits).** In double precision, on series which all are flat at the greatest
double below 1, with windows of 5 points and `proba_norm >= 1`, univariate `fit` keeps at least one shapelet; every shapelet it
keeps is normalised and has no value equal to 0. -/
theorem C125_flat_kept (env : Env G R L) (o : Rdst (Fl Rounding.double) R) (w : World R) (dt : DType)
    (A : Arr3 (Fl Rounding.double)) (y : List L)
    (hty : o.transformType = .uni ∨ o.transformType = .auto ∧ dt ≠ .otherDtype ∧ A.nf = 1)
    (hWF : (XIn.array dt A).WF) (hne : A.data ≠ []) (hnf : 1 ≤ A.nf) (hnt : 5 ≤ A.nt) (hntN : A.nt < 2 ^ 40)
    (hy : y.length = A.data.length) (hp : FlParams o A.nt (2 ^ 40)) (hpn : 1 ≤ o.pNorm.val) (hb : o.bounds = none)
    (hlens : o.lens = .ints [5]) (hflat : ∀ s ∈ A.data, ∀ x ∈ s.getD 0 [], x.val = 1 - 1 / 2 ^ 53) (gs : Nat → G) :
    ∃ o' w' S, (∀ order, IsSchedule order → o.fit env gs order w (.array dt A) y = (o', w', .ok ())) ∧
      o'.shapelets = some (.u S) ∧ 1 ≤ S.lengths.length ∧
      ∀ k, k < S.lengths.length → S.normalize[k]? = some true ∧ ∀ x ∈ uValues S k, 0 < x.val := by
  obtain ⟨o', w', S, sizes, h1, h2, h3, h4, P, rec, out, kept, h⟩ := object_uni fl_eqb_zero env o w dt A y hty hWF hne hnf
    (by omega) hy (FlParams.any C100_double_accurate (by norm_num) hntN hp) (drawSafe_fl C100_double_accurate (by omega)) gs
  rw [hb, hlens] at h4
  have hsz : ∀ l ∈ sizes, l = 5 := by
    intro l hl
    have : (l : Int) ∈ [(5 : Int)] := h4 (by
      intro z hz
      have hz' : z ∈ [(5 : Int)] := hz
      rw [List.mem_singleton] at hz'
      omega) l hl
    rw [List.mem_singleton] at this
    omega
  -- every shapelet that is read is kept
  have key : ∀ i, i < P.n → ∀ v, out i = some v → v.values ≠ [] ∧ ∀ x ∈ v.values, 0 < x.val := by
    intro i hiP v hv
    obtain ⟨ch, hch, ⟨-, hout, -⟩ | ⟨q, v', hq, hout, -, -, ⟨hs, ht, -⟩, hval, -⟩⟩ := h.good i hiP
    · rw [hv] at hout
      cases hout
    · rw [hv] at hout
      cases hout
      have hch0 : ch = [0] := by simpa [ChannelsOK] using hch
      have hs' : q.sample < A.data.length := hs
      have hval2 : v.values = znorm (window o.phase (A.data[q.sample].getD 0 []) (P.length i) (P.dilation i) q.index) := by
        rw [hval, hch0]
        simp only [List.flatMap_cons, List.flatMap_nil, List.append_nil]
        unfold readAt
        rw [flag_one hpn h.drawn hiP]
        change znorm (window o.phase ((A.data.getD q.sample []).getD 0 []) (P.length i) (P.dilation i) q.index) = _
        rw [getD_lt _ hs']
      have hrow : (A.data[q.sample].getD 0 []).length = A.nt := by
        have hm := hWF _ (List.getElem_mem hs')
        have h0 : 0 < A.data[q.sample].length := by rw [hm.1]; omega
        rw [getD_lt _ h0]
        exact hm.2 _ (List.getElem_mem h0)
      have hw := window_flat (phase := o.phase) (c := (Fl.mk (1 - 1 / 2 ^ 53) : Fl Rounding.double))
        (fun v hv => hflat _ (List.getElem_mem hs') v hv) (l := P.length i) (d := P.dilation i) (t := q.index)
        (by omega) (by rw [hrow]; exact ht)
      have hlen : (window o.phase (A.data[q.sample].getD 0 []) (P.length i) (P.dilation i) q.index).length = 5 := by
        rw [← hsz _ (h.drawn.length i hiP)]
        simp [window]
      refine ⟨?_, ?_⟩
      · rw [hval2, ← List.length_pos_iff]
        unfold znorm
        rw [List.length_map, hlen]
        omega
      · rw [hval2]
        exact znorm_five hlen hw
  refine ⟨o', w', S, h1, h2, ?_, ?_⟩
  · -- nothing is taken when the first shapelet is drawn
    have hP : 0 < P.n := by
      rw [h.drawn.count]
      exact hp.nShp
    have h0 : 0 ∈ kept := by
      rw [h.from_.mem]
      refine ⟨hP, ?_⟩
      obtain ⟨ch, hch, ⟨-, -, hno⟩ | ⟨q, v', hq, hout, -⟩⟩ := h.good 0 hP
      · exfalso
        refine hno 0 0 ⟨List.length_pos_iff.2 hne, ?_, ?_⟩
        · have h5 := hsz _ (h.drawn.length 0 hP)
          have h6 := (h.drawn.dilation 0 hP).2
          show 0 < nWin o.phase A.nt (P.length 0) (P.dilation 0)
          have h6' : (P.length 0 - 1) * P.dilation 0 ≤ A.nt - 1 := h6
          unfold nWin
          split <;> omega
        · unfold FreeEnough
          rw [if_neg (by decide)]
          rintro ⟨j, m, q, hj, -⟩
          omega
      · obtain ⟨k1, k2⟩ := key 0 hP v' hout
        obtain ⟨x, hx⟩ := List.exists_mem_of_ne_nil _ k1
        refine ⟨v', hout, x, hx, fun hx0 => ?_⟩
        have := k2 x hx
        rw [hx0] at this
        exact absurd this (lt_irrefl _)
    rw [h.from_.count]
    exact List.length_pos_of_mem h0
  · intro k hk
    rw [h.from_.count] at hk
    have hki : kept[k]? = some kept[k] := List.getElem?_eq_getElem hk
    obtain ⟨hiP, -⟩ := (h.from_.mem kept[k]).1 (List.getElem_mem hk)
    obtain ⟨v, hv, hval, -⟩ := h.from_.shapelet k _ hki
    refine ⟨?_, ?_⟩
    · rw [h.from_.normalize k _ hki, flag_one hpn h.drawn hiP]
    · rw [hval]
      exact (key _ hiP v hv).2

end violated

/-- **C125.** In double precision with up to 1000 points, less than `3e-5` times the size of the series. -/
theorem C125_double_residue {n : Nat} (h : n ≤ 1000) : flatResidue Rounding.double.u n ≤ 3 / 10 ^ 5 := by
  have hu : Rounding.double.u = (1 / 2) ^ 53 := rfl
  have hn : ((n + 1 : Nat) : ℝ) ≤ 1001 := by exact_mod_cast (by omega : n + 1 ≤ 1001)
  have h1 := C95_error_size Rounding.double (n + 1) (by rw [hu]; norm_num at hn ⊢; linarith)
  unfold flatResidue
  rw [hu] at *
  have h2 : (1 + (1 / 2 : ℝ) ^ 53) ^ (n + 1) - 1 ≤ 2 * 1001 * (1 / 2) ^ 53 := by
    have : 2 * ((n + 1 : Nat) : ℝ) * (1 / 2) ^ 53 ≤ 2 * 1001 * (1 / 2) ^ 53 := by
      apply mul_le_mul_of_nonneg_right _ (by positivity)
      linarith
    linarith
  rw [div_le_iff₀ (by norm_num)]
  have h3 := mul_le_mul_of_nonneg_left h2 (show (0 : ℝ) ≤ (1 + (1 / 2) ^ 53) ^ 2 by positivity)
  refine h3.trans ?_
  norm_num

/-- `dblObj` with all shapelets normalised and a window of 5 points. -/
noncomputable def flatObj : Rdst (Fl Rounding.double) Nat := { dblObj .uni with pNorm := Fl.mk 1, lens := .ints [5] }

theorem flatObj_ok (m : Nat) : FlParams flatObj m (2 ^ 40) where
  nShp := (dblObj_ok .uni m).nShp
  pMin := (dblObj_ok .uni m).pMin
  pMax := (dblObj_ok .uni m).pMax
  nSamples := rfl
  red := (dblObj_ok .uni m).red
  bounds := by intro b0 b1 h; cases h
  lens _ := Or.inl ⟨[5], rfl, by simp, by simp⟩

/-- Two flat series of 8 points. -/
noncomputable def flatArr (a b : Fl Rounding.double) : Arr3 (Fl Rounding.double) :=
  ⟨[[List.replicate 8 a], [List.replicate 8 b]], 1, 8⟩

theorem flatArr_wf (a b : Fl Rounding.double) : (XIn.array .float64 (flatArr a b)).WF := by simp [XIn.WF, flatArr]

/-- The hypotheses of `C125_digital_none_partial` are met: series flat at 3 and at 1. -/
example (env : Env HalfGen Nat Nat) (w : World Nat) (gs : Nat → HalfGen) :
    ∃ o' w' S, (∀ order, IsSchedule order →
        flatObj.fit env gs order w (.array .float64 (flatArr (Fl.mk 3) (Fl.mk 1))) [0, 1] = (o', w', .ok ())) ∧
      o'.shapelets = some S ∧ Shapelets.count S = 0 :=
  C125_digital_none_partial C121_double_digits C100_double_accurate (by norm_num) (e := 0) (B := 10) env flatObj w .float64 _ [0, 1]
    (Or.inl rfl) (flatArr_wf _ _) (by simp [flatArr]) (by simp [flatArr]) (by simp [flatArr]) (by simp [flatArr])
    (by simp [flatArr]) (flatObj_ok _) le_rfl
    (by
      intro s hs
      simp only [flatArr, List.mem_cons, List.not_mem_nil, or_false] at hs
      rcases hs with rfl | rfl
      · refine ⟨Fl.mk 3, digital_small (n := 3) (by omega), fun x hx => ?_⟩
        exact List.eq_of_mem_replicate hx
      · refine ⟨Fl.mk 1, ?_, fun x hx => List.eq_of_mem_replicate hx⟩
        have := digital_small (n := 1) (by omega)
        rw [Nat.cast_one] at this
        exact this)
    (by simp [flatArr]) (by simp [flatArr]) gs

/-- The hypotheses of `C125_flat_kept` are met. -/
example (env : Env HalfGen Nat Nat) (w : World Nat) (gs : Nat → HalfGen) :
    ∃ o' w' S, (∀ order, IsSchedule order →
        flatObj.fit env gs order w (.array .float64 (flatArr (Fl.mk (1 - 1 / 2 ^ 53)) (Fl.mk (1 - 1 / 2 ^ 53)))) [0, 1] =
          (o', w', .ok ())) ∧
      o'.shapelets = some (.u S) ∧ 1 ≤ S.lengths.length ∧
      ∀ k, k < S.lengths.length → S.normalize[k]? = some true ∧ ∀ x ∈ uValues S k, 0 < x.val :=
  C125_flat_kept env flatObj w .float64 _ [0, 1] (Or.inl rfl) (flatArr_wf _ _) (by simp [flatArr]) (by simp [flatArr])
    (by simp [flatArr]) (by simp [flatArr]) (by simp [flatArr]) (flatObj_ok _) le_rfl rfl rfl
    (by
      intro s hs
      simp only [flatArr, List.mem_cons, List.not_mem_nil, or_false] at hs
      rcases hs with rfl | rfl
      · intro x hx
        have : x = Fl.mk (1 - 1 / 2 ^ 53) := List.eq_of_mem_replicate hx
        rw [this]
        rfl
      · intro x hx
        have : x = Fl.mk (1 - 1 / 2 ^ 53) := List.eq_of_mem_replicate hx
        rw [this]
        rfl) gs

/-- The hypotheses of `C125_flat_small` are met on the same data, whose residue is below `3e-5`. -/
example (env : Env HalfGen Nat Nat) (w : World Nat) (gs : Nat → HalfGen) :
    ∃ o' w' S, (∀ order, IsSchedule order →
        flatObj.fit env gs order w (.array .float64 (flatArr (Fl.mk (1 - 1 / 2 ^ 53)) (Fl.mk (1 - 1 / 2 ^ 53)))) [0, 1] =
          (o', w', .ok ())) ∧
      o'.shapelets = some (.u S) ∧
      ∀ k, k < S.lengths.length → S.normalize[k]? = some true → ∀ x ∈ uValues S k, |x.val| ≤ 3 / 10 ^ 5 := by
  obtain ⟨o', w', S, h1, h2, h3⟩ := C125_flat_small C100_double_accurate (by norm_num) env flatObj w .float64
    (flatArr (Fl.mk (1 - 1 / 2 ^ 53)) (Fl.mk (1 - 1 / 2 ^ 53))) [0, 1] (Or.inl rfl) (flatArr_wf _ _) (by simp [flatArr])
    (by simp [flatArr]) (by simp [flatArr]) (by simp [flatArr]) (by simp [flatArr]) (flatObj_ok _) (C := 1)
    (by
      intro s hs
      have hc : |(Fl.mk (r := Rounding.double) (1 - 1 / 2 ^ 53)).val| ≤ 1 := by
        show |(1 - 1 / 2 ^ 53 : ℝ)| ≤ 1
        rw [abs_le]
        norm_num
      simp only [flatArr, List.mem_cons, List.not_mem_nil, or_false] at hs
      rcases hs with rfl | rfl
      · exact ⟨_, hc, fun x hx => List.eq_of_mem_replicate hx⟩
      · exact ⟨_, hc, fun x hx => List.eq_of_mem_replicate hx⟩) gs
  refine ⟨o', w', S, h1, h2, fun k hk hf x hx => (h3 k hk hf x hx).trans ?_⟩
  rw [mul_one]
  exact C125_double_residue (by simp [flatArr])

end Convst.Props
