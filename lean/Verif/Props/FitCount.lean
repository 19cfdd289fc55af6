import Verif.Props.EndToEnd

/-!
# How many shapelets univariate `fit` returns (C32), and `normalize_output` on real outputs (C16)
-/

set_option autoImplicit false
set_option linter.unusedSectionVars false

namespace Convst.Props

open Convst Spec

variable {G R L : Type} [Gen G ℝ] [LawfulGen G] [DecidableEq L]

/-- Every value of a window is a value of the series. -/
theorem mem_window {phase : Bool} {x : List ℝ} {l d t : Nat} (ht : t < nWin phase x.length l d)
    {v : ℝ} (hv : v ∈ window phase x l d t) : v ∈ x := by
  obtain ⟨j, hj, rfl⟩ := List.mem_map.1 hv
  rw [List.mem_range] at hj
  have hpos : pos phase x.length d t j < x.length := by
    unfold pos
    unfold nWin at ht
    split
    · rename_i h
      rw [if_pos h] at ht
      exact Nat.mod_lt _ (by omega)
    · rename_i h
      rw [if_neg h] at ht
      have : j * d ≤ (l - 1) * d := Nat.mul_le_mul_right _ (by omega)
      omega
  rw [getD_lt _ hpos]
  exact List.getElem_mem hpos

theorem uCount {T : Train L} {a : FitArgs ℝ L} {n : Nat} {P : Par}
    {rec : Nat → Option Src} {out : Nat → Option (Out ℝ)} {kept : List Nat} {S : UShp ℝ}
    (h : UFitted T a n P rec out kept S) (ha : a.alpha ≤ 1) (hp : a.pNorm ≤ 0)
    (hb : ∀ l ∈ a.sizes, 2 ≤ l ∧ l ≤ n) (hlen : ∀ s, s < T.ns → n ≤ T.len s)
    (hser : ∀ s, s < T.ns → (T.series s 0).length = T.len s)
    (hnz : ∀ s, s < T.ns → ∀ v ∈ T.series s 0, v ≠ 0) :
    min a.nShp T.ns ≤ S.lengths.length := by
  rw [h.from_.count, ← h.drawn.count]
  refine count_ge (o := optOf a) ha h.good (fun i hi s hs => drawn_win h.drawn hb hi (hlen s hs))
    h.from_.sorted fun i => ?_
  rw [h.from_.mem]
  constructor
  · rintro ⟨hi, v, hv, -⟩
    exact ⟨hi, v, hv⟩
  · rintro ⟨hi, v, hv⟩
    refine ⟨hi, v, hv, ?_⟩
    obtain ⟨ch, hch, ⟨-, h2, -⟩ | ⟨r, v', h1, h2, h3, h4, h5⟩⟩ := h.good i hi
    · rw [hv] at h2; cases h2
    · rw [hv] at h2
      obtain rfl := Option.some.inj h2
      have hch : ch = [0] := by simpa [ChannelsOK] using hch
      have hvals : v.values = window a.phase (T.series r.sample 0) (P.length i) (P.dilation i) r.index := by
        rw [h5.values, h3, hch]
        simp [subseq, seen, h.drawn.norm_none hp i hi, optOf]
      have hl := hb _ (h.drawn.length i hi)
      have hne : v.values ≠ [] := by
        rw [hvals]
        intro h0
        have := congrArg List.length h0
        simp [window] at this
        omega
      obtain ⟨x, hx⟩ := List.exists_mem_of_ne_nil _ hne
      refine ⟨x, hx, hnz _ h4.1 x ?_⟩
      rw [hvals] at hx
      refine mem_window ?_ hx
      rw [hser _ h4.1]
      exact h4.2.1

/-- **C32.** Univariate `fit` with `alpha <= 1` and `proba_norm <= 0` on series without zeros returns
at least `min(n_shapelets, n_samples)` shapelets (equal lengths). -/
theorem C32_count_univariate_same_length {a : FitArgs ℝ L} (hv : ValidSL a) (ha : a.alpha ≤ 1)
    (hp : a.pNorm ≤ 0) (hnz : ∀ s ∈ a.X, ∀ v ∈ s.getD 0 [], v ≠ 0) {g0 : G} {gs : Nat → G}
    {order : Nat → List Nat} (ho : IsSchedule order) {S : UShp ℝ}
    (hS : uslGenerate a g0 gs order = .ok S) : min a.nShp a.X.length ≤ S.lengths.length := by
  obtain ⟨P, rec, out, kept, h⟩ := usl_fitted hv ho hS
  refine uCount h ha hp hv.bounds (fun _ _ => le_refl _) (fun s hs => trainSL_len hv hs) ?_
  intro s hs v hvm
  have hs' : s < a.X.length := hs
  refine hnz _ (List.getElem_mem hs') v ?_
  rw [← getD_lt [] hs']
  exact hvm

/-- **C32.** The same for variable lengths; padding does not matter. -/
theorem C32_count_univariate_variable_length {a : FitArgs ℝ L} {minLen : Nat} {xLen : List Nat}
    (hv : ValidVL a minLen xLen) (ha : a.alpha ≤ 1) (hp : a.pNorm ≤ 0)
    (hnz : ∀ s, s < a.X.length → ∀ v ∈ ((a.X.getD s []).getD 0 []).take (xLen.getD s 0), v ≠ 0)
    {g0 : G} {gs : Nat → G} {order : Nat → List Nat} (ho : IsSchedule order) {S : UShp ℝ}
    (hS : uvlGenerate a minLen xLen g0 gs order = .ok S) : min a.nShp a.X.length ≤ S.lengths.length := by
  obtain ⟨P, rec, out, kept, h⟩ := uvl_fitted hv ho hS
  refine uCount h ha hp hv.bounds (fun s hs => (hv.data.xlen hs).2) (fun s hs => trainVL_len hv hs) ?_
  intro s hs v hvm
  exact hnz s hs v hvm

/-- A window of a series without repeated values has two different values. -/
theorem window_distinct {phase : Bool} {x : List ℝ} (hx : x.Nodup) {n l d t : Nat} (hl : 2 ≤ l) (hd : 1 ≤ d)
    (hb : (l - 1) * d ≤ n - 1) (hn : n ≤ x.length) (hln : l ≤ n) (ht : t < nWin phase x.length l d) :
    ∃ u ∈ window phase x l d t, ∃ v ∈ window phase x l d t, u ≠ v := by
  have hdn : d ≤ n - 1 := le_trans (Nat.le_mul_of_pos_left d (by omega)) hb
  have hp : ∀ j, j < 2 → pos phase x.length d t j < x.length := by
    intro j hj
    unfold pos
    unfold nWin at ht
    split
    · exact Nat.mod_lt _ (by omega)
    · rename_i h
      rw [if_neg h] at ht
      have : j * d ≤ (l - 1) * d := Nat.mul_le_mul_right _ (by omega)
      omega
  refine ⟨_, List.mem_map.2 ⟨0, List.mem_range.2 (by omega), rfl⟩, _,
    List.mem_map.2 ⟨1, List.mem_range.2 (by omega), rfl⟩, ?_⟩
  rw [getD_lt _ (hp 0 (by omega)), getD_lt _ (hp 1 (by omega))]
  intro he
  have he := (List.Nodup.getElem_inj_iff hx).1 he
  unfold pos at he
  unfold nWin at ht
  split at he
  · rename_i h
    rw [if_pos h] at ht
    simp only [Nat.zero_mul, Nat.add_zero, Nat.one_mul] at he
    rw [Nat.mod_eq_of_lt ht] at he
    by_cases hw : t + d < x.length
    · rw [Nat.mod_eq_of_lt hw] at he; omega
    · rw [Nat.mod_eq_sub_mod (by omega), Nat.mod_eq_of_lt (by omega)] at he; omega
  · omega

/-- The values compared with a series, normalised or not, are not all zero if two of the window differ. -/
theorem seen_nonzero {b : Bool} {w : List ℝ} (h : ∃ u ∈ w, ∃ v ∈ w, u ≠ v) : ∃ x ∈ seen b w, x ≠ 0 := by
  obtain ⟨u, hu, v, hv, huv⟩ := h
  by_contra hc
  push Not at hc
  cases b
  · exact huv ((hc u hu).trans (hc v hv).symm)
  · have hpos : (0 : ℝ) < std w + Scalar.eps := std_add_eps_pos w
    have key : ∀ y ∈ w, y = mean w := by
      intro y hy
      have := hc ((y - mean w) / (std w + Scalar.eps)) (List.mem_map.2 ⟨y, hy, rfl⟩)
      rcases div_eq_zero_iff.1 this with h | h
      · exact sub_eq_zero.1 h
      · exact absurd h hpos.ne'
    exact huv ((key u hu).trans (key v hv).symm)

theorem uCountDistinct {T : Train L} {a : FitArgs ℝ L} {n : Nat} {P : Par}
    {rec : Nat → Option Src} {out : Nat → Option (Out ℝ)} {kept : List Nat} {S : UShp ℝ}
    (h : UFitted T a n P rec out kept S) (ha : a.alpha ≤ 1)
    (hb : ∀ l ∈ a.sizes, 2 ≤ l ∧ l ≤ n) (hlen : ∀ s, s < T.ns → n ≤ T.len s)
    (hser : ∀ s, s < T.ns → (T.series s 0).length = T.len s)
    (hnd : ∀ s, s < T.ns → (T.series s 0).Nodup) :
    min a.nShp T.ns ≤ S.lengths.length := by
  rw [h.from_.count, ← h.drawn.count]
  refine count_ge (o := optOf a) ha h.good (fun i hi s hs => drawn_win h.drawn hb hi (hlen s hs))
    h.from_.sorted fun i => ?_
  rw [h.from_.mem]
  constructor
  · rintro ⟨hi, v, hv, -⟩
    exact ⟨hi, v, hv⟩
  · rintro ⟨hi, v, hv⟩
    refine ⟨hi, v, hv, ?_⟩
    obtain ⟨ch, hch, ⟨-, h2, -⟩ | ⟨r, v', h1, h2, h3, h4, h5⟩⟩ := h.good i hi
    · rw [hv] at h2; cases h2
    · rw [hv] at h2
      obtain rfl := Option.some.inj h2
      have hch : ch = [0] := by simpa [ChannelsOK] using hch
      have hvals : v.values = seen (P.normalize i)
          (window a.phase (T.series r.sample 0) (P.length i) (P.dilation i) r.index) := by
        rw [h5.values, h3, hch]
        simp [subseq, optOf]
      have hl := hb _ (h.drawn.length i hi)
      obtain ⟨hd1, hd2, -⟩ := h.drawn.dilation i hi
      rw [hvals]
      refine seen_nonzero (window_distinct (hnd _ h4.1) hl.1 hd1 hd2 ?_ hl.2 ?_)
      · rw [hser _ h4.1]; exact hlen _ h4.1
      · rw [hser _ h4.1]; exact h4.2.1

/-- **C32.** Univariate `fit` with `alpha <= 1` on series without repeated values returns at least
`min(n_shapelets, n_samples)` shapelets, whatever `proba_norm` (equal lengths). -/
theorem C32_count_distinct_same_length {a : FitArgs ℝ L} (hv : ValidSL a) (ha : a.alpha ≤ 1)
    (hnd : ∀ s ∈ a.X, (s.getD 0 []).Nodup) {g0 : G} {gs : Nat → G}
    {order : Nat → List Nat} (ho : IsSchedule order) {S : UShp ℝ}
    (hS : uslGenerate a g0 gs order = .ok S) : min a.nShp a.X.length ≤ S.lengths.length := by
  obtain ⟨P, rec, out, kept, h⟩ := usl_fitted hv ho hS
  refine uCountDistinct h ha hv.bounds (fun _ _ => le_refl _) (fun s hs => trainSL_len hv hs) ?_
  intro s hs
  have hs' : s < a.X.length := hs
  have := hnd _ (List.getElem_mem hs')
  rw [← getD_lt [] hs'] at this
  exact this

/-- **C32.** The same for variable lengths; padding does not matter. -/
theorem C32_count_distinct_variable_length {a : FitArgs ℝ L} {minLen : Nat} {xLen : List Nat}
    (hv : ValidVL a minLen xLen) (ha : a.alpha ≤ 1)
    (hnd : ∀ s, s < a.X.length → (((a.X.getD s []).getD 0 []).take (xLen.getD s 0)).Nodup)
    {g0 : G} {gs : Nat → G} {order : Nat → List Nat} (ho : IsSchedule order) {S : UShp ℝ}
    (hS : uvlGenerate a minLen xLen g0 gs order = .ok S) : min a.nShp a.X.length ≤ S.lengths.length := by
  obtain ⟨P, rec, out, kept, h⟩ := uvl_fitted hv ho hS
  refine uCountDistinct h ha hv.bounds (fun s hs => (hv.data.xlen hs).2) (fun s hs => trainVL_len hv hs) ?_
  exact fun s hs => hnd s hs

/-- Series without repeated values; a shapelet is normalised with probability 1/2. -/
example : ∃ a : FitArgs ℝ Nat, ValidSL a ∧ a.alpha ≤ 1 ∧ a.pNorm = 1 / 2 ∧ min a.nShp a.X.length = 2 ∧
    ∀ s ∈ a.X, (s.getD 0 []).Nodup :=
  ⟨{ exA with X := [[[0, 1, 2, 3, 4]], [[7, 1, 0, 3, 2]]], y := [0, 1] },
    ⟨⟨rfl, by simp [exA], by simp [exA]⟩, le_refl _, ⟨exA_valid.perc.lo, exA_valid.perc.le, exA_valid.perc.hi⟩,
      exA_valid.nShp, exA_valid.sizes, exA_valid.bounds⟩, by norm_num [exA], rfl, rfl, by norm_num⟩

/-- **C16.** On training series that are constant and equal, without normalisation and with
`phase_invariance`, `fit` returns a shapelet, and every occurrence count in the transform of the
training set is the number of points of the series. -/
theorem C16_counts_not_fractions {a : FitArgs ℝ L} (hv : ValidSL a) (ha : a.alpha ≤ 1)
    (hp : a.pNorm ≤ 0) (hph : a.phase = true) {c : ℝ} (hc : c ≠ 0)
    (hconst : ∀ s ∈ a.X, ∀ v ∈ s.getD 0 [], v = c) {g0 : G} {gs : Nat → G}
    {order : Nat → List Nat} (ho : IsSchedule order) {S : UShp ℝ}
    (hS : uslGenerate a g0 gs order = .ok S) :
    min a.nShp a.X.length ≤ S.lengths.length ∧
    ∃ M, uslApply a.X S a.phase = .ok M ∧ M.length = a.X.length ∧
      ∀ row ∈ M, ∀ k, k < S.lengths.length → row[3 * k + 2]? = some (a.nt : ℝ) := by
  refine ⟨C32_count_univariate_same_length hv ha hp (fun s hs v hvm => by rw [hconst s hs v hvm]; exact hc)
    ho hS, ?_⟩
  obtain ⟨P, rec, out, kept, h⟩ := usl_fitted hv ho hS
  obtain ⟨hwf, -, hk3⟩ := uFitted_wf hv.bounds h
  refine ⟨_, usl_transform hv hwf (fun k hk => (hk3 k hk).2.2.1), by simp, fun row hrow k hk => ?_⟩
  obtain ⟨s0, hs0, rfl⟩ := List.mem_map.1 hrow
  obtain ⟨s, hs, rfl⟩ := List.mem_iff_getElem.1 hs0
  obtain ⟨i, r, -, -, -, hu⟩ := h.shapelet hk
  have hval : ∀ s, s < a.X.length → ∀ v ∈ (trainSL a).series s 0, v = c := by
    intro s hs v hvm
    refine hconst _ (List.getElem_mem hs) v ?_
    rw [← getD_lt [] hs]
    exact hvm
  -- all distances are 0
  have hdist : ∀ s, s < a.X.length → ∀ x ∈ distTo (trainSL a) P (optOf a) i r s, x = 0 := by
    intro s hs x hx
    obtain ⟨t, ht, rfl⟩ := List.mem_map.1 hx
    rw [List.mem_range] at ht
    have hsub : ∀ s', s' < a.X.length → ∀ t', t' < nWin a.phase a.nt (P.length i) (P.dilation i) →
        subseq (trainSL a) P (optOf a) i s' 0 t' = List.replicate (P.length i) c := by
      intro s' hs' t' ht'
      rw [List.eq_replicate_iff]
      have e : subseq (trainSL a) P (optOf a) i s' 0 t' =
          window a.phase ((trainSL a).series s' 0) (P.length i) (P.dilation i) t' := by
        simp [subseq, seen, h.drawn.norm_none hp i hu.lt, optOf]
      rw [e]
      refine ⟨by simp [window], fun v hvm => hval s' hs' v (mem_window ?_ hvm)⟩
      rw [trainSL_len hv hs']
      exact ht'
    rw [hu.channels]
    simp only [List.map_cons, List.map_nil, List.sum_cons, List.sum_nil, add_zero]
    rw [hsub s hs t ht, hsub r.sample hu.sample r.index hu.index]
    exact l1_self _
  have hdlen : ∀ s, (distTo (trainSL a) P (optOf a) i r s).length = a.nt := by
    intro s
    have : (distTo (trainSL a) P (optOf a) i r s).length =
        nWin a.phase a.nt (P.length i) (P.dilation i) := by simp [distTo]; rfl
    rw [this, nWin, if_pos hph]
  have hnt : 0 < a.nt := by
    have := hv.bounds _ (h.drawn.length i hu.lt)
    omega
  have hthr : 0 ≤ S.threshold.getD k 0 := by
    obtain ⟨p0, p1, e0, e1, l0, l1, -⟩ := hu.sampled.threshold
    have hne : distTo (trainSL a) P (optOf a) i r r.test ≠ [] := by
      intro h0
      have := hdlen r.test
      rw [h0] at this
      simp at this
      omega
    obtain ⟨p', e, ⟨x, hx, hxp⟩, -⟩ := percentile_ok hne hv.perc.lo (hv.perc.le.trans hv.perc.hi)
    have : p0 = p' := Except.ok.inj (e0.symm.trans e)
    subst this
    rw [hdist _ hu.sampled.test_lt x hx] at hxp
    exact hxp.trans l0
  have hrow : a.X[s].getD 0 [] = (trainSL a).series s 0 := by
    show _ = (a.X.getD s []).getD 0 []
    rw [getD_lt [] hs]
  rw [hrow]
  have h3 := row_cells (fun k => uFeatures a.phase S ((trainSL a).series s 0) k)
      S.lengths.length k 2 hk (by omega)
  refine h3.trans ?_
  show some (features (uDistances (optOf a).phase S ((trainSL a).series s 0) k) _).2.2 = _
  rw [hu.distances (trainSL_len hv hs)]
  congr 1
  show (Scalar.ofNat (List.countP _ _) : ℝ) = _
  rw [List.countP_eq_length.2 (fun x hx => by rw [hdist s hs x hx, real_leb]; simpa using hthr), hdlen s,
    real_ofNat]

/-- Two constant series of five points. -/
noncomputable def exSame : FitArgs ℝ Nat :=
  { exA with X := [[[3, 3, 3, 3, 3]], [[3, 3, 3, 3, 3]]], y := [0, 0], pNorm := 0, phase := true }

theorem exSame_valid : ValidSL exSame where
  data := ⟨rfl, by simp [exSame, exA], by simp [exSame, exA]⟩
  nf := le_refl _
  perc := ⟨by norm_num [exSame, exA], by norm_num [exSame, exA], by norm_num [exSame, exA]⟩
  nShp := by norm_num [exSame, exA]
  sizes := by simp [exSame, exA]
  bounds := by simp [exSame, exA]

example (g0 : G) (gs : Nat → G) :
    ∃ S, uslGenerate exSame g0 gs List.range = .ok S ∧ 2 ≤ S.lengths.length ∧
      ∃ M, uslApply exSame.X S true = .ok M ∧ M.length = 2 ∧
        ∀ row ∈ M, ∀ k, k < S.lengths.length → row[3 * k + 2]? = some (5 : ℝ) := by
  obtain ⟨S, h, -⟩ := C19_fit_univariate_same_length exSame_valid g0 gs
  have ho : IsSchedule List.range := fun _ => List.Perm.refl _
  obtain ⟨h1, M, h2, h3, h4⟩ := C16_counts_not_fractions exSame_valid (c := 3) (by norm_num [exSame, exA])
    (le_refl _) rfl (by norm_num) (by simp [exSame]) ho (h _ ho)
  exact ⟨S, h _ ho, h1, M, h2, h3, h4⟩

/-- **C16 (violated).** There is an object constructed with `normalize_output=True` and a training set
such that, for every generator, `fit` followed by `transform` gives an occurrence feature equal to 5
where the documentation promises a value between 0 and 1. -/
theorem C16_normalized_output_above_one (g : G) (w : World Nat) (gs : Nat → G) :
    ∃ (o : Rdst ℝ Nat) (A : Arr3 ℝ) (o' : Rdst ℝ Nat) (w' : World Nat) (M : List (List ℝ)),
      o.normalizeOutput = true ∧ (XIn.array .float64 A).WF ∧
      o.fit (exEnv g) gs List.range w (.array .float64 A) [0, 0] = (o', w', .ok ()) ∧
      o'.normalizeOutput = true ∧ o'.transform (.array .float64 A) = .ok M ∧
      M.length = 2 ∧ ∀ row ∈ M, row[2]? = some 5 := by
  let o : Rdst ℝ Nat := { exObj .uni with normalizeOutput := true, pNorm := 0, phase := true,
                                           lens := .ints [2, 3] }
  let A : Arr3 ℝ := ⟨[[[3, 3, 3, 3, 3]], [[3, 3, 3, 3, 3]]], 1, 5⟩
  have ho : IsSchedule List.range := fun _ => List.Perm.refl _
  have harr : toArr3 (.array .float64 A) = .ok A := toArr3_array (by simp [A]) (by simp [A]) (by simp [A])
  have hcp : checkParams (setLengths o.lens o.bounds o.reduction A.nt) A.nt = .ok [2, 3] := by
    rw [checkParams_eq]; simp [o, A, exObj, setLengths, intLengths]
  obtain ⟨o1, w1, c, seed, hprep, e1, e2, -, ha, k1, -⟩ := prepare_forward (exEnv g) o w [0, 0]
    (t := .uni) (Or.inl rfl) (C34_fixed_type o (Or.inl rfl) (.array .float64 A))
    (loadTrain_same (o := o) (by simp [o, exObj, TType.Var]) harr) rfl hcp
  have hargs : c.args = exSame := by
    rw [ha]; rfl
  obtain ⟨S, h, -⟩ := C19_fit_univariate_same_length exSame_valid g gs
  obtain ⟨h1, M, h2, h3, h4⟩ := C16_counts_not_fractions exSame_valid (c := 3) (by norm_num [exSame, exA])
    (le_refl _) rfl (by norm_num) (by simp [exSame]) ho (h _ ho)
  have hno : o1.normalizeOutput = true := by
    obtain ⟨_, _, _, _, _, rfl, -⟩ := prepare_cases hprep
    rfl
  refine ⟨o, A, { o1 with shapelets := some (.u S) }, w1, M, rfl, by simp [XIn.WF, A], ?_, hno, ?_, h3, ?_⟩
  · unfold Rdst.fit
    rw [hprep]
    simp only
    rw [k1 rfl, hargs]
    have : (exEnv g).seedG seed = g := rfl
    simp [Call.run, this, h _ ho, Except.map]
  · unfold Rdst.transform
    simp only [e1, e2]
    rw [if_neg (by simp), harr]
    exact h2
  · intro row hrow
    have := h4 row hrow 0 (by
      have : min exSame.nShp exSame.X.length = 2 := rfl
      omega)
    simpa [exSame, exA] using this

end Convst.Props
