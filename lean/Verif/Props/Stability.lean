import Verif.Proofs.Stability

/-!
# C89: small changes of the series; C90: longer series
-/

set_option autoImplicit false
set_option linter.unusedSectionVars false

namespace Convst.Props
open Convst Spec

variable {G R L : Type} [Gen G ℝ] [LawfulGen G] [DecidableEq L]

/-! ## C89: stability -/

theorem CloseTo.get {ε : ℝ} (hε : 0 ≤ ε) {x z : List ℝ} (h : CloseTo ε x z) (i : Nat) :
    |x.getD i 0 - z.getD i 0| ≤ ε := by
  unfold CloseTo at h
  induction h generalizing i with
  | nil => simpa using hε
  | cons h1 _ ih =>
    cases i with
    | zero => simpa using h1
    | succ i => simpa using ih i

theorem CloseSeries.get {ε : ℝ} {x z : List (List ℝ)} (h : CloseSeries ε x z) (c : Nat) :
    CloseTo ε (x.getD c []) (z.getD c []) := by
  unfold CloseSeries at h
  induction h generalizing c with
  | nil => exact List.Forall₂.nil
  | cons h1 _ ih =>
    cases c with
    | zero => simpa using h1
    | succ c => simpa using ih c

theorem window_close {ε : ℝ} (hε : 0 ≤ ε) {phase : Bool} {x z : List ℝ} (h : CloseTo ε x z) (l d i : Nat)
    {j : Nat} (hj : j < l) :
    |(window phase x l d i).getD j 0 - (window phase z l d i).getD j 0| ≤ ε := by
  unfold window
  rw [getD_lt _ (by simpa using hj), getD_lt _ (by simpa using hj), List.getElem_map, List.getElem_map,
    List.getElem_range, ← List.Forall₂.length_eq h]
  exact CloseTo.get hε h _

theorem window_len (phase : Bool) (x : List ℝ) (l d i : Nat) : (window phase x l d i).length = l := by
  simp [window]

theorem seen_close {ε : ℝ} (hε : 0 ≤ ε) {phase norm : Bool} {x z : List ℝ} (h : CloseTo ε x z) {l : Nat}
    (hl : 0 < l) (d i : Nat) (v : List ℝ) {δ : ℝ}
    (hδ : if norm then ∃ s : ℝ, 0 ≤ s ∧ s ≤ std (window phase x l d i) ∧ δ = 3 * (l * ε) / (s + 1 / 10 ^ 8)
      else δ = l * ε) :
    |l1 (seen norm (window phase x l d i)) v - l1 (seen norm (window phase z l d i)) v| ≤ δ := by
  have hw : ∀ j, j < (window phase x l d i).length →
      |(window phase x l d i).getD j 0 - (window phase z l d i).getD j 0| ≤ ε := fun j hj =>
    window_close hε h l d i (by rwa [window_len] at hj)
  have hlen : (window phase z l d i).length = (window phase x l d i).length := by
    rw [window_len, window_len]
  cases norm with
  | false =>
    simp only [Bool.false_eq_true, if_false] at hδ
    refine (l1_close _ _ v hlen).trans ((sum_close hw).trans ?_)
    rw [window_len, hδ]
  | true =>
    simp only [if_true] at hδ
    obtain ⟨s, hs, hstd, rfl⟩ := hδ
    have e : (znorm (window phase z l d i)).length = (znorm (window phase x l d i)).length := by
      rw [znorm_length, znorm_length, hlen]
    refine (l1_close _ _ v e).trans ?_
    have := znorm_close hlen (by rw [window_len]; exact hl) hw
    rw [← znorm_length (window phase x l d i)] at this
    refine this.trans ?_
    rw [znorm_length, window_len, ← real_eps]
    have p := real_eps_pos
    rw [mul_assoc]
    apply div_le_div_of_nonneg_left (by positivity) (by linarith) (by linarith)

/-- Distances of the two series, one by one. -/
theorem distances_close {S : Shapelets ℝ} {nf m : Nat} (hS : FittedOn S nf m) {phase : Bool}
    {x z : List (List ℝ)} {T : Nat} (hx : Rect x nf T) (hnf : 1 ≤ nf) {ε δ : ℝ} (hε : 0 ≤ ε)
    (hxz : CloseSeries ε x z) {k : Nat} (hk : k < shpCount S) (hδ : Slack phase S k x T ε δ) :
    (shpDistances phase S z T k).length = (shpDistances phase S x T k).length ∧
    ∀ (i : Nat) (a b : ℝ), (shpDistances phase S x T k)[i]? = some a →
      (shpDistances phase S z T k)[i]? = some b → |a - b| ≤ δ := by
  have hlen := hS.length k hk
  cases S with
  | u S =>
    have hx0 : 0 < x.length := by rw [hx.1]; exact hnf
    have hxl : (x.getD 0 []).length = T := by
      rw [getD_lt _ hx0]; exact hx.2 _ (List.getElem_mem hx0)
    have h0 := CloseSeries.get hxz 0
    have hzl : (z.getD 0 []).length = T := by rw [← hxl]; exact (List.Forall₂.length_eq h0).symm
    simp only [shpDistances, uDistances, distances, hxl, hzl, List.length_map, List.length_range, true_and]
    intro i a b ha hb
    rw [List.getElem?_map] at ha hb
    by_cases hi : i < nWin phase T (S.lengths.getD k 0) (S.dilations.getD k 0)
    · rw [List.getElem?_range hi, Option.map_some, Option.some.injEq] at ha hb
      subst ha hb
      refine seen_close hε h0 (by exact Nat.lt_of_lt_of_le (by omega) hlen) _ _ _ ?_
      unfold Slack at hδ
      simp only [shpNorm, shpChannels, shpLength, shpDilation, List.mem_singleton, List.length_singleton,
        Nat.cast_one, one_mul] at hδ
      cases hn : S.normalize.getD k false with
      | false => simpa using hδ.1 hn
      | true =>
        obtain ⟨s, h1, h2, h3⟩ := hδ.2 hn
        simp only [if_true]
        exact ⟨s, h1, h2 0 rfl i hi, h3⟩
    · rw [List.getElem?_eq_none (by simpa using hi)] at ha
      cases ha
  | m S =>
    simp only [shpDistances, mDistances, List.length_map, List.length_range, true_and]
    intro i a b ha hb
    rw [List.getElem?_map] at ha hb
    by_cases hi : i < nWin phase T (S.lengths.getD k 0) (S.dilations.getD k 0)
    · rw [List.getElem?_range hi, Option.map_some, Option.some.injEq] at ha hb
      subst ha hb
      rw [mDist_eq_sum, mDist_eq_sum, ← Finset.sum_sub_distrib]
      refine (Finset.abs_sum_le_sum_abs _ _).trans ?_
      unfold Slack at hδ
      simp only [shpNorm, shpChannels, shpLength, shpDilation] at hδ
      have hl : 0 < S.lengths.getD k 0 := Nat.lt_of_lt_of_le (by omega) hlen
      cases hn : S.normalize.getD k false with
      | false =>
        replace hδ := hδ.1 hn
        refine (Finset.sum_le_sum (g := fun _ => (S.lengths.getD k 0 : ℝ) * ε) fun c _ => ?_).trans ?_
        · exact seen_close hε (CloseSeries.get hxz _) hl _ _ _ (by simp)
        · rw [hδ]; simp [mul_assoc]
      | true =>
        obtain ⟨s, h1, h2, h3⟩ := hδ.2 hn
        refine (Finset.sum_le_sum (g := fun _ => 3 * ((S.lengths.getD k 0 : ℝ) * ε) / (s + 1 / 10 ^ 8))
          fun c hc => ?_).trans ?_
        · have hcl : c < (mChannels S k).length := Finset.mem_range.1 hc
          have hmem : (mChannels S k).getD c 0 ∈ mChannels S k := by
            rw [getD_lt _ hcl]; exact List.getElem_mem hcl
          refine seen_close hε (CloseSeries.get hxz _) hl _ _ _ ?_
          simp only [if_true]
          exact ⟨s, h1, h2 _ hmem i hi, rfl⟩
        · rw [h3]
          simp only [Finset.sum_const, Finset.card_range, nsmul_eq_mul]
          apply le_of_eq
          ring
    · rw [List.getElem?_eq_none (by simpa using hi)] at ha
      cases ha

theorem shpDistances_nonneg (phase : Bool) (S : Shapelets ℝ) (s : List (List ℝ)) (T k : Nat) :
    ∀ r ∈ shpDistances phase S s T k, 0 ≤ r := by
  cases S with
  | u S => exact distances_nonneg _ _ _ _ _ _
  | m S => exact mDistances_nonneg _ _ _ _ _

theorem shpDistances_len {S : Shapelets ℝ} {phase : Bool} {x : List (List ℝ)} {nf T k : Nat} (hx : Rect x nf T)
    (hnf : 1 ≤ nf) : (shpDistances phase S x T k).length = nWin phase T (shpLength S k) (shpDilation S k) := by
  cases S with
  | u S =>
    have hx0 : 0 < x.length := by rw [hx.1]; exact hnf
    have hxl : (x.getD 0 []).length = T := by
      rw [getD_lt _ hx0]; exact hx.2 _ (List.getElem_mem hx0)
    simp only [shpDistances, uDistances, distances, shpLength, shpDilation, hxl, List.length_map,
      List.length_range]
  | m S => simp [shpDistances, mDistances, shpLength, shpDilation]

theorem shpRow_cells (phase : Bool) (S : Shapelets ℝ) (s : List (List ℝ)) (T : Nat) {k : Nat} (hk : k < shpCount S) :
    (shpRow phase S s T)[3 * k]? = some (shpFeatures phase S s T k).1 ∧
    (shpRow phase S s T)[3 * k + 1]? = some (shpFeatures phase S s T k).2.1 ∧
    (shpRow phase S s T)[3 * k + 2]? = some (shpFeatures phase S s T k).2.2 :=
  ⟨row_cells _ _ k 0 hk (by omega), row_cells _ _ k 1 hk (by omega), row_cells _ _ k 2 hk (by omega)⟩

/-- **C89.** Rows of features of two series with values differing by at most `ε`. -/
theorem C89_rows {S : Shapelets ℝ} {nf m : Nat} (hS : FittedOn S nf m) (phase : Bool)
    {x z : List (List ℝ)} {T : Nat} (hx : Rect x nf T) (hnf : 1 ≤ nf) (hT : m ≤ T) {ε δ : ℝ} (hε : 0 ≤ ε)
    (hxz : CloseSeries ε x z) {k : Nat} (hk : k < shpCount S) (hδ : Slack phase S k x T ε δ) :
    StableAt (shpDistances phase S x T k) (shpThreshold S k) δ k (shpRow phase S x T) (shpRow phase S z T) := by
  obtain ⟨h1, h2⟩ := distances_close hS hx hnf hε hxz hk hδ
  have hne : shpDistances phase S x T k ≠ [] := by
    apply List.ne_nil_of_length_pos
    rw [shpDistances_len hx hnf]
    exact nWin_pos_of_hasWindow (hasWindow_of_lt ((hS.span k hk).trans_le hT))
  obtain ⟨f1, f2, f3⟩ := features_close (thr := shpThreshold S k) h1 hne (shpDistances_nonneg _ _ _ _ _)
    (shpDistances_nonneg _ _ _ _ _) h2
  obtain ⟨c0, c1, c2⟩ := shpRow_cells phase S x T hk
  obtain ⟨d0, d1, d2⟩ := shpRow_cells phase S z T hk
  exact ⟨_, _, _, _, _, _, c0, c1, c2, d0, d1, d2, f1, f2, f3⟩

/-- **C89.** `fit` then `transform` on two batches given as 3D arrays, with values differing by at most `ε`. -/
theorem C89_object_same_length (env : Env G R L) (o : Rdst ℝ R) (w : World R) (dt : DType)
    (A : Arr3 ℝ) (y : List L)
    (hty : o.transformType = .uni ∨ o.transformType = .multi ∨ o.transformType = .auto ∧ dt ≠ .otherDtype)
    (hWF : (XIn.array dt A).WF) (hne : A.data ≠ []) (hnf : 1 ≤ A.nf) (hnt : 4 ≤ A.nt)
    (hy : y.length = A.data.length) (hp : GoodParams o A.nt)
    (hmc : ∀ m, o.maxChannels = some m → 1 ≤ m ∧ m ≤ A.nf)
    (gs : Nat → G) {order : Nat → List Nat} (ho : IsSchedule order) :
    ∃ o' w' S, o.fit env gs order w (.array dt A) y = (o', w', .ok ()) ∧ o'.shapelets = some S ∧
      ∀ (dt₁ dt₂ : DType) (B B' : Arr3 ℝ), (XIn.array dt₁ B).WF → (XIn.array dt₂ B').WF → B.data ≠ [] →
        B.nf = A.nf → A.nt ≤ B.nt → B'.nf = B.nf → B'.nt = B.nt →
        ∀ ε, 0 ≤ ε → List.Forall₂ (CloseSeries ε) B.data B'.data →
        ∃ M M', o'.transform (.array dt₁ B) = .ok M ∧ o'.transform (.array dt₂ B') = .ok M' ∧
          ∀ (i : Nat) x row row', B.data[i]? = some x → M[i]? = some row → M'[i]? = some row' →
            ∀ k, k < shpCount S → ∀ δ, Slack o.phase S k x B.nt ε δ →
              StableAt (shpDistances o.phase S x B.nt k) (shpThreshold S k) δ k row row' := by
  obtain ⟨o', w', S, h1, h2, h3, h4⟩ := fitted_array env o w dt A y hty hWF hne hnf hnt hy hp hmc gs ho
  refine ⟨o', w', S, h1, h2, ?_⟩
  intro dt₁ dt₂ B B' hB hB' hBne hBf hBt hf' ht' ε hε hc
  have hlen := hc.length_eq
  have hne' : B'.data ≠ [] := by
    intro e; rw [e] at hlen; exact hBne (List.length_eq_zero_iff.1 hlen)
  refine ⟨_, _, h4 dt₁ B hB hBne hBf hBt, h4 dt₂ B' hB' hne' (by omega) (by omega), ?_⟩
  intro i x row row' hx hr hr' k hk δ hδ
  have hi : i < B.data.length := (List.getElem?_eq_some_iff.1 hx).1
  have hi' : i < B'.data.length := by omega
  have hx' : B'.data[i]? = some B'.data[i] := List.getElem?_eq_getElem hi'
  rw [List.getElem?_map, hx, Option.map_some, Option.some.injEq] at hr
  rw [List.getElem?_map, hx', Option.map_some, Option.some.injEq, ht'] at hr'
  subst hr hr'
  have hcl : CloseSeries ε x B'.data[i] := by
    have := hc.get hi hi'
    rw [List.get_eq_getElem, List.get_eq_getElem] at this
    have e := (List.getElem?_eq_some_iff.1 hx).2
    rw [e] at this
    exact this
  have hr : Rect x A.nf B.nt := by
    obtain ⟨q1, q2⟩ := hB x (List.mem_of_getElem? hx)
    exact ⟨by rw [← hBf]; exact q1, q2⟩
  exact C89_rows h3 o.phase hr hnf hBt hε hcl hk hδ

/-- **C89.** `fit` then `transform` on two lists of series of different lengths, with values differing by at
most `ε`. -/
theorem C89_object_variable_length (env : Env G R L) (o : Rdst ℝ R) (w : World R)
    (xs : List (Mat ℝ)) (y : List L)
    (hty : o.transformType.Var ∨ o.transformType = .auto)
    (hwf : ∀ x ∈ xs, x.WF) (hne : xs ≠ []) (nf : Nat) (hnf1 : 1 ≤ nf)
    (hnf : ∀ x ∈ xs, x.rows.length = nf) (m : Nat) (hm4 : 4 ≤ m) (hlen : ∀ x ∈ xs, m ≤ x.len)
    (hm : o.minLen = some m ∨ o.minLen = none ∧ ∃ x ∈ xs, x.len = m)
    (hy : y.length = xs.length) (hp : GoodParams o m)
    (hmc : ∀ k, o.maxChannels = some k → 1 ≤ k ∧ k ≤ nf)
    (gs : Nat → G) {order : Nat → List Nat} (ho : IsSchedule order) :
    ∃ o' w' S, o.fit env gs order w (.list xs) y = (o', w', .ok ()) ∧ o'.shapelets = some S ∧
      ∀ zs zs' : List (Mat ℝ), (∀ z ∈ zs, z.WF ∧ z.rows.length = nf ∧ m ≤ z.len) →
        (∀ z ∈ zs', z.WF ∧ z.rows.length = nf ∧ m ≤ z.len) → zs ≠ [] →
        ∀ ε, 0 ≤ ε → List.Forall₂ (fun z z' : Mat ℝ => z'.len = z.len ∧ CloseSeries ε z.rows z'.rows) zs zs' →
        ∃ M M', o'.transform (.list zs) = .ok M ∧ o'.transform (.list zs') = .ok M' ∧
          ∀ (i : Nat) z row row', zs[i]? = some z → M[i]? = some row → M'[i]? = some row' →
            ∀ k, k < shpCount S → ∀ δ, Slack o.phase S k z.rows z.len ε δ →
              StableAt (shpDistances o.phase S z.rows z.len k) (shpThreshold S k) δ k row row' := by
  obtain ⟨o', w', S, h1, h2, h3, -, h4⟩ := fitted_list env o w xs y hty hwf hne nf hnf1 hnf m hm4 hlen hm hy hp hmc gs ho
  refine ⟨o', w', S, h1, h2, ?_⟩
  intro zs zs' hz hz' hzne ε hε hc
  have hl := hc.length_eq
  have hne' : zs' ≠ [] := by
    intro e; rw [e] at hl; exact hzne (List.length_eq_zero_iff.1 hl)
  refine ⟨_, _, h4 zs (fun z h => (hz z h).1) hzne (fun z h => (hz z h).2.1) (fun z h => (hz z h).2.2),
    h4 zs' (fun z h => (hz' z h).1) hne' (fun z h => (hz' z h).2.1) (fun z h => (hz' z h).2.2), ?_⟩
  intro i z row row' hzi hr hr' k hk δ hδ
  have hi : i < zs.length := (List.getElem?_eq_some_iff.1 hzi).1
  have hi' : i < zs'.length := by omega
  have hx' : zs'[i]? = some zs'[i] := List.getElem?_eq_getElem hi'
  obtain ⟨e1, e2⟩ := hc.get hi hi'
  rw [List.get_eq_getElem, List.get_eq_getElem, (List.getElem?_eq_some_iff.1 hzi).2] at e1 e2
  rw [List.getElem?_map, hzi, Option.map_some, Option.some.injEq] at hr
  rw [List.getElem?_map, hx', Option.map_some, Option.some.injEq, e1] at hr'
  subst hr hr'
  obtain ⟨q1, q2, q3⟩ := hz z (List.mem_of_getElem? hzi)
  exact C89_rows h3 o.phase ⟨q2, q1⟩ hnf1 q3 hε e2 hk hδ

/-! ## C90: longer series -/

theorem window_embeds {a b : List ℝ} {p q l d i : Nat} (hb : b.length = p + a.length + q)
    (hab : (b.drop p).take a.length = a) (hi : i < nWin false a.length l d) :
    window false b l d (p + i) = window false a l d i := by
  unfold window
  apply List.map_congr_left
  intro j hj
  rw [List.mem_range] at hj
  simp only [pos, Bool.false_eq_true, if_false, nWin] at hi ⊢
  have h1 : j * d ≤ (l - 1) * d := Nat.mul_le_mul_right d (by omega)
  have h2 : i + j * d < a.length := by omega
  have : a.getD (i + j * d) 0 = ((b.drop p).take a.length).getD (i + j * d) 0 := by rw [hab]
  rw [this, List.getD_eq_getElem?_getD, List.getD_eq_getElem?_getD, List.getElem?_take, if_pos h2,
    List.getElem?_drop]
  congr 2
  omega

/-- Features of a list of distances inside a longer one. -/
theorem features_grow {D E F : List ℝ} {thr : ℝ} (hne : D ≠ []) (hD : ∀ x ∈ D, 0 ≤ x)
    (hE : ∀ x ∈ E, 0 ≤ x) (hF : ∀ x ∈ F, 0 ≤ x) :
    ∃ i i' c c' : Nat, (features D thr).2.1 = i ∧ (features (E ++ D ++ F) thr).2.1 = i' ∧
      (features D thr).2.2 = c ∧ (features (E ++ D ++ F) thr).2.2 = c' ∧
      (features (E ++ D ++ F) thr).1 ≤ (features D thr).1 ∧ c ≤ c' ∧ c' ≤ c + E.length + F.length ∧
      ((features (E ++ D ++ F) thr).1 = (features D thr).1 → i' ≤ E.length + i ∧ (E.length = 0 → i' = i)) ∧
      ((features (E ++ D ++ F) thr).1 < (features D thr).1 → i' < E.length ∨ E.length + D.length ≤ i') := by
  have hall : ∀ x ∈ E ++ D ++ F, 0 ≤ x := by
    intro x hx
    rcases List.mem_append.1 hx with hx | hx
    · rcases List.mem_append.1 hx with hx | hx
      · exact hE x hx
      · exact hD x hx
    · exact hF x hx
  obtain ⟨⟨m1, m2⟩, ⟨p, p1, p2, p3⟩, c1⟩ := features_isFeatures (thr := thr) hne hD
  obtain ⟨⟨m1', m2'⟩, ⟨p', p1', p2', p3'⟩, c1'⟩ :=
    features_isFeatures (D := E ++ D ++ F) (thr := thr) (by simp [hne]) hall
  have hpl : p < D.length := (List.getElem?_eq_some_iff.1 p2).1
  have hat : ∀ j, j < D.length → (E ++ D ++ F)[E.length + j]? = D[j]? := by
    intro j hj
    rw [List.append_assoc, List.getElem?_append_right (by omega), Nat.add_sub_cancel_left,
      List.getElem?_append_left hj]
  have hle : (features (E ++ D ++ F) thr).1 ≤ (features D thr).1 := m2' _ (by simp [m1])
  refine ⟨p, p', _, _, p1, p1', c1, c1', hle, ?_, ?_, ?_, ?_⟩
  · rw [List.countP_append, List.countP_append]; omega
  · rw [List.countP_append, List.countP_append]
    have h1 : (E.countP fun x => decide (x ≤ thr)) ≤ E.length := List.countP_le_length
    have h2 : (F.countP fun x => decide (x ≤ thr)) ≤ F.length := List.countP_le_length
    omega
  · intro he
    have h1 : p' ≤ E.length + p := by
      by_contra hc
      have := p3' (E.length + p) _ (by omega) (by rw [hat p hpl]; exact p2)
      linarith
    refine ⟨h1, fun h0 => ?_⟩
    by_contra hc
    have hlt : p' < p := by omega
    have := p3 p' _ hlt (by
      rw [← hat p' (by omega), h0, Nat.zero_add]; exact p2')
    linarith
  · intro he
    by_contra hc
    have h1 : E.length ≤ p' ∧ p' < E.length + D.length := by omega
    have h2 : D[p' - E.length]? = some (features (E ++ D ++ F) thr).1 := by
      rw [← hat (p' - E.length) (by omega), Nat.add_sub_cancel' h1.1]; exact p2'
    have := m2 _ (List.mem_of_getElem? h2)
    linarith

/-- Distances of the longer series. -/
theorem distances_embeds {S : Shapelets ℝ} {nf m : Nat} (hS : FittedOn S nf m) {x z : List (List ℝ)}
    {T p q : Nat} (hx : Rect x nf T) (hnf : 1 ≤ nf) (hT : m ≤ T) (hxz : Embeds p q x z) {k : Nat}
    (hk : k < shpCount S) :
    ∃ E F : List ℝ, E.length = p ∧ F.length = q ∧
      shpDistances false S z (p + T + q) k = E ++ shpDistances false S x T k ++ F := by
  have hspan := (hS.span k hk).trans_le hT
  have hch : ∀ c, c < nf → (z.getD c []).length = p + (x.getD c []).length + q ∧
      ((z.getD c []).drop p).take (x.getD c []).length = x.getD c [] ∧ (x.getD c []).length = T := by
    intro c hc
    have hcx : c < x.length := by rw [hx.1]; exact hc
    have hcz : c < z.length := by rw [← List.Forall₂.length_eq hxz]; exact hcx
    have := List.Forall₂.get hxz hcx hcz
    rw [List.get_eq_getElem, List.get_eq_getElem] at this
    rw [getD_lt _ hcx, getD_lt _ hcz]
    exact ⟨this.1, this.2, hx.2 _ (List.getElem_mem hcx)⟩
  -- a list of `p + n + q` entries given by a function
  have key : ∀ (n : Nat) (g g' : Nat → ℝ), (∀ i, i < n → g (p + i) = g' i) →
      ∃ E F : List ℝ, E.length = p ∧ F.length = q ∧
        (List.range (p + n + q)).map g = E ++ (List.range n).map g' ++ F := by
    intro n g g' h
    refine ⟨(List.range p).map g, (List.range q).map fun i => g (p + n + i), by simp, by simp, ?_⟩
    rw [List.range_add, List.map_append, List.range_add, List.map_append, List.map_map, List.map_map]
    congr 2
    apply List.map_congr_left
    intro i hi
    exact h i (List.mem_range.1 hi)
  cases S with
  | u S =>
    obtain ⟨e1, e2, e3⟩ := hch 0 (by omega)
    have hn : nWin false (p + T + q) (S.lengths.getD k 0) (S.dilations.getD k 0) =
        p + nWin false T (S.lengths.getD k 0) (S.dilations.getD k 0) + q := by
      simp only [shpLength, shpDilation] at hspan
      simp only [nWin, Bool.false_eq_true, if_false]
      omega
    simp only [shpDistances, uDistances, distances]
    rw [e1, e3, hn]
    apply key
    intro i hi
    rw [window_embeds e1 e2 (by rw [e3]; exact hi)]
  | m S =>
    have hn : nWin false (p + T + q) (S.lengths.getD k 0) (S.dilations.getD k 0) =
        p + nWin false T (S.lengths.getD k 0) (S.dilations.getD k 0) + q := by
      simp only [shpLength, shpDilation] at hspan
      simp only [nWin, Bool.false_eq_true, if_false]
      omega
    simp only [shpDistances, mDistances]
    rw [hn]
    apply key
    intro i hi
    rw [mDist_eq_sum, mDist_eq_sum]
    apply Finset.sum_congr rfl
    intro c hc
    have hcl : c < (mChannels S k).length := Finset.mem_range.1 hc
    obtain ⟨e1, e2, e3⟩ := hch ((mChannels S k).getD c 0) (by
      rw [getD_lt _ hcl]; exact hS.channels k hk _ (List.getElem_mem hcl))
    rw [window_embeds e1 e2 (by rw [e3]; exact hi)]

/-- **C90.** Without phase invariance: rows of features of a series and of a longer one around it. -/
theorem C90_rows {S : Shapelets ℝ} {nf m : Nat} (hS : FittedOn S nf m) {x z : List (List ℝ)} {T p q : Nat}
    (hx : Rect x nf T) (hnf : 1 ≤ nf) (hT : m ≤ T) (hxz : Embeds p q x z) {k : Nat} (hk : k < shpCount S) :
    GrowsAt p q (T - (shpLength S k - 1) * shpDilation S k) k (shpRow false S x T)
      (shpRow false S z (p + T + q)) := by
  obtain ⟨E, F, rfl, rfl, hD⟩ := distances_embeds hS hx hnf hT hxz hk
  have hl : (shpDistances false S x T k).length = T - (shpLength S k - 1) * shpDilation S k := by
    rw [shpDistances_len hx hnf]; rfl
  have hne : shpDistances false S x T k ≠ [] := by
    apply List.ne_nil_of_length_pos
    rw [hl]
    have := (hS.span k hk).trans_le hT
    omega
  have hall := shpDistances_nonneg false S z (E.length + T + F.length) k
  rw [hD] at hall
  obtain ⟨i, i', c, c', h1, h2, h3, h4, h5, h6, h7, h8, h9⟩ := features_grow (thr := shpThreshold S k) hne
    (shpDistances_nonneg _ _ _ _ _) (E := E) (F := F) (fun v hv => hall v (by simp [hv]))
    (fun v hv => hall v (by simp [hv]))
  obtain ⟨c0, c1, c2⟩ := shpRow_cells false S x T hk
  obtain ⟨d0, d1, d2⟩ := shpRow_cells false S z (E.length + T + F.length) hk
  unfold shpFeatures at c0 c1 c2 d0 d1 d2
  rw [hD] at d0 d1 d2
  rw [h1] at c1
  rw [h3] at c2
  rw [h2] at d1
  rw [h4] at d2
  rw [← hl]
  exact ⟨_, _, i, i', c, c', c0, c1, c2, d0, d1, d2, h5, h6, h7, h8, h9⟩

/-- **C90.** `fit` then `transform` on lists of series of different lengths, without phase invariance:
recordings cut out of longer ones. -/
theorem C90_object_variable_length (env : Env G R L) (o : Rdst ℝ R) (w : World R)
    (xs : List (Mat ℝ)) (y : List L)
    (hty : o.transformType.Var ∨ o.transformType = .auto) (hph : o.phase = false)
    (hwf : ∀ x ∈ xs, x.WF) (hne : xs ≠ []) (nf : Nat) (hnf1 : 1 ≤ nf)
    (hnf : ∀ x ∈ xs, x.rows.length = nf) (m : Nat) (hm4 : 4 ≤ m) (hlen : ∀ x ∈ xs, m ≤ x.len)
    (hm : o.minLen = some m ∨ o.minLen = none ∧ ∃ x ∈ xs, x.len = m)
    (hy : y.length = xs.length) (hp : GoodParams o m)
    (hmc : ∀ k, o.maxChannels = some k → 1 ≤ k ∧ k ≤ nf)
    (gs : Nat → G) {order : Nat → List Nat} (ho : IsSchedule order) :
    ∃ o' w' S, o.fit env gs order w (.list xs) y = (o', w', .ok ()) ∧ o'.shapelets = some S ∧
      ∀ zs zs' : List (Mat ℝ), (∀ z ∈ zs, z.WF ∧ z.rows.length = nf ∧ m ≤ z.len) → (∀ z ∈ zs', z.WF) →
        zs ≠ [] → zs'.length = zs.length →
        ∀ p q : Nat → Nat, (∀ (i : Nat) z z', zs[i]? = some z → zs'[i]? = some z' →
          z'.len = p i + z.len + q i ∧ Embeds (p i) (q i) z.rows z'.rows) →
        ∃ M M', o'.transform (.list zs) = .ok M ∧ o'.transform (.list zs') = .ok M' ∧
          ∀ (i : Nat) z row row', zs[i]? = some z → M[i]? = some row → M'[i]? = some row' →
            ∀ k, k < shpCount S →
              GrowsAt (p i) (q i) (z.len - (shpLength S k - 1) * shpDilation S k) k row row' := by
  obtain ⟨o', w', S, h1, h2, h3, -, h4⟩ := fitted_list env o w xs y hty hwf hne nf hnf1 hnf m hm4 hlen hm hy hp hmc gs ho
  refine ⟨o', w', S, h1, h2, ?_⟩
  intro zs zs' hz hz' hzne hl p q hc
  have hne' : zs' ≠ [] := by
    intro e; rw [e] at hl; exact hzne (List.length_eq_zero_iff.1 hl.symm)
  have hgood : ∀ z' ∈ zs', z'.rows.length = nf ∧ m ≤ z'.len := by
    intro z' hz'm
    obtain ⟨i, hi, rfl⟩ := List.getElem_of_mem hz'm
    have hi0 : i < zs.length := by omega
    obtain ⟨e1, e2⟩ := hc i _ _ (List.getElem?_eq_getElem hi0) (List.getElem?_eq_getElem hi)
    obtain ⟨-, g2, g3⟩ := hz _ (List.getElem_mem hi0)
    exact ⟨by rw [← List.Forall₂.length_eq e2]; exact g2, by omega⟩
  refine ⟨_, _, h4 zs (fun z h => (hz z h).1) hzne (fun z h => (hz z h).2.1) (fun z h => (hz z h).2.2),
    h4 zs' hz' hne' (fun z h => (hgood z h).1) (fun z h => (hgood z h).2), ?_⟩
  intro i z row row' hzi hr hr' k hk
  have hi : i < zs.length := (List.getElem?_eq_some_iff.1 hzi).1
  have hi' : i < zs'.length := by omega
  have hx' : zs'[i]? = some zs'[i] := List.getElem?_eq_getElem hi'
  obtain ⟨e1, e2⟩ := hc i _ _ hzi hx'
  rw [List.getElem?_map, hzi, Option.map_some, Option.some.injEq] at hr
  rw [List.getElem?_map, hx', Option.map_some, Option.some.injEq, e1] at hr'
  subst hr hr'
  obtain ⟨q1, q2, q3⟩ := hz z (List.mem_of_getElem? hzi)
  rw [hph]
  exact C90_rows h3 ⟨q2, q1⟩ hnf1 q3 e2 hk

/-! ### What does not hold -/

/-- One shapelet with values 0, 1 and threshold `thr`. -/
noncomputable def exStep (thr : ℝ) : Shapelets ℝ := .u ⟨[[0, 1]], [2], [1], [thr], [false]⟩

theorem exStep_fitted (thr : ℝ) : FittedOn (exStep thr) 1 2 where
  wf := by
    refine ⟨rfl, rfl, rfl, rfl, ?_, ?_⟩ <;> intro k hk <;> replace hk : k < 1 := hk <;>
      obtain rfl : k = 0 := by omega
    all_goals simp
  length k hk := by
    replace hk : k < 1 := hk
    obtain rfl : k = 0 := by omega
    simp [exStep, shpLength]
  dilation k hk := by
    replace hk : k < 1 := hk
    obtain rfl : k = 0 := by omega
    simp [exStep, shpDilation]
  span k hk := by
    replace hk : k < 1 := hk
    obtain rfl : k = 0 := by omega
    simp [exStep, shpLength, shpDilation]
  channels k hk c hc := by
    simp [exStep, shpChannels] at hc
    omega

/-- **C89.** The condition on the threshold is needed: arbitrarily small changes of the series can change the
number of occurrences (the distance sits on the threshold). -/
theorem C89_count_jumps (ε : ℝ) (hε : 0 < ε) :
    CloseSeries ε [[0, 1]] [[ε, 1]] ∧
    (shpRow false (exStep 0) [[0, 1]] 2)[2]? = some 1 ∧ (shpRow false (exStep 0) [[ε, 1]] 2)[2]? = some 0 := by
  refine ⟨?_, ?_, ?_⟩
  · simp [CloseSeries, CloseTo, abs_of_pos hε, hε.le]
  · obtain ⟨-, -, h⟩ := shpRow_cells false (exStep 0) [[0, 1]] 2 (k := 0) (by simp [exStep, shpCount])
    rw [Nat.mul_zero, Nat.zero_add] at h
    rw [h]
    norm_num [shpFeatures, shpDistances, exStep, uDistances, distances, features, seen, window, pos, nWin, l1,
      List.range_succ, uValues, shpThreshold]
  · obtain ⟨-, -, h⟩ := shpRow_cells false (exStep 0) [[ε, 1]] 2 (k := 0) (by simp [exStep, shpCount])
    rw [Nat.mul_zero, Nat.zero_add] at h
    rw [h]
    norm_num [shpFeatures, shpDistances, exStep, uDistances, distances, features, seen, window, pos, nWin, l1,
      List.range_succ, uValues, shpThreshold, hε, hε.ne']

/-- **C90.** Phase invariance must be off: with it, a longer series can be farther from the shapelet. -/
theorem C90_phase_not_monotone :
    Embeds 0 1 [[1, 0]] [[1, 0, 5]] ∧
    (shpRow true (exStep 0) [[1, 0]] 2)[0]? = some 0 ∧ (shpRow true (exStep 0) [[1, 0, 5]] 3)[0]? = some 2 := by
  refine ⟨?_, ?_, ?_⟩
  · simp [Embeds]
  · obtain ⟨h, -, -⟩ := shpRow_cells true (exStep 0) [[1, 0]] 2 (k := 0) (by simp [exStep, shpCount])
    rw [Nat.mul_zero] at h
    rw [h]
    norm_num [shpFeatures, shpDistances, exStep, uDistances, distances, features, seen, window, pos, nWin, l1,
      List.range_succ, uValues, shpThreshold, scanMin]
  · obtain ⟨h, -, -⟩ := shpRow_cells true (exStep 0) [[1, 0, 5]] 3 (k := 0) (by simp [exStep, shpCount])
    rw [Nat.mul_zero] at h
    rw [h]
    norm_num [shpFeatures, shpDistances, exStep, uDistances, distances, features, seen, window, pos, nWin, l1,
      List.range_succ, uValues, shpThreshold, scanMin]

/-! ### The hypotheses are met -/

/-- A series near `[0, 1, 3]`: the slack is 2 · 1 · 0.1, the position and the number of occurrences are the
same. -/
example : StableAt (shpDistances false (exStep 1) [[0, 1, 3]] 3 0) 1 (1 / 5) 0
    (shpRow false (exStep 1) [[0, 1, 3]] 3) (shpRow false (exStep 1) [[1 / 10, 1, 29 / 10]] 3) :=
  C89_rows (exStep_fitted 1) false (nf := 1) (m := 2) (T := 3) (ε := 1 / 10)
    ⟨rfl, by simp⟩ le_rfl (by omega) (by norm_num)
    (by norm_num [CloseSeries, CloseTo, abs_le]) (k := 0) (by simp [exStep, shpCount])
    (by norm_num [Slack, exStep, shpNorm, shpChannels, shpLength])

example : GrowsAt 1 2 2 0 (shpRow false (exStep 1) [[0, 1, 3]] 3) (shpRow false (exStep 1) [[7, 0, 1, 3, 0, 1]] 6) :=
  C90_rows (exStep_fitted 1) (nf := 1) (m := 2) (T := 3) (p := 1) (q := 2) ⟨rfl, by simp⟩ le_rfl (by omega)
    (by simp [Embeds]) (k := 0) (by simp [exStep, shpCount])

/-- `fit`, then `transform` of the training series moved by 0.01. -/
example (g : G) (w : World Nat) (gs : Nat → G) :
    ∃ o' w' S, (exObj .auto).fit (exEnv g) gs List.range w (.array .float64 exArr) [0, 1] = (o', w', .ok ()) ∧
      o'.shapelets = some S ∧ ∃ M M', o'.transform (.array .float64 exArr) = .ok M ∧
        o'.transform (.array .float64 ⟨[[[0, 1.01, 2, 3, 4]], [[1, 1, 0, 0, 1.99]]], 1, 5⟩) = .ok M' ∧
        ∀ row row', M[1]? = some row → M'[1]? = some row' → ∀ k, k < shpCount S → ∀ δ,
          Slack false S k [[1, 1, 0, 0, 2]] 5 0.01 δ →
          StableAt (shpDistances false S [[1, 1, 0, 0, 2]] 5 k) (shpThreshold S k) δ k row row' := by
  have hwf : (XIn.array .float64 exArr).WF := by simp [XIn.WF, exArr]
  obtain ⟨o', w', S, h1, h2, h3⟩ := C89_object_same_length (exEnv g) (exObj .auto) w .float64 exArr [0, 1]
    (Or.inr (Or.inr ⟨rfl, by simp⟩)) hwf (by simp [exArr]) (by simp [exArr]) (by simp [exArr])
    (by simp [exArr]) (exObj_good _ _) (by simp [exObj]) gs (order := List.range) (fun _ => List.Perm.refl _)
  obtain ⟨M, M', t1, t2, t3⟩ := h3 .float64 .float64 exArr ⟨[[[0, 1.01, 2, 3, 4]], [[1, 1, 0, 0, 1.99]]], 1, 5⟩ hwf
    (by simp [XIn.WF]) (by simp [exArr]) rfl le_rfl rfl rfl 0.01 (by norm_num)
    (by norm_num [exArr, CloseSeries, CloseTo, abs_le])
  exact ⟨o', w', S, h1, h2, M, M', t1, t2, fun row row' hr hr' k hk δ hδ =>
    t3 1 _ row row' (by simp [exArr]) hr hr' k hk δ hδ⟩

/-- `fit`, then `transform` of a recording and of a longer one. -/
example (g : G) (w : World Nat) (gs : Nat → G) :
    ∃ o' w' S, (exObj .auto).fit (exEnv g) gs List.range w (.list exList) [0, 1] = (o', w', .ok ()) ∧
      o'.shapelets = some S ∧
      ∃ M M', o'.transform (.list [⟨[[7, 8, 9, 8]], 4⟩]) = .ok M ∧
        o'.transform (.list [⟨[[1, 7, 8, 9, 8, 3]], 6⟩]) = .ok M' ∧
        ∀ row row', M[0]? = some row → M'[0]? = some row' → ∀ k, k < shpCount S →
          GrowsAt 1 1 (4 - (shpLength S k - 1) * shpDilation S k) k row row' := by
  obtain ⟨o', w', S, h1, h2, h3⟩ := C90_object_variable_length (exEnv g) (exObj .auto) w exList [0, 1]
    (Or.inr rfl) rfl exList_wf (by simp [exList]) 1 le_rfl (by simp [exList]) 4 le_rfl (by simp [exList])
    (Or.inr ⟨rfl, by simp [exList]⟩)
    (by simp [exList]) (exObj_good _ _) (by simp [exObj]) gs (order := List.range) (fun _ => List.Perm.refl _)
  obtain ⟨M, M', t1, t2, t3⟩ := h3 [⟨[[7, 8, 9, 8]], 4⟩] [⟨[[1, 7, 8, 9, 8, 3]], 6⟩] (by simp [Mat.WF])
    (by simp [Mat.WF]) (by simp) rfl (fun _ => 1) (fun _ => 1) (by
      intro i z z' hz hz'
      cases i with
      | zero =>
        simp only [List.getElem?_cons_zero, Option.some.injEq] at hz hz'
        subst hz hz'
        simp [Embeds]
      | succ i => simp at hz)
  exact ⟨o', w', S, h1, h2, M, M', t1, t2, fun row row' hr hr' k hk => t3 0 _ row row' rfl hr hr' k hk⟩

end Convst.Props
