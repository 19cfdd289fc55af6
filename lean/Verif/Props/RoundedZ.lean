import Verif.Proofs.RoundedZ
import Verif.Props.Rounded

/-!
# C96: features of normalised shapelets computed in rounded arithmetic
-/

set_option autoImplicit false
set_option linter.unusedSectionVars false

namespace Convst.Props
open Convst Spec

variable {R : Type} {r : Rounding}

/-- The exact distances of a shapelet, channel by channel. -/
theorem shpDistances_channels {phase : Bool} {S : Shapelets ℝ} {s : List (List ℝ)} {nf T k : Nat}
    (hs : Rect s nf T) (hnf : 1 ≤ nf) :
    shpDistances phase S s T k = (List.range (nWin phase T (shpLength S k) (shpDilation S k))).map fun i =>
      ∑ c ∈ Finset.range (shpChannels S k).length,
        l1 (seen (shpNorm S k) (shpWindow phase S s k c i)) (shpValues S k c) := by
  cases S with
  | u S =>
    have h0 : 0 < s.length := by rw [hs.1]; exact hnf
    have hT : (s.getD 0 []).length = T := by rw [getD_lt _ h0]; exact hs.2 _ (List.getElem_mem h0)
    simp only [shpDistances, uDistances, distances, hT, shpLength, shpDilation, shpChannels, List.length_cons,
      List.length_nil, Nat.zero_add, Finset.sum_range_one]
    rfl
  | m S =>
    simp only [shpDistances, mDistances, shpLength, shpDilation]
    apply List.map_congr_left
    intro i _
    rw [mDist_eq_sum]
    rfl

/-- Error of one distance of a normalised shapelet. -/
theorem norm_dist_error {phase : Bool} {S : Shapelets ℝ} {s : List (List ℝ)} {k i h : Nat} {v : ℝ}
    (hv : NormDistTo r h phase S s k i v) (hl : 0 < shpLength S k) {B σ g : ℝ} (hσ : 0 ≤ σ)
    (hB : ∀ c, c < (shpChannels S k).length → ∀ x ∈ shpWindow phase S s k c i, |x| ≤ B)
    (hs : ∀ c, c < (shpChannels S k).length → σ ≤ std (shpWindow phase S s k c i))
    (hg : (1 - r.u)⁻¹ ^ (max h (shpLength S k + 8) + 1) ≤ 1 + g) :
    0 ≤ v ∧ |v - ∑ c ∈ Finset.range (shpChannels S k).length,
        l1 (znorm (shpWindow phase S s k c i)) (shpValues S k c)| ≤
      g * (∑ c ∈ Finset.range (shpChannels S k).length,
        l1 (znorm (shpWindow phase S s k c i)) (shpValues S k c)) + normSlack g B σ S k := by
  obtain ⟨z, hz, hsum⟩ := hv
  have hg0 : 0 ≤ g := by have := one_le_hi r (max h (shpLength S k + 8) + 1); linarith
  have hwl : ∀ c, (shpWindow phase S s k c i).length = shpLength S k := fun c => window_length _ _ _ _ _
  have hwne : ∀ c, shpWindow phase S s k c i ≠ [] := fun c => by
    apply List.ne_nil_of_length_pos; rw [hwl]; exact hl
  set C := (shpChannels S k).length with hC
  set l := shpLength S k with hlen
  -- the distance to the rounded windows
  have hz2 : ∀ c, c < C → (z c).length = l ∧
      ∑ j ∈ Finset.range l, |(z c).getD j 0 - (znorm (shpWindow phase S s k c i)).getD j 0| ≤
        l * (g * (1 + 2 * B / (σ + 1 / 10 ^ 8))) := by
    intro c hc
    obtain ⟨e1, e2⟩ := znorm_rounded (hwne c) (hB c hc) (hz c hc) (g := g)
      ((hi_mono r (by omega)).trans hg)
    rw [hwl c] at e1 e2
    refine ⟨e1, e2.trans ?_⟩
    have hBc : 0 ≤ B := by
      obtain ⟨x, hx⟩ := List.exists_mem_of_ne_nil _ (hwne c)
      exact (abs_nonneg x).trans (hB c hc x hx)
    have : 2 * B / (std (shpWindow phase S s k c i) + Scalar.eps) ≤ 2 * B / (σ + 1 / 10 ^ 8) := by
      apply div_le_div_of_nonneg_left (by linarith) (by positivity)
      rw [real_eps]
      linarith [hs c hc]
    gcongr
  have d1 : ∀ c, c < C → |l1 (z c) (shpValues S k c) - l1 (znorm (shpWindow phase S s k c i)) (shpValues S k c)| ≤
      l * (g * (1 + 2 * B / (σ + 1 / 10 ^ 8))) := by
    intro c hc
    obtain ⟨e1, e2⟩ := hz2 c hc
    refine (l1_close _ _ _ ?_).trans ?_
    · rw [e1, znorm_length, hwl]
    · rw [e1]; exact e2
  have d2 : |∑ c ∈ Finset.range C, l1 (z c) (shpValues S k c) -
      ∑ c ∈ Finset.range C, l1 (znorm (shpWindow phase S s k c i)) (shpValues S k c)| ≤
      C * (l * (g * (1 + 2 * B / (σ + 1 / 10 ^ 8)))) := by
    rw [← Finset.sum_sub_distrib]
    refine (Finset.abs_sum_le_sum_abs _ _).trans ?_
    refine (Finset.sum_le_sum (g := fun _ => l * (g * (1 + 2 * B / (σ + 1 / 10 ^ 8))))
      fun c hc => d1 c (Finset.mem_range.1 hc)).trans ?_
    simp
  -- the sum
  let ds : List ℝ := (List.range C).flatMap fun c =>
    (List.range l).map fun j => (z c).getD j 0 - (shpValues S k c).getD j 0
  have hds : ((List.range C).flatMap fun c =>
      (List.range l).map fun j => |r.rnd ((z c).getD j 0 - (shpValues S k c).getD j 0)|) =
      ds.map fun t => |r.rnd t| := by
    simp only [ds, List.map_flatMap, List.map_map]
    rfl
  have hds2 : (ds.map fun t => |t|).sum = ∑ c ∈ Finset.range C, l1 (z c) (shpValues S k c) := by
    simp only [ds, List.map_flatMap, List.map_map]
    rw [List.flatMap_def, List.sum_flatten, List.map_map, Finset.sum_range, ← List.sum_ofFn,
      List.ofFn_eq_map, ← List.map_coe_finRange_eq_range (n := C), List.map_map]
    congr 1
    apply List.map_congr_left
    intro c _
    simp only [Function.comp]
    rw [l1_eq_sum, (hz2 c c.2).1, Finset.sum_range, ← List.sum_ofFn, List.ofFn_eq_map,
      ← List.map_coe_finRange_eq_range, List.map_map]
    rfl
  rw [hds] at hsum
  have r1 : Rel r 1 (ds.map fun t => |t|).sum (ds.map fun t => |r.rnd t|).sum :=
    Rel.sum ds _ _ (fun t _ => abs_nonneg t) fun t _ => (Rel.rnd r t).abs
  have r2 : Rel r h (ds.map fun t => |r.rnd t|).sum v := Rel.sumsTo hsum (by
    intro t ht; obtain ⟨x, _, rfl⟩ := List.mem_map.1 ht; exact abs_nonneg _)
  have r3 := r1.trans r2
  rw [hds2] at r3
  have p0 : 0 ≤ ∑ c ∈ Finset.range C, l1 (z c) (shpValues S k c) :=
    Finset.sum_nonneg fun _ _ => l1_nonneg _ _
  have r4 := r3.abs_sub
  rw [abs_of_nonneg p0] at r4
  refine ⟨r3.nonneg p0, ?_⟩
  set P := ∑ c ∈ Finset.range C, l1 (z c) (shpValues S k c)
  set Q := ∑ c ∈ Finset.range C, l1 (znorm (shpWindow phase S s k c i)) (shpValues S k c)
  have r5 : |v - P| ≤ g * P := r4.trans (mul_le_mul_of_nonneg_right (by
    linarith [hi_mono r (show 1 + h ≤ max h (l + 8) + 1 by omega)]) p0)
  have r6 : |v - Q| ≤ |v - P| + |P - Q| := by
    have := abs_add_le (v - P) (P - Q)
    rwa [sub_add_sub_cancel] at this
  have r7 : P ≤ Q + C * (l * (g * (1 + 2 * B / (σ + 1 / 10 ^ 8)))) := by linarith [(abs_le.1 d2).2]
  have r8 := mul_le_mul_of_nonneg_left r7 hg0
  unfold normSlack
  rw [← hC, ← hlen]
  linarith

/-- **C96.** Any order of the sums.  A normalised shapelet; its distances `D'` are computed by rounded
operations, the sums in any order (no term going through more than `h` additions in the distance, and than the
length of the shapelet in the mean and the deviation).  `B` bounds the values of the windows and `σ` is a lower
bound of their standard deviations.  Then the features of `D'` are the exact ones up to a relative error `g` and
an absolute error `normSlack g B σ` of the distances. -/
theorem C96_any_order (r : Rounding) (phase : Bool) (S : Shapelets ℝ) (s : List (List ℝ)) {nf T k : Nat}
    (hs : Rect s nf T) (hnf : 1 ≤ nf) (hn : shpNorm S k = true) (hl : 0 < shpLength S k)
    (hw : HasWindow phase T (shpLength S k) (shpDilation S k)) {h : Nat} {B σ g : ℝ} (hσ : 0 ≤ σ)
    (hB : ∀ i, i < nWin phase T (shpLength S k) (shpDilation S k) → ∀ c, c < (shpChannels S k).length →
      (∀ x ∈ shpWindow phase S s k c i, |x| ≤ B) ∧ σ ≤ std (shpWindow phase S s k c i))
    (hB0 : 0 ≤ B)
    (hg : (1 - r.u)⁻¹ ^ (max h (shpLength S k + 8) + 1) ≤ 1 + g) (D' : List ℝ)
    (hlen : D'.length = nWin phase T (shpLength S k) (shpDilation S k))
    (hD' : ∀ (i : Nat) (v : ℝ), D'[i]? = some v → NormDistTo r h phase S s k i v) :
    ∃ (a a' : ℝ) (p n p' n' : Nat), shpFeatures phase S s T k = (a, (p : ℝ), (n : ℝ)) ∧
      features D' (shpThreshold S k) = (a', (p' : ℝ), (n' : ℝ)) ∧
      NearFeatures g (normSlack g B σ S k) (shpDistances phase S s T k) (shpThreshold S k) a p n a' p' n' := by
  have hlenD := shpDistances_len (S := S) (phase := phase) (k := k) hs hnf
  have hg0 : 0 ≤ g := by have := one_le_hi r (max h (shpLength S k + 8) + 1); linarith
  have hslack : 0 ≤ normSlack g B σ S k := by unfold normSlack; positivity
  refine features_near hg0 hslack (by rw [hlen, hlenD]) ?_ (shpDistances_nonneg _ _ _ _ _) ?_ ?_
  · apply List.ne_nil_of_length_pos
    rw [hlenD]
    exact nWin_pos_of_hasWindow hw
  · intro v hv
    obtain ⟨i, hi⟩ := List.mem_iff_getElem?.1 hv
    have hin : i < nWin phase T (shpLength S k) (shpDilation S k) := by
      rw [← hlen]; exact (List.getElem?_eq_some_iff.1 hi).1
    exact (norm_dist_error (hD' i v hi) hl hσ (fun c hc => (hB i hin c hc).1)
      (fun c hc => (hB i hin c hc).2) hg).1
  · intro i a b ha hb
    have hin : i < nWin phase T (shpLength S k) (shpDilation S k) := by
      rw [← hlen]; exact (List.getElem?_eq_some_iff.1 hb).1
    rw [shpDistances_channels hs hnf, List.getElem?_map, List.getElem?_range hin, Option.map_some,
      Option.some.injEq] at ha
    subst ha
    have := (norm_dist_error (hD' i b hb) hl hσ (fun c hc => (hB i hin c hc).1)
      (fun c hc => (hB i hin c hc).2) hg).2
    simp only [hn, seen, if_true]
    exact this

/-! ## The code -/

theorem ssum_sumsTo (w : List (Fl r)) : SumsTo r w.length (w.map Fl.val) (ssum w).val := by
  have := foldl_sumsTo (r := r) w (fun a => a) (fun a => [a.val]) 0 (fun a _ => SumsTo.one _) 0 [] 0 le_rfl
    SumsTo.zero
  rw [List.nil_append, Nat.zero_add, ← List.map_eq_flatMap] at this
  exact this

/-- `(v - v.mean()) / (v.std() + 1e-8)`, as the code computes it. -/
theorem znorm_znormsTo (w : List (Fl r)) : ZnormsTo r w.length (w : List ℝ) (znorm w : List (Fl r)) := by
  refine ⟨(ssum w).val, (ssum (w.map fun v => (v - mean w) * (v - mean w))).val, ?_, ?_, ?_⟩
  · have := ssum_sumsTo w
    have e : w.map Fl.val = w := List.map_id' w
    rw [e] at this
    exact this
  · have := ssum_sumsTo (w.map fun v => (v - mean w) * (v - mean w))
    rw [List.length_map, List.map_map] at this
    exact this
  · have e : ((w.map fun v => (v - mean w) * (v - mean w)).length) = w.length := List.length_map _
    unfold znorm std
    simp only
    unfold mean
    rw [show (List.map (fun v => (v - ssum w / Scalar.ofNat w.length) * (v - ssum w / Scalar.ofNat w.length)) w).length =
      w.length from List.length_map _]
    rfl

/-- The distances computed by the code. -/
theorem code_normDistTo {phase : Bool} {S : Shapelets (Fl r)} {x : Mat (Fl r)} {nf k : Nat} (hx : x.WF)
    (hrows : x.rows.length = nf) (hnf : 1 ≤ nf) (hk : k < shpCount S.exact)
    (hn : shpNorm S.exact k = true) :
    ∃ D' : List ℝ, D'.length = nWin phase x.len (shpLength S.exact k) (shpDilation S.exact k) ∧
      (∀ (i : Nat) (v : ℝ), D'[i]? = some v →
        NormDistTo r (shpLength S.exact k + (shpChannels S.exact k).length) phase S.exact x.rows k i v) ∧
      ∃ (row : List ℝ) (a : ℝ) (p n : Nat), row = objRow (K := Fl r) phase S x ∧
        features D' (shpThreshold S.exact k) = (a, (p : ℝ), (n : ℝ)) ∧
        row[3 * k]? = some a ∧ row[3 * k + 1]? = some (r.rnd p) ∧ row[3 * k + 2]? = some (r.rnd n) := by
  cases S with
  | u S =>
    have h0 : 0 < x.rows.length := by omega
    have hT : (x.rows.getD 0 []).length = x.len := by
      rw [getD_lt _ h0]; exact hx _ (List.getElem_mem h0)
    have hn' : S.normalize.getD k false = true := hn
    let D : List (Fl r) := uDistances phase S (x.rows.getD 0 []) k
    refine ⟨D, ?_, ?_, ?_⟩
    · show D.length = nWin phase x.len (S.lengths.getD k 0) (S.dilations.getD k 0)
      simp only [D, uDistances, distances, hT, List.length_map, List.length_range]
    · intro i v hv
      let w : Fl r := v
      have hv' : D[i]? = some w := hv
      simp only [D, uDistances, distances, hT, List.getElem?_map] at hv'
      have hi : i < nWin phase x.len (S.lengths.getD k 0) (S.dilations.getD k 0) := by
        by_contra hc
        rw [List.getElem?_eq_none (by simpa using hc)] at hv'
        cases hv'
      rw [List.getElem?_range hi, Option.map_some, Option.some.injEq, hn'] at hv'
      let win : List (Fl r) := window phase (x.rows.getD 0 []) (S.lengths.getD k 0) (S.dilations.getD k 0) i
      have hwl : win.length = S.lengths.getD k 0 := window_length _ _ _ _ _
      refine ⟨fun _ => (znorm win : List (Fl r)), ?_, ?_⟩
      · intro c hc
        have hc0 : c = 0 := by have : c < 1 := hc; omega
        subst hc0
        have := znorm_znormsTo win
        rw [hwl] at this
        exact this
      · have := l1_sumsTo (znorm win) (uValues S k)
        rw [znorm_length, hwl] at this
        have hv2 : l1 (znorm win) (uValues S k) = w := hv'
        rw [hv2] at this
        refine SumsTo.weaken (h := S.lengths.getD k 0) ?_ (Nat.le_add_right _ _)
        show SumsTo r _ (((List.range (S.lengths.getD k 0)).map fun j =>
          |r.rnd (((znorm win).getD j 0).val - ((uValues S k).getD j 0).val)|) ++ []) v
        rw [List.append_nil]
        exact this
    · obtain ⟨f1, ⟨p, f2, f2'⟩, ⟨n, f3, f3'⟩⟩ := features_fl D (S.threshold.getD k 0)
      refine ⟨objRow (K := Fl r) phase _ x, _, p, n, rfl, Prod.ext rfl (Prod.ext f2' f3'), ?_, ?_, ?_⟩
      · have := row_cells (fun k => uFeatures phase S (x.rows.getD 0 []) k) S.lengths.length k 0 hk (by omega)
        refine Eq.trans this ?_
        exact congrArg some f1
      · have := row_cells (fun k => uFeatures phase S (x.rows.getD 0 []) k) S.lengths.length k 1 hk (by omega)
        refine Eq.trans this ?_
        exact congrArg some f2
      · have := row_cells (fun k => uFeatures phase S (x.rows.getD 0 []) k) S.lengths.length k 2 hk (by omega)
        refine Eq.trans this ?_
        exact congrArg some f3
  | m S =>
    have hn' : S.normalize.getD k false = true := hn
    let D : List (Fl r) := mDistances phase S x.rows x.len k
    refine ⟨D, ?_, ?_, ?_⟩
    · show D.length = nWin phase x.len (S.lengths.getD k 0) (S.dilations.getD k 0)
      simp only [D, mDistances, List.length_map, List.length_range]
    · intro i v hv
      let w : Fl r := v
      have hv' : D[i]? = some w := hv
      simp only [D, mDistances, List.getElem?_map] at hv'
      have hi : i < nWin phase x.len (S.lengths.getD k 0) (S.dilations.getD k 0) := by
        by_contra hc
        rw [List.getElem?_eq_none (by simpa using hc)] at hv'
        cases hv'
      rw [List.getElem?_range hi, Option.map_some, Option.some.injEq] at hv'
      unfold mDist at hv'
      rw [hn'] at hv'
      let win : Nat → List (Fl r) := fun c => window phase (x.rows.getD ((mChannels S k).getD c 0) [])
        (S.lengths.getD k 0) (S.dilations.getD k 0) i
      have hwl : ∀ c, (win c).length = S.lengths.getD k 0 := fun c => window_length _ _ _ _ _
      refine ⟨fun c => (znorm (win c) : List (Fl r)), ?_, ?_⟩
      · intro c hc
        have := znorm_znormsTo (win c)
        rw [hwl] at this
        exact this
      · have := foldl_sumsTo (r := r) (List.range (mChannels S k).length)
          (fun c => l1 (znorm (win c)) (mValues S k c))
          (fun c => (List.range (S.lengths.getD k 0)).map fun j =>
            |r.rnd (((znorm (win c)).getD j 0).val - ((mValues S k c).getD j 0).val)|)
          (S.lengths.getD k 0) (fun c _ => by
            have := l1_sumsTo (znorm (win c)) (mValues S k c)
            rw [znorm_length, hwl] at this
            exact this)
          (S.lengths.getD k 0) [] 0 le_rfl (SumsTo.weaken SumsTo.zero (Nat.zero_le _))
        have hv2 : (List.range (mChannels S k).length).foldl
            (fun s c => s + l1 (znorm (win c)) (mValues S k c)) 0 = w := hv'
        rw [List.nil_append, List.length_range, hv2] at this
        exact this
    · obtain ⟨f1, ⟨p, f2, f2'⟩, ⟨n, f3, f3'⟩⟩ := features_fl D (S.threshold.getD k 0)
      refine ⟨objRow (K := Fl r) phase _ x, _, p, n, rfl, Prod.ext rfl (Prod.ext f2' f3'), ?_, ?_, ?_⟩
      · have := row_cells (fun k => mFeatures phase S x.rows x.len k) S.lengths.length k 0 hk (by omega)
        refine Eq.trans this ?_
        exact congrArg some f1
      · have := row_cells (fun k => mFeatures phase S x.rows x.len k) S.lengths.length k 1 hk (by omega)
        refine Eq.trans this ?_
        exact congrArg some f2
      · have := row_cells (fun k => mFeatures phase S x.rows x.len k) S.lengths.length k 2 hk (by omega)
        refine Eq.trans this ?_
        exact congrArg some f3

/-- **C96.** `transform` in rounded arithmetic, compared with the same object computing exactly on the same
input: it succeeds or fails (with the same error) on the same inputs, and the cells of every normalised shapelet
are the exact ones up to the relative error `g` and the absolute error `normSlack g B σ` of the distances. -/
theorem C96_transform {o : Rdst (Fl r) R} {S : Shapelets (Fl r)} (hS : o.shapelets = some S) {nf : Nat}
    (hnf1 : 1 ≤ nf) (hwf : ShpWF S nf) {X : XIn (Fl r)} (hX : X.WF) {xs : List (Mat (Fl r))}
    (hxs : samples X = .ok xs) (hnf : ∀ x ∈ xs, x.rows.length = nf) :
    (∃ e, o.transform X = .error e ∧ o.exact.transform X.exact = .error e) ∨
    (∃ M M', o.exact.transform X.exact = .ok M ∧ o.transform X = .ok M' ∧ M.length = xs.length ∧
      M'.length = xs.length ∧
      ∀ (i : Nat) x row row', xs[i]? = some x → M[i]? = some row → M'[i]? = some row' →
        ∀ k, k < shpCount S.exact → shpNorm S.exact k = true → 0 < shpLength S.exact k →
          HasWindow o.phase x.len (shpLength S.exact k) (shpDilation S.exact k) →
          ∀ B σ g : ℝ, 0 ≤ B → 0 ≤ σ →
            (∀ i, i < nWin o.phase x.len (shpLength S.exact k) (shpDilation S.exact k) →
              ∀ c, c < (shpChannels S.exact k).length →
                (∀ v ∈ shpWindow o.phase S.exact x.rows k c i, |v| ≤ B) ∧
                σ ≤ std (shpWindow o.phase S.exact x.rows k c i)) →
            (1 - r.u)⁻¹ ^ (shpLength S.exact k + (shpChannels S.exact k).length + 9) ≤ 1 + g →
            NearAt r g (normSlack g B σ S.exact k) (shpDistances o.phase S.exact x.rows x.len k)
              (shpThreshold S.exact k) k row row') := by
  rcases transform_same_outcome hS hwf hX hxs hnf with h | ⟨M, M', hM, hM'⟩
  · exact Or.inl h
  · right
    obtain ⟨e', -⟩ := transform_rows hS hwf hX hxs hnf hM'
    have hwf' : ShpWF S.exact nf := by cases S <;> exact hwf
    obtain ⟨e, -⟩ := transform_rows (K := ℝ) (o := o.exact) (S := S.exact) hS hwf' (X := X.exact) hX (xs := xs)
      hxs hnf hM
    let ys : List (Mat ℝ) := xs
    have e2 : M = ys.map (objRow o.phase S.exact) := e
    refine ⟨M, M', hM, hM', (congrArg List.length e2).trans (List.length_map _), by rw [e', List.length_map], ?_⟩
    intro i x row row' hx hr hr' k hk hn hl hw B σ g hB hσ hBσ hg
    have hmem := List.mem_of_getElem? hx
    have hxwf := samples_wf hX hxs x hmem
    have hr2 : row = objRow (K := ℝ) o.phase S.exact x := by
      let y : Mat ℝ := x
      have hy : ys[i]? = some y := hx
      rw [e2, List.getElem?_map, hy, Option.map_some, Option.some.injEq] at hr
      exact hr.symm
    rw [e', List.getElem?_map, hx, Option.map_some, Option.some.injEq] at hr'
    obtain ⟨D', hlen, hD', row1, a', p', n', hrow1, hf', c0, c1, c2⟩ :=
      code_normDistTo (phase := o.phase) hxwf (hnf x hmem) hnf1 hk hn
    obtain ⟨a, a'', p, n, p'', n'', g1, g2, g3⟩ := C96_any_order r o.phase S.exact x.rows
      (show Rect (x.rows : List (List ℝ)) nf x.len from ⟨hnf x hmem, hxwf⟩) hnf1 hn hl hw hσ hBσ hB
      ((hi_mono r (by omega)).trans hg) D' hlen hD'
    rw [hf', Prod.mk.injEq, Prod.mk.injEq, Nat.cast_inj, Nat.cast_inj] at g2
    obtain ⟨rfl, rfl, rfl⟩ := g2
    obtain ⟨b0, b1, b2⟩ := shpRow_cells o.phase S.exact x.rows x.len hk
    rw [g1] at b0 b1 b2
    rw [hr2]
    have hrr : (row' : List ℝ) = row1 := hr'.symm.trans hrow1.symm
    rw [← hrr] at c0 c1 c2
    have hsr := objRow_shpRow o.phase S.exact x
    rw [← hsr] at b0 b1 b2
    exact ⟨a, a', p, n, p', n', b0, b1, b2, c0, c1, c2, g3⟩

/-- **C96.** The size of the relative error: `g = 2 n u` for `n` roundings with `n u ≤ 1 / 2`. -/
theorem C96_error_size (r : Rounding) (n : Nat) (h : n * r.u ≤ 1 / 2) : (1 - r.u)⁻¹ ^ n ≤ 1 + 2 * n * r.u := by
  have h1 := one_add_mul_le_pow (a := -r.u) (by linarith [r.u_lt]) n
  rw [show (1 + -r.u) = 1 - r.u by ring] at h1
  have h2 := lo_pos r n
  rw [inv_pow, inv_eq_one_div, div_le_iff₀ h2]
  set x := (n : ℝ) * r.u with hx
  have hx0 : 0 ≤ x := mul_nonneg (Nat.cast_nonneg _) r.u_nonneg
  have h3 : 1 - x ≤ (1 - r.u) ^ n := by rw [hx]; linarith
  have h4 : (1 + 2 * x) * (1 - x) ≤ (1 + 2 * x) * (1 - r.u) ^ n := mul_le_mul_of_nonneg_left h3 (by linarith)
  have e : 1 + 2 * (n : ℝ) * r.u = 1 + 2 * x := by rw [hx]; ring
  rw [e]
  nlinarith

/-- **C96.** `float64`: for shapelets whose length and number of channels add up to less than 1000, series with
values of absolute value at most 100 and windows whose standard deviation is at least 0.1, every distance `v` is
computed with an error of at most `10⁻¹² v` plus `10⁻⁵` for each channel. -/
theorem C96_double (S : Shapelets ℝ) (k : Nat) (h : shpLength S k + (shpChannels S k).length + 9 ≤ 1000) :
    (1 - Rounding.double.u)⁻¹ ^ (shpLength S k + (shpChannels S k).length + 9) ≤ 1 + 1 / 10 ^ 12 ∧
    normSlack (1 / 10 ^ 12) 100 (1 / 10) S k ≤ (shpChannels S k).length * (1 / 10 ^ 5) := by
  have hu : Rounding.double.u = (1 / 2) ^ 53 := rfl
  constructor
  · set n := shpLength S k + (shpChannels S k).length + 9
    have hn : (n : ℝ) ≤ 1000 := by exact_mod_cast h
    refine (C96_error_size Rounding.double n (by rw [hu]; nlinarith)).trans ?_
    rw [hu]
    nlinarith
  · unfold normSlack
    have hl : (shpLength S k : ℝ) ≤ 1000 := by exact_mod_cast (by omega : shpLength S k ≤ 1000)
    have hC : (0 : ℝ) ≤ (shpChannels S k).length := by positivity
    have hl0 : (0 : ℝ) ≤ shpLength S k := by positivity
    have e : (1 + 1 / 10 ^ 12 : ℝ) * ((shpChannels S k).length * (shpLength S k * (1 / 10 ^ 12 *
        (1 + 2 * 100 / (1 / 10 + 1 / 10 ^ 8))))) = (shpChannels S k).length *
        (shpLength S k * ((1 + 1 / 10 ^ 12) * (1 / 10 ^ 12 * (1 + 2 * 100 / (1 / 10 + 1 / 10 ^ 8))))) := by ring
    rw [e]
    refine mul_le_mul_of_nonneg_left ?_ hC
    have : ((1 + 1 / 10 ^ 12) * (1 / 10 ^ 12 * (1 + 2 * 100 / (1 / 10 + 1 / 10 ^ 8))) : ℝ) ≤ 1 / 10 ^ 8 := by
      norm_num
    nlinarith

/-- The second shapelet of `exU` is normalised. -/
example : ∃ M M', exFl.exact.transform (.array .float64 ⟨exX, 1, 5⟩) = .ok M ∧
    exFl.transform (XIn.array .float64 (⟨exX, 1, 5⟩ : Arr3 ℝ) : XIn ℝ) = .ok M' ∧
    ∀ row row', M[0]? = some row → M'[0]? = some row' →
      NearAt Rounding.double (1 / 10 ^ 12) (normSlack (1 / 10 ^ 12) 4 0 (.u exU) 1)
        (shpDistances false (.u exU) [[0, 1, 2, 3, 4]] 5 1) 1 1 row row' := by
  have hX : (XIn.array .float64 (⟨exX, 1, 5⟩ : Arr3 ℝ)).WF := by simp [XIn.WF, exX]
  rcases C96_transform (r := Rounding.double) (o := exFl) (S := Shapelets.u exU) rfl (nf := 1) le_rfl exU_wf
    (X := XIn.array .float64 (⟨exX, 1, 5⟩ : Arr3 ℝ)) hX
    (xs := [(⟨[[0, 1, 2, 3, 4]], 5⟩ : Mat ℝ), (⟨[[1, 1, 0, 0, 2]], 5⟩ : Mat ℝ)]) rfl
    (by
      show ∀ x ∈ [(⟨[[0, 1, 2, 3, 4]], 5⟩ : Mat ℝ), (⟨[[1, 1, 0, 0, 2]], 5⟩ : Mat ℝ)], x.rows.length = 1
      simp)
    with ⟨e, -, h⟩ | ⟨M, M', h1, h2, h3, h4, h5⟩
  · have e1 : exFl.exact.transform (XIn.array .float64 ⟨exX, 1, 5⟩) = uslApply exX exU false := by
      show (do let A ← toArr3 (XIn.array .float64 (⟨exX, 1, 5⟩ : Arr3 ℝ)); uslApply A.data exU false) = _
      rfl
    have h' : exFl.exact.transform (XIn.array .float64 ⟨exX, 1, 5⟩) = .error e := h
    rw [e1, C12_univariate_same_length exU_wf false exX_ne, if_pos exX_fits] at h'
    cases h'
  · refine ⟨M, M', h1, h2, fun row row' hr hr' => ?_⟩
    refine h5 0 _ row row' rfl hr hr' 1 (by simp [shpCount, Shapelets.exact, exU]) rfl
      (by show 0 < 3; omega) (by show (3 - 1) * 2 < 5; omega) 4 0 (1 / 10 ^ 12) (by norm_num) le_rfl ?_
      (C96_double (.u exU) 1 (by simp [exU, shpLength, shpChannels])).1
    intro i hi c hc
    refine ⟨?_, std_nonneg _⟩
    have hi0 : i < 1 := hi
    have hc0 : c < 1 := hc
    have hi1 : i = 0 := by omega
    have hc1 : c = 0 := by omega
    subst hi1 hc1
    have e : shpWindow exFl.phase (Shapelets.exact (r := Rounding.double) (Shapelets.u exU))
        [[0, 1, 2, 3, 4]] 1 0 0 = [0, 2, 4] := rfl
    intro v hv
    have hv' : v ∈ ([0, 2, 4] : List ℝ) := by rw [← e]; exact hv
    simp only [List.mem_cons, List.not_mem_nil, or_false] at hv'
    rcases hv' with rfl | rfl | rfl <;> norm_num

end Convst.Props
