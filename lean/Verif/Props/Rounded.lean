import Verif.Proofs.Rounded
import Verif.Props.Stability

/-!
# C95: features computed in rounded arithmetic
-/

set_option autoImplicit false
set_option linter.unusedSectionVars false

namespace Convst.Props
open Convst Spec

variable {R : Type} {r : Rounding}

/-! ## Success does not depend on the arithmetic -/

/-- Whether `transform` succeeds, and how it fails, is the same in rounded and in exact arithmetic. -/
theorem transform_same_outcome {o : Rdst (Fl r) R} {S : Shapelets (Fl r)} (hS : o.shapelets = some S) {nf : Nat}
    (hwf : ShpWF S nf) {X : XIn (Fl r)} (hX : X.WF) {xs : List (Mat (Fl r))} (hxs : samples X = .ok xs)
    (hnf : ∀ x ∈ xs, x.rows.length = nf) :
    (∃ e, o.transform X = .error e ∧ o.exact.transform X.exact = .error e) ∨
    (∃ M M', o.exact.transform X.exact = .ok M ∧ o.transform X = .ok M') := by
  have hS' : o.exact.shapelets = some S.exact := hS
  unfold Rdst.transform
  rw [hS, hS']
  have ht : o.exact.transformType = o.transformType := rfl
  have hph : o.exact.phase = o.phase := rfl
  simp only [ht, hph]
  split
  · cases hf : formatUneven X with
    | error e =>
      have hf' : formatUneven X.exact = .error e := hf
      exact Or.inl ⟨e, rfl, by rw [hf']; rfl⟩
    | ok q =>
      obtain ⟨A, lens⟩ := q
      let A' : Arr3 ℝ := A
      have hf' : formatUneven X.exact = .ok (A', lens) := hf
      rw [hf']
      simp only [Res.bind_ok]
      cases hc : checkArray3D (Arr3.py A) with
      | error e =>
        have hc' : checkArray3D (Arr3.py A') = .error e := hc
        exact Or.inl ⟨e, rfl, by rw [hc']; rfl⟩
      | ok Y =>
        obtain ⟨-, hnf0, -⟩ := checkArray3D_py hc
        obtain ⟨hne, hdata, rfl, hrows, hlen⟩ := formatUneven_samples hf hxs
        have hw := samples_wf hX hxs
        have hl : A.data.length = xs.length := by rw [hdata]; simp
        have hc' : checkArray3D (Arr3.py A') = .ok (Y : PyArr (Arr3 ℝ)) := hc
        rw [hc']
        simp only [Res.bind_ok]
        cases S with
        | u S =>
          have hwf' : UWF (K := ℝ) S := hwf
          have hA : ∀ s ∈ A.data, s ≠ [] := by
            intro s hs
            rw [hdata] at hs
            obtain ⟨z, hz, rfl⟩ := List.mem_map.1 hs
            have := hrows z hz
            apply List.ne_nil_of_length_pos
            rw [List.length_map]; omega
          cases hty : o.transformType with
          | uniVar =>
            have e1 := C12_univariate_variable_length hwf o.phase hA (xLen := xs.map Mat.len) (by simp [hl])
            have e2 := C12_univariate_variable_length (K := ℝ) hwf' o.phase hA (xLen := xs.map Mat.len)
              (by rw [List.length_map]; exact hl.le)
            show (∃ e, uvlApply A.data S o.phase (xs.map Mat.len) = .error e ∧
                uvlApply (K := ℝ) A.data S o.phase (xs.map Mat.len) = .error e) ∨
              ∃ M M', uvlApply (K := ℝ) A.data S o.phase (xs.map Mat.len) = .ok M ∧
                uvlApply A.data S o.phase (xs.map Mat.len) = .ok M'
            rw [e1, e2]
            by_cases hc : ∀ i, i < A.data.length → ∀ k, k < S.lengths.length →
                Fits o.phase (uPrefix A.data (xs.map Mat.len) i).length (S.lengths.getD k 0) (S.dilations.getD k 0)
            · exact Or.inr ⟨_, _, if_pos hc, if_pos hc⟩
            · exact Or.inl ⟨_, if_neg hc, if_neg hc⟩
          | _ => exact Or.inl ⟨_, rfl, rfl⟩
        | m S =>
          have hnfA : nf = A.nf := by
            obtain ⟨z, hz⟩ := List.exists_mem_of_ne_nil _ hne
            rw [← hnf z hz, hrows z hz]
          subst hnfA
          have hwf' : MWF (K := ℝ) S A.nf := hwf
          have hA : ∀ s ∈ A.data, Rect s A.nf A.nt := by
            intro s hs
            rw [hdata] at hs
            obtain ⟨z, hz, rfl⟩ := List.mem_map.1 hs
            refine ⟨by rw [List.length_map]; exact hrows z hz, ?_⟩
            intro r hr
            obtain ⟨r', hr', rfl⟩ := List.mem_map.1 hr
            have e1 := hw z hz r' hr'
            have e2 := hlen z hz
            simp only [padRow, List.length_append, List.length_replicate]
            omega
          cases hty : o.transformType with
          | multiVar =>
            have e1 := C12_multivariate_variable_length hwf o.phase hA (xLen := xs.map Mat.len) (by simp [hl])
            have e2 := C12_multivariate_variable_length (K := ℝ) hwf' o.phase hA (xLen := xs.map Mat.len)
              (by rw [List.length_map]; exact hl.le)
            show (∃ e, mvlApply A.data A.nt S o.phase (xs.map Mat.len) = .error e ∧
                mvlApply (K := ℝ) A.data A.nt S o.phase (xs.map Mat.len) = .error e) ∨
              ∃ M M', mvlApply (K := ℝ) A.data A.nt S o.phase (xs.map Mat.len) = .ok M ∧
                mvlApply A.data A.nt S o.phase (xs.map Mat.len) = .ok M'
            rw [e1, e2]
            by_cases hc : ∀ i, i < A.data.length → ∀ k, k < S.lengths.length →
                Fits o.phase (min ((xs.map Mat.len).getD i 0) A.nt) (S.lengths.getD k 0) (S.dilations.getD k 0)
            · exact Or.inr ⟨_, _, if_pos hc, if_pos hc⟩
            · exact Or.inl ⟨_, if_neg hc, if_neg hc⟩
          | _ => exact Or.inl ⟨_, rfl, rfl⟩
  · cases hf : toArr3 X with
    | error e =>
      have hf' : toArr3 X.exact = .error e := hf
      exact Or.inl ⟨e, rfl, by rw [hf']; rfl⟩
    | ok A =>
      let A' : Arr3 ℝ := A
      have hf' : toArr3 X.exact = .ok A' := hf
      rw [hf']
      simp only [Res.bind_ok]
      obtain ⟨hs, hnf0, -, hne, hrect⟩ := toArr3_samples hX hf
      rw [hs, Except.ok.injEq] at hxs
      subst hxs
      cases S with
      | u S =>
        have hwf' : UWF (K := ℝ) S := hwf
        have hA' : ∀ s ∈ A.data, s ≠ [] := by
          intro s hs
          apply List.ne_nil_of_length_pos
          rw [(hrect s hs).1]; exact hnf0
        cases hty : o.transformType with
        | uni =>
          have e1 := C12_univariate_same_length hwf o.phase hA'
          have e2 := C12_univariate_same_length (K := ℝ) hwf' o.phase hA'
          show (∃ e, uslApply A.data S o.phase = .error e ∧ uslApply (K := ℝ) A.data S o.phase = .error e) ∨
            ∃ M M', uslApply (K := ℝ) A.data S o.phase = .ok M ∧ uslApply A.data S o.phase = .ok M'
          rw [e1, e2]
          by_cases hc : ∀ s ∈ A.data, ∀ k, k < S.lengths.length →
              Fits o.phase (s.getD 0 []).length (S.lengths.getD k 0) (S.dilations.getD k 0)
          · exact Or.inr ⟨_, _, if_pos hc, if_pos hc⟩
          · exact Or.inl ⟨_, if_neg hc, if_neg hc⟩
        | _ => exact Or.inl ⟨_, rfl, rfl⟩
      | m S =>
        have hnfA : nf = A.nf := by
          obtain ⟨z, hz⟩ := List.exists_mem_of_ne_nil _ hne
          rw [← hnf ⟨z, A.nt⟩ (List.mem_map.2 ⟨z, hz, rfl⟩)]
          exact (hrect z hz).1
        subst hnfA
        have hwf' : MWF (K := ℝ) S A.nf := hwf
        cases hty : o.transformType with
        | multi =>
          have e1 := C12_multivariate_same_length hwf o.phase hrect hne
          have e2 := C12_multivariate_same_length (K := ℝ) hwf' o.phase hrect hne
          show (∃ e, mslApply A.data A.nt S o.phase = .error e ∧
              mslApply (K := ℝ) A.data A.nt S o.phase = .error e) ∨
            ∃ M M', mslApply (K := ℝ) A.data A.nt S o.phase = .ok M ∧ mslApply A.data A.nt S o.phase = .ok M'
          rw [e1, e2]
          by_cases hc : ∀ k, k < S.lengths.length → Fits o.phase A.nt (S.lengths.getD k 0) (S.dilations.getD k 0)
          · exact Or.inr ⟨_, _, if_pos hc, if_pos hc⟩
          · exact Or.inl ⟨_, if_neg hc, if_neg hc⟩
        | _ => exact Or.inl ⟨_, rfl, rfl⟩

/-! ## Distances -/

/-- The exact distances of a shapelet compared with the raw series. -/
theorem shpDistances_terms {phase : Bool} {S : Shapelets ℝ} {s : List (List ℝ)} {nf T k : Nat} (hs : Rect s nf T)
    (hnf : 1 ≤ nf) (hn : shpNorm S k = false) :
    shpDistances phase S s T k = (List.range (nWin phase T (shpLength S k) (shpDilation S k))).map fun i =>
      (shpTerms id phase S s k i).sum := by
  cases S with
  | u S =>
    have h0 : 0 < s.length := by rw [hs.1]; exact hnf
    have hT : (s.getD 0 []).length = T := by rw [getD_lt _ h0]; exact hs.2 _ (List.getElem_mem h0)
    simp only [shpNorm] at hn
    simp only [shpDistances, uDistances, distances, hn, hT, shpLength, shpDilation, seen, Bool.false_eq_true,
      if_false]
    apply List.map_congr_left
    intro i _
    rw [l1_eq_sum, window_length, Finset.sum_range, ← List.sum_ofFn]
    simp only [shpTerms, id]
    congr 1
    rw [List.ofFn_eq_map, ← List.map_coe_finRange_eq_range, List.map_map]
    rfl
  | m S =>
    simp only [shpNorm] at hn
    simp only [shpDistances, mDistances, shpLength, shpDilation]
    apply List.map_congr_left
    intro i _
    rw [mDist_eq_sum]
    simp only [shpTerms, id, hn, seen, Bool.false_eq_true, if_false]
    rw [List.flatMap_def, List.sum_flatten, List.map_map, Finset.sum_range, ← List.sum_ofFn]
    congr 1
    rw [List.ofFn_eq_map, ← List.map_coe_finRange_eq_range (n := (mChannels S k).length), List.map_map]
    apply List.map_congr_left
    intro c _
    simp only [Function.comp]
    rw [l1_eq_sum, window_length, Finset.sum_range, ← List.sum_ofFn, List.ofFn_eq_map,
      ← List.map_coe_finRange_eq_range, List.map_map]
    rfl

/-- The terms of a distance, as absolute values of differences. -/
theorem shpTerms_abs (phase : Bool) (S : Shapelets ℝ) (s : List (List ℝ)) (k i : Nat) :
    ∃ l : List ℝ, ∀ rnd : ℝ → ℝ, shpTerms rnd phase S s k i = l.map fun t => |rnd t| := by
  cases S with
  | u S =>
    refine ⟨(List.range (S.lengths.getD k 0)).map fun j =>
      (window phase (s.getD 0 []) (S.lengths.getD k 0) (S.dilations.getD k 0) i).getD j 0 -
        (uValues S k).getD j 0, fun rnd => ?_⟩
    rw [List.map_map]; rfl
  | m S =>
    refine ⟨(List.range (mChannels S k).length).flatMap fun c =>
      (List.range (S.lengths.getD k 0)).map fun j =>
        (window phase (s.getD ((mChannels S k).getD c 0) []) (S.lengths.getD k 0)
          (S.dilations.getD k 0) i).getD j 0 - (mValues S k c).getD j 0, fun rnd => ?_⟩
    rw [List.map_flatMap]
    simp only [List.map_map]
    rfl

/-- **C95.** Sums in any order.  A shapelet compared with the raw series; its distances `D'` are computed by
rounded subtractions and rounded additions, in any order and with any association, no term going through more
than `h` additions.  Then the features of `D'` are the exact features of the shapelet up to a relative error
`(1 + u) ^ (h + 1) - 1` of the distances. -/
theorem C95_any_order (r : Rounding) (phase : Bool) (S : Shapelets ℝ) (s : List (List ℝ)) {nf T k : Nat}
    (hs : Rect s nf T) (hnf : 1 ≤ nf) (hn : shpNorm S k = false)
    (hw : HasWindow phase T (shpLength S k) (shpDilation S k)) {h : Nat} {γ : ℝ}
    (hγ : (1 + r.u) ^ (h + 1) ≤ 1 + γ) (D' : List ℝ)
    (hlen : D'.length = nWin phase T (shpLength S k) (shpDilation S k))
    (hD' : ∀ (i : Nat) (v : ℝ), D'[i]? = some v → SumsTo r h (shpTerms r.rnd phase S s k i) v) :
    ∃ (a a' : ℝ) (p n p' n' : Nat), shpFeatures phase S s T k = (a, (p : ℝ), (n : ℝ)) ∧
      features D' (shpThreshold S k) = (a', (p' : ℝ), (n' : ℝ)) ∧
      RoundedFeatures γ (shpDistances phase S s T k) (shpThreshold S k) a p n a' p' n' := by
  have hu := r.u_nonneg
  have hu1 := r.u_lt
  have hlenD := shpDistances_len (S := S) (phase := phase) (k := k) hs hnf
  refine features_rounded (lo := (1 - r.u) ^ (h + 1)) (hi := (1 + r.u) ^ (h + 1))
    (pow_pos (by linarith) _) ?_ ?_ hγ (by rw [hlen, hlenD]) ?_ (shpDistances_nonneg _ _ _ _ _) ?_
  · have := one_le_pow₀ (n := h + 1) (show 1 ≤ 1 + r.u by linarith)
    linarith
  · have := one_sub_le_pow r (h + 1)
    linarith
  · apply List.ne_nil_of_length_pos
    rw [hlenD]
    exact nWin_pos_of_hasWindow hw
  · intro i a b ha hb
    rw [shpDistances_terms hs hnf hn, List.getElem?_map] at ha
    have hi : i < nWin phase T (shpLength S k) (shpDilation S k) := by
      rw [← hlen]; exact (List.getElem?_eq_some_iff.1 hb).1
    rw [List.getElem?_range hi, Option.map_some, Option.some.injEq] at ha
    subst ha
    obtain ⟨l, hl⟩ := shpTerms_abs phase S s k i
    have := hD' i b hb
    rw [hl] at this
    rw [hl]
    exact dist_bounds this

/-- The distances computed by the code are sums of rounded differences. -/
theorem code_sumsTo {phase : Bool} {S : Shapelets (Fl r)} {x : Mat (Fl r)} {nf k : Nat} (hx : x.WF)
    (hrows : x.rows.length = nf) (hnf : 1 ≤ nf) (hk : k < shpCount S.exact)
    (hn : shpNorm S.exact k = false) :
    ∃ D' : List ℝ, D'.length = nWin phase x.len (shpLength S.exact k) (shpDilation S.exact k) ∧
      (∀ (i : Nat) (v : ℝ), D'[i]? = some v →
        SumsTo r (shpLength S.exact k + (shpChannels S.exact k).length)
          (shpTerms r.rnd phase S.exact x.rows k i) v) ∧
      ∃ (row : List ℝ) (a : ℝ) (p n : Nat), row = objRow (K := Fl r) phase S x ∧
        features D' (shpThreshold S.exact k) = (a, (p : ℝ), (n : ℝ)) ∧
        row[3 * k]? = some a ∧
        row[3 * k + 1]? = some (r.rnd p) ∧
        row[3 * k + 2]? = some (r.rnd n) := by
  cases S with
  | u S =>
    have h0 : 0 < x.rows.length := by omega
    have hT : (x.rows.getD 0 []).length = x.len := by
      rw [getD_lt _ h0]; exact hx _ (List.getElem_mem h0)
    have hn' : S.normalize.getD k false = false := hn
    let D : List (Fl r) := uDistances phase S (x.rows.getD 0 []) k
    refine ⟨D, ?_, ?_, ?_⟩
    · show D.length = nWin phase x.len (S.lengths.getD k 0) (S.dilations.getD k 0)
      simp only [D, uDistances, distances, hT, List.length_map, List.length_range]
    · intro i v hv
      let w : Fl r := v
      have hv' : D[i]? = some w := hv
      simp only [D, uDistances, distances, hT, List.getElem?_map] at hv'
      have hi : i < nWin phase x.len (S.lengths.getD k 0) (S.dilations.getD k 0) := by
        by_contra hc
        rw [List.getElem?_eq_none (by simpa using hc)] at hv'
        cases hv'
      rw [List.getElem?_range hi, Option.map_some, Option.some.injEq, hn'] at hv'
      have := l1_sumsTo (seen false (window phase (x.rows.getD 0 []) (S.lengths.getD k 0) (S.dilations.getD k 0) i))
        (uValues S k)
      rw [hv', seen_length, window_length] at this
      exact SumsTo.weaken this (by show S.lengths.getD k 0 ≤ S.lengths.getD k 0 + _; omega)
    · obtain ⟨f1, ⟨p, f2, f2'⟩, ⟨n, f3, f3'⟩⟩ := features_fl D
        (S.threshold.getD k 0)
      refine ⟨objRow (K := Fl r) phase _ x, _, p, n, rfl, Prod.ext rfl (Prod.ext f2' f3'), ?_, ?_, ?_⟩
      · have := row_cells (fun k => uFeatures phase S (x.rows.getD 0 []) k) S.lengths.length k 0 hk (by omega)
        refine Eq.trans this ?_
        exact congrArg some f1
      · have := row_cells (fun k => uFeatures phase S (x.rows.getD 0 []) k) S.lengths.length k 1 hk (by omega)
        refine Eq.trans this ?_
        exact congrArg some f2
      · have := row_cells (fun k => uFeatures phase S (x.rows.getD 0 []) k) S.lengths.length k 2 hk (by omega)
        refine Eq.trans this ?_
        exact congrArg some f3
  | m S =>
    have hn' : S.normalize.getD k false = false := hn
    let D : List (Fl r) := mDistances phase S x.rows x.len k
    refine ⟨D, ?_, ?_, ?_⟩
    · show D.length = nWin phase x.len (S.lengths.getD k 0) (S.dilations.getD k 0)
      simp only [D, mDistances, List.length_map, List.length_range]
    · intro i v hv
      let w : Fl r := v
      have hv' : D[i]? = some w := hv
      simp only [D, mDistances, List.getElem?_map] at hv'
      have hi : i < nWin phase x.len (S.lengths.getD k 0) (S.dilations.getD k 0) := by
        by_contra hc
        rw [List.getElem?_eq_none (by simpa using hc)] at hv'
        cases hv'
      rw [List.getElem?_range hi, Option.map_some, Option.some.injEq] at hv'
      unfold mDist at hv'
      rw [hn'] at hv'
      have := foldl_sumsTo (r := r) (List.range (mChannels S k).length)
        (fun c => l1 (seen false (window phase (x.rows.getD ((mChannels S k).getD c 0) []) (S.lengths.getD k 0)
          (S.dilations.getD k 0) i)) (mValues S k c))
        (fun c => (List.range (S.lengths.getD k 0)).map fun j =>
          |r.rnd (((window phase (x.rows.getD ((mChannels S k).getD c 0) []) (S.lengths.getD k 0)
            (S.dilations.getD k 0) i).getD j 0).val - ((mValues S k c).getD j 0).val)|)
        (S.lengths.getD k 0) (fun c _ => by
          have := l1_sumsTo (seen false (window phase (x.rows.getD ((mChannels S k).getD c 0) [])
            (S.lengths.getD k 0) (S.dilations.getD k 0) i)) (mValues S k c)
          rw [seen_length, window_length] at this
          exact this)
        (S.lengths.getD k 0) [] 0 le_rfl (SumsTo.weaken SumsTo.zero (Nat.zero_le _))
      rw [List.nil_append, List.length_range, hv'] at this
      exact this
    · obtain ⟨f1, ⟨p, f2, f2'⟩, ⟨n, f3, f3'⟩⟩ := features_fl D
        (S.threshold.getD k 0)
      refine ⟨objRow (K := Fl r) phase _ x, _, p, n, rfl, Prod.ext rfl (Prod.ext f2' f3'), ?_, ?_, ?_⟩
      · have := row_cells (fun k => mFeatures phase S x.rows x.len k) S.lengths.length k 0 hk (by omega)
        refine Eq.trans this ?_
        exact congrArg some f1
      · have := row_cells (fun k => mFeatures phase S x.rows x.len k) S.lengths.length k 1 hk (by omega)
        refine Eq.trans this ?_
        exact congrArg some f2
      · have := row_cells (fun k => mFeatures phase S x.rows x.len k) S.lengths.length k 2 hk (by omega)
        refine Eq.trans this ?_
        exact congrArg some f3

theorem objRow_shpRow (phase : Bool) (S : Shapelets ℝ) (x : Mat ℝ) :
    objRow phase S x = shpRow phase S x.rows x.len := by
  cases S <;> rfl

/-- **C95.** `transform` in rounded arithmetic, compared with the same object computing exactly on the same
input: it succeeds or fails (with the same error) on the same inputs, and the cells of every shapelet compared
with the raw series are the exact ones up to a relative error `γ` of the distances, where `1 + γ` bounds
`(1 + u)` to the power "length plus number of channels plus one". -/
theorem C95_transform {o : Rdst (Fl r) R} {S : Shapelets (Fl r)} (hS : o.shapelets = some S) {nf : Nat}
    (hnf1 : 1 ≤ nf) (hwf : ShpWF S nf) {X : XIn (Fl r)} (hX : X.WF) {xs : List (Mat (Fl r))}
    (hxs : samples X = .ok xs) (hnf : ∀ x ∈ xs, x.rows.length = nf) :
    (∃ e, o.transform X = .error e ∧ o.exact.transform X.exact = .error e) ∨
    (∃ M M', o.exact.transform X.exact = .ok M ∧ o.transform X = .ok M' ∧ M.length = xs.length ∧
      M'.length = xs.length ∧
      ∀ (i : Nat) x row row', xs[i]? = some x → M[i]? = some row → M'[i]? = some row' →
        ∀ k, k < shpCount S.exact → shpNorm S.exact k = false →
          HasWindow o.phase x.len (shpLength S.exact k) (shpDilation S.exact k) →
          ∀ γ, (1 + r.u) ^ (shpLength S.exact k + (shpChannels S.exact k).length + 1) ≤ 1 + γ →
            RoundedAt r γ (shpDistances o.phase S.exact x.rows x.len k) (shpThreshold S.exact k) k row row') := by
  rcases transform_same_outcome hS hwf hX hxs hnf with h | ⟨M, M', hM, hM'⟩
  · exact Or.inl h
  · right
    obtain ⟨e', -⟩ := transform_rows hS hwf hX hxs hnf hM'
    have hwf' : ShpWF S.exact nf := by cases S <;> exact hwf
    obtain ⟨e, -⟩ := transform_rows (K := ℝ) (o := o.exact) (S := S.exact) hS hwf' (X := X.exact) hX (xs := xs)
      hxs hnf hM
    let ys : List (Mat ℝ) := xs
    have e2 : M = ys.map (objRow o.phase S.exact) := e
    refine ⟨M, M', hM, hM', (congrArg List.length e2).trans (List.length_map _), by rw [e', List.length_map], ?_⟩
    intro i x row row' hx hr hr' k hk hn hw γ hγ
    have hmem := List.mem_of_getElem? hx
    have hxwf := samples_wf hX hxs x hmem
    have hr2 : row = objRow (K := ℝ) o.phase S.exact x := by
      let y : Mat ℝ := x
      have hy : ys[i]? = some y := hx
      rw [e2, List.getElem?_map, hy, Option.map_some, Option.some.injEq] at hr
      exact hr.symm
    rw [e', List.getElem?_map, hx, Option.map_some, Option.some.injEq] at hr'
    obtain ⟨D', hl, hD', row1, a', p', n', hrow1, hf', c0, c1, c2⟩ :=
      code_sumsTo (phase := o.phase) hxwf (hnf x hmem) hnf1 hk hn
    obtain ⟨a, a'', p, n, p'', n'', g1, g2, g3⟩ := C95_any_order r o.phase S.exact x.rows
      (show Rect (x.rows : List (List ℝ)) nf x.len from ⟨hnf x hmem, hxwf⟩) hnf1 hn hw hγ D' hl hD'
    rw [hf', Prod.mk.injEq, Prod.mk.injEq, Nat.cast_inj, Nat.cast_inj] at g2
    obtain ⟨rfl, rfl, rfl⟩ := g2
    obtain ⟨b0, b1, b2⟩ := shpRow_cells o.phase S.exact x.rows x.len hk
    rw [g1] at b0 b1 b2
    rw [hr2]
    have hrr : (row' : List ℝ) = row1 := hr'.symm.trans hrow1.symm
    rw [← hrr] at c0 c1 c2
    have hsr := objRow_shpRow o.phase S.exact x
    rw [← hsr] at b0 b1 b2
    exact ⟨a, a', p, n, p', n', b0, b1, b2, c0, c1, c2, g3⟩

/-- **C95.** The size of the error: with `n` roundings and `n * u ≤ 1 / 2` one may take `γ = 2 * n * u`. -/
theorem C95_error_size (r : Rounding) (n : Nat) (h : n * r.u ≤ 1 / 2) : (1 + r.u) ^ n ≤ 1 + 2 * n * r.u := by
  have hu := r.u_nonneg
  have h1 := one_add_mul_le_pow (a := -r.u) (by linarith [r.u_lt]) n
  have e : (1 + -r.u) = 1 - r.u := by ring
  rw [e] at h1
  have h2 : (1 + r.u) ^ n * (1 - r.u) ^ n ≤ 1 := by
    rw [← mul_pow]
    exact pow_le_one₀ (mul_nonneg (by linarith) (by linarith [r.u_lt])) (by nlinarith)
  have h3 : 0 ≤ (1 + r.u) ^ n := pow_nonneg (by linarith) _
  have h4 : (1 + r.u) ^ n * (1 - n * r.u) ≤ 1 :=
    (mul_le_mul_of_nonneg_left (by linarith) h3).trans h2
  set x := (n : ℝ) * r.u
  have hx : 0 ≤ x := mul_nonneg (Nat.cast_nonneg _) hu
  have h5 : 1 ≤ (1 + 2 * x) * (1 - x) := by nlinarith
  have h6 : (1 + r.u) ^ n * (1 - x) ≤ (1 + 2 * x) * (1 - x) := h4.trans h5
  have := le_of_mul_le_mul_right h6 (by linarith)
  linarith

/-- **C95.** For the format of `float64`: with at most a million roundings per distance, every distance has a
relative error of at most `2⁻³²`, and positions and counts below `2⁵³` are not rounded. -/
theorem C95_double (n : Nat) (h : n ≤ 2 ^ 20) :
    (1 + Rounding.double.u) ^ n ≤ 1 + (1 / 2) ^ 32 ∧ ∀ p : Nat, p < 2 ^ 53 → Rounding.double.rnd p = p := by
  have hu : Rounding.double.u = (1 / 2) ^ 53 := rfl
  have hn : (n : ℝ) ≤ 2 ^ 20 := by exact_mod_cast h
  refine ⟨?_, fun p hp => rndBin_natCast hp⟩
  have := C95_error_size Rounding.double n (by rw [hu]; nlinarith)
  refine this.trans ?_
  rw [hu]
  nlinarith

/-- A fitted object and two series, in double precision. -/
noncomputable def exFl : Rdst (Fl Rounding.double) Nat :=
  ({ (exObj .auto : Rdst ℝ Nat) with shapelets := some (.u exU), transformType := .uni } : Rdst ℝ Nat)

example : ∃ M M', exFl.exact.transform (.array .float64 ⟨exX, 1, 5⟩) = .ok M ∧
    exFl.transform (XIn.array .float64 (⟨exX, 1, 5⟩ : Arr3 ℝ) : XIn ℝ) = .ok M' ∧ M.length = 2 ∧ M'.length = 2 ∧
    ∀ row row', M[1]? = some row → M'[1]? = some row' →
      RoundedAt Rounding.double ((1 / 2) ^ 32) (shpDistances false (.u exU) [[1, 1, 0, 0, 2]] 5 0) (1 / 2) 0
        row row' := by
  have hX : (XIn.array .float64 (⟨exX, 1, 5⟩ : Arr3 ℝ)).WF := by simp [XIn.WF, exX]
  rcases C95_transform (r := Rounding.double) (o := exFl) (S := Shapelets.u exU) rfl (nf := 1) le_rfl exU_wf
    (X := XIn.array .float64 (⟨exX, 1, 5⟩ : Arr3 ℝ)) hX
    (xs := [(⟨[[0, 1, 2, 3, 4]], 5⟩ : Mat ℝ), (⟨[[1, 1, 0, 0, 2]], 5⟩ : Mat ℝ)]) rfl
    (by
      show ∀ x ∈ [(⟨[[0, 1, 2, 3, 4]], 5⟩ : Mat ℝ), (⟨[[1, 1, 0, 0, 2]], 5⟩ : Mat ℝ)], x.rows.length = 1
      simp)
    with ⟨e, -, h⟩ | ⟨M, M', h1, h2, h3, h4, h5⟩
  · have e1 : exFl.exact.transform (XIn.array .float64 ⟨exX, 1, 5⟩) = uslApply exX exU false := by
      show (do let A ← toArr3 (XIn.array .float64 (⟨exX, 1, 5⟩ : Arr3 ℝ)); uslApply A.data exU false) = _
      rfl
    have h' : exFl.exact.transform (XIn.array .float64 ⟨exX, 1, 5⟩) = .error e := h
    rw [e1, C12_univariate_same_length exU_wf false exX_ne, if_pos exX_fits] at h'
    cases h'
  · refine ⟨M, M', h1, h2, h3, h4, fun row row' hr hr' => ?_⟩
    exact h5 1 _ row row' rfl hr hr' 0 (by simp [shpCount, Shapelets.exact, exU]) rfl
      (by show (2 - 1) * 1 < 5; omega) _ (C95_double _ (by decide)).1

/-- Four numbers added by two lanes, the way a vectorised loop does. -/
example (r : Rounding) (a b c d : ℝ) :
    SumsTo r 2 [a, b, c, d] (r.rnd (r.rnd (a + c) + r.rnd (b + d))) := by
  have h1 := SumsTo.add (SumsTo.one (r := r) a) (SumsTo.one c)
  have h2 := SumsTo.add (SumsTo.one (r := r) b) (SumsTo.one d)
  refine SumsTo.perm (SumsTo.add h1 h2) ?_
  simp only [List.cons_append, List.nil_append]
  exact List.Perm.cons a (List.Perm.swap b c [d])

end Convst.Props
