import Verif.Props.Fit

/-!
# Further properties of `fit`: padding, dilations, log-weighted choice, discards, fit then transform
-/

set_option autoImplicit false
set_option linter.unusedSectionVars false

namespace Convst.Props
open Convst Spec

/-! ## C27: padding is never read (any scalar type, any generator) -/

section Padding
variable {G K L : Type} [Gen G K] [Scalar K] [DecidableEq L]

/-- Two padded data sets holding the same series: same numbers of samples and channels, and the first
`xLen[s]` values of every channel agree. -/
structure SameSeries (xLen : List Nat) (X X' : List (List (List K))) : Prop where
  samples : X.length = X'.length
  channels : ∀ s : Nat, (X.getD s []).length = (X'.getD s []).length
  values : ∀ s c : Nat, ((X.getD s []).getD c []).take (xLen.getD s 0) =
    ((X'.getD s []).getD c []).take (xLen.getD s 0)

omit [Gen G K] [Scalar K] in
theorem aget2_prefix {xLen : List Nat} {X X' : List (List (List K))} (h : SameSeries xLen X X')
    {s c n : Nat} (hn : aget xLen s = .ok n) :
    (aget2 X s c >>= fun x => (pure (x.take n) : Res (List K))) =
      (aget2 X' s c >>= fun x => (pure (x.take n) : Res (List K))) := by
  have hn' : xLen.getD s 0 = n := getD_some (aget_eq_ok.1 hn)
  by_cases hs : s < X.length
  · have hs' : s < X'.length := by rw [← h.samples]; exact hs
    have hch := h.channels s
    have hv := h.values s c
    rw [getD_lt _ hs, getD_lt _ hs'] at hch hv
    unfold aget2
    rw [aget_ok hs, aget_ok hs', Res.bind_ok, Res.bind_ok]
    by_cases hc : c < X[s].length
    · have hc' : c < X'[s].length := by rw [← hch]; exact hc
      rw [getD_lt _ hc, getD_lt _ hc', hn'] at hv
      rw [aget_ok hc, aget_ok hc', Res.bind_ok, Res.bind_ok, hv]
    · simp only [aget]
      rw [List.getElem?_eq_none (by omega), List.getElem?_eq_none (by omega)]
  · unfold aget2
    simp only [aget]
    rw [List.getElem?_eq_none (by omega), List.getElem?_eq_none (by rw [← h.samples]; omega)]

theorem ofRes_bind_congr {α β : Type} {r : Res α} {f f' : α → RM G β}
    (h : ∀ a, r = .ok a → f a = f' a) : (ofRes r >>= f) = (ofRes r >>= f') := by
  cases r with
  | error e => rfl
  | ok a => exact h a rfl

theorem bind_congr_fun {α β : Type} {m : RM G α} {f f' : α → RM G β} (h : ∀ a, f a = f' a) :
    (m >>= f) = (m >>= f') := by rw [funext h]

theorem ofRes_bind_take {β : Type} {r : Res (List K)} {n : Nat} {f : List K → RM G β} :
    (ofRes r >>= fun x => f (x.take n)) =
      (ofRes (r >>= fun x => (pure (x.take n) : Res (List K))) >>= f) := by
  cases r <;> rfl

theorem uvlStep_padding {xLen : List Nat} {a : FitArgs K L} {X' : List (List (List K))}
    (h : SameSeries xLen a.X X') (nt' maxLen : Nat) :
    uvlStep (G := G) { a with X := X', nt := nt' } xLen maxLen = uvlStep (G := G) a xLen maxLen := by
  funext lengths dilations normalize minL m i
  unfold uvlStep
  simp only [← h.samples]
  refine ofRes_bind_congr fun d _ => ofRes_bind_congr fun l _ => ofRes_bind_congr fun norm _ =>
    ofRes_bind_congr fun rows _ => ?_
  split
  · refine bind_congr_fun fun s => ofRes_bind_congr fun n hn => bind_congr_fun fun index =>
      ofRes_bind_congr fun m' _ => ?_
    have key : ∀ X : List (List (List K)),
        (do
          let x ← ofRes (aget2 X s 0)
          let v ← ofRes (getSubsequence (x.take n) index l d norm a.phase)
          let test ← pickOther a.y s
          let x' ← ofRes (aget2 X test 0)
          let n' ← ofRes (aget xLen test)
          let D ← ofRes (computeShapeletDistVector (x'.take n') v l d norm a.phase)
          let thr ← drawThreshold D a.pMin a.pMax
          pure (m', some ⟨v, [0], thr⟩) : RM G (SubMask × Option (Out K))) =
        (do
          let x ← ofRes (aget2 X s 0 >>= fun x => (pure (x.take n) : Res (List K)))
          let v ← ofRes (getSubsequence x index l d norm a.phase)
          let test ← pickOther a.y s
          let x' ← ofRes (aget2 X test 0)
          let n' ← ofRes (aget xLen test)
          let D ← ofRes (computeShapeletDistVector (x'.take n') v l d norm a.phase)
          let thr ← drawThreshold D a.pMin a.pMax
          pure (m', some ⟨v, [0], thr⟩) : RM G (SubMask × Option (Out K))) := by
      intro X
      exact ofRes_bind_take (f := fun x => (do
          let v ← ofRes (getSubsequence x index l d norm a.phase)
          let test ← pickOther a.y s
          let x' ← ofRes (aget2 X test 0)
          let n' ← ofRes (aget xLen test)
          let D ← ofRes (computeShapeletDistVector (x'.take n') v l d norm a.phase)
          let thr ← drawThreshold D a.pMin a.pMax
          pure (m', some ⟨v, [0], thr⟩) : RM G (SubMask × Option (Out K))))
    rw [key, key, aget2_prefix h hn]
    refine ofRes_bind_congr fun x _ => ofRes_bind_congr fun v _ => bind_congr_fun fun test => ?_
    -- the second read: the length is fetched after the row
    have hs : ∀ n', aget xLen test = .ok n' → ∀ X : List (List (List K)),
        (do
          let x' ← ofRes (aget2 X test 0)
          let n' ← ofRes (aget xLen test)
          let D ← ofRes (computeShapeletDistVector (x'.take n') v l d norm a.phase)
          let thr ← drawThreshold D a.pMin a.pMax
          pure (m', some ⟨v, [0], thr⟩) : RM G (SubMask × Option (Out K))) =
        (do
          let x' ← ofRes (aget2 X test 0 >>= fun x => (pure (x.take n') : Res (List K)))
          let D ← ofRes (computeShapeletDistVector x' v l d norm a.phase)
          let thr ← drawThreshold D a.pMin a.pMax
          pure (m', some ⟨v, [0], thr⟩) : RM G (SubMask × Option (Out K))) := by
      intro n' hn' X
      rw [hn']
      exact ofRes_bind_take (f := fun x => (do
          let D ← ofRes (computeShapeletDistVector x v l d norm a.phase)
          let thr ← drawThreshold D a.pMin a.pMax
          pure (m', some ⟨v, [0], thr⟩) : RM G (SubMask × Option (Out K))))
    cases hx : aget xLen test with
    | ok n' =>
      have := hs n' hx
      rw [hx] at this
      rw [this, this, aget2_prefix h hx]
    | error e =>
      -- both fail
      have hE : ∀ X : List (List (List K)), ∀ s', (∃ e, aget2 X s' 0 = .error e) ∨
          ∃ x, aget2 X s' 0 = .ok x := by
        intro X s'
        cases aget2 X s' 0 with
        | error e => exact Or.inl ⟨e, rfl⟩
        | ok x => exact Or.inr ⟨x, rfl⟩
      have he : e = .oob := by
        unfold aget at hx
        split at hx
        · cases hx
        · cases hx; rfl
      subst he
      have herr : ∀ X : List (List (List K)), ∀ s' e, aget2 X s' 0 = .error e → e = .oob := by
        intro X s' e he
        unfold aget2 aget at he
        split at he
        · rw [Res.bind_ok] at he
          split at he
          · cases he
          · cases he; rfl
        · cases he; rfl
      have hall : ∀ X : List (List (List K)),
          (do
            let x' ← ofRes (aget2 X test 0)
            let n' ← ofRes (.error .oob)
            let D ← ofRes (computeShapeletDistVector (x'.take n') v l d norm a.phase)
            let thr ← drawThreshold D a.pMin a.pMax
            pure (m', some ⟨v, [0], thr⟩) : RM G (SubMask × Option (Out K))) =
          ofRes (.error .oob) := by
        intro X
        rcases hE X test with ⟨e, he⟩ | ⟨x, hx⟩
        · rw [he, herr _ _ _ he]; rfl
        · rw [hx]; rfl
      rw [hall, hall]
  · rfl

theorem mvlStep_padding {xLen : List Nat} {a : FitArgs K L} {X' : List (List (List K))}
    (h : SameSeries xLen a.X X') (nt' maxLen : Nat) :
    mvlStep (G := G) { a with X := X', nt := nt' } xLen maxLen = mvlStep (G := G) a xLen maxLen := by
  funext lengths dilations normalize nChannels minL m i
  unfold mvlStep
  simp only [← h.samples]
  refine ofRes_bind_congr fun d _ => ofRes_bind_congr fun l _ => ofRes_bind_congr fun norm _ =>
    ofRes_bind_congr fun nc _ => bind_congr_fun fun channels => ofRes_bind_congr fun rows _ => ?_
  split
  · refine bind_congr_fun fun s => bind_congr_fun fun test => ofRes_bind_congr fun n' hn' =>
      ofRes_bind_congr fun nd _ => ofRes_bind_congr fun n hn => bind_congr_fun fun index => ?_
    have e1 : (fun c => (do let x ← aget2 X' s c; pure (x.take n) : Res (List K))) =
        fun c => (do let x ← aget2 a.X s c; pure (x.take n) : Res (List K)) :=
      funext fun c => (aget2_prefix h hn).symm
    have e2 : (fun c => (do let x ← aget2 X' test c; pure (x.take n') : Res (List K))) =
        fun c => (do let x ← aget2 a.X test c; pure (x.take n') : Res (List K)) :=
      funext fun c => (aget2_prefix h hn').symm
    rw [e1, e2]
  · rfl

/-- C27, univariate: `fit` on variable-length data returns the same result (or the same failure)
whatever is stored after the last true point of each series and whatever the padded width, for any
scalar type and any random generator. -/
theorem C27_padding_univariate (xLen : List Nat) (a : FitArgs K L) (X' : List (List (List K)))
    (nt' minLen : Nat) (h : SameSeries xLen a.X X') (g0 : G) (gs : Nat → G)
    (order : Nat → List Nat) :
    uvlGenerate { a with X := X', nt := nt' } minLen xLen g0 gs order =
      uvlGenerate a minLen xLen g0 gs order := by
  unfold uvlGenerate
  simp only [uvlStep_padding h, ← h.samples]

/-- C27, multivariate. -/
theorem C27_padding_multivariate (xLen : List Nat) (a : FitArgs K L) (X' : List (List (List K)))
    (nt' maxChannels minLen : Nat) (h : SameSeries xLen a.X X') (g0 : G) (gs : Nat → G)
    (order : Nat → List Nat) :
    mvlGenerate { a with X := X', nt := nt' } maxChannels minLen xLen g0 gs order =
      mvlGenerate a maxChannels minLen xLen g0 gs order := by
  unfold mvlGenerate
  simp only [mvlStep_padding h, ← h.samples]

/-- Two different paddings of the same two series. -/
example : SameSeries [2, 3] [[[1, 2, 0]], [[4, 5, 6]]] [[[1, 2, 9, 7]], [[4, 5, (6 : ℝ), 8]]] := by
  refine ⟨rfl, ?_, ?_⟩
  · intro s; rcases s with _ | _ | s <;> simp
  · intro s c
    rcases s with _ | _ | s <;> rcases c with _ | c <;> simp

end Padding

variable {G L : Type} [Gen G ℝ] [LawfulGen G] [DecidableEq L]

/-! ## C25, multivariate -/

theorem enoughFree_le {alpha : ℝ} {channels : List Nat} {b : Nat → Prop}
    (h : EnoughFree true alpha channels b) {q : Nat → Bool} (hq : ∀ c ∈ channels, ¬ b c → q c = true) :
    (channels.length : ℝ) * alpha ≤ (channels.countP q : Nat) := by
  unfold EnoughFree at h
  rw [if_pos rfl] at h
  refine h.trans (Nat.cast_le.2 (List.countP_mono_left fun c hc hb => hq c hc ?_))
  simpa using hb

theorem enoughFree_of_free {multi : Bool} {alpha : ℝ} (ha : alpha ≤ 1) {channels : List Nat}
    {b : Nat → Prop} (h : ∀ c, ¬ b c) : EnoughFree multi alpha channels b := by
  classical
  unfold EnoughFree
  split
  · have : (channels.countP fun c => @decide (¬ b c)
        (@instDecidableNot _ (Classical.propDecidable _))) = channels.length := by
      rw [List.countP_eq_length]
      intro c _
      simpa using h c
    rw [this]
    have : (0 : ℝ) ≤ channels.length := Nat.cast_nonneg _
    nlinarith
  · exact h 0

theorem mFitted_overlap {T : Train L} {a : FitArgs ℝ L} {n mc : Nat} {P : Par} {nch : Nat → Nat}
    {rec : Nat → Option Src} {out : Nat → Option (Out ℝ)} {kept : List Nat} {S : MShp ℝ}
    (h : MFitted T a n mc P nch rec out kept S) :
    ∃ src : Nat → Nat × Nat, (∀ k, k < S.lengths.length → (src k).1 < T.ns ∧
      (src k).2 < nWin a.phase (T.len (src k).1) (S.lengths.getD k 0) (S.dilations.getD k 0) ∧
      ∀ c, c < S.nChannels.getD k 0 → mValues S k c = seen (S.normalize.getD k false)
        (window a.phase (T.series (src k).1 ((mChannels S k).getD c 0)) (S.lengths.getD k 0)
          (S.dilations.getD k 0) (src k).2)) ∧
      ∀ k k', k < k' → k' < S.lengths.length → (src k).1 = (src k').1 →
        S.dilations.getD k 0 = S.dilations.getD k' 0 →
        S.normalize.getD k false = S.normalize.getD k' false →
        S.lengths.getD k' 0 ≤ S.lengths.getD k 0 →
        ∃ m, (∀ j, j < S.lengths.length → S.dilations.getD j 0 = S.dilations.getD k 0 →
            m ≤ S.lengths.getD j 0) ∧
          ((if a.phase then 2 else 1) * allowance a.alpha m <
            (timePoints a.phase (T.len (src k).1) (S.lengths.getD k 0) (S.dilations.getD k 0)
                (src k).2 ∩
              timePoints a.phase (T.len (src k).1) (S.lengths.getD k' 0) (S.dilations.getD k 0)
                (src k').2).card →
            (((mChannels S k').filter fun c => decide (c ∈ mChannels S k)).length : ℝ) ≤
              (1 - a.alpha) * (mChannels S k').length) := by
  have hex : ∀ k, ∃ p : Nat × Src, k < S.lengths.length → kept[k]? = some p.1 ∧ rec p.1 = some p.2 ∧
      Admissible T P (optOf a) true rec p.1 p.2.channels p.2.sample p.2.index ∧
      MShapelet T P (optOf a) S k p.1 p.2 := by
    intro k
    by_cases hk : k < S.lengths.length
    · obtain ⟨i, r, h1, h2, -, h3⟩ := h.shapelet hk
      exact ⟨(i, r), fun _ => ⟨h1, h2, h3⟩⟩
    · exact ⟨(0, ⟨0, 0, 0, []⟩), fun h => absurd h hk⟩
  choose p hp using hex
  refine ⟨fun k => ((p k).2.sample, (p k).2.index), ?_, ?_⟩
  · intro k hk
    obtain ⟨-, -, -, hu⟩ := hp k hk
    refine ⟨hu.sample, ?_, ?_⟩
    · rw [hu.length, hu.dilation]; exact hu.index
    · intro c hc
      rw [hu.count] at hc
      rw [hu.values c hc, hu.length, hu.dilation, hu.normalize, hu.channels]; rfl
  · intro k k' hkk hk' hs hd hn hl
    obtain ⟨e1, r1, -, hu⟩ := hp k (by omega)
    obtain ⟨e2, r2, adm, hu'⟩ := hp k' hk'
    simp only at hs ⊢
    obtain ⟨m, hm⟩ := exists_minLength P hu'.lt
    rw [hu.dilation, hu'.dilation] at hd
    rw [hu.normalize, hu'.normalize] at hn
    rw [hu.length, hu'.length] at hl
    have hlt : (p k).1 < (p k').1 := by
      obtain ⟨q1, q2⟩ := List.getElem?_eq_some_iff.1 e1
      obtain ⟨q3, q4⟩ := List.getElem?_eq_some_iff.1 e2
      rw [← q2, ← q4]
      exact List.pairwise_iff_getElem.1 h.from_.sorted k k' q1 q3 hkk
    refine ⟨m, ?_, ?_⟩
    · intro j hj hdj
      obtain ⟨-, -, -, huj⟩ := hp j hj
      rw [huj.length]
      refine hm.2 _ huj.lt ?_
      rw [← huj.dilation, hdj, hu.dilation, hd]
    · rw [hu.length, hu'.length, hu.dilation, hu.channels, hu'.channels]
      intro hcard
      have hnear : Near (T.len (p k).2.sample) (P.length (p k).1) (P.dilation (p k).1)
          (allowance a.alpha m) (p k).2.index (p k').2.index := by
        by_contra hc
        have := shared_le (phase := a.phase) (h.drawn.dilation _ hu.lt).1 (by
          have := hu'.index
          rw [hs]
          exact this.trans_le (nWin_le _ _ _ _)) hl hc
        omega
      have hblk : ∀ c ∈ (p k).2.channels,
          Blocked T P (optOf a) rec (p k').1 (p k').2.sample c (p k').2.index := by
        intro c hc
        refine ⟨(p k).1, m, (p k).2, hlt, hd, hn, r1, hs, hc, hm, ?_⟩
        rw [← hs]; exact hnear
      have hcnt := List.length_eq_countP_add_countP
        (fun c => decide (c ∈ (p k).2.channels)) (l := (p k').2.channels)
      rw [← List.countP_eq_length_filter]
      have hle' : ((p k').2.channels.length : ℝ) * a.alpha ≤
          ((p k').2.channels.countP fun c => decide ¬ (decide (c ∈ (p k).2.channels)) = true : Nat) := by
        refine enoughFree_le adm.2.2 fun c _ hc => ?_
        simp only [decide_eq_true_eq]
        exact fun hm => hc (hblk c hm)
      have hcnt' : ((p k').2.channels.length : ℝ) =
          ((p k').2.channels.countP fun c => decide (c ∈ (p k).2.channels) : Nat) +
          ((p k').2.channels.countP fun c => decide ¬ (decide (c ∈ (p k).2.channels)) = true : Nat) := by
        exact_mod_cast hcnt
      linarith

/-- **C25.** Multivariate, equal lengths: two shapelets from the same series, with the same dilation
and normalisation flag, the later one not longer than the earlier one, that share more than
`max(1, floor((1-alpha)*m))` time points (twice as many with phase invariance) have at most a
proportion `1-alpha` of the channels of the later one in common. -/
theorem C25_overlap_multivariate_same_length {a : FitArgs ℝ L} (hv : ValidSL a) {mc : Nat}
    (hmc : 1 ≤ mc) (hmcf : mc ≤ a.nf) {g0 : G} {gs : Nat → G} {order : Nat → List Nat}
    (ho : IsSchedule order) {S : MShp ℝ} (hS : mslGenerate a mc g0 gs order = .ok S) :
    ∃ src : Nat → Nat × Nat, (∀ k, k < S.lengths.length → (src k).1 < a.X.length ∧
      (src k).2 < nWin a.phase a.nt (S.lengths.getD k 0) (S.dilations.getD k 0) ∧
      ∀ c, c < S.nChannels.getD k 0 → mValues S k c = seen (S.normalize.getD k false)
        (window a.phase ((a.X.getD (src k).1 []).getD ((mChannels S k).getD c 0) [])
          (S.lengths.getD k 0) (S.dilations.getD k 0) (src k).2)) ∧
      ∀ k k', k < k' → k' < S.lengths.length → (src k).1 = (src k').1 →
        S.dilations.getD k 0 = S.dilations.getD k' 0 →
        S.normalize.getD k false = S.normalize.getD k' false →
        S.lengths.getD k' 0 ≤ S.lengths.getD k 0 →
        ∃ m, (∀ j, j < S.lengths.length → S.dilations.getD j 0 = S.dilations.getD k 0 →
            m ≤ S.lengths.getD j 0) ∧
          ((if a.phase then 2 else 1) * ⌊max 1 ((1 - a.alpha) * (m : ℝ))⌋.toNat <
            (timePoints a.phase a.nt (S.lengths.getD k 0) (S.dilations.getD k 0) (src k).2 ∩
              timePoints a.phase a.nt (S.lengths.getD k' 0) (S.dilations.getD k 0)
                (src k').2).card →
            (((mChannels S k').filter fun c => decide (c ∈ mChannels S k)).length : ℝ) ≤
              (1 - a.alpha) * (mChannels S k').length) := by
  obtain ⟨P, nch, rec, out, kept, h⟩ := msl_fitted hv hmc hmcf ho hS
  exact mFitted_overlap h

/-- **C25.** Multivariate, variable lengths. -/
theorem C25_overlap_multivariate_variable_length {a : FitArgs ℝ L} {minLen : Nat} {xLen : List Nat}
    (hv : ValidVL a minLen xLen) {mc : Nat}
    (hmc : 1 ≤ mc) (hmcf : mc ≤ a.nf) {g0 : G} {gs : Nat → G} {order : Nat → List Nat}
    (ho : IsSchedule order) {S : MShp ℝ} (hS : mvlGenerate a mc minLen xLen g0 gs order = .ok S) :
    ∃ src : Nat → Nat × Nat, (∀ k, k < S.lengths.length → (src k).1 < a.X.length ∧
      (src k).2 < nWin a.phase (xLen.getD (src k).1 0) (S.lengths.getD k 0) (S.dilations.getD k 0) ∧
      ∀ c, c < S.nChannels.getD k 0 → mValues S k c = seen (S.normalize.getD k false)
        (window a.phase (((a.X.getD (src k).1 []).getD ((mChannels S k).getD c 0) []).take
            (xLen.getD (src k).1 0))
          (S.lengths.getD k 0) (S.dilations.getD k 0) (src k).2)) ∧
      ∀ k k', k < k' → k' < S.lengths.length → (src k).1 = (src k').1 →
        S.dilations.getD k 0 = S.dilations.getD k' 0 →
        S.normalize.getD k false = S.normalize.getD k' false →
        S.lengths.getD k' 0 ≤ S.lengths.getD k 0 →
        ∃ m, (∀ j, j < S.lengths.length → S.dilations.getD j 0 = S.dilations.getD k 0 →
            m ≤ S.lengths.getD j 0) ∧
          ((if a.phase then 2 else 1) * ⌊max 1 ((1 - a.alpha) * (m : ℝ))⌋.toNat <
            (timePoints a.phase (xLen.getD (src k).1 0) (S.lengths.getD k 0) (S.dilations.getD k 0)
                (src k).2 ∩
              timePoints a.phase (xLen.getD (src k).1 0) (S.lengths.getD k' 0)
                (S.dilations.getD k 0) (src k').2).card →
            (((mChannels S k').filter fun c => decide (c ∈ mChannels S k)).length : ℝ) ≤
              (1 - a.alpha) * (mChannels S k').length) := by
  obtain ⟨P, nch, rec, out, kept, h⟩ := mvl_fitted hv hmc hmcf ho hS
  exact mFitted_overlap h

/-! ## C32: when shapelets are discarded -/

/-- A discarded multivariate shapelet has no admissible position; a kept one has. -/
theorem mFitted_discard {T : Train L} {a : FitArgs ℝ L} {n mc : Nat} {P : Par} {nch : Nat → Nat}
    {rec : Nat → Option Src} {out : Nat → Option (Out ℝ)} {kept : List Nat} {S : MShp ℝ}
    (h : MFitted T a n mc P nch rec out kept S) {i : Nat} (hi : i < P.n) :
    ∃ channels, ChannelsOK true T.nf (nch i) channels ∧
      (i ∈ kept ↔ ∃ s t, Admissible T P (optOf a) true rec i channels s t) := by
  obtain ⟨ch, hch, ⟨h1, h2, h3⟩ | ⟨r, v, h1, h2, h3, h4, h5⟩⟩ := h.good i hi
  · refine ⟨ch, hch, ⟨fun hk => ?_, fun ⟨s, t, hst⟩ => absurd hst (h3 s t)⟩⟩
    obtain ⟨-, v, hv⟩ := (h.from_.mem i).1 hk
    rw [h2] at hv; cases hv
  · exact ⟨ch, hch, ⟨fun _ => ⟨_, _, h4⟩, fun _ => (h.from_.mem i).2 ⟨hi, v, h2⟩⟩⟩

/-- If no shapelet was read from sample `s`, every position of `s` is admissible. -/
theorem admissible_of_unused {T : Train L} {P : Par} {o : Opt} {multi : Bool}
    {rec : Nat → Option Src} {i s t : Nat} {channels : List Nat} (ha : o.alpha ≤ 1) (hs : s < T.ns)
    (ht : t < nWin o.phase (T.len s) (P.length i) (P.dilation i))
    (hun : ∀ j r, j < i → rec j = some r → r.sample ≠ s) :
    Admissible T P o multi rec i channels s t := by
  have hb : ∀ c, ¬ Blocked T P o rec i s c t := by
    rintro c ⟨j, m, r, h1, -, -, h4, h5, -⟩
    exact hun j r h1 h4 h5
  exact ⟨hs, ht, enoughFree_of_free ha hb⟩

/-- Among `n` requested shapelets, each discarded one leaves at least one kept shapelet per sample. -/
theorem count_ge {T : Train L} {P : Par} {o : Opt} {multi : Bool} {nch : Nat → Nat}
    {rec : Nat → Option Src} {out : Nat → Option (Out ℝ)} {kept : List Nat} (ha : o.alpha ≤ 1)
    (hgood : ∀ i, i < P.n → GoodAt T P o multi nch rec out i)
    (hwin : ∀ i, i < P.n → ∀ s, s < T.ns → 0 < nWin o.phase (T.len s) (P.length i) (P.dilation i))
    (hsort : kept.Pairwise (· < ·))
    (hmem : ∀ i, i ∈ kept ↔ i < P.n ∧ ∃ v, out i = some v) : min P.n T.ns ≤ kept.length := by
  have hnd : kept.Nodup := hsort.imp fun h => Nat.ne_of_lt h
  by_cases hall : ∀ i, i < P.n → i ∈ kept
  · have : P.n ≤ kept.length := by
      rw [← List.toFinset_card_of_nodup hnd, ← Finset.card_range P.n]
      exact Finset.card_le_card fun i hi => List.mem_toFinset.2 (hall i (Finset.mem_range.1 hi))
    omega
  · push Not at hall
    obtain ⟨i, hi, hik⟩ := hall
    obtain ⟨ch, hch, ⟨h1, h2, h3⟩ | ⟨r, v, h1, h2, h3, h4, h5⟩⟩ := hgood i hi
    · -- every sample has been used before
      have hused : ∀ s, s < T.ns → ∃ j r, j < i ∧ rec j = some r ∧ r.sample = s := by
        intro s hs
        by_contra hc
        push Not at hc
        exact h3 s 0 (admissible_of_unused ha hs (hwin i hi s hs) hc)
      have hinj : T.ns ≤ kept.length := by
        have hsub : Finset.range T.ns ⊆
            kept.toFinset.image fun j => (rec j).elim 0 Src.sample := by
          intro s hs
          obtain ⟨j, r, hj, hr, hrs⟩ := hused s (Finset.mem_range.1 hs)
          refine Finset.mem_image.2 ⟨j, List.mem_toFinset.2 ((hmem j).2 ⟨by omega, ?_⟩), by rw [hr]; exact hrs⟩
          obtain ⟨-, -, ⟨q1, -⟩ | ⟨-, v, -, q2, -⟩⟩ := hgood j (by omega)
          · rw [hr] at q1; cases q1
          · exact ⟨v, q2⟩
        calc T.ns = (Finset.range T.ns).card := (Finset.card_range _).symm
          _ ≤ _ := Finset.card_le_card hsub
          _ ≤ kept.toFinset.card := Finset.card_image_le
          _ = kept.length := List.toFinset_card_of_nodup hnd
      omega
    · exact absurd ((hmem i).2 ⟨hi, v, h2⟩) hik

theorem drawn_win {a : FitArgs ℝ L} {n : Nat} {P : Par} (hd : ParDrawn a n P)
    (hb : ∀ l ∈ a.sizes, 2 ≤ l ∧ l ≤ n) {i len : Nat} (hi : i < P.n) (hlen : n ≤ len) :
    0 < nWin a.phase len (P.length i) (P.dilation i) := by
  have h1 := (hd.dilation i hi).2.1
  have h2 := hb _ (hd.length i hi)
  exact nWin_pos (by omega)

/-- **C32.** Multivariate `fit` with `alpha <= 1` returns at least `min(n_shapelets, n_samples)`
shapelets (equal lengths). -/
theorem C32_count_multivariate_same_length {a : FitArgs ℝ L} (hv : ValidSL a) (ha : a.alpha ≤ 1)
    {mc : Nat} (hmc : 1 ≤ mc) (hmcf : mc ≤ a.nf) {g0 : G} {gs : Nat → G} {order : Nat → List Nat}
    (ho : IsSchedule order) {S : MShp ℝ} (hS : mslGenerate a mc g0 gs order = .ok S) :
    min a.nShp a.X.length ≤ S.lengths.length := by
  obtain ⟨P, nch, rec, out, kept, h⟩ := msl_fitted hv hmc hmcf ho hS
  rw [h.from_.count, ← h.drawn.count]
  exact count_ge (o := optOf a) ha h.good (fun i hi s hs => drawn_win h.drawn hv.bounds hi (le_refl _))
    h.from_.sorted h.from_.mem

/-- **C32.** The same for variable lengths. -/
theorem C32_count_multivariate_variable_length {a : FitArgs ℝ L} {minLen : Nat} {xLen : List Nat}
    (hv : ValidVL a minLen xLen) (ha : a.alpha ≤ 1)
    {mc : Nat} (hmc : 1 ≤ mc) (hmcf : mc ≤ a.nf) {g0 : G} {gs : Nat → G} {order : Nat → List Nat}
    (ho : IsSchedule order) {S : MShp ℝ} (hS : mvlGenerate a mc minLen xLen g0 gs order = .ok S) :
    min a.nShp a.X.length ≤ S.lengths.length := by
  obtain ⟨P, nch, rec, out, kept, h⟩ := mvl_fitted hv hmc hmcf ho hS
  rw [h.from_.count, ← h.drawn.count]
  exact count_ge (o := optOf a) ha h.good
    (fun i hi s hs => drawn_win h.drawn hv.bounds hi (hv.data.xlen hs).2)
    h.from_.sorted h.from_.mem

example : exB.alpha ≤ 1 ∧ min exB.nShp exB.X.length = 2 := by
  constructor
  · norm_num [exB]
  · rfl

/-- **C32.** Multivariate `fit` returns a requested shapelet exactly when an admissible position is
left for the channels drawn for it: `kept` lists the returned shapelets among the requested ones.
(Equal lengths.) -/
theorem C32_discard_multivariate_same_length {a : FitArgs ℝ L} (hv : ValidSL a)
    {mc : Nat} (hmc : 1 ≤ mc) (hmcf : mc ≤ a.nf) {g0 : G} {gs : Nat → G} {order : Nat → List Nat}
    (ho : IsSchedule order) {S : MShp ℝ} (hS : mslGenerate a mc g0 gs order = .ok S) :
    ∃ P nch rec out kept, MFitted (trainSL a) a a.nt mc P nch rec out kept S ∧ P.n = a.nShp ∧
      ∀ i, i < P.n → ∃ channels : List Nat, channels.Nodup ∧ channels.length = nch i ∧
        (∀ c ∈ channels, c < a.nf) ∧
        (i ∈ kept ↔ ∃ s t, Admissible (trainSL a) P (optOf a) true rec i channels s t) := by
  obtain ⟨P, nch, rec, out, kept, h⟩ := msl_fitted hv hmc hmcf ho hS
  refine ⟨P, nch, rec, out, kept, h, h.drawn.count, fun i hi => ?_⟩
  obtain ⟨ch, hch, hk⟩ := mFitted_discard h hi
  obtain ⟨h1, h2, h3⟩ : ch.Nodup ∧ ch.length = nch i ∧ ∀ c ∈ ch, c < (trainSL a).nf := by
    simpa [ChannelsOK] using hch
  exact ⟨ch, h1, h2, h3, hk⟩

/-- **C32.** The same for variable lengths. -/
theorem C32_discard_multivariate_variable_length {a : FitArgs ℝ L} {minLen : Nat} {xLen : List Nat}
    (hv : ValidVL a minLen xLen)
    {mc : Nat} (hmc : 1 ≤ mc) (hmcf : mc ≤ a.nf) {g0 : G} {gs : Nat → G} {order : Nat → List Nat}
    (ho : IsSchedule order) {S : MShp ℝ} (hS : mvlGenerate a mc minLen xLen g0 gs order = .ok S) :
    ∃ P nch rec out kept, MFitted (trainVL a xLen) a minLen mc P nch rec out kept S ∧ P.n = a.nShp ∧
      ∀ i, i < P.n → ∃ channels : List Nat, channels.Nodup ∧ channels.length = nch i ∧
        (∀ c ∈ channels, c < a.nf) ∧
        (i ∈ kept ↔ ∃ s t, Admissible (trainVL a xLen) P (optOf a) true rec i channels s t) := by
  obtain ⟨P, nch, rec, out, kept, h⟩ := mvl_fitted hv hmc hmcf ho hS
  refine ⟨P, nch, rec, out, kept, h, h.drawn.count, fun i hi => ?_⟩
  obtain ⟨ch, hch, hk⟩ := mFitted_discard h hi
  obtain ⟨h1, h2, h3⟩ : ch.Nodup ∧ ch.length = nch i ∧ ∀ c ∈ ch, c < (trainVL a xLen).nf := by
    simpa [ChannelsOK] using hch
  exact ⟨ch, h1, h2, h3, hk⟩

theorem uFitted_discard {T : Train L} {a : FitArgs ℝ L} {n : Nat} {P : Par}
    {rec : Nat → Option Src} {out : Nat → Option (Out ℝ)} {kept : List Nat} {S : UShp ℝ}
    (h : UFitted T a n P rec out kept S) {i : Nat} (hi : i < P.n) :
    (i ∉ kept ↔ (∀ s t, ¬ Admissible T P (optOf a) false rec i [0] s t) ∨
      ∃ r, rec i = some r ∧ ∀ x ∈ subseq T P (optOf a) i r.sample 0 r.index, x = 0) := by
  obtain ⟨ch, hch, hcase⟩ := h.good i hi
  have hch : ch = [0] := by simpa [ChannelsOK] using hch
  subst hch
  rcases hcase with ⟨h1, h2, h3⟩ | ⟨r, v, h1, h2, h3, h4, h5⟩
  · refine iff_of_true ?_ (Or.inl h3)
    intro hk
    obtain ⟨-, v, hv, -⟩ := (h.from_.mem i).1 hk
    rw [h2] at hv; cases hv
  · have hvals : v.values = subseq T P (optOf a) i r.sample 0 r.index := by
      rw [h5.values, h3]; simp
    rw [h.from_.mem]
    constructor
    · intro hk
      right
      refine ⟨r, h1, fun x hx => ?_⟩
      by_contra hx0
      exact hk ⟨hi, v, h2, x, by rw [hvals]; exact hx, hx0⟩
    · rintro (h6 | ⟨r', h6, h7⟩)
      · exact absurd h4 (h6 _ _)
      · rw [h1] at h6
        obtain rfl := Option.some.inj h6
        rintro ⟨-, v', hv', x, hx, hx0⟩
        rw [h2] at hv'
        obtain rfl := Option.some.inj hv'
        rw [hvals] at hx
        exact hx0 (h7 x hx)

/-- **C32.** Univariate `fit` drops a requested shapelet exactly when no admissible position is left
or all the values read at the drawn position are zero. (Equal lengths.) -/
theorem C32_discard_univariate_same_length {a : FitArgs ℝ L} (hv : ValidSL a)
    {g0 : G} {gs : Nat → G} {order : Nat → List Nat}
    (ho : IsSchedule order) {S : UShp ℝ} (hS : uslGenerate a g0 gs order = .ok S) :
    ∃ P rec out kept, UFitted (trainSL a) a a.nt P rec out kept S ∧ P.n = a.nShp ∧
      ∀ i, i < P.n → (i ∉ kept ↔
        (∀ s t, ¬ Admissible (trainSL a) P (optOf a) false rec i [0] s t) ∨
        ∃ r, rec i = some r ∧ ∀ x ∈ subseq (trainSL a) P (optOf a) i r.sample 0 r.index, x = 0) := by
  obtain ⟨P, rec, out, kept, h⟩ := usl_fitted hv ho hS
  exact ⟨P, rec, out, kept, h, h.drawn.count, fun i hi => uFitted_discard h hi⟩

/-- **C32.** The same for variable lengths. -/
theorem C32_discard_univariate_variable_length {a : FitArgs ℝ L} {minLen : Nat} {xLen : List Nat}
    (hv : ValidVL a minLen xLen) {g0 : G} {gs : Nat → G} {order : Nat → List Nat}
    (ho : IsSchedule order) {S : UShp ℝ} (hS : uvlGenerate a minLen xLen g0 gs order = .ok S) :
    ∃ P rec out kept, UFitted (trainVL a xLen) a minLen P rec out kept S ∧ P.n = a.nShp ∧
      ∀ i, i < P.n → (i ∉ kept ↔
        (∀ s t, ¬ Admissible (trainVL a xLen) P (optOf a) false rec i [0] s t) ∨
        ∃ r, rec i = some r ∧
          ∀ x ∈ subseq (trainVL a xLen) P (optOf a) i r.sample 0 r.index, x = 0) := by
  obtain ⟨P, rec, out, kept, h⟩ := uvl_fitted hv ho hS
  exact ⟨P, rec, out, kept, h, h.drawn.count, fun i hi => uFitted_discard h hi⟩

theorem znorm_const (c : ℝ) (w : List ℝ) (h : ∀ x ∈ w, x = c) : ∀ x ∈ znorm w, x = 0 := by
  intro x hx
  rw [znorm_eq] at hx
  obtain ⟨v, hv, rfl⟩ := List.mem_map.1 hx
  have hne : w ≠ [] := List.ne_nil_of_mem hv
  have hm : mean w = c := by
    rw [mean_eq, List.eq_replicate_iff.2 ⟨rfl, h⟩]
    have : (w.length : ℝ) ≠ 0 := by
      have := List.length_pos_iff.2 hne
      positivity
    simp only [List.sum_replicate, List.length_replicate, nsmul_eq_mul]
    field_simp
  rw [hm, h v hv]; simp

/-- **C32 (violated claim).** On data where every series is constant, with `proba_norm >= 1`,
univariate `fit` returns no shapelet at all, although no position is ever covered at the start: the
documentation's reason for returning fewer shapelets ("the search space is covered") does not
apply. -/
theorem C32_constant_series_no_shapelet {a : FitArgs ℝ L} (hv : ValidSL a) (hp : 1 ≤ a.pNorm)
    (hc : ∀ s ∈ a.X, ∃ c, ∀ x ∈ s.getD 0 [], x = c) {g0 : G} {gs : Nat → G}
    {order : Nat → List Nat} (ho : IsSchedule order) :
    ∃ S, uslGenerate a g0 gs order = .ok S ∧ S.lengths = [] ∧ S.values = [] := by
  obtain ⟨P, rec, out, kept, S, h, h'⟩ := uslGenerate_spec hv g0 gs
  refine ⟨S, h' order ho, ?_⟩
  have h0 : S.lengths.length = 0 := by
    by_contra hk
    obtain ⟨i, r, hki, hr, hadm, hu⟩ := h.shapelet (k := 0) (by omega)
    have hik : i ∈ kept := List.mem_of_getElem? hki
    obtain ⟨-, v, hv1, x, hx, hx0⟩ := (h.from_.mem i).1 hik
    obtain ⟨v', hv2, hv3, -⟩ := h.from_.shapelet 0 i hki
    rw [hv1] at hv2
    obtain rfl := Option.some.inj hv2
    rw [← hv3, hu.values] at hx
    have hs : r.sample < a.X.length := hu.sample
    obtain ⟨c, hc⟩ := hc _ (List.getElem_mem hs)
    refine hx0 (znorm_const c (window a.phase ((a.X.getD r.sample []).getD 0 []) (P.length i)
      (P.dilation i) r.index) ?_ x ?_)
    · intro y hy
      have hlen := trainSL_len hv hs
      have hn : 0 < a.nt := by
        have := hv.bounds _ (h.drawn.length i hu.lt); omega
      obtain ⟨j, hj, rfl⟩ := List.mem_map.1 hy
      rw [List.mem_range] at hj
      have hwin := hu.index
      have hposlt : pos a.phase ((a.X.getD r.sample []).getD 0 []).length (P.dilation i) r.index j <
          ((a.X.getD r.sample []).getD 0 []).length := by
        rw [show ((a.X.getD r.sample []).getD 0 []).length = a.nt from hlen]
        unfold pos
        have hwin' : r.index < nWin a.phase a.nt (P.length i) (P.dilation i) := hwin
        unfold nWin at hwin'
        split
        · exact Nat.mod_lt _ hn
        · rename_i hph
          rw [if_neg hph] at hwin'
          have : j * P.dilation i ≤ (P.length i - 1) * P.dilation i :=
            Nat.mul_le_mul_right _ (by omega)
          omega
      rw [getD_lt _ hposlt]
      refine hc _ ?_
      have e : a.X.getD r.sample [] = a.X[r.sample] := getD_lt _ hs
      rw [← e]
      exact List.getElem_mem hposlt
    · have hnorm : P.normalize i = true := h.drawn.norm_all hp i hu.lt
      have e : subseq (trainSL a) P (optOf a) i r.sample 0 r.index =
          seen (P.normalize i) (window a.phase ((a.X.getD r.sample []).getD 0 []) (P.length i)
            (P.dilation i) r.index) := rfl
      rw [e, hnorm] at hx
      exact hx
  refine ⟨List.length_eq_zero_iff.1 h0, List.length_eq_zero_iff.1 (by rw [h.wf.values, h0])⟩

/-- Two constant series meet the hypotheses. -/
noncomputable def exConst : FitArgs ℝ Nat :=
  { exA with X := [[[3, 3, 3, 3, 3]], [[1, 1, 1, 1, 1]]], y := [0, 1], pNorm := 1 }

theorem exConst_valid : ValidSL exConst where
  data := ⟨rfl, by simp [exConst, exA], by simp [exConst, exA]⟩
  nf := le_refl _
  perc := ⟨by norm_num [exConst, exA], by norm_num [exConst, exA], by norm_num [exConst, exA]⟩
  nShp := by norm_num [exConst, exA]
  sizes := by simp [exConst, exA]
  bounds := by simp [exConst, exA]

example (g0 : Script) (gs : Nat → Script) :
    ∃ S, uslGenerate exConst g0 gs List.range = .ok S ∧ S.lengths = [] ∧ S.values = [] := by
  refine C32_constant_series_no_shapelet exConst_valid (le_refl _) ?_ fun _ => List.Perm.refl _
  intro s hs
  simp only [exConst, List.mem_cons, List.not_mem_nil, or_false] at hs
  rcases hs with rfl | rfl
  · exact ⟨3, by simp⟩
  · exact ⟨1, by simp⟩

/-! ## C43: fit then transform -/

theorem feature_min_nonneg {D : List ℝ} {thr : ℝ} (hne : D ≠ []) (hD : ∀ x ∈ D, 0 ≤ x) :
    0 ≤ (features D thr).1 :=
  hD _ (features_isFeatures (thr := thr) hne hD).1.1

/-- The shape of a feature matrix: `n` rows of three cells per shapelet, minima non-negative. -/
def GoodMatrix (M : List (List ℝ)) (n count : Nat) : Prop :=
  M.length = n ∧ ∀ row ∈ M, row.length = 3 * count ∧
    ∀ k, k < count → ∃ v, row[3 * k]? = some v ∧ 0 ≤ v

theorem row_length (f : Nat → Feat ℝ) (n : Nat) :
    ((List.range n).flatMap fun k => cells (f k)).length = 3 * n := by
  rw [← cells_flatMap]; simp

theorem goodRow {f : Nat → Feat ℝ} {n : Nat} (h : ∀ k, k < n → 0 ≤ (f k).1) :
    ((List.range n).flatMap fun k => cells (f k)).length = 3 * n ∧
      ∀ k, k < n → ∃ v, ((List.range n).flatMap fun k => cells (f k))[3 * k]? = some v ∧ 0 ≤ v :=
  ⟨row_length f n, fun k hk => ⟨_, row_cells f n k 0 hk (by omega), h k hk⟩⟩

/-- **C43.** Univariate, equal lengths: after any `fit`, `transform` succeeds on every batch of series
with at least as many points as the training series. -/
theorem C43_fit_transform_univariate_same_length {a : FitArgs ℝ L} (hv : ValidSL a) (g0 : G)
    (gs : Nat → G) {order : Nat → List Nat} (ho : IsSchedule order) :
    ∃ S, uslGenerate a g0 gs order = .ok S ∧ ∀ X : List (List (List ℝ)),
      (∀ s ∈ X, s ≠ [] ∧ a.nt ≤ (s.getD 0 []).length) →
      ∃ M, uslApply X S a.phase = .ok M ∧ GoodMatrix M X.length S.lengths.length := by
  obtain ⟨S, h, hwf, -, hk⟩ := C19_fit_univariate_same_length hv g0 gs
  refine ⟨S, h order ho, fun X hX => ⟨_, C01_univariate_same_length hwf _ (fun s hs => (hX s hs).1)
    fun s hs k hkl => fits_of_lt ((hk k hkl).2.2.trans_le (hX s hs).2), by simp, ?_⟩⟩
  intro row hrow
  obtain ⟨s, hs, rfl⟩ := List.mem_map.1 hrow
  refine goodRow fun k hkl => ?_
  obtain ⟨h1, h2⟩ := C05_applies a.phase S (s.getD 0 []) k (by
    have := (hk k hkl).2.2.trans_le (hX s hs).2
    unfold HasWindow
    split <;> omega)
  exact feature_min_nonneg h1 h2

/-- **C43.** Univariate, variable lengths: the series of the batch have at least `min_len` points. -/
theorem C43_fit_transform_univariate_variable_length {a : FitArgs ℝ L} {minLen : Nat}
    {xLen : List Nat} (hv : ValidVL a minLen xLen) (g0 : G) (gs : Nat → G) {order : Nat → List Nat}
    (ho : IsSchedule order) :
    ∃ S, uvlGenerate a minLen xLen g0 gs order = .ok S ∧
      ∀ (X : List (List (List ℝ))) (xLen' : List Nat), X.length ≤ xLen'.length →
      (∀ s ∈ X, s ≠ []) → (∀ i, i < X.length → minLen ≤ xLen'.getD i 0 ∧
        xLen'.getD i 0 ≤ ((X.getD i []).getD 0 []).length) →
      ∃ M, uvlApply X S a.phase xLen' = .ok M ∧ GoodMatrix M X.length S.lengths.length := by
  obtain ⟨S, h, hwf, -, hk⟩ := C20_fit_univariate_variable_length hv g0 gs
  refine ⟨S, h order ho, fun X xLen' hlen hne hX => ?_⟩
  have hl : ∀ i, i < X.length → minLen ≤ (uPrefix X xLen' i).length := by
    intro i hi
    show _ ≤ (((X.getD i []).getD 0 []).take (xLen'.getD i 0)).length
    rw [List.length_take]
    have := hX i hi
    omega
  refine ⟨_, C02_univariate_variable_length hwf _ hne hlen
    fun i hi k hkl => fits_of_lt ((hk k hkl).2.2.trans_le (hl i hi)), by simp, ?_⟩
  intro row hrow
  obtain ⟨i, hi, rfl⟩ := List.mem_map.1 hrow
  rw [List.mem_range] at hi
  refine goodRow fun k hkl => ?_
  obtain ⟨h1, h2⟩ := C05_applies a.phase S (uPrefix X xLen' i) k (by
    have := (hk k hkl).2.2.trans_le (hl i hi)
    unfold HasWindow
    split <;> omega)
  exact feature_min_nonneg h1 h2

/-- **C43.** Multivariate, equal lengths: batches with the training number of channels. -/
theorem C43_fit_transform_multivariate_same_length {a : FitArgs ℝ L} (hv : ValidSL a) {mc : Nat}
    (hmc : 1 ≤ mc) (hmcf : mc ≤ a.nf) (g0 : G)
    (gs : Nat → G) {order : Nat → List Nat} (ho : IsSchedule order) :
    ∃ S, mslGenerate a mc g0 gs order = .ok S ∧ ∀ (X : List (List (List ℝ))) (nt : Nat),
      (∀ x ∈ X, Rect x a.nf nt) → a.nt ≤ nt →
      ∃ M, mslApply X nt S a.phase = .ok M ∧ GoodMatrix M X.length S.lengths.length := by
  obtain ⟨S, h, hwf, -, hk⟩ := C21_fit_multivariate_same_length hv hmc hmcf g0 gs
  refine ⟨S, h order ho, fun X nt hX hnt => ⟨_, C03_multivariate_same_length hwf _ hX
    fun k hkl => fits_of_lt ((hk k hkl).2.2.1.trans_le hnt), by simp, ?_⟩⟩
  intro row hrow
  obtain ⟨s, hs, rfl⟩ := List.mem_map.1 hrow
  refine goodRow fun k hkl => ?_
  exact feature_min_nonneg (range_map_ne_nil _ (nWin_pos ((hk k hkl).2.2.1.trans_le hnt)))
    (mDistances_nonneg _ _ _ _ _)

/-- **C43.** Multivariate, variable lengths. -/
theorem C43_fit_transform_multivariate_variable_length {a : FitArgs ℝ L} {minLen : Nat}
    {xLen : List Nat} (hv : ValidVL a minLen xLen) {mc : Nat}
    (hmc : 1 ≤ mc) (hmcf : mc ≤ a.nf) (g0 : G) (gs : Nat → G) {order : Nat → List Nat}
    (ho : IsSchedule order) :
    ∃ S, mvlGenerate a mc minLen xLen g0 gs order = .ok S ∧
      ∀ (X : List (List (List ℝ))) (nt : Nat) (xLen' : List Nat), X.length ≤ xLen'.length →
      (∀ x ∈ X, Rect x a.nf nt) → (∀ i, i < X.length → minLen ≤ xLen'.getD i 0 ∧
        xLen'.getD i 0 ≤ nt) →
      ∃ M, mvlApply X nt S a.phase xLen' = .ok M ∧ GoodMatrix M X.length S.lengths.length := by
  obtain ⟨S, h, hwf, -, hk⟩ := C22_fit_multivariate_variable_length hv hmc hmcf g0 gs
  refine ⟨S, h order ho, fun X nt xLen' hlen hR hX => ?_⟩
  have hl : ∀ i, i < X.length → minLen ≤ min (xLen'.getD i 0) nt := by
    intro i hi
    have := hX i hi
    omega
  refine ⟨_, C04_multivariate_variable_length hwf _ hR hlen
    fun i hi k hkl => fits_of_lt ((hk k hkl).2.2.1.trans_le (hl i hi)), by simp, ?_⟩
  intro row hrow
  obtain ⟨i, hi, rfl⟩ := List.mem_map.1 hrow
  rw [List.mem_range] at hi
  refine goodRow fun k hkl => ?_
  exact feature_min_nonneg (range_map_ne_nil _ (nWin_pos ((hk k hkl).2.2.1.trans_le (hl i hi))))
    (mDistances_nonneg _ _ _ _ _)

/-- A test batch that is not the training set: two series of six points. -/
example (g0 : Script) (gs : Nat → Script) :
    ∃ S, uslGenerate exA g0 gs List.range = .ok S ∧
      ∃ M, uslApply [[[1, 2, 3, 4, 5, 6]], [[0, 0, 0, 0, 0, 7]]] S false = .ok M ∧
        GoodMatrix M 2 S.lengths.length := by
  obtain ⟨S, h, h'⟩ := C43_fit_transform_univariate_same_length exA_valid g0 gs
    (order := List.range) fun _ => List.Perm.refl _
  exact ⟨S, h, h' _ (by simp [exA])⟩

end Convst.Props
