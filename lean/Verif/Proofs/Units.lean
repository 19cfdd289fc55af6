import Verif.Spec.Units
import Verif.Proofs.FitMulti
import Verif.Proofs.ZNorm

/-! # A change of units: the numeric pieces and the sampling steps -/

set_option autoImplicit false
set_option linter.unusedSectionVars false

namespace Convst
open Spec

section Generic
variable {α β : Type}

theorem aget_map' (f : α → β) (l : List α) (i : Nat) : aget (l.map f) i = f <$> aget l i := by
  unfold aget
  rw [List.getElem?_map]
  cases l[i]? <;> rfl

theorem mapM_map' {γ : Type} (f : β → γ) (g : α → Res β) (l : List α) :
    (l.mapM fun i => f <$> g i) = (List.map f) <$> l.mapM g := by
  induction l with
  | nil => rfl
  | cons i l ih =>
    rw [List.mapM_cons, List.mapM_cons, ih]
    cases g i with
    | error e => rfl
    | ok v => cases l.mapM g <;> rfl

theorem mapM_map_list {γ : Type} (f : α → β) (g : β → Res γ) (l : List α) :
    (l.map f).mapM g = l.mapM fun a => g (f a) := by
  induction l with
  | nil => rfl
  | cons i l ih => rw [List.map_cons, List.mapM_cons, List.mapM_cons, ih]

theorem ofRes_map {G : Type} (f : α → β) (r : Res α) : (ofRes (f <$> r) : RM G β) = f <$> ofRes r := by
  cases r <;> rfl

/-- Two loops in step. -/
theorem foldlM_range_sim {ε σ σ' : Type} {f : σ → Nat → Except ε σ} {f' : σ' → Nat → Except ε σ'}
    {P : Nat → σ → σ' → Prop} {n : Nat} {s : σ} {s' : σ'} (h0 : P 0 s s')
    (hstep : ∀ k s s', k < n → P k s s' → (∃ e, f s k = .error e ∧ f' s' k = .error e) ∨
      ∃ t t', f s k = .ok t ∧ f' s' k = .ok t' ∧ P (k + 1) t t') :
    (∃ e, (List.range n).foldlM f s = .error e ∧ (List.range n).foldlM f' s' = .error e) ∨
      ∃ t t', (List.range n).foldlM f s = .ok t ∧ (List.range n).foldlM f' s' = .ok t' ∧ P n t t' := by
  induction n with
  | zero => exact Or.inr ⟨s, s', rfl, rfl, h0⟩
  | succ n ih =>
    rw [List.range_succ, List.foldlM_append, List.foldlM_append]
    rcases ih (fun k s s' hk => hstep k s s' (by omega)) with ⟨e, h1, h2⟩ | ⟨t, t', h1, h2, h3⟩
    · exact Or.inl ⟨e, by rw [h1]; rfl, by rw [h2]; rfl⟩
    · rw [h1, h2]
      simp only [Res.bind_ok, List.foldlM_cons, List.foldlM_nil]
      rcases hstep n t t' (by omega) h3 with ⟨e, h4, h5⟩ | ⟨u, u', h4, h5, h6⟩
      · exact Or.inl ⟨e, by rw [h4]; rfl, by rw [h5]; rfl⟩
      · exact Or.inr ⟨u, u', by rw [h4]; rfl, by rw [h5]; rfl, h6⟩

end Generic

variable {c b : ℝ}

theorem znorm_inUnits (hc : |c| = 1) (w : List ℝ) :
    znorm (w.map (inUnits c b)) = (znorm w).map fun v => c * v := by
  have e : w.map (inUnits c b) = (w.map fun v => c * v).map fun v => v + b := by
    rw [List.map_map]; rfl
  rw [e, znorm_add_const, znorm_eq, znorm_eq, mean_mul_const, std_mul_const, hc, List.map_map, List.map_map]
  congr 1
  funext v
  simp only [Function.comp_apply, one_mul]
  ring

/-- A change of units is harmless for this normalisation flag. -/
def HarmlessFor (c : ℝ) (norm : Bool) : Prop := |c| = 1 ∨ norm = false

theorem seen_units {norm : Bool} (h : HarmlessFor c norm) (w : List ℝ) :
    seen norm (w.map (inUnits c b)) = (seen norm w).map (shpUnits c b norm) := by
  cases norm with
  | false => rfl
  | true =>
    have hc : |c| = 1 := by rcases h with h | h; exact h; cases h
    unfold seen
    rw [if_pos rfl, if_pos rfl, znorm_inUnits hc]
    congr 1
    funext v
    simp [shpUnits]

theorem readRun_units (x : List ℝ) (step : Nat → Nat) (l idx : Nat) (f : ℝ → ℝ) :
    readRun (x.map f) step l idx = List.map f <$> readRun x step l idx := by
  induction l generalizing idx with
  | zero => rfl
  | succ l ih =>
    simp only [readRun]
    rw [aget_map', ih]
    cases aget x idx with
    | error e => rfl
    | ok v => cases readRun x step l (step idx) <;> rfl

theorem getSubsequence_units {norm : Bool} (h : HarmlessFor c norm) (x : List ℝ)
    (index l d : Nat) (phase : Bool) :
    getSubsequence (x.map (inUnits c b)) index l d norm phase =
      List.map (shpUnits c b norm) <$> getSubsequence x index l d norm phase := by
  have key : ∀ v : List ℝ, (if norm then znorm (v.map (inUnits c b)) else v.map (inUnits c b)) =
      (if norm then znorm v else v).map (shpUnits c b norm) := fun v => seen_units h v
  cases phase with
  | true =>
    simp only [getSubsequence, getSubsequencePhase, if_true, List.length_map, readRun_units]
    cases readRun x (fun idx => (idx + d) % x.length) l index with
    | error e => rfl
    | ok v => exact congrArg Except.ok (key v)
  | false =>
    simp only [getSubsequence, getSubsequencePlain, Bool.false_eq_true, if_false, readRun_units]
    cases readRun x (fun idx => idx + d) l index with
    | error e => rfl
    | ok v => exact congrArg Except.ok (key v)

theorem manhattan_units (norm : Bool) (w v : List ℝ) :
    manhattan (w.map (shpUnits c b norm)) (v.map (shpUnits c b norm)) =
      (fun t => |c| * t) <$> manhattan w v := by
  unfold manhattan
  rw [List.length_map]
  rcases foldlM_range_sim (n := w.length) (s := (0 : ℝ)) (s' := (0 : ℝ))
    (f := fun s i => do
      let a ← aget w i
      let b ← aget v i
      pure (s + Scalar.abs (a - b)))
    (f' := fun s i => do
      let a ← aget (w.map (shpUnits c b norm)) i
      let b ← aget (v.map (shpUnits c b norm)) i
      pure (s + Scalar.abs (a - b)))
    (P := fun _ s s' => s' = |c| * s) (by simp) (by
      rintro k s s' - rfl
      rw [aget_map', aget_map']
      cases aget w k with
      | error e => exact Or.inl ⟨e, rfl, rfl⟩
      | ok x =>
        cases aget v k with
        | error e => exact Or.inl ⟨e, rfl, rfl⟩
        | ok y =>
          refine Or.inr ⟨_, _, rfl, rfl, ?_⟩
          simp only [real_abs, shpUnits]
          rw [show c * x + (if norm = true then 0 else b) - (c * y + if norm = true then 0 else b) =
            c * (x - y) by ring, abs_mul]
          ring) with ⟨e, h1, h2⟩ | ⟨t, t', h1, h2, h3⟩
  · rw [h1, h2]; rfl
  · rw [h1, h2, h3]; rfl

theorem distWindows_units {norm : Bool} (h : HarmlessFor c norm) (W : List (List ℝ)) (v : List ℝ) :
    ((W.map (List.map (inUnits c b))).mapM fun w => manhattan (seen norm w) (v.map (shpUnits c b norm))) =
      List.map (fun t => |c| * t) <$> W.mapM fun w => manhattan (seen norm w) v := by
  rw [mapM_map_list, ← mapM_map']
  congr 1
  funext w
  rw [seen_units h, manhattan_units]

theorem strides1DPlain_units (x : List ℝ) (f : ℝ → ℝ) (l d : Nat) :
    strides1DPlain (x.map f) l d = List.map (List.map f) <$> strides1DPlain x l d := by
  unfold strides1DPlain
  rw [List.length_map, map_bind]
  congr 1
  funext n
  rw [← mapM_map']
  congr 1
  funext i
  rw [← mapM_map']
  congr 1
  funext j
  rw [aget_map']

theorem strides1DPhase_units (x : List ℝ) (f : ℝ → ℝ) (l d : Nat) :
    strides1DPhase (x.map f) l d = List.map (List.map f) <$> strides1DPhase x l d := by
  unfold strides1DPhase
  rw [List.length_map, ← mapM_map']
  simp only
  congr 1
  funext i
  rw [← mapM_map']
  congr 1
  funext j
  rw [aget_map']

theorem computeShapeletDistVector_units {norm : Bool} (h : HarmlessFor c norm) (x v : List ℝ)
    (l d : Nat) (phase : Bool) :
    computeShapeletDistVector (x.map (inUnits c b)) (v.map (shpUnits c b norm)) l d norm phase =
      List.map (fun t => |c| * t) <$> computeShapeletDistVector x v l d norm phase := by
  have key := distWindows_units (b := b) h
  cases norm <;> cases phase <;>
    simp only [computeShapeletDistVector, Bool.and_true, Bool.not_true, Bool.not_false, Bool.and_false,
      Bool.false_eq_true, if_true, if_false, distVectorNormPhase, distVectorNorm, distVectorPhase, distVectorPlain,
      strides1DPlain_units, strides1DPhase_units, bind_map_left, map_bind] <;>
    refine congrArg _ (funext fun W => ?_) <;>
    exact key W v

/-! ## Percentiles -/

variable {k : ℝ}

theorem ssort_scale (hk : 0 < k) (a : List ℝ) :
    ssort (a.map fun t => k * t) = (ssort a).map fun t => k * t := by
  unfold ssort
  symm
  apply List.map_mergeSort
  intro x _ y _
  rw [Bool.eq_iff_iff, real_leb, real_leb]
  exact (mul_le_mul_iff_of_pos_left hk).symm

theorem smax_scale (hk : 0 < k) (a : List ℝ) :
    smax (a.map fun t => k * t) = (fun t => k * t) <$> smax a := by
  cases a with
  | nil => rfl
  | cons x l =>
    simp only [smax, List.map_cons]
    refine congrArg Except.ok ?_
    induction l generalizing x with
    | nil => rfl
    | cons y l ih =>
      simp only [List.map_cons, List.foldl_cons]
      have : (if Scalar.ltb (k * x) (k * y) = true then k * y else k * x) =
          k * (if Scalar.ltb x y = true then y else x) := by
        simp only [real_ltb, mul_lt_mul_iff_of_pos_left hk]
        split <;> rfl
      rw [this]
      exact ih _

theorem percentile_scale (hk : 0 < k) (a : List ℝ) (q : ℝ) :
    percentile (a.map fun t => k * t) q = (fun t => k * t) <$> percentile a q := by
  rw [percentile_real, percentile_real]
  unfold percentileInner
  simp only [List.length_map, ssort_scale hk, maxOrNan_real, smax_scale hk, aget_map']
  split
  · split
    · rfl
    · split
      · rfl
      · cases aget (ssort a) (Scalar.floor (1 + Scalar.ofNat (a.length - 1) * (q / Scalar.ofNat 100)) - 1).toNat with
        | error e => rfl
        | ok x =>
          cases aget (ssort a) (Scalar.floor (1 + Scalar.ofNat (a.length - 1) * (q / Scalar.ofNat 100))).toNat with
          | error e => rfl
          | ok y =>
            refine congrArg Except.ok ?_
            ring
  · rfl

variable {G L : Type} [Gen G ℝ] [DecidableEq L]

theorem drawThreshold_scale (hk : 0 < k) (D : List ℝ) (p q : ℝ) :
    (drawThreshold (D.map fun t => k * t) p q : RM G ℝ) = (fun t => k * t) <$> drawThreshold D p q := by
  unfold drawThreshold
  rw [percentile_scale hk, percentile_scale hk, ofRes_map, ofRes_map]
  simp only [bind_map_left, map_bind]
  congr 1
  funext x
  congr 1
  funext y
  unfold uniformM
  rw [map_bind]
  congr 1
  funext u
  rw [map_pure]
  congr 1
  ring

/-! ## Sampling steps -/

/-- The training data in the new units. -/
noncomputable def FitArgs.units (c b : ℝ) (a : FitArgs ℝ L) : FitArgs ℝ L :=
  { a with X := a.X.map fun s => s.map fun x => x.map (inUnits c b) }

/-- A sampled shapelet in the new units. -/
noncomputable def Out.units (c b : ℝ) (norm : Bool) (o : Out ℝ) : Out ℝ :=
  ⟨o.values.map (shpUnits c b norm), o.channels, |c| * o.threshold⟩

/-- The result of a sampling step in the new units. -/
noncomputable def stepUnits (c b : ℝ) (norm : Bool) (r : SubMask × Option (Out ℝ)) : SubMask × Option (Out ℝ) :=
  (r.1, r.2.map (Out.units c b norm))

theorem aget2_units (X : List (List (List ℝ))) (f : List ℝ → List ℝ) (s j : Nat) :
    aget2 (X.map fun s => s.map f) s j = f <$> aget2 X s j := by
  unfold aget2
  rw [aget_map']
  cases aget X s with
  | error e => rfl
  | ok r => exact aget_map' f r j

theorem aget_getD_of_ok {α : Type} {l : List α} {i : Nat} {v : α} (d : α) (h : aget l i = .ok v) :
    l.getD i d = v := by
  rw [aget_eq_ok] at h
  rw [List.getD_eq_getElem?_getD, h]; rfl

theorem ofRes_ok_bind {α β : Type} (x : α) (f : α → RM G β) : (ofRes (.ok x) >>= f : RM G β) = f x := rfl

theorem map_ite' {α β : Type} (F : α → β) (p : Prop) [Decidable p] (x y : RM G α) :
    F <$> (if p then x else y) = if p then F <$> x else F <$> y := by split <;> rfl

theorem uslStep_units (hc : c ≠ 0) (a : FitArgs ℝ L) (lengths dilations : List Nat) (normalize : List Bool)
    (minL : Nat) (m : SubMask) (i : Nat) (h : HarmlessFor c (normalize.getD i false)) :
    (uslStep (a.units c b) lengths dilations normalize minL m i : RM G _) =
      stepUnits c b (normalize.getD i false) <$> uslStep a lengths dilations normalize minL m i := by
  have hk : 0 < |c| := abs_pos.2 hc
  unfold uslStep
  simp only [map_bind]
  refine congrArg _ (funext fun d => congrArg _ (funext fun l => ?_))
  cases hn : aget normalize i with
  | error e => rfl
  | ok norm =>
    have hnd := aget_getD_of_ok false hn
    rw [hnd] at h ⊢
    simp only [ofRes_ok_bind, FitArgs.units, List.length_map, aget2_units, ofRes_map, bind_map_left,
      getSubsequence_units h, computeShapeletDistVector_units h, drawThreshold_scale hk]
    simp only [map_ite', map_bind, map_pure]
    rfl

theorem uvlStep_units (hc : c ≠ 0) (a : FitArgs ℝ L) (xLen : List Nat) (maxLen : Nat)
    (lengths dilations : List Nat) (normalize : List Bool)
    (minL : Nat) (m : SubMask) (i : Nat) (h : HarmlessFor c (normalize.getD i false)) :
    (uvlStep (a.units c b) xLen maxLen lengths dilations normalize minL m i : RM G _) =
      stepUnits c b (normalize.getD i false) <$> uvlStep a xLen maxLen lengths dilations normalize minL m i := by
  have hk : 0 < |c| := abs_pos.2 hc
  unfold uvlStep
  simp only [map_bind]
  refine congrArg _ (funext fun d => congrArg _ (funext fun l => ?_))
  cases hn : aget normalize i with
  | error e => rfl
  | ok norm =>
    have hnd := aget_getD_of_ok false hn
    rw [hnd] at h ⊢
    simp only [ofRes_ok_bind, FitArgs.units, List.length_map, aget2_units, ofRes_map, bind_map_left,
      ← List.map_take, getSubsequence_units h, computeShapeletDistVector_units h, drawThreshold_scale hk]
    refine congrArg _ (funext fun rows => ?_)
    simp only [map_ite', map_bind, map_pure]
    rfl

theorem sliceAssign_units (vals v : List ℝ) (s l : Nat) (f : ℝ → ℝ) (hs : s + l ≤ vals.length) :
    (∃ e, sliceAssign vals s (s + l) v = .error e ∧
      sliceAssign ((vals.take s).map f ++ vals.drop s) s (s + l) (v.map f) = .error e) ∨
    ∃ r, sliceAssign vals s (s + l) v = .ok r ∧ r.length = vals.length ∧
      sliceAssign ((vals.take s).map f ++ vals.drop s) s (s + l) (v.map f) =
        .ok ((r.take (s + l)).map f ++ r.drop (s + l)) := by
  by_cases hv : v.length = l
  · have e1 : vals = vals.take s ++ (vals.drop s).take l ++ vals.drop (s + l) := by
      rw [List.append_assoc, ← List.drop_drop, List.take_append_drop, List.take_append_drop]
    have hlen : (vals.take s).length = s := by simp; omega
    right
    have h1 := sliceAssign_mid (p := vals.take s) (q := (vals.drop s).take l) (r := vals.drop (s + l)) (v := v)
      (s := s) (e := s + l) (by simp; omega) hlen.symm (by omega)
    rw [← e1] at h1
    have h2 := sliceAssign_mid (p := (vals.take s).map f) (q := (vals.drop s).take l) (r := vals.drop (s + l))
      (v := v.map f) (s := s) (e := s + l) (by simp; omega) (by simp; omega) (by simp; omega)
    have e2 : (vals.take s).map f ++ (vals.drop s).take l ++ vals.drop (s + l) =
        (vals.take s).map f ++ vals.drop s := by
      rw [List.append_assoc, ← List.drop_drop, List.take_append_drop]
    rw [e2] at h2
    refine ⟨_, h1, ?_, ?_⟩
    · simp; omega
    · rw [h2]
      have h3 : (vals.take s ++ v).length = s + l := by simp; omega
      rw [List.take_left' h3, List.drop_left' h3, List.map_append]
  · left
    refine ⟨.valueError, ?_, ?_⟩ <;> unfold sliceAssign <;> refine if_neg ?_
    · omega
    · simp only [List.length_append, List.length_map, List.length_take, List.length_drop]; omega

theorem addInto_scale (k : ℝ) (x y : List ℝ) :
    addInto (x.map fun t => k * t) (y.map fun t => k * t) = List.map (fun t => k * t) <$> addInto x y := by
  unfold addInto
  simp only [List.length_map]
  split
  · refine congrArg Except.ok ?_
    rw [List.zipWith_map, List.map_zipWith]
    congr 1
    funext a b
    ring
  · rfl

theorem channelLoop_units {norm : Bool} (h : HarmlessFor c norm) (sh : MaskShape)
    (xs xt : Nat → Res (List ℝ)) (channels : List Nat) (m : SubMask) (phase : Bool) (s index l d n : Nat)
    (size : Int) (nd : Nat) :
    channelLoop sh (fun c' => List.map (inUnits c b) <$> xs c') (fun c' => List.map (inUnits c b) <$> xt c')
        channels m norm phase s index l d n size (List.replicate nd 0) =
      (fun r : SubMask × List ℝ × List ℝ =>
        (r.1, r.2.1.map (fun t => |c| * t), r.2.2.map (shpUnits c b norm))) <$>
      channelLoop sh xs xt channels m norm phase s index l d n size (List.replicate nd 0) := by
  unfold channelLoop
  simp only
  rcases foldlM_range_sim (n := channels.length)
    (s := (m, List.replicate nd (0 : ℝ), List.replicate (channels.length * l) (0 : ℝ), 0))
    (s' := (m, List.replicate nd (0 : ℝ), List.replicate (channels.length * l) (0 : ℝ), 0))
    (f := fun (m, dist, vals, a3) k => do
      let c' ← aget channels k
      let m' ← markLoop sh m norm s c' index d n size
      let b3 := a3 + l
      let x ← xs c'
      let v ← getSubsequence x index l d norm phase
      let x' ← xt c'
      let D ← computeShapeletDistVector x' v l d norm phase
      let dist' ← addInto dist D
      let vals' ← sliceAssign vals a3 b3 v
      pure (m', dist', vals', b3))
    (f' := fun (m, dist, vals, a3) k => do
      let c' ← aget channels k
      let m' ← markLoop sh m norm s c' index d n size
      let b3 := a3 + l
      let x ← List.map (inUnits c b) <$> xs c'
      let v ← getSubsequence x index l d norm phase
      let x' ← List.map (inUnits c b) <$> xt c'
      let D ← computeShapeletDistVector x' v l d norm phase
      let dist' ← addInto dist D
      let vals' ← sliceAssign vals a3 b3 v
      pure (m', dist', vals', b3))
    (P := fun k t t' => t.2.2.2 = k * l ∧ t.2.2.1.length = channels.length * l ∧
      t' = (t.1, t.2.1.map (fun t => |c| * t),
        (t.2.2.1.take t.2.2.2).map (shpUnits c b norm) ++ t.2.2.1.drop t.2.2.2, t.2.2.2))
    (by simp) (by
      rintro k ⟨m, dist, vals, a3⟩ s' hk ⟨rfl, hlen, rfl⟩
      simp only at hlen ⊢
      cases aget channels k with
      | error e => exact Or.inl ⟨e, rfl, rfl⟩
      | ok c' =>
      simp only [Res.bind_ok]
      cases markLoop sh m norm s c' index d n size with
      | error e => exact Or.inl ⟨e, rfl, rfl⟩
      | ok m' =>
      simp only [Res.bind_ok]
      cases xs c' with
      | error e => exact Or.inl ⟨e, rfl, rfl⟩
      | ok x =>
      simp only [Res.bind_ok, bind_map_left, getSubsequence_units h]
      cases getSubsequence x index l d norm phase with
      | error e => exact Or.inl ⟨e, rfl, rfl⟩
      | ok v =>
      simp only [Res.bind_ok]
      cases xt c' with
      | error e => exact Or.inl ⟨e, rfl, rfl⟩
      | ok x' =>
      simp only [Res.bind_ok, bind_map_left, computeShapeletDistVector_units h]
      cases computeShapeletDistVector x' v l d norm phase with
      | error e => exact Or.inl ⟨e, rfl, rfl⟩
      | ok D =>
      simp only [Res.bind_ok, addInto_scale, bind_map_left]
      cases addInto dist D with
      | error e => exact Or.inl ⟨e, rfl, rfl⟩
      | ok dist' =>
      simp only [Res.bind_ok]
      have hb : k * l + l ≤ vals.length := by
        rw [hlen]; calc k * l + l = (k + 1) * l := by ring
          _ ≤ channels.length * l := Nat.mul_le_mul_right _ hk
      rcases sliceAssign_units vals v (k * l) l (shpUnits c b norm) hb with ⟨e, h1, h2⟩ | ⟨r, h1, h2, h3⟩
      · exact Or.inl ⟨e, by rw [h1]; rfl, by rw [h2]; rfl⟩
      · refine Or.inr ⟨_, _, by rw [h1]; rfl, by rw [h3]; rfl, ?_, ?_, rfl⟩
        · simp only; ring
        · simp only; omega) with ⟨e, h1, h2⟩ | ⟨t, t', h1, h2, h3, h4, h5⟩
  · rw [h1, h2]; rfl
  · rw [h1, h2, h5]
    refine congrArg Except.ok ?_
    simp only
    rw [List.take_of_length_le (by omega), List.drop_eq_nil_of_le (by omega), List.append_nil]

theorem mslStep_units (hc : c ≠ 0) (a : FitArgs ℝ L) (lengths dilations : List Nat) (normalize : List Bool)
    (nChannels : List Nat) (minL : Nat) (m : SubMask) (i : Nat) (h : HarmlessFor c (normalize.getD i false)) :
    (mslStep (a.units c b) lengths dilations normalize nChannels minL m i : RM G _) =
      stepUnits c b (normalize.getD i false) <$> mslStep a lengths dilations normalize nChannels minL m i := by
  have hk : 0 < |c| := abs_pos.2 hc
  unfold mslStep
  simp only [map_bind]
  refine congrArg _ (funext fun d => congrArg _ (funext fun l => ?_))
  cases hn : aget normalize i with
  | error e => rfl
  | ok norm =>
    have hnd := aget_getD_of_ok false hn
    rw [hnd] at h ⊢
    simp only [ofRes_ok_bind, FitArgs.units, List.length_map, aget2_units]
    refine congrArg _ (funext fun nc => congrArg _ (funext fun channels => ?_))
    simp only [map_ite', map_bind, map_pure, channelLoop_units h, ofRes_map, bind_map_left, drawThreshold_scale hk]
    rfl

theorem mvlStep_units (hc : c ≠ 0) (a : FitArgs ℝ L) (xLen : List Nat) (maxLen : Nat)
    (lengths dilations : List Nat) (normalize : List Bool)
    (nChannels : List Nat) (minL : Nat) (m : SubMask) (i : Nat) (h : HarmlessFor c (normalize.getD i false)) :
    (mvlStep (a.units c b) xLen maxLen lengths dilations normalize nChannels minL m i : RM G _) =
      stepUnits c b (normalize.getD i false) <$>
        mvlStep a xLen maxLen lengths dilations normalize nChannels minL m i := by
  have hk : 0 < |c| := abs_pos.2 hc
  unfold mvlStep
  simp only [map_bind]
  refine congrArg _ (funext fun d => congrArg _ (funext fun l => ?_))
  cases hn : aget normalize i with
  | error e => rfl
  | ok norm =>
    have hnd := aget_getD_of_ok false hn
    rw [hnd] at h ⊢
    have hcut : ∀ s n c', ((List.map (inUnits c b) <$> aget2 a.X s c') >>= fun x => pure (x.take n) : Res (List ℝ)) =
        List.map (inUnits c b) <$> (aget2 a.X s c' >>= fun x => pure (x.take n)) := by
      intro s n c'
      cases aget2 a.X s c' with
      | error e => rfl
      | ok x => exact congrArg Except.ok (by rw [List.map_take])
    simp only [ofRes_ok_bind, FitArgs.units, List.length_map, aget2_units, hcut]
    refine congrArg _ (funext fun nc => congrArg _ (funext fun channels => congrArg _ (funext fun rows => ?_)))
    simp only [channelLoop_units h, ofRes_map, bind_map_left, drawThreshold_scale hk]
    simp only [map_ite', map_bind, map_pure]
    rfl

end Convst
