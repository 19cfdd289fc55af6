import Verif.Proofs.Basics
import Verif.Spec.Transform

/-! # The numeric kernels agree with their specification -/

set_option linter.unusedSectionVars false

set_option autoImplicit false

namespace Convst
variable {K : Type} [Scalar K]
open Spec

theorem window_length (phase : Bool) (x : List K) (l d i : Nat) :
    (window phase x l d i).length = l := by simp [window]

theorem znorm_length (w : List K) : (znorm w).length = w.length := by simp [znorm]

theorem seen_length (norm : Bool) (w : List K) : (seen norm w).length = w.length := by
  cases norm <;> simp [seen, znorm_length]

theorem stridesDim_ok {T l d : Nat} (hl : 1 ≤ l) (h : (l - 1) * d ≤ T) :
    dim ((T : Int) - ((l : Int) - 1) * d) = .ok (T - (l - 1) * d) := by
  have e : ((T : Int) - ((l : Int) - 1) * d) = ((T - (l - 1) * d : Nat) : Int) := by
    rw [Nat.cast_sub h]; push_cast [Nat.cast_sub hl]; ring
  rw [e, dim_ok (by positivity)]; simp

theorem stridesDim_err {T l d : Nat} (hl : 1 ≤ l) (h : T < (l - 1) * d) :
    dim ((T : Int) - ((l : Int) - 1) * d) = .error .valueError := by
  apply dim_neg
  have : ((T : Nat) : Int) < (((l - 1) * d : Nat) : Int) := by exact_mod_cast h
  push_cast [Nat.cast_sub hl] at this
  linarith

theorem strides1DPlain_ok {x : List K} {l d : Nat} (hl : 1 ≤ l) (h : (l - 1) * d ≤ x.length) :
    strides1DPlain x l d =
      .ok ((List.range (x.length - (l - 1) * d)).map fun i => window false x l d i) := by
  unfold strides1DPlain
  rw [stridesDim_ok hl h, Res.bind_ok]
  apply mapM_ok
  intro i hi
  rw [List.mem_range] at hi
  apply mapM_ok
  intro j hj
  rw [List.mem_range] at hj
  have hj' : j * d ≤ (l - 1) * d := Nat.mul_le_mul_right _ (by omega)
  rw [aget_getD 0 (by omega)]
  simp [pos]

theorem strides1DPlain_err {x : List K} {l d : Nat} (hl : 1 ≤ l) (h : x.length < (l - 1) * d) :
    strides1DPlain x l d = .error .valueError := by
  unfold strides1DPlain
  rw [stridesDim_err hl h, Res.bind_error]

theorem strides1DPhase_ok {x : List K} {l d : Nat} :
    strides1DPhase x l d = .ok ((List.range x.length).map fun i => window true x l d i) := by
  unfold strides1DPhase
  apply mapM_ok
  intro i hi
  rw [List.mem_range] at hi
  apply mapM_ok
  intro j _
  rw [aget_getD 0 (Nat.mod_lt _ (by omega))]
  simp [pos]

theorem generateStrides1D_ok {x : List K} {l d : Nat} {phase : Bool} (hl : 1 ≤ l)
    (h : Fits phase x.length l d) :
    generateStrides1D x l d phase =
      .ok ((List.range (nWin phase x.length l d)).map fun i => window phase x l d i) := by
  cases phase with
  | true => simpa [generateStrides1D, nWin] using strides1DPhase_ok
  | false =>
    have h' : (l - 1) * d ≤ x.length := by simpa [Fits] using h
    simpa [generateStrides1D, nWin] using strides1DPlain_ok hl h'

theorem generateStrides1D_err {x : List K} {l d : Nat} {phase : Bool} (hl : 1 ≤ l)
    (h : ¬ Fits phase x.length l d) : generateStrides1D x l d phase = .error .valueError := by
  cases phase with
  | true => simp [Fits] at h
  | false =>
    have h' : x.length < (l - 1) * d := by simpa [Fits] using h
    simpa [generateStrides1D] using strides1DPlain_err hl h'

theorem manhattan_ok {w v : List K} (h : w.length ≤ v.length) :
    manhattan w v = .ok (l1 w v) := by
  unfold manhattan l1
  apply foldlM_ok
  intro s i hi
  rw [List.mem_range] at hi
  rw [aget_getD 0 hi, aget_getD 0 (by omega)]
  rfl

/-- The feature loop over a list of distances. -/
theorem featLoop_eq (thr : K) (D : List K) (i : Nat) (m : K) (a c : Nat) :
    ((D.zipIdx i).foldl (fun acc p => featStep thr acc p.2 p.1) (m, a, c)) =
      ((scanMin D i m a).1, (scanMin D i m a).2, c + D.countP fun x => Scalar.leb x thr) := by
  induction D generalizing i m a c with
  | nil => simp [scanMin]
  | cons x D ih =>
    rw [List.zipIdx_cons, List.foldl_cons]
    have e : featStep thr (m, a, c) i x =
        ((if (Scalar.ltb x m || Scalar.eqb m (-1)) = true then (x, i) else (m, a)).1,
         (if (Scalar.ltb x m || Scalar.eqb m (-1)) = true then (x, i) else (m, a)).2,
         if Scalar.leb x thr = true then c + 1 else c) := rfl
    simp only [e, ih, scanMin, List.countP_cons]
    split <;> split <;> simp <;> omega

theorem foldl_range_zipIdx {σ β : Type} (g : σ → Nat → β → σ) (D : List β) (dflt : β) (s : σ) :
    (List.range D.length).foldl (fun acc i => g acc i (D.getD i dflt)) s =
      D.zipIdx.foldl (fun acc p => g acc p.2 p.1) s := by
  have : D.zipIdx = (List.range D.length).map fun i => (D.getD i dflt, i) := by
    apply List.ext_getElem
    · simp
    · intro i h1 h2
      have : i < D.length := by simpa using h1
      simp [List.getD, this]
  rw [this, List.foldl_map]

theorem features_eq_fold (D : List K) (thr : K) :
    featOut ((List.range D.length).foldl (fun acc i => featStep thr acc i (D.getD i 0)) featInit) =
      features D thr := by
  rw [foldl_range_zipIdx (fun acc i x => featStep thr acc i x) D 0, featInit, featLoop_eq]
  simp [featOut, features]

theorem applyOneUni_ok {strides : List (List K)} {v : List K} {thr : K}
    (h : ∀ w ∈ strides, w.length ≤ v.length) :
    applyOneUni strides v thr = .ok (features (strides.map fun w => l1 w v) thr) := by
  unfold applyOneUni
  rw [foldlM_ok (g := fun acc i =>
      featStep thr acc i ((strides.map fun w => l1 w v).getD i 0))]
  · rw [Res.bind_ok, Res.pure_eq, ← features_eq_fold]; simp
  · intro s i hi
    rw [List.mem_range] at hi
    rw [aget_ok hi, Res.bind_ok, manhattan_ok (h _ (List.getElem_mem hi)), Res.bind_ok]
    simp [List.getD, hi]

/-- Univariate feature extraction on the (possibly normalised) windows of a series. -/
theorem applyOneUni_windows {x v : List K} {l d : Nat} {phase norm : Bool} {thr : K}
    (h : l ≤ v.length) :
    applyOneUni ((List.range (nWin phase x.length l d)).map fun i => seen norm (window phase x l d i))
      v thr = .ok (features (distances phase norm x v l d) thr) := by
  rw [applyOneUni_ok]
  · simp [distances, Function.comp_def]
  · intro w hw
    obtain ⟨i, _, rfl⟩ := List.mem_map.1 hw
    rw [seen_length, window_length]; exact h

/-! ## Multivariate -/

theorem generateStrides2D_ok {X : List (List K)} {nt l d : Nat} {phase : Bool} (hl : 1 ≤ l)
    (hX : ∀ x ∈ X, x.length = nt) (h : Fits phase nt l d) :
    generateStrides2D X nt l d phase =
      .ok ⟨nWin phase nt l d,
        X.map fun x => (List.range (nWin phase nt l d)).map fun i => window phase x l d i⟩ := by
  cases phase with
  | true =>
    simp only [generateStrides2D, if_true, strides2DPhase]
    rw [mapM_ok (g := fun x => (List.range nt).map fun i => window true x l d i)]
    · simp [nWin]
    · intro x hx
      have := strides1DPhase_ok (x := x) (l := l) (d := d)
      rw [strides1DPhase, hX x hx] at this
      exact this
  | false =>
    have h' : (l - 1) * d ≤ nt := by simpa [Fits] using h
    simp only [generateStrides2D, strides2DPlain, Bool.false_eq_true, if_false]
    rw [stridesDim_ok hl h', Res.bind_ok,
      mapM_ok (g := fun x => (List.range (nt - (l - 1) * d)).map fun i => window false x l d i)]
    · simp [nWin]
    · intro x hx
      have := strides1DPlain_ok (x := x) hl (by rw [hX x hx]; exact h')
      rw [strides1DPlain, hX x hx, stridesDim_ok hl h', Res.bind_ok] at this
      exact this

theorem generateStrides2D_err {X : List (List K)} {nt l d : Nat} {phase : Bool} (hl : 1 ≤ l)
    (h : ¬ Fits phase nt l d) : generateStrides2D X nt l d phase = .error .valueError := by
  cases phase with
  | true => simp [Fits] at h
  | false =>
    have h' : nt < (l - 1) * d := by simpa [Fits] using h
    simp only [generateStrides2D, strides2DPlain, Bool.false_eq_true, if_false]
    rw [stridesDim_err hl h', Res.bind_error]

theorem applyOneMulti_ok {s : Strides2D K} {v : List (List K)} {thr : K} (D : List K)
    (hD : D.length = s.nCand)
    (h : ∀ i, i < s.nCand →
      (List.range s.rows.length).foldlM (init := (0 : K)) (fun acc ft => (do
        let ch ← aget s.rows ft
        let w ← aget ch i
        let vv ← aget v ft
        let m ← manhattan w vv
        pure (acc + m) : Res K)) = .ok (D.getD i 0)) :
    applyOneMulti s v thr = .ok (features D thr) := by
  unfold applyOneMulti
  rw [foldlM_ok (g := fun acc i => featStep thr acc i (D.getD i 0))]
  · rw [Res.bind_ok, Res.pure_eq, ← features_eq_fold, hD]
  · intro acc i hi
    rw [List.mem_range] at hi
    rw [h i hi]; rfl

end Convst
