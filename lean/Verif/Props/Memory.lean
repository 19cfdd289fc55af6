import Verif.Proofs.MemoryTransform
import Verif.Proofs.MemoryFrame

/-!
# C111: `transform` at the level of memory

Model: `Model/Memory.lean`.  Vocabulary: `Spec/Memory.lean`.
-/

set_option autoImplicit false
set_option linter.unusedSectionVars false

namespace Convst.Props
open Convst Spec Mem

variable {K R : Type} [Scalar K]

private theorem memory_main {o : Rdst K R} {S : Shapelets K} {X : XIn K} {xs : List (Mat K)} {M : List (List K)} {h : Heap K}
    {A : ShpArr} {vs : List View} (hX : X.WF) (hS : o.shapelets = some S) (hxs : samples X = .ok xs)
    (hA : ShpHeld h A S) (hv : List.Forall₂ (Held h) vs xs) (hM : o.transform X = .ok M) :
    ∃ c xn, start h A (isVariable o.transformType) o.phase vs = .ok (c, xn) ∧ Unchanged h c.heap ∧
      ∃ E owns outs, Inv E xn M.flatten c owns outs ∧ ∀ a b, h.bufs[a]? = some b → E.ro a = some b := by
  have hwf := samples_wf hX hxs
  -- shapes and the functional kernel
  obtain ⟨nf, nt, hne, hnf, hlen, hmax, hk⟩ : ∃ nf nt, xs ≠ [] ∧ (∀ x ∈ xs, x.rows.length = nf) ∧
      (∀ x ∈ xs, x.len ≤ nt) ∧ nmax (xs.map Mat.len) = .ok nt ∧
      ((isVariable o.transformType = true ∧ ((∃ S', S = .u S' ∧ uvlApply (padded nt xs) S' o.phase (xs.map Mat.len) = .ok M) ∨
        ∃ S', S = .m S' ∧ mvlApply (padded nt xs) nt S' o.phase (xs.map Mat.len) = .ok M)) ∨
      (isVariable o.transformType = false ∧ (∀ x ∈ xs, x.len = nt) ∧
        ((∃ S', S = .u S' ∧ uslApply (padded nt xs) S' o.phase = .ok M) ∨
        ∃ S', S = .m S' ∧ mslApply (padded nt xs) nt S' o.phase = .ok M))) := by
    unfold Rdst.transform at hM
    rw [hS] at hM
    simp only at hM
    split at hM
    · rename_i hvar
      have hvar' : isVariable o.transformType = true := by
        unfold isVariable
        rcases hvar with e | e <;> rw [e] <;> rfl
      obtain ⟨⟨B, lens⟩, hf, hM⟩ := Res.bind_eq_ok.1 hM
      obtain ⟨Y, hY, hM⟩ := Res.bind_eq_ok.1 hM
      obtain ⟨hne, hdata, hlens, hrows, hle⟩ := formatUneven_samples hf hxs
      have hnm : nmax (xs.map Mat.len) = .ok B.nt := by
        unfold formatUneven at hf
        rw [hxs, Res.bind_ok] at hf
        cases xs with
        | nil => cases hf
        | cons x xs =>
          simp only at hf
          split at hf
          · obtain ⟨m, hm, hf⟩ := Res.bind_eq_ok.1 hf
            rw [Res.pure_eq, Except.ok.injEq, Prod.mk.injEq] at hf
            rw [hm, ← hf.1]
          · cases hf
      refine ⟨B.nf, B.nt, hne, hrows, hle, hnm, Or.inl ⟨hvar', ?_⟩⟩
      simp only at hM hlens
      rw [hdata, hlens] at hM
      split at hM
      · exact Or.inl ⟨_, rfl, hM⟩
      · exact Or.inr ⟨_, rfl, hM⟩
      · cases hM
    · rename_i hvar
      have hvar' : isVariable o.transformType = false := by
        unfold isVariable
        generalize o.transformType = t at hvar
        cases t <;> first | rfl | exact absurd (Or.inl rfl) hvar | exact absurd (Or.inr rfl) hvar
      obtain ⟨B, hB, hM⟩ := Res.bind_eq_ok.1 hM
      obtain ⟨hs, hnf0, -, hne, hrect⟩ := toArr3_samples hX hB
      have hxs' := Except.ok.inj (hs.symm.trans hxs)
      have hpad : padded B.nt xs = B.data := by
        rw [← hxs', padded, List.map_map]
        conv_rhs => rw [← List.map_id B.data]
        apply List.map_congr_left
        intro s hs
        simp only [Function.comp_apply, id]
        conv_rhs => rw [← List.map_id s]
        apply List.map_congr_left
        intro r hr
        simp [padRow, (hrect s hs).2 r hr]
      have hlens : ∀ x ∈ xs, x.len = B.nt := by
        intro x hx
        rw [← hxs'] at hx
        obtain ⟨s, hs, rfl⟩ := List.mem_map.1 hx
        rfl
      have hne' : xs ≠ [] := by rw [← hxs']; simpa using hne
      have hnm : nmax (xs.map Mat.len) = .ok B.nt := by
        obtain ⟨m, hm, -, hm2⟩ := nmax_spec (l := xs.map Mat.len) (by simpa using hne')
        obtain ⟨x, hx, hxm⟩ := List.mem_map.1 hm2
        rw [hm, ← hxm, hlens x hx]
      refine ⟨B.nf, B.nt, hne', ?_, fun x hx => (hlens x hx).le, hnm, Or.inr ⟨hvar', hlens, ?_⟩⟩
      · intro x hx
        rw [← hxs'] at hx
        obtain ⟨s, hs, rfl⟩ := List.mem_map.1 hx
        exact (hrect s hs).1
      · rw [hpad]
        split at hM
        · exact Or.inl ⟨_, rfl, hM⟩
        · exact Or.inr ⟨_, rfl, hM⟩
        · cases hM
  have hnt : vs.map View.nt = xs.map Mat.len := by
    clear hnf hlen hmax hk hne hwf hxs
    induction hv with
    | nil => rfl
    | cons h1 _ ih => rw [List.map_cons, List.map_cons, ih, h1.2.1]
  have hhead : (vs.head?.map View.nf).getD 0 = nf := by
    cases hv with
    | nil => exact absurd rfl hne
    | cons h1 _ => simp only [List.head?_cons, Option.map_some, Option.getD_some, h1.1]; exact hnf _ List.mem_cons_self
  obtain ⟨h1, x, hrun, hun, hx⟩ := run_copies hwf hnf hlen hv (isVariable o.transformType)
  have hrect := padded_rect hwf hnf hlen
  have hpl : (padded nt xs).length = vs.length := by simp [padded, hv.length_eq]
  have hrunlen : ∀ (i n : Nat), (xs.map Mat.len)[i]? = some n → (vs[i]?.map View.nt).getD 0 = n ∧ n ≤ nt := by
    intro i n hi
    constructor
    · rw [← hnt, List.getElem?_map] at hi
      rw [hi]; rfl
    · obtain ⟨x, hx, rfl⟩ := List.mem_map.1 (List.mem_of_getElem? hi)
      exact hlen x hx
  -- what is common to the four kernels
  have finish : ∀ {W : Type} {kern : Kernel K W} {repr : W → Strides2D K} {lengths dilations : List Nat}
      {normalize : List Bool}, A.lengths = lengths → A.dilations = dilations → A.normalize = normalize →
      dilations.length = lengths.length → normalize.length = lengths.length →
      Implements ⟨fun a => h1.bufs[a]?, some h1.bufs.length⟩ kern repr (kernelOf A x nf nt
        (fun i => if isVariable o.transformType = true then (vs[i]?.map View.nt).getD 0 else nt) o.phase) →
      applyAll kern vs.length lengths dilations normalize = .ok M →
      ∃ c xn, start h A (isVariable o.transformType) o.phase vs = .ok (c, xn) ∧ Unchanged h c.heap ∧
        ∃ E owns outs, Inv E xn M.flatten c owns outs ∧ ∀ a b, h.bufs[a]? = some b → E.ro a = some b := by
    intro W kern repr lengths dilations normalize e1 e2 e3 l1 l2 him happ
    subst e1 e2 e3
    obtain ⟨g, hg, -⟩ := groupShapelets_ok (lengths := A.lengths) (dilations := A.dilations) l1.symm
    obtain ⟨outs, hI⟩ := pool_start l1.symm l2 hg him happ
    refine ⟨_, _, ?_, ?_, _, _, outs, hI, hun⟩
    · unfold start
      simp only [hnt, hmax, Res.bind_ok, hhead, hrun, hg]
      rfl
    · intro a b hb
      exact push_old (hun a b hb)
  rcases hk with ⟨hvar, ⟨S', rfl, hap⟩ | ⟨S', rfl, hap⟩⟩ | ⟨hvar, hlens, ⟨S', rfl, hap⟩ | ⟨S', rfl, hap⟩⟩
  · cases A with
    | m A => exact absurd hA id
    | u A =>
      obtain ⟨a1, a2, a3, a4, a5, a6, a7, a8⟩ := hA
      refine finish a4 a5 a6 a7 a8 (uvl_implements hx hrect (hun _ _ a1) a2 (hun _ _ a3) ?_) (by rw [← hpl]; exact hap)
      intro i n hi
      simp only [hvar, if_true]
      exact hrunlen i n hi
  · cases A with
    | u A => exact absurd hA id
    | m A =>
      obtain ⟨a1, a2, a3, a4, a5, a6, a7, a8, a9, a10⟩ := hA
      refine finish a4 a5 a6 a9 a10 (mvl_implements hx hrect (hun _ _ a1) a2 (hun _ _ a3) a7 a4 a8 ?_)
        (by rw [← hpl]; exact hap)
      intro i n hi
      simp only [hvar, if_true]
      exact hrunlen i n hi
  · cases A with
    | m A => exact absurd hA id
    | u A =>
      obtain ⟨a1, a2, a3, a4, a5, a6, a7, a8⟩ := hA
      refine finish a4 a5 a6 a7 a8 (usl_implements hx hrect (hun _ _ a1) a2 (hun _ _ a3) ?_) (by rw [← hpl]; exact hap)
      intro i
      simp [hvar]
  · cases A with
    | u A => exact absurd hA id
    | m A =>
      obtain ⟨a1, a2, a3, a4, a5, a6, a7, a8, a9, a10⟩ := hA
      refine finish a4 a5 a6 a9 a10 (msl_implements hx hrect (hun _ _ a1) a2 (hun _ _ a3) a7 a4 a8 ?_)
        (by rw [← hpl]; exact hap)
      intro i
      simp [hvar]

/-- **C111.**  Whatever the layout of the caller's arrays and whatever the order in which the threads perform their
memory operations: every buffer that existed before the call (the series of the caller, the shapelets of the model,
anything else) has its content at every moment; no thread ever fails; as long as the threads have not finished one of
them can go on, and no execution goes on for ever; and when they have finished the returned buffer contains the matrix
of the value-level model, row after row. -/
theorem C111_transform_memory {o : Rdst K R} {S : Shapelets K} {X : XIn K} {xs : List (Mat K)} {M : List (List K)}
    {h : Heap K} {A : ShpArr} {vs : List View} (hX : X.WF) (hS : o.shapelets = some S) (hxs : samples X = .ok xs)
    (hA : ShpHeld h A S) (hv : List.Forall₂ (Held h) vs xs) (hM : o.transform X = .ok M) :
    ∃ c xn, start h A (isVariable o.transformType) o.phase vs = .ok (c, xn) ∧ Terminates c ∧
      ∀ c', Reaches c c' → Unchanged h c'.heap ∧ ¬ Crashed c' ∧ (AllDone c' ∨ ∃ c'', Conf.Step c' c'') ∧
        (AllDone c' → c'.heap.bufs[xn]? = some M.flatten) := by
  obtain ⟨c, xn, hst, -, E, owns, outs, hI, hro⟩ := memory_main hX hS hxs hA hv hM
  refine ⟨c, xn, hst, terminates c, ?_⟩
  intro c' hc'
  obtain ⟨owns', outs', hI'⟩ := hI.reaches hc'
  refine ⟨fun a b hb => hI'.ro a b (hro a b hb), hI'.not_crashed, ?_, hI'.finished⟩
  rcases progress c' with h1 | h1 | h1
  · exact Or.inl h1
  · exact absurd h1 hI'.not_crashed
  · exact Or.inr h1

/-- **C111**, without any assumption on the arrays: also in calls that fail in one of the threads, because a series is
too short or an array has not the expected size, no buffer that existed before the call is ever written. -/
theorem C111_no_write {h : Heap K} {A : ShpArr} {variableLen phase : Bool} {vs : List View} {c : Conf K} {xn : Nat}
    (hs : start h A variableLen phase vs = .ok (c, xn)) : ∀ c', Reaches c c' → Unchanged h c'.heap := by
  unfold start at hs
  obtain ⟨nt, hnt, hs⟩ := Res.bind_eq_ok.1 hs
  generalize hp : (Prog.run h (if variableLen then do
      let a ← copyIn ((vs.head?.map View.nf).getD 0) nt vs
      copyFlat a (vs.length * (vs.head?.map View.nf).getD 0 * nt)
    else copyIn ((vs.head?.map View.nf).getD 0) nt vs)) = q at hs
  obtain ⟨h1, r⟩ := q
  have hk : Keeps h h1 := by
    have := (show Framed h.bufs.length _ from by
      cases variableLen with
      | false => exact framed_copyIn _ _ _ _
      | true =>
        refine Framed.bind (framed_copyIn _ _ _ _) fun a => framed_copyFlat _ _ _).run (h := h) (h' := h)
        (p := if variableLen then do
          let a ← copyIn ((vs.head?.map View.nf).getD 0) nt vs
          copyFlat a (vs.length * (vs.head?.map View.nf).getD 0 * nt)
        else copyIn ((vs.head?.map View.nf).getD 0) nt vs) (Keeps.refl h)
    rwa [hp] at this
  simp only at hs
  obtain ⟨x, hx, hs⟩ := Res.bind_eq_ok.1 hs
  obtain ⟨g, hg, hs⟩ := Res.bind_eq_ok.1 hs
  rw [Res.pure_eq, Except.ok.injEq, Prod.mk.injEq] at hs
  obtain ⟨rfl, rfl⟩ := hs
  intro c' hc'
  refine (reaches_keeps hc' ⟨hk.push _, ?_⟩).1.2
  intro p hp
  obtain ⟨i, -, hp⟩ := List.mem_flatMap.1 hp
  obtain ⟨ip, -, rfl⟩ := List.mem_map.1 hp
  exact framed_task (framed_kernelOf _ _ _ _ _ _) _ _ hk.1 _ _ _

/-- **C111** (finding): `z_norm_3D` overwrites the array it is given: afterwards this array contains the normalised
series, and it is this array, not a copy, that is returned.  All other arrays are unchanged. -/
theorem C111_z_norm_3D_in_place {h : Heap K} {a n nf nt : Nat} {data : List (List (List K))} (hn : data.length = n)
    (hrect : ∀ s ∈ data, Rect s nf nt) (ha : h.bufs[a]? = some data.flatten.flatten) :
    ∃ h', (zNorm3DMem a n nf nt).run h = (h', .ok a) ∧
      h'.bufs[a]? = some (data.map fun s => s.map znorm).flatten.flatten ∧
      ∀ b l, b ≠ a → h.bufs[b]? = some l → h'.bufs[b]? = some l := by
  classical
  have hwp : wp (⟨fun b => if b = a then none else h.bufs[b]?, none⟩ : Shared K) (zNorm3DMem a n nf nt)
      (fun b => if b = a then some data.flatten.flatten else none) []
      fun x own _ => x = a ∧ own a = some (data.map fun s => s.map znorm).flatten.flatten := by
    unfold zNorm3DMem
    rw [wp_bind]
    refine wp_normaliseWin (s := ⟨a, n, nf, nt⟩) (w := ⟨nf, data⟩) ?_ ?_
    · exact ⟨by simp, rfl, hn.symm, fun R hR => (hrect R hR).1, fun R hR => (hrect R hR).2⟩
    · intro own' hrep
      exact wp_pure ⟨rfl, hrep.1⟩
  obtain ⟨h', x, own', hrun, ⟨rfl, hQ⟩, hro, hown⟩ := run_of_wp rfl (h := h)
    (fun b l hb => by
      simp only at hb
      split at hb
      · cases hb
      · exact hb)
    (fun b l hb => by
      simp only at hb ⊢
      split at hb
      · rename_i hba
        subst hba
        cases hb
        exact ⟨ha, by simp⟩
      · cases hb) hwp
  refine ⟨h', hrun, (hown _ _ hQ).1, ?_⟩
  intro b l hb hl
  exact hro b l (by simp only [if_neg hb]; exact hl)

/-! ## Non-vacuity -/

/-- The two series of `exX` in one transposed array (buffer 0), the values and thresholds of `exU` (buffers 1, 2), the
two series of `exXm` stored point by point (buffers 3, 4), and the arrays of `exM` (buffers 5, 6). -/
noncomputable def memHeap : Heap ℝ :=
  ⟨[[0, 1, 1, 1, 2, 0, 3, 0, 4, 2], [1, 2, 0, 0, 1, 3, 4, 5, 0], [1 / 2, 1, 3],
    [0, 5, 1, 5, 2, 6, 3, 7], [1, 2, 1, 0, 0, 2, 0, 0], [1, 2, 3, 4, 0, 1, 3], [1 / 2, 1]]⟩

/-- The arrays of `exU`. -/
def memU : UArr := ⟨1, 3, 2, [2, 3, 2], [1, 2, 1], [false, true, true]⟩

/-- The arrays of `exM`. -/
def memM : Mem.MArr := ⟨5, 7, 6, [2, 3], [1, 1], [true, false], [2, 1], [1, 0, 1]⟩

theorem memU_held : ShpHeld memHeap (.u memU) (.u exU) := by
  refine ⟨?_, ?_, rfl, rfl, rfl, rfl, rfl, rfl⟩
  · simp [memHeap, memU, exU]
  · simp [exU, memU]

theorem memM_held : ShpHeld memHeap (.m memM) (.m exM) :=
  ⟨rfl, rfl, rfl, rfl, rfl, rfl, rfl, rfl, rfl, rfl⟩

/-- Views of the transposed array. -/
def memViews : List View := [⟨0, 1, 5, fun _ t => 2 * t⟩, ⟨0, 1, 5, fun _ t => 2 * t + 1⟩]

/-- Views of the arrays with the channels next to each other. -/
def memViewsM : List View := [⟨3, 2, 4, fun c t => 2 * t + c⟩, ⟨4, 2, 4, fun c t => 2 * t + c⟩]

theorem lt_of_get {α : Type} {l : List α} {i : Nat} {v : α} (h : l[i]? = some v) : i < l.length :=
  (List.getElem?_eq_some_iff.1 h).1

theorem memViews_held : List.Forall₂ (Held memHeap) memViews (exX.map fun s => ⟨s, 5⟩) := by
  simp only [memViews, exX, List.map_cons, List.map_nil]
  refine .cons ⟨rfl, rfl, ?_⟩ (.cons ⟨rfl, rfl, ?_⟩ .nil)
  all_goals
    intro c t row e h1 h2
    have hc := lt_of_get h1
    simp only [List.length_cons, List.length_nil] at hc
    interval_cases c
    simp only [List.getElem?_cons_zero, Option.some.injEq] at h1
    subst h1
    have ht := lt_of_get h2
    simp only [List.length_cons, List.length_nil] at ht
    interval_cases t <;> exact h2

theorem memViewsM_held : List.Forall₂ (Held memHeap) memViewsM (exXm.map fun s => ⟨s, 4⟩) := by
  simp only [memViewsM, exXm, List.map_cons, List.map_nil]
  refine .cons ⟨rfl, rfl, ?_⟩ (.cons ⟨rfl, rfl, ?_⟩ .nil)
  all_goals
    intro c t row e h1 h2
    have hc := lt_of_get h1
    simp only [List.length_cons, List.length_nil] at hc
    interval_cases c
    all_goals
      simp only [List.getElem?_cons_zero, List.getElem?_cons_succ, Option.some.injEq] at h1
      subst h1
      have ht := lt_of_get h2
      simp only [List.length_cons, List.length_nil] at ht
      interval_cases t <;> exact h2

/-- Two series in a transposed array and three shapelets: the hypotheses of `C111_transform_memory` hold and the call
starts four threads (two series, two pairs of length and dilation). -/
example {o : Rdst ℝ R} (ht : o.transformType = .uni) (hS : o.shapelets = some (.u exU)) :
    ∃ M c xn, o.transform (.array .float64 ⟨exX, 1, 5⟩) = .ok M ∧
      start memHeap (.u memU) (isVariable o.transformType) o.phase memViews = .ok (c, xn) ∧
      ∀ c', Reaches c c' → Unchanged memHeap c'.heap ∧ (AllDone c' → c'.heap.bufs[xn]? = some M.flatten) := by
  have hwf : (XIn.array .float64 (⟨exX, 1, 5⟩ : Arr3 ℝ)).WF := by
    intro s hs
    simp only [exX, List.mem_cons, List.not_mem_nil, or_false] at hs
    rcases hs with rfl | rfl <;> simp
  have hM := transform_array_uni (dt := .float64) ht hS exU_wf hwf (by simp [exX]) (by simp) (by simp) (by
    intro k hk
    simp [exU] at hk
    interval_cases k <;> simp [exU])
  obtain ⟨c, xn, h1, -, h2⟩ := C111_transform_memory hwf hS rfl memU_held memViews_held hM
  exact ⟨_, c, xn, hM, h1, fun c' hc => ⟨(h2 c' hc).1, (h2 c' hc).2.2.2⟩⟩

/-- Two series with two channels. -/
example {o : Rdst ℝ R} (ht : o.transformType = .multi) (hS : o.shapelets = some (.m exM)) :
    ∃ M c xn, o.transform (.array .float64 ⟨exXm, 2, 4⟩) = .ok M ∧
      start memHeap (.m memM) (isVariable o.transformType) o.phase memViewsM = .ok (c, xn) ∧
      ∀ c', Reaches c c' → Unchanged memHeap c'.heap ∧ (AllDone c' → c'.heap.bufs[xn]? = some M.flatten) := by
  have hwf : (XIn.array .float64 (⟨exXm, 2, 4⟩ : Arr3 ℝ)).WF := by
    intro s hs
    simp only [exXm, List.mem_cons, List.not_mem_nil, or_false] at hs
    rcases hs with rfl | rfl <;> simp
  have hM := transform_array_multi (dt := .float64) ht hS exM_wf hwf (by simp [exXm]) (by simp) (by simp) (by
    intro k hk
    simp [exM] at hk
    interval_cases k <;> simp [exM])
  obtain ⟨c, xn, h1, -, h2⟩ := C111_transform_memory hwf hS rfl memM_held memViewsM_held hM
  exact ⟨_, c, xn, hM, h1, fun c' hc => ⟨(h2 c' hc).1, (h2 c' hc).2.2.2⟩⟩

/-- Series of different lengths. -/
example {o : Rdst ℝ R} (ht : o.transformType = .uniVar) (hS : o.shapelets = some (.u exU)) (hph : o.phase = true) :
    ∃ M c xn, o.transform (.list [⟨[[0, 1, 2, 3, 4]], 5⟩, ⟨[[0, 1, 2, 3, 4, 5]], 6⟩]) = .ok M ∧
      start (⟨[[0, 1, 2, 3, 4, 5], [1, 2, 0, 0, 1, 3, 4, 5, 0], [1 / 2, 1, 3]]⟩ : Heap ℝ) (.u memU)
        (isVariable o.transformType) o.phase [⟨0, 1, 5, fun _ t => t⟩, ⟨0, 1, 6, fun _ t => t⟩] = .ok (c, xn) ∧
      ∀ c', Reaches c c' → AllDone c' → c'.heap.bufs[xn]? = some M.flatten := by
  have hwf : (XIn.list [⟨[[0, 1, 2, 3, 4]], 5⟩, ⟨[[0, 1, 2, 3, 4, 5]], 6⟩] : XIn ℝ).WF := by
    intro x hx
    simp only [List.mem_cons, List.not_mem_nil, or_false] at hx
    rcases hx with rfl | rfl <;> simp [Mat.WF]
  have hM : ∃ M, o.transform (.list [⟨[[0, 1, 2, 3, 4]], 5⟩, ⟨[[0, 1, 2, 3, 4, 5]], 6⟩]) = .ok M := by
    obtain ⟨nt, hn, hle, hf, hrect, Y, hY⟩ := formatUneven_pad (K := ℝ)
      (xs := [⟨[[0, 1, 2, 3, 4]], 5⟩, ⟨[[0, 1, 2, 3, 4, 5]], 6⟩]) hwf (by simp) (nf := 1) (by simp) (by simp) (m := 3)
      (by simp) (by simp)
    unfold Rdst.transform
    simp only [hS, ht]
    rw [if_pos (by simp), hf, Res.bind_ok]
    simp only [hY, Res.bind_ok]
    refine ⟨_, C02_univariate_variable_length exU_wf o.phase ?_ (by simp) ?_⟩
    · intro s hs
      exact List.ne_nil_of_length_pos (by rw [(hrect s hs).1]; simp)
    · intro i _ k _
      rw [hph]
      exact Or.inl rfl
  obtain ⟨M, hM⟩ := hM
  obtain ⟨c, xn, h1, -, h2⟩ := C111_transform_memory (h := (⟨[[0, 1, 2, 3, 4, 5], [1, 2, 0, 0, 1, 3, 4, 5, 0],
    [1 / 2, 1, 3]]⟩ : Heap ℝ)) (A := .u memU) (vs := [⟨0, 1, 5, fun _ t => t⟩, ⟨0, 1, 6, fun _ t => t⟩]) hwf hS rfl
    ⟨by simp [memU, exU], by simp [exU, memU], rfl, rfl, rfl, rfl, rfl, rfl⟩ (by
      refine .cons ⟨rfl, rfl, ?_⟩ (.cons ⟨rfl, rfl, ?_⟩ .nil)
      all_goals
        intro c t row e h1 h2
        have hc := lt_of_get h1
        simp only [List.length_cons, List.length_nil] at hc
        interval_cases c
        simp only [List.getElem?_cons_zero, Option.some.injEq] at h1
        subst h1
        have ht := lt_of_get h2
        simp only [List.length_cons, List.length_nil] at ht
        interval_cases t <;> exact h2) hM
  exact ⟨M, c, xn, hM, h1, fun c' hc => (h2 c' hc).2.2.2⟩

/-- `z_norm_3D` on the array `[[[1, 3]]]` leaves other values in it. -/
example : ∃ h' : Heap ℝ, (zNorm3DMem 0 1 1 2).run (⟨[[1, 3]]⟩ : Heap ℝ) = (h', .ok 0) ∧
    h'.bufs[0]? = some (znorm [1, 3]) ∧ h'.bufs[0]? ≠ some [1, 3] := by
  obtain ⟨h', h1, h2, -⟩ := C111_z_norm_3D_in_place (h := (⟨[[1, 3]]⟩ : Heap ℝ)) (a := 0) (n := 1) (nf := 1) (nt := 2)
    (data := [[[1, 3]]]) rfl (by simp [Rect]) rfl
  have h2' : h'.bufs[0]? = some (znorm [1, 3]) := by simpa using h2
  refine ⟨h', h1, h2', ?_⟩
  rw [h2']
  intro hc
  have h3 := congrArg (fun l => l.head?) (Option.some.inj hc)
  simp only [znorm, List.map_cons, List.head?_cons, Option.some.injEq] at h3
  have h4 : (0 : ℝ) < std [1, 3] + Scalar.eps := std_add_eps_pos _
  have h5 : mean ([1, 3] : List ℝ) = 2 := by norm_num [mean, Scalar.ofNat, ssum]
  rw [h5, div_eq_iff h4.ne'] at h3
  linarith

end Convst.Props
