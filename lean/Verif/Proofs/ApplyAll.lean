import Verif.Proofs.Groups
import Verif.Proofs.Windows

/-! # The generic kernel equals the per-(sample, shapelet) specification, under any store order -/

set_option linter.unusedSectionVars false

set_option autoImplicit false

namespace Convst
variable {K : Type} [Scalar K] {W : Type}
open Spec

theorem filter_positions {α β : Type} [BEq β] [LawfulBEq β] (idx : List α) (f : α → β) (b : β) (d : α) :
    ((whereIdx idx.length fun i => (idx.map f)[i]? == some b).map fun i => idx.getD i d) =
      idx.filter fun k => f k == b := by
  have hidx : idx = (List.range idx.length).map fun i => idx.getD i d := by
    apply List.ext_getElem
    · simp
    · intro i h1 h2
      simp [List.getD, h1]
  conv_rhs => rw [hidx, List.filter_map]
  congr 1
  unfold whereIdx
  apply List.filter_congr
  intro i hi
  have hi' := List.mem_range.1 hi
  simp [List.getD, hi', Function.comp]

theorem selectNorm_ok {normalize : List Bool} {idx : List Nat} {flag : Bool}
    (h : ∀ k ∈ idx, k < normalize.length) :
    selectNorm normalize idx flag =
      .ok (idx.filter fun k => normalize.getD k false == flag) := by
  unfold selectNorm
  rw [mapM_ok (g := fun k => normalize.getD k false) (fun k hk => aget_getD false (h k hk)),
    Res.bind_ok]
  rw [mapM_ok (g := fun i => idx.getD i 0)]
  · rw [List.length_map]
    exact congrArg _ (filter_positions idx (fun k => normalize.getD k false) flag 0)
  · intro i hi
    rw [mem_whereIdx, List.length_map] at hi
    exact aget_getD 0 hi.1

/-- The stores of one iteration. -/
def taskStores (normalize : List Bool) (F : Nat → Nat → Feat K) (i : Nat) (ix : List Nat) :
    List (Store K) :=
  ((ix.filter fun k => normalize.getD k false == false).map fun k =>
      featStores i k (F i k)).flatten ++
  ((ix.filter fun k => normalize.getD k false == true).map fun k =>
      featStores i k (F i k)).flatten

theorem mem_taskStores {normalize : List Bool} {F : Nat → Nat → Feat K} {i : Nat} {ix : List Nat}
    {s : Store K} :
    s ∈ taskStores normalize F i ix ↔ ∃ k ∈ ix, s ∈ featStores i k (F i k) := by
  simp only [taskStores, List.mem_append, List.mem_flatten, List.mem_map, List.mem_filter]
  constructor
  · rintro (⟨_, ⟨k, hk, rfl⟩, hs⟩ | ⟨_, ⟨k, hk, rfl⟩, hs⟩) <;> exact ⟨k, hk.1, hs⟩
  · rintro ⟨k, hk, hs⟩
    cases hn : normalize.getD k false
    · exact Or.inl ⟨_, ⟨k, ⟨hk, by rw [hn]; rfl⟩, rfl⟩, hs⟩
    · exact Or.inr ⟨_, ⟨k, ⟨hk, by rw [hn]; rfl⟩, rfl⟩, hs⟩

/-- What the variant part of a kernel must provide for sample `i` and parameter pair `(l, d)`:
windows, and features for every shapelet from (possibly normalised) windows. -/
def ParamOK (kern : Kernel K W) (lengths dilations : List Nat) (normalize : List Bool)
    (F : Nat → Nat → Feat K) (i l d : Nat) : Prop :=
  ∃ w, kern.windows i l d = .ok w ∧
    ∀ k' : Nat, lengths[k']? = some l → dilations[k']? = some d →
      kern.feature (if normalize.getD k' false then kern.normalise w else w) l k' = .ok (F i k')

/-- The same for every occurring parameter pair. -/
structure KernelOK (kern : Kernel K W) (lengths dilations : List Nat) (normalize : List Bool)
    (F : Nat → Nat → Feat K) (i : Nat) : Prop where
  ok : ∀ k l d : Nat, lengths[k]? = some l → dilations[k]? = some d →
    ParamOK kern lengths dilations normalize F i l d

theorem mem_zip_getElem? {a b : List Nat} {p : Nat × Nat} (h : p ∈ a.zip b) :
    ∃ k : Nat, a[k]? = some p.1 ∧ b[k]? = some p.2 := by
  obtain ⟨k, hk, he⟩ := List.getElem_of_mem h
  have h1 : k < a.length := by simp at hk; omega
  have h2 : k < b.length := by simp at hk; omega
  refine ⟨k, ?_, ?_⟩
  · rw [← he]; simp [h1]
  · rw [← he]; simp [h2]

theorem groupTask_ok {kern : Kernel K W} {lengths dilations : List Nat} {normalize : List Bool}
    {F : Nat → Nat → Feat K} {g : Groups} {i ip : Nat} {p : Nat × Nat}
    (hg : GroupsOK lengths dilations g) (hn : normalize.length = lengths.length)
    (hk : ParamOK kern lengths dilations normalize F i p.1 p.2) (hp : g.params[ip]? = some p) :
    groupTask kern normalize g i ip =
      .ok (taskStores normalize F i (idxWith lengths dilations p.1 p.2)) := by
  obtain ⟨lo, hi, hlo, hhi, hsl⟩ := hg.slices ip p hp
  obtain ⟨w, hw, hfeat⟩ := hk
  have hlt : ∀ k ∈ idxWith lengths dilations p.1 p.2, k < normalize.length := by
    intro k hk
    rw [hn]
    exact (List.getElem?_eq_some_iff.1 (mem_idxWith.1 hk).1).1
  unfold groupTask
  simp only [aget_eq_ok.2 hp, Res.bind_ok, hw, aget_eq_ok.2 hlo, aget_eq_ok.2 hhi, hsl,
    selectNorm_ok hlt]
  rw [mapM_ok (g := fun k => featStores i k (F i k))]
  swap
  · intro k hk
    rw [List.mem_filter] at hk
    have h1 := mem_idxWith.1 hk.1
    have h2 : normalize.getD k false = false := by simpa using hk.2
    have := hfeat k h1.1 h1.2
    rw [h2] at this
    simp only [Bool.false_eq_true, if_false] at this
    rw [this]; rfl
  rw [Res.bind_ok]
  split
  · rw [mapM_ok (g := fun k => featStores i k (F i k))]
    · rfl
    · intro k hk
      rw [List.mem_filter] at hk
      have h1 := mem_idxWith.1 hk.1
      have h2 : normalize.getD k false = true := by simpa using hk.2
      have := hfeat k h1.1 h1.2
      rw [h2] at this
      simp only [if_true] at this
      rw [this]; rfl
  · rename_i hlen
    have : (idxWith lengths dilations p.1 p.2).filter (fun k => normalize.getD k false == true) = [] :=
      List.length_eq_zero_iff.1 (by omega)
    simp only [taskStores, this]; rfl

/-- Iterations in program order. -/
def taskList (nSamples : Nat) (g : Groups) : List (Nat × Nat) :=
  (List.range nSamples).flatMap fun i => (List.range (g.cum.length - 1)).map fun p => (i, p)

theorem allTasks_ok {kern : Kernel K W} {lengths dilations : List Nat} {normalize : List Bool}
    {F : Nat → Nat → Feat K} {g : Groups} {nSamples : Nat}
    (hxy : lengths.length = dilations.length)
    (hg : GroupsOK lengths dilations g) (hn : normalize.length = lengths.length)
    (hk : ∀ i, i < nSamples → KernelOK kern lengths dilations normalize F i) :
    ∃ ss, allTasks kern nSamples normalize g = .ok ss ∧
      ∀ s, s ∈ ss.flatten ↔ ∃ i k, i < nSamples ∧ k < lengths.length ∧
        s ∈ featStores i k (F i k) := by
  refine ⟨(taskList nSamples g).map fun ip => taskStores normalize F ip.1
    (idxWith lengths dilations (g.params.getD ip.2 (0, 0)).1 (g.params.getD ip.2 (0, 0)).2), ?_, ?_⟩
  · apply mapM_ok
    intro ip hip
    obtain ⟨i, hi, hip⟩ := List.mem_flatMap.1 hip
    obtain ⟨p, hp, rfl⟩ := List.mem_map.1 hip
    rw [List.mem_range] at hi hp
    have hp' : p < g.params.length := by have := hg.cumLen; omega
    have hpp : g.params[p]? = some (g.params.getD p (0, 0)) := by simp [List.getD, hp']
    obtain ⟨k0, hk0, hd0⟩ := mem_zip_getElem? ((hg.mem _).1 (List.mem_of_getElem? hpp))
    exact groupTask_ok hg hn ((hk i hi).ok k0 _ _ hk0 hd0) hpp
  · intro s
    rw [List.mem_flatten]
    constructor
    · rintro ⟨_, hl, hs⟩
      obtain ⟨ip, hip, rfl⟩ := List.mem_map.1 hl
      obtain ⟨i, hi, hip⟩ := List.mem_flatMap.1 hip
      obtain ⟨p, hp, rfl⟩ := List.mem_map.1 hip
      rw [List.mem_range] at hi hp
      obtain ⟨k, hk, hs⟩ := mem_taskStores.1 hs
      exact ⟨i, k, hi, (List.getElem?_eq_some_iff.1 (mem_idxWith.1 hk).1).1, hs⟩
    · rintro ⟨i, k, hi, hk, hs⟩
      have hk' : k < dilations.length := hxy ▸ hk
      have hmem : (lengths[k], dilations[k]) ∈ g.params := by
        rw [hg.mem]
        rw [List.mem_iff_getElem]
        exact ⟨k, by simp; omega, by simp⟩
      obtain ⟨p, hp, he⟩ := List.getElem_of_mem hmem
      refine ⟨_, List.mem_map.2 ⟨(i, p), ?_, rfl⟩, ?_⟩
      · refine List.mem_flatMap.2 ⟨i, List.mem_range.2 hi, List.mem_map.2 ⟨p, ?_, rfl⟩⟩
        rw [List.mem_range]; have := hg.cumLen; omega
      · rw [mem_taskStores]
        refine ⟨k, ?_, hs⟩
        rw [mem_idxWith]
        simp [List.getD, hp, he, hk, hk']

/-- Consistent and covering stores give the intended matrix, whatever their order and
multiplicity. -/
theorem stores_spec {V : Nat → Nat → K} {n m : Nat} {ss : List (Store K)} {x0 : List (List K)}
    (hx0 : Rect x0 n m)
    (hcons : ∀ s ∈ ss, s.row < n ∧ s.col < m ∧ s.v = V s.row s.col)
    (hcov : ∀ i c, i < n → c < m → ∃ s ∈ ss, s.row = i ∧ s.col = c) :
    ss.foldlM doStore x0 = .ok ((List.range n).map fun i => (List.range m).map fun c => V i c) := by
  obtain ⟨M, hM, hR, hval⟩ := foldlM_inv (f := doStore) (l := ss) (s := x0)
    (P := fun pre M => Rect M n m ∧ ∀ s ∈ pre, aget2 M s.row s.col = .ok (V s.row s.col))
    ⟨hx0, by simp⟩
    (by
      rintro pre a post M hl ⟨hR, hval⟩
      obtain ⟨h1, h2, h3⟩ := hcons a (by simp [hl])
      obtain ⟨M', hM', hR', hget⟩ := aset2_ok (v := a.v) hR h1 h2
      refine ⟨M', hM', hR', ?_⟩
      intro s hs
      rw [hget]
      split
      · rename_i he; rw [he.1, he.2, h3]
      · rename_i he
        rcases List.mem_append.1 hs with hs | hs
        · exact hval s hs
        · simp only [List.mem_singleton] at hs
          subst hs; exact absurd ⟨rfl, rfl⟩ he)
  rw [hM]
  congr 1
  apply List.ext_getElem
  · simp [hR.1]
  · intro i h1 h2
    have hi : i < n := by simpa using h2
    have hrow : M[i].length = m := hR.2 _ (List.getElem_mem h1)
    apply List.ext_getElem
    · simp [hrow]
    · intro c hc1 hc2
      have hc : c < m := by simpa using hc2
      obtain ⟨s, hs, rfl, rfl⟩ := hcov i c hi hc
      have := hval s hs
      obtain ⟨r, hr, hv⟩ := aget2_eq_ok.1 this
      rw [List.getElem?_eq_getElem h1] at hr
      cases hr
      rw [List.getElem?_eq_getElem hc1] at hv
      simpa using Option.some.inj hv

/-- Intended value of output cell `(i, c)`. -/
def cellVal (F : Nat → Nat → Feat K) (i c : Nat) : K := (cells (F i (c / 3))).getD (c % 3) 0

theorem cells_flatMap (f : Nat → Feat K) (n : Nat) :
    ((List.range (3 * n)).map fun c => (cells (f (c / 3))).getD (c % 3) 0) =
      (List.range n).flatMap fun k => cells (f k) := by
  induction n with
  | zero => simp
  | succ n ih =>
    rw [Nat.mul_succ, show 3 * n + 3 = 3 * n + 1 + 1 + 1 from rfl, List.range_succ, List.range_succ,
      List.range_succ, List.range_succ]
    simp only [List.map_append, List.flatMap_append, ih, List.append_assoc]
    congr 1
    have h1 : 3 * n / 3 = n := by omega
    have h2 : (3 * n + 1) / 3 = n := by omega
    have h3 : (3 * n + 1 + 1) / 3 = n := by omega
    have h4 : 3 * n % 3 = 0 := by omega
    have h5 : (3 * n + 1) % 3 = 1 := by omega
    have h6 : (3 * n + 1 + 1) % 3 = 2 := by omega
    simp [h1, h2, h3, h4, h5, h6, cells]

theorem featStores_val {i k : Nat} {F : Nat → Nat → Feat K} {s : Store K}
    (h : s ∈ featStores i k (F i k)) :
    s.row = i ∧ s.col / 3 = k ∧ s.v = cellVal F s.row s.col := by
  simp only [featStores, List.mem_cons, List.not_mem_nil, or_false] at h
  have h1 : 3 * k / 3 = k := by omega
  have h2 : (3 * k + 1) / 3 = k := by omega
  have h3 : (3 * k + 2) / 3 = k := by omega
  have h4 : 3 * k % 3 = 0 := by omega
  have h5 : (3 * k + 1) % 3 = 1 := by omega
  have h6 : (3 * k + 2) % 3 = 2 := by omega
  rcases h with rfl | rfl | rfl <;> simp [cellVal, h1, h2, h3, h4, h5, h6, cells]

theorem featStores_cover (F : Nat → Nat → Feat K) (i c : Nat) :
    ∃ s ∈ featStores i (c / 3) (F i (c / 3)), s.row = i ∧ s.col = c := by
  have h : c % 3 = 0 ∨ c % 3 = 1 ∨ c % 3 = 2 := by omega
  simp only [featStores, List.mem_cons, List.not_mem_nil, or_false]
  rcases h with h | h | h
  · exact ⟨_, Or.inl rfl, rfl, by simp only; omega⟩
  · exact ⟨_, Or.inr (Or.inl rfl), rfl, by simp only; omega⟩
  · exact ⟨_, Or.inr (Or.inr rfl), rfl, by simp only; omega⟩

/-- The output matrix prescribed by the per-pair features `F`. -/
def targetMatrix (nSamples n : Nat) (F : Nat → Nat → Feat K) : List (List K) :=
  (List.range nSamples).map fun i => (List.range n).flatMap fun k => cells (F i k)

theorem rect_zeros (n m : Nat) :
    Rect (List.replicate n (List.replicate m (0 : K))) n m :=
  ⟨by simp, fun r hr => by rw [List.eq_of_mem_replicate hr]; simp⟩

/-- Any ordering (and interleaving) of the stores of all iterations gives the target matrix. -/
theorem applyAll_schedule {kern : Kernel K W} {lengths dilations : List Nat} {normalize : List Bool}
    {F : Nat → Nat → Feat K} {nSamples : Nat} (hxy : lengths.length = dilations.length)
    (hn : normalize.length = lengths.length)
    (hk : ∀ i, i < nSamples → KernelOK kern lengths dilations normalize F i) :
    ∃ g ss, groupShapelets lengths dilations = .ok g ∧
      allTasks kern nSamples normalize g = .ok ss ∧
      ∀ ss' : List (Store K), ss'.Perm ss.flatten →
        ss'.foldlM doStore (List.replicate nSamples (List.replicate (3 * lengths.length) 0)) =
          .ok (targetMatrix nSamples lengths.length F) := by
  obtain ⟨g, hg, hgok⟩ := groupShapelets_ok hxy
  obtain ⟨ss, hss, hmem⟩ := allTasks_ok hxy hgok hn hk
  refine ⟨g, ss, hg, hss, ?_⟩
  intro ss' hperm
  rw [stores_spec (V := cellVal F) (n := nSamples) (m := 3 * lengths.length)]
  · congr 1
    unfold targetMatrix
    apply List.map_congr_left
    intro i _
    exact cells_flatMap (F i) lengths.length
  · exact rect_zeros _ _
  · intro s hs
    obtain ⟨i, k, hi, hk', hs⟩ := (hmem s).1 (hperm.mem_iff.1 hs)
    obtain ⟨h1, h2, h3⟩ := featStores_val hs
    exact ⟨by omega, by omega, h3⟩
  · intro i c hi hc
    obtain ⟨s, hs, h⟩ := featStores_cover F i c
    exact ⟨s, hperm.mem_iff.2 ((hmem s).2 ⟨i, c / 3, hi, by omega, hs⟩), h⟩

theorem applyAll_ok {kern : Kernel K W} {lengths dilations : List Nat} {normalize : List Bool}
    {F : Nat → Nat → Feat K} {nSamples : Nat} (hxy : lengths.length = dilations.length)
    (hn : normalize.length = lengths.length)
    (hk : ∀ i, i < nSamples → KernelOK kern lengths dilations normalize F i) :
    applyAll kern nSamples lengths dilations normalize =
      .ok (targetMatrix nSamples lengths.length F) := by
  obtain ⟨g, ss, hg, hss, h⟩ := applyAll_schedule hxy hn hk
  unfold applyAll
  rw [hg, Res.bind_ok, hss, Res.bind_ok]
  exact h _ (List.Perm.refl _)

/-- If every (sample, parameter) iteration either succeeds or fails with `e` when building its
windows, and one of them fails, the whole kernel fails with `e`. -/
theorem applyAll_err {kern : Kernel K W} {lengths dilations : List Nat} {normalize : List Bool}
    {F : Nat → Nat → Feat K} {nSamples : Nat} {e : Err} (hxy : lengths.length = dilations.length)
    (hn : normalize.length = lengths.length)
    (hall : ∀ i k l d : Nat, i < nSamples → lengths[k]? = some l → dilations[k]? = some d →
      ParamOK kern lengths dilations normalize F i l d ∨ kern.windows i l d = .error e)
    (hex : ∃ i k l d : Nat, i < nSamples ∧ lengths[k]? = some l ∧ dilations[k]? = some d ∧
      kern.windows i l d = .error e) :
    applyAll kern nSamples lengths dilations normalize = .error e := by
  obtain ⟨g, hg, hgok⟩ := groupShapelets_ok hxy
  have hwin : ∀ i ip p, g.params[ip]? = some p → kern.windows i p.1 p.2 = .error e →
      groupTask kern normalize g i ip = .error e := by
    intro i ip p hp hw
    unfold groupTask
    rw [aget_eq_ok.2 hp, Res.bind_ok, hw, Res.bind_error]
  have herr : allTasks kern nSamples normalize g = .error e := by
    apply mapM_error
    · obtain ⟨i, k, l, d, hi, hl, hd, hw⟩ := hex
      have hmem : (l, d) ∈ g.params := by
        rw [hgok.mem, List.mem_iff_getElem]
        obtain ⟨h1, h2⟩ := List.getElem?_eq_some_iff.1 hl
        obtain ⟨h3, h4⟩ := List.getElem?_eq_some_iff.1 hd
        exact ⟨k, by simp; omega, by simp [h2, h4]⟩
      obtain ⟨ip, hip, he⟩ := List.getElem_of_mem hmem
      refine ⟨(i, ip), List.mem_flatMap.2 ⟨i, List.mem_range.2 hi, List.mem_map.2 ⟨ip, ?_, rfl⟩⟩,
        hwin i ip (l, d) (by simp [hip, he]) hw⟩
      rw [List.mem_range]; have := hgok.cumLen; omega
    · intro ip hip
      obtain ⟨i, hi, hip⟩ := List.mem_flatMap.1 hip
      obtain ⟨p, hp, rfl⟩ := List.mem_map.1 hip
      rw [List.mem_range] at hi hp
      have hp' : p < g.params.length := by have := hgok.cumLen; omega
      have hpp : g.params[p]? = some g.params[p] := by simp [hp']
      obtain ⟨k0, hk0, hd0⟩ := mem_zip_getElem? ((hgok.mem _).1 (List.mem_of_getElem? hpp))
      rcases hall i k0 _ _ hi hk0 hd0 with h | h
      · exact Or.inr ⟨_, groupTask_ok hgok hn h hpp⟩
      · exact Or.inl (hwin i p _ hpp h)
  unfold applyAll
  rw [hg, Res.bind_ok, herr, Res.bind_error]

end Convst
