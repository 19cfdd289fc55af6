import Verif.Proofs.MemoryArrays
import Verif.Proofs.ObjectRows

/-! # The memory-level call against the functional one -/

set_option autoImplicit false
set_option linter.unusedSectionVars false

namespace Convst.Mem
open Spec

variable {K W : Type} [Scalar K] {E : Shared K}

theorem forall₂_get {α β : Type} {R : α → β → Prop} {xs : List α} {ys : List β} (h : List.Forall₂ R xs ys) {i : Nat}
    {y : β} (hy : ys[i]? = some y) : ∃ x, xs[i]? = some x ∧ R x y := by
  induction h generalizing i with
  | nil => simp at hy
  | cons h1 _ ih =>
    cases i with
    | zero =>
      simp only [List.getElem?_cons_zero, Option.some.injEq] at hy
      subst hy
      exact ⟨_, rfl, h1⟩
    | succ i => exact ih (by simpa using hy)

theorem range_get {n i x : Nat} (h : (List.range n)[i]? = some x) : x = i := by
  obtain ⟨h1, h2⟩ := List.getElem?_eq_some_iff.1 h
  rw [List.getElem_range] at h2
  exact h2.symm

theorem table_ok {α : Type} {n w : Nat} {f : Nat → Nat → Res α} {R : List (List α)}
    (h : ((List.range n).mapM fun i => (List.range w).mapM fun j => f i j) = .ok R) :
    R.length = n ∧ ∀ r ∈ R, r.length = w ∧ ∀ i j v, R[i]? = some r → r[j]? = some v → f i j = .ok v := by
  rw [mapM_eq_ok] at h
  refine ⟨by simpa using h.length_eq.symm, ?_⟩
  intro r hr
  obtain ⟨i, hi⟩ := List.mem_iff_getElem?.1 hr
  obtain ⟨x, hx, hrow⟩ := forall₂_get h hi
  rw [mapM_eq_ok] at hrow
  refine ⟨by simpa using hrow.length_eq.symm, ?_⟩
  intro i j v hi hj
  obtain ⟨x, hx, hrow⟩ := forall₂_get h hi
  cases range_get hx
  rw [mapM_eq_ok] at hrow
  obtain ⟨y, hy, hv⟩ := forall₂_get hrow hj
  cases range_get hy
  exact hv

theorem strides2D_ok {chans : List (List K)} {len w d : Nat} {phase : Bool} {s : Strides2D K}
    (h : generateStrides2D chans len w d phase = .ok s) :
    (if phase then .ok len else dim ((len : Int) - ((w : Int) - 1) * d)) = Except.ok (ε := Err) s.nCand ∧
    s.rows.length = chans.length ∧ (∀ R ∈ s.rows, R.length = s.nCand) ∧ (∀ R ∈ s.rows, ∀ r ∈ R, r.length = w) ∧
    ∀ (c : Nat) (R : List (List K)) (i : Nat) (r : List K) (j : Nat) (v : K), s.rows[c]? = some R → R[i]? = some r →
      r[j]? = some v → ∃ ch : List K, chans[c]? = some ch ∧ ch[if phase then (i + j * d) % len else i + j * d]? = some v := by
  have gen : ∀ (n : Nat) (idx : Nat → Nat → Nat) (rows : List (List (List K))),
      (chans.mapM fun x => (List.range n).mapM fun i => (List.range w).mapM fun j => aget x (idx i j)) = .ok rows →
      rows.length = chans.length ∧ (∀ R ∈ rows, R.length = n) ∧ (∀ R ∈ rows, ∀ r ∈ R, r.length = w) ∧
      ∀ (c : Nat) (R : List (List K)) (i : Nat) (r : List K) (j : Nat) (v : K), rows[c]? = some R → R[i]? = some r →
        r[j]? = some v → ∃ ch : List K, chans[c]? = some ch ∧ ch[idx i j]? = some v := by
    intro n idx rows hr
    rw [mapM_eq_ok] at hr
    refine ⟨hr.length_eq.symm, ?_, ?_, ?_⟩
    · intro R hR
      obtain ⟨c, hc⟩ := List.mem_iff_getElem?.1 hR
      obtain ⟨x, -, hx⟩ := forall₂_get hr hc
      exact (table_ok hx).1
    · intro R hR r hr'
      obtain ⟨c, hc⟩ := List.mem_iff_getElem?.1 hR
      obtain ⟨x, -, hx⟩ := forall₂_get hr hc
      exact ((table_ok hx).2 r hr').1
    · intro c R i r j v hc hi hj
      obtain ⟨x, hx1, hx⟩ := forall₂_get hr hc
      exact ⟨x, hx1, aget_eq_ok.1 (((table_ok hx).2 r (List.mem_of_getElem? hi)).2 i j v hi hj)⟩
  unfold generateStrides2D at h
  cases phase with
  | true =>
    simp only [if_true, strides2DPhase] at h ⊢
    obtain ⟨rows, hr, h⟩ := Res.bind_eq_ok.1 h
    rw [Res.pure_eq, Except.ok.injEq] at h
    subst h
    exact ⟨rfl, gen len (fun i j => (i + j * d) % len) rows hr⟩
  | false =>
    simp only [Bool.false_eq_true, if_false, strides2DPlain] at h ⊢
    obtain ⟨n, hn, h⟩ := Res.bind_eq_ok.1 h
    obtain ⟨rows, hr, h⟩ := Res.bind_eq_ok.1 h
    rw [Res.pure_eq, Except.ok.injEq] at h
    subst h
    exact ⟨hn, gen n (fun i j => i + j * d) rows hr⟩

theorem strides1D_2D {x : List K} {w d : Nat} {phase : Bool} {rows : List (List K)}
    (h : generateStrides1D x w d phase = .ok rows) :
    generateStrides2D [x] x.length w d phase = .ok ⟨rows.length, [rows]⟩ := by
  unfold generateStrides1D at h
  unfold generateStrides2D
  cases phase with
  | true =>
    simp only [if_true, strides1DPhase] at h
    have hl := (table_ok h).1
    simp only [if_true, strides2DPhase, List.mapM_cons, List.mapM_nil, h, Res.bind_ok, Res.pure_eq, hl]
  | false =>
    simp only [Bool.false_eq_true, if_false, strides1DPlain] at h
    obtain ⟨n, hn, h⟩ := Res.bind_eq_ok.1 h
    have hl := (table_ok h).1
    simp only [Bool.false_eq_true, if_false, strides2DPlain, List.mapM_cons, List.mapM_nil, hn, h, Res.bind_ok,
      Res.pure_eq, hl]

theorem wp_windows {own : Own K} {out : Outs K} {a off pitch nf len w d : Nat} {phase : Bool} {l : List K}
    {chans : List (List K)} {s : Strides2D K} {Q : Win → Own K → Outs K → Prop} (hl : E.ro a = some l)
    (hnf : nf = chans.length)
    (hv : ∀ c ch t v, chans[c]? = some ch → ch[t]? = some v → l[off + c * pitch + t]? = some v)
    (hs : generateStrides2D chans len w d phase = .ok s)
    (h : ∀ x own', Rep own' x s → Q x own' out) : wp E (strides a off pitch nf len w d phase) own out Q := by
  obtain ⟨h1, h2, h3, h4, h5⟩ := strides2D_ok hs
  subst hnf
  refine wp_strides (rows := s.rows.flatten) (Or.inr hl) h1 ?_ ?_ ?_ ?_
  · rw [← h2]; exact flatten_length h3
  · intro r hr
    obtain ⟨R, hR, hr⟩ := List.mem_flatten.1 hr
    exact h4 R hR r hr
  · intro c i r j v hc hi hr hj
    rw [← h2] at hc
    have hR := List.getElem?_eq_getElem hc
    rw [flatten_get h3 hR hi] at hr
    obtain ⟨ch, hch, hcv⟩ := h5 c _ i r j v hR hr hj
    exact hv c ch _ v hch hcv
  · intro b hb
    refine h _ _ ⟨Function.update_self _ _ _, rfl, h2.symm, h3, h4⟩

/-! ## The kernels -/

/-- Elements of a 3D array in its flat buffer. -/
theorem flat3 {data : List (List (List K))} {nf nt : Nat} (hrect : ∀ s ∈ data, Rect s nf nt) {i c t : Nat}
    {s : List (List K)} {r : List K} {v : K} (hs : data[i]? = some s) (hr : s[c]? = some r) (hv : r[t]? = some v) :
    data.flatten.flatten[i * nf * nt + c * nt + t]? = some v := by
  have hsm := hrect s (List.mem_of_getElem? hs)
  have hc : c < nf := by rw [← hsm.1]; exact (List.getElem?_eq_some_iff.1 hr).1
  have ht : t < nt := by
    rw [← hsm.2 r (List.mem_of_getElem? hr)]; exact (List.getElem?_eq_some_iff.1 hv).1
  have h1 : data.flatten[i * nf + c]? = some r := by rw [flatten_get (fun s hs => (hrect s hs).1) hs hc, hr]
  have h2 : ∀ r ∈ data.flatten, r.length = nt := by
    intro r hr
    obtain ⟨s, hs, hr⟩ := List.mem_flatten.1 hr
    exact (hrect s hs).2 r hr
  rw [← Nat.add_mul, flatten_get h2 h1 ht, hv]

section kernels
variable {data : List (List (List K))} {nf nt x : Nat} {phase : Bool}

theorem take_get {r : List K} {n t : Nat} {v : K} (h : (r.take n)[t]? = some v) : r[t]? = some v := by
  rw [List.getElem?_take] at h
  split at h
  · exact h
  · cases h

theorem wp_windows_u {own : Own K} {out : Outs K} (hx : E.ro x = some data.flatten.flatten)
    (hrect : ∀ s ∈ data, Rect s nf nt) {i n l d : Nat} {r : List K} {rows : List (List K)}
    (hr : aget2 data i 0 = .ok r) (hn : n ≤ nt) (hs : generateStrides1D (r.take n) l d phase = .ok rows)
    {Q : Win → Own K → Outs K → Prop} (h : ∀ s own', Rep own' s ⟨rows.length, [rows]⟩ → Q s own' out) :
    wp E (strides x (i * nf * nt) nt 1 n l d phase) own out Q := by
  obtain ⟨s, hs1, hs2⟩ := aget2_eq_ok.1 hr
  have hrl : r.length = nt := (hrect s (List.mem_of_getElem? hs1)).2 r (List.mem_of_getElem? hs2)
  have hs' := strides1D_2D hs
  rw [List.length_take, hrl, Nat.min_eq_left hn] at hs'
  refine wp_windows hx (chans := [r.take n]) rfl ?_ hs' h
  intro c ch t v hc hv
  cases c with
  | zero =>
    simp only [List.getElem?_cons_zero, Option.some.injEq] at hc
    subst hc
    exact flat3 hrect hs1 hs2 (take_get hv)
  | succ c => simp at hc

theorem wp_windows_m {own : Own K} {out : Outs K} (hx : E.ro x = some data.flatten.flatten)
    (hrect : ∀ s ∈ data, Rect s nf nt) {i n l d : Nat} {s : List (List K)} {w : Strides2D K}
    (hr : aget data i = .ok s) (hs : generateStrides2D (s.map fun r => r.take n) n l d phase = .ok w)
    {Q : Win → Own K → Outs K → Prop} (h : ∀ s own', Rep own' s w → Q s own' out) :
    wp E (strides x (i * nf * nt) nt nf n l d phase) own out Q := by
  rw [aget_eq_ok] at hr
  have hrec := hrect s (List.mem_of_getElem? hr)
  refine wp_windows hx (by rw [List.length_map, hrec.1]) ?_ hs h
  intro c ch t v hc hv
  rw [List.getElem?_map] at hc
  obtain ⟨r, hr', rfl⟩ := Option.map_eq_some_iff.1 hc
  exact flat3 hrect hr hr' (take_get hv)

theorem take_all {r : List K} (h : r.length = nt) : r.take nt = r := by
  rw [← h, List.take_length]

theorem usl_implements {S : UShp K} {A : UArr} (hx : E.ro x = some data.flatten.flatten)
    (hrect : ∀ s ∈ data, Rect s nf nt) (hv : E.ro A.values = some S.values.flatten)
    (hw : ∀ v ∈ S.values, v.length = A.width) (ht : E.ro A.threshold = some S.threshold) {len : Nat → Nat}
    (hlen : ∀ i, len i = nt) :
    Implements E (uslKernel data S phase) (fun rows => ⟨rows.length, [rows]⟩) (kernelOf (.u A) x nf nt len phase) where
  windows := by
    intro i l d w hk own out Q h
    obtain ⟨r, hr, hs⟩ := Res.bind_eq_ok.1 hk
    obtain ⟨s, hs1, hs2⟩ := aget2_eq_ok.1 hr
    have hrl := (hrect s (List.mem_of_getElem? hs1)).2 r (List.mem_of_getElem? hs2)
    rw [← take_all hrl] at hs
    show wp E (strides x (i * nf * nt) nt 1 (len i) l d phase) own out Q
    rw [hlen]
    exact wp_windows_u hx hrect hr (Nat.le_refl _) hs h
  normalise := by
    intro w
    simp [uslKernel, Strides2D.normalise]
  feature := by
    intro w l k f hf own out s Q hrep h
    exact wp_uFeature hv hw ht hf hrep h

theorem uvl_implements {S : UShp K} {A : UArr} (hx : E.ro x = some data.flatten.flatten)
    (hrect : ∀ s ∈ data, Rect s nf nt) (hv : E.ro A.values = some S.values.flatten)
    (hw : ∀ v ∈ S.values, v.length = A.width) (ht : E.ro A.threshold = some S.threshold) {len : Nat → Nat}
    {xLen : List Nat} (hlen : ∀ i n, xLen[i]? = some n → len i = n ∧ n ≤ nt) :
    Implements E (uvlKernel data S phase xLen) (fun rows => ⟨rows.length, [rows]⟩)
      (kernelOf (.u A) x nf nt len phase) where
  windows := by
    intro i l d w hk own out Q h
    obtain ⟨r, hr, hk⟩ := Res.bind_eq_ok.1 hk
    obtain ⟨n, hn, hs⟩ := Res.bind_eq_ok.1 hk
    obtain ⟨e1, e2⟩ := hlen i n (aget_eq_ok.1 hn)
    show wp E (strides x (i * nf * nt) nt 1 (len i) l d phase) own out Q
    rw [e1]
    exact wp_windows_u hx hrect hr e2 hs h
  normalise := by
    intro w
    simp [uvlKernel, Strides2D.normalise]
  feature := by
    intro w l k f hf own out s Q hrep h
    exact wp_uFeature hv hw ht hf hrep h

theorem msl_implements {S : MShp K} {A : Mem.MArr} (hx : E.ro x = some data.flatten.flatten)
    (hrect : ∀ s ∈ data, Rect s nf nt) (hv : E.ro A.values = some S.values)
    (hsz : A.size = S.values.length) (ht : E.ro A.threshold = some S.threshold) (h1 : A.nChannels = S.nChannels)
    (h2 : A.lengths = S.lengths) (h3 : A.channelIds = S.channelIds) {len : Nat → Nat} (hlen : ∀ i, len i = nt) :
    Implements E (mslKernel data nt S phase) id (kernelOf (.m A) x nf nt len phase) where
  windows := by
    intro i l d w hk own out Q h
    obtain ⟨s, hs, hk⟩ := Res.bind_eq_ok.1 hk
    have hrl := (hrect s (List.mem_of_getElem? (aget_eq_ok.1 hs))).2
    have : (s.map fun r => r.take nt) = s := by
      conv_rhs => rw [← List.map_id s]
      exact List.map_congr_left fun r hr => take_all (hrl r hr)
    rw [← this] at hk
    show wp E (strides x (i * nf * nt) nt nf (len i) l d phase) own out Q
    rw [hlen]
    exact wp_windows_m hx hrect hs hk h
  normalise := fun w => rfl
  feature := by
    intro w l k f hf own out s Q hrep h
    exact wp_mFeature hv hsz ht h1 h2 h3 hf hrep h

theorem mvl_implements {S : MShp K} {A : Mem.MArr} (hx : E.ro x = some data.flatten.flatten)
    (hrect : ∀ s ∈ data, Rect s nf nt) (hv : E.ro A.values = some S.values)
    (hsz : A.size = S.values.length) (ht : E.ro A.threshold = some S.threshold) (h1 : A.nChannels = S.nChannels)
    (h2 : A.lengths = S.lengths) (h3 : A.channelIds = S.channelIds) {len : Nat → Nat} {xLen : List Nat}
    (hlen : ∀ i n, xLen[i]? = some n → len i = n ∧ n ≤ nt) :
    Implements E (mvlKernel data nt S phase xLen) id (kernelOf (.m A) x nf nt len phase) where
  windows := by
    intro i l d w hk own out Q h
    obtain ⟨s, hs, hk⟩ := Res.bind_eq_ok.1 hk
    obtain ⟨n, hn, hk⟩ := Res.bind_eq_ok.1 hk
    obtain ⟨e1, e2⟩ := hlen i n (aget_eq_ok.1 hn)
    rw [Nat.min_eq_left e2] at hk
    show wp E (strides x (i * nf * nt) nt nf (len i) l d phase) own out Q
    rw [e1]
    exact wp_windows_m hx hrect hs hk h
  normalise := fun w => rfl
  feature := by
    intro w l k f hf own out s Q hrep h
    exact wp_mFeature hv hsz ht h1 h2 h3 hf hrep h

end kernels

/-! ## Copies -/

/-- The padded data. -/
def padded (nt : Nat) (xs : List (Mat K)) : List (List (List K)) := xs.map fun s => s.rows.map (padRow nt)

theorem padded_rect {nf nt : Nat} {xs : List (Mat K)} (hwf : ∀ x ∈ xs, x.WF) (hnf : ∀ x ∈ xs, x.rows.length = nf)
    (hlen : ∀ x ∈ xs, x.len ≤ nt) : ∀ s ∈ padded nt xs, Rect s nf nt := by
  intro s hs
  obtain ⟨z, hz, rfl⟩ := List.mem_map.1 hs
  refine ⟨by rw [List.length_map]; exact hnf z hz, ?_⟩
  intro r hr
  obtain ⟨r', hr', rfl⟩ := List.mem_map.1 hr
  have e1 := hwf z hz r' hr'
  have e2 := hlen z hz
  simp only [padRow, List.length_append, List.length_replicate]
  omega

theorem wp_copyIn {nf nt : Nat} {vs : List View} {xs : List (Mat K)} {own : Own K} {out : Outs K}
    {Q : Nat → Own K → Outs K → Prop} (hwf : ∀ x ∈ xs, x.WF) (hnf : ∀ x ∈ xs, x.rows.length = nf)
    (hlen : ∀ x ∈ xs, x.len ≤ nt)
    (hv : List.Forall₂ (fun v x => v.nt = x.len ∧ ∀ c t row e, x.rows[c]? = some row → row[t]? = some e →
      ∃ l, E.ro v.addr = some l ∧ l[v.pos c t]? = some e) vs xs)
    (h : ∀ b, own b = none → E.ro b = none → Q b (Function.update own b (some (padded nt xs).flatten.flatten)) out) :
    wp E (copyIn nf nt vs) own out Q := by
  unfold copyIn
  rw [wp_bind]
  refine wp_zeros fun b hb hbro _ => ?_
  rw [wp_bind]
  have key : ∀ (vs : List View) (xs : List (Mat K)), (∀ x ∈ xs, x.WF) → (∀ x ∈ xs, x.rows.length = nf) →
      (∀ x ∈ xs, x.len ≤ nt) →
      List.Forall₂ (fun v x => v.nt = x.len ∧ ∀ c t row e, x.rows[c]? = some row → row[t]? = some e →
        ∃ l, E.ro v.addr = some l ∧ l[v.pos c t]? = some e) vs xs →
      ∀ (i : Nat) (P : List K), P.length = i * nf * nt → ∀ {Q : Unit → Own K → Outs K → Prop},
      Q () (Function.update own b (some (P ++ (padded nt xs).flatten.flatten))) out →
      wp E (forEach (vs.zipIdx i) fun vi => forEach (List.range nf) fun c => forEach (List.range vi.1.nt) fun t => do
        let v ← load vi.1.addr (vi.1.pos c t)
        store b ((vi.2 * nf + c) * nt + t) v)
        (Function.update own b (some (P ++ List.replicate (vs.length * nf * nt) 0))) out Q := by
    intro vs xs hwf hnf hlen hv
    induction hv with
    | nil =>
      intro i P hP Q hQ
      have hQ' : Q () (Function.update own b (some P)) out := by simpa [padded] using hQ
      have : wp E (pure ()) (Function.update own b (some P)) out Q := wp_pure hQ'
      simpa [forEach] using this
    | cons h1 h2 ih =>
      rename_i v x vs xs
      intro i P hP Q hQ
      have ih := ih (fun x hx => hwf x (List.mem_cons_of_mem _ hx)) (fun x hx => hnf x (List.mem_cons_of_mem _ hx))
        (fun x hx => hlen x (List.mem_cons_of_mem _ hx))
      have hxw := hwf x List.mem_cons_self
      have hxn := hnf x List.mem_cons_self
      have hxl := hlen x List.mem_cons_self
      rw [List.zipIdx_cons]
      show wp E ((forEach (List.range nf) fun c => forEach (List.range v.nt) fun t => do
        let e ← load v.addr (v.pos c t)
        store b ((i * nf + c) * nt + t) e) >>= fun _ => forEach (vs.zipIdx (i + 1)) _) _ _ _
      rw [wp_bind]
      have hpad : ∀ r ∈ x.rows.map (padRow nt), r.length = nt :=
        (padded_rect hwf hnf hlen _ (List.mem_map.2 ⟨x, List.mem_cons_self, rfl⟩)).2
      refine wp_forEach_range (fun c own' out' => out' = out ∧ own' = Function.update own b
        (some (P ++ ((x.rows.map (padRow nt)).take c).flatten ++
          List.replicate ((nf - c) * nt + vs.length * nf * nt) 0))) ⟨rfl, ?_⟩ ?_ ?_
      · congr 2
        rw [List.take_zero, List.flatten_nil, List.append_nil, List.length_cons, Nat.succ_mul, Nat.add_mul, Nat.sub_zero,
          Nat.add_comm]
      · rintro c hc own' out' ⟨rfl, rfl⟩
        have hcr : c < x.rows.length := by omega
        have hcp : c < (x.rows.map (padRow nt)).length := by rw [List.length_map]; exact hcr
        have hr := List.getElem?_eq_getElem hcr
        have hrl : x.rows[c].length = x.len := hxw _ (List.getElem_mem hcr)
        have hPl : (P ++ ((x.rows.map (padRow nt)).take c).flatten).length = (i * nf + c) * nt := by
          rw [List.length_append, hP, flatten_length fun r hr => hpad r (List.mem_of_mem_take hr), List.length_take,
            Nat.min_eq_left (by omega), ← Nat.add_mul]
        have hsub : (nf - c) * nt = (nf - (c + 1)) * nt + nt := by
          rw [← Nat.succ_mul]; congr 1; omega
        refine wp_fill (r := x.rows[c]) hb ?_ (by rw [hrl]; exact h1.1) (fun j hj => by rw [hPl]) ?_ ⟨rfl, ?_⟩
        · rw [hrl, hsub]; omega
        · intro j e hj
          obtain ⟨l, hl, hle⟩ := h1.2 c j _ e hr hj
          exact ⟨l, Or.inr hl, hle⟩
        · congr 2
          rw [take_snoc hcp, List.getElem_map, List.flatten_append]
          simp only [padRow, List.append_assoc, List.flatten_cons, List.flatten_nil, List.append_nil, hrl]
          congr 3
          rw [List.replicate_append_replicate]
          congr 1
          omega
      · rintro own' out' ⟨rfl, rfl⟩
        rw [Nat.sub_self, Nat.zero_mul, Nat.zero_add, ← hxn]
        rw [show x.rows.length = (x.rows.map (padRow nt)).length by simp, List.take_length]
        rw [show (x.rows.map (padRow nt)).length = nf by rw [List.length_map]; exact hxn]
        refine ih (i + 1) _ ?_ ?_
        · rw [List.length_append, hP, flatten_length hpad, List.length_map, hxn, Nat.succ_mul, Nat.add_mul]
        · simpa [padded] using hQ
  have := key vs xs hwf hnf hlen hv 0 [] (by simp) (Q := fun _ own' out' => wp E (pure b) own' out' Q)
    (by simpa using wp_pure (h b hb hbro))
  simpa using this

theorem wp_copyFlat {a size : Nat} {l : List K} {own : Own K} {out : Outs K} {Q : Nat → Own K → Outs K → Prop}
    (hl : own a = some l) (hs : size = l.length)
    (h : ∀ b, own b = none → E.ro b = none → Q b (Function.update own b (some l)) out) :
    wp E (copyFlat a size) own out Q := by
  unfold copyFlat
  rw [wp_bind]
  refine wp_zeros fun b hb hbro _ => ?_
  rw [wp_bind]
  have := wp_fill (E := E) (own := own) (out := out) (b := b) (R := size) (P := []) (r := l) (A := fun _ => a)
    (I := fun i => i) (p := fun i => i) (m := size) (Q := fun _ own' out' => wp E (pure b) own' out' Q) hb
    (by omega) hs (fun j _ => by simp) (fun j v hj => ⟨l, Or.inl hl, hj⟩)
    (by rw [hs]; simpa using wp_pure (h b hb hbro))
  simpa using this

/-! ## Success of the functional kernel -/

theorem kernelOK_of_applyAll {kern : Kernel K W} {lengths dilations : List Nat} {normalize : List Bool}
    {nSamples : Nat} (hxy : lengths.length = dilations.length) (hn : normalize.length = lengths.length)
    {M : List (List K)} (h : applyAll kern nSamples lengths dilations normalize = .ok M) :
    ∃ F, ∀ i, i < nSamples → KernelOK kern lengths dilations normalize F i := by
  obtain ⟨g, hg, hgok⟩ := groupShapelets_ok hxy
  unfold applyAll at h
  rw [hg, Res.bind_ok] at h
  obtain ⟨ss, hss, -⟩ := Res.bind_eq_ok.1 h
  have hd : ∀ i k l d : Nat, i < nSamples → lengths[k]? = some l → dilations[k]? = some d →
      ∃ w, kern.windows i l d = .ok w ∧ ∀ k' : Nat, lengths[k']? = some l → dilations[k']? = some d →
        ∃ f, kern.feature (if normalize.getD k' false then kern.normalise w else w) l k' = .ok f := by
    intro i k l d hi hl hd
    have hmem : (l, d) ∈ g.params := (hgok.mem _).2 (by
      rw [List.mem_iff_getElem?]
      exact ⟨k, by simp [List.getElem?_zip_eq_some, hl, hd]⟩)
    obtain ⟨ip, hip⟩ := List.mem_iff_getElem?.1 hmem
    have hipl := (List.getElem?_eq_some_iff.1 hip).1
    have hmt : (i, ip) ∈ taskList nSamples g := by
      unfold taskList
      rw [List.mem_flatMap]
      refine ⟨i, List.mem_range.2 hi, List.mem_map.2 ⟨ip, List.mem_range.2 ?_, rfl⟩⟩
      have := hgok.cumLen
      omega
    obtain ⟨q, hq⟩ := List.mem_iff_getElem?.1 hmt
    unfold allTasks at hss
    rw [mapM_eq_ok] at hss
    have hql : q < ss.length := by
      rw [← hss.length_eq]; exact (List.getElem?_eq_some_iff.1 hq).1
    obtain ⟨y, hy, hst⟩ := forall₂_get hss (List.getElem?_eq_getElem hql)
    have hy' : y = (i, ip) := Option.some.inj (hy.symm.trans hq)
    subst hy'
    obtain ⟨lo, hi', hlo, hhi, hsl⟩ := hgok.slices ip _ hip
    have hlt : ∀ k ∈ idxWith lengths dilations l d, k < normalize.length := by
      intro k hk
      rw [hn]
      exact (List.getElem?_eq_some_iff.1 (mem_idxWith.1 hk).1).1
    unfold groupTask at hst
    simp only [aget_eq_ok.2 hip, Res.bind_ok] at hst
    obtain ⟨w, hw, hst⟩ := Res.bind_eq_ok.1 hst
    simp only [aget_eq_ok.2 hlo, aget_eq_ok.2 hhi, hsl, selectNorm_ok hlt, Res.bind_ok] at hst
    obtain ⟨s1, hs1, hst⟩ := Res.bind_eq_ok.1 hst
    refine ⟨w, hw, ?_⟩
    intro k' hl' hd'
    have hk' : k' ∈ idxWith lengths dilations l d := mem_idxWith.2 ⟨hl', hd'⟩
    cases hnk : normalize.getD k' false with
    | false =>
      have hm : k' ∈ (idxWith lengths dilations l d).filter fun k => normalize.getD k false == false :=
        List.mem_filter.2 ⟨hk', by rw [hnk]; rfl⟩
      obtain ⟨q, hq⟩ := List.mem_iff_getElem?.1 hm
      rw [mapM_eq_ok] at hs1
      have hql : q < s1.length := by
        rw [← hs1.length_eq]; exact (List.getElem?_eq_some_iff.1 hq).1
      obtain ⟨y, hy, hst⟩ := forall₂_get hs1 (List.getElem?_eq_getElem hql)
      have hy' : y = k' := Option.some.inj (hy.symm.trans hq)
      subst hy'
      obtain ⟨f, hf, -⟩ := Res.bind_eq_ok.1 hst
      exact ⟨f, by simpa using hf⟩
    | true =>
      have hm : k' ∈ (idxWith lengths dilations l d).filter fun k => normalize.getD k false == true :=
        List.mem_filter.2 ⟨hk', by rw [hnk]; rfl⟩
      rw [if_pos (List.length_pos_of_mem hm)] at hst
      obtain ⟨s2, hs2, -⟩ := Res.bind_eq_ok.1 hst
      obtain ⟨q, hq⟩ := List.mem_iff_getElem?.1 hm
      rw [mapM_eq_ok] at hs2
      have hql : q < s2.length := by
        rw [← hs2.length_eq]; exact (List.getElem?_eq_some_iff.1 hq).1
      obtain ⟨y, hy, hst⟩ := forall₂_get hs2 (List.getElem?_eq_getElem hql)
      have hy' : y = k' := Option.some.inj (hy.symm.trans hq)
      subst hy'
      obtain ⟨f, hf, -⟩ := Res.bind_eq_ok.1 hst
      exact ⟨f, by simpa using hf⟩
  classical
  refine ⟨fun i k => if hc : ∃ f, ∃ w, kern.windows i (lengths.getD k 0) (dilations.getD k 0) = .ok w ∧
    kern.feature (if normalize.getD k false then kern.normalise w else w) (lengths.getD k 0) k = .ok f
    then hc.choose else (0, 0, 0), ?_⟩
  intro i hi
  refine ⟨?_⟩
  intro k l d hl hd'
  obtain ⟨w, hw, hf⟩ := hd i k l d hi hl hd'
  refine ⟨w, hw, ?_⟩
  intro k' hl' hd''
  obtain ⟨f, hf⟩ := hf k' hl' hd''
  have e1 : lengths.getD k' 0 = l := by simp [List.getD, hl']
  have e2 : dilations.getD k' 0 = d := by simp [List.getD, hd'']
  have hc : ∃ f, ∃ w, kern.windows i (lengths.getD k' 0) (dilations.getD k' 0) = .ok w ∧
      kern.feature (if normalize.getD k' false then kern.normalise w else w) (lengths.getD k' 0) k' = .ok f :=
    ⟨f, w, by rw [e1, e2]; exact hw, by rw [e1]; exact hf⟩
  simp only [dif_pos hc]
  obtain ⟨w', hw', hf'⟩ := hc.choose_spec
  rw [e1, e2, hw, Except.ok.injEq] at hw'
  subst hw'
  calc kern.feature (if normalize.getD k' false then kern.normalise w else w) l k'
      = kern.feature (if normalize.getD k' false then kern.normalise w else w) (lengths.getD k' 0) k' := by rw [e1]
    _ = _ := hf'

/-! ## The start of the threads -/

theorem pool_start {h1 : Heap K} {kern : Kernel K W} {repr : W → Strides2D K} {mk : MemKernel K} {n : Nat}
    {lengths dilations : List Nat} {normalize : List Bool} {g : Groups} {M : List (List K)}
    (hxy : lengths.length = dilations.length) (hn : normalize.length = lengths.length)
    (hg : groupShapelets lengths dilations = .ok g)
    (him : Implements ⟨fun a => h1.bufs[a]?, some h1.bufs.length⟩ kern repr mk)
    (h : applyAll kern n lengths dilations normalize = .ok M) :
    ∃ outs, Inv ⟨fun a => h1.bufs[a]?, some h1.bufs.length⟩ h1.bufs.length M.flatten
      ⟨h1.push (n * (3 * lengths.length)), (List.range n).flatMap fun i => (List.range (g.cum.length - 1)).map fun ip =>
        task mk normalize g h1.bufs.length (3 * lengths.length) i ip⟩ (fun _ _ => none) outs := by
  obtain ⟨F, hF⟩ := kernelOK_of_applyAll hxy hn h
  obtain ⟨g', hg', hgok⟩ := groupShapelets_ok hxy
  have hgg : g' = g := Except.ok.inj (hg'.symm.trans hg)
  subst hgg
  obtain ⟨ss, hss, hmem⟩ := allTasks_ok hxy hgok hn hF
  have hM := applyAll_ok hxy hn hF
  rw [h, Except.ok.injEq] at hM
  have hMlen : M.length = n := by rw [hM]; simp [targetMatrix]
  have hrow : ∀ i, i < n → M[i]? = some ((List.range (3 * lengths.length)).map fun c => cellVal F i c) := by
    intro i hi
    rw [hM]
    unfold targetMatrix
    rw [List.getElem?_map, List.getElem?_range hi]
    simp only [Option.map_some]
    exact congrArg some (cells_flatMap (F i) lengths.length).symm
  have hMrow : ∀ r ∈ M, r.length = 3 * lengths.length := by
    intro r hr
    obtain ⟨i, hi⟩ := List.mem_iff_getElem?.1 hr
    have hil : i < n := by rw [← hMlen]; exact (List.getElem?_eq_some_iff.1 hi).1
    rw [hrow i hil] at hi
    cases hi
    simp
  have hflat : M.flatten.length = n * (3 * lengths.length) := by rw [flatten_length hMrow, hMlen]
  have hget : ∀ i c, i < n → c < 3 * lengths.length → M.flatten[i * (3 * lengths.length) + c]? = some (cellVal F i c) := by
    intro i c hi hc
    rw [flatten_get hMrow (hrow i hi) hc]
    simp [hc]
  have hcons : ∀ s ∈ ss.flatten, s.row < n ∧ s.col < 3 * lengths.length ∧ s.v = cellVal F s.row s.col := by
    intro s hs
    obtain ⟨i, k, hi, hk', hs⟩ := (hmem s).1 hs
    obtain ⟨h1, h2, h3⟩ := featStores_val hs
    exact ⟨by omega, by omega, h3⟩
  have hthreads : ((List.range n).flatMap fun i => (List.range (g'.cum.length - 1)).map fun ip =>
      task mk normalize g' h1.bufs.length (3 * lengths.length) i ip) =
      (taskList n g').map fun ip => task mk normalize g' h1.bufs.length (3 * lengths.length) ip.1 ip.2 := by
    unfold taskList
    rw [List.map_flatMap]
    simp only [List.map_map]
    rfl
  unfold allTasks at hss
  rw [mapM_eq_ok] at hss
  have hlen : (taskList n g').length = ss.length := hss.length_eq
  refine ⟨fun t => writes (3 * lengths.length) (ss.getD t []), rfl, by simp, ?_, ?_, ?_, ?_, ?_, ?_⟩
  · intro a l ha
    exact push_old ha
  · refine ⟨_, push_new, by simp [hflat], ?_⟩
    intro q hq
    right
    rw [hflat] at hq
    have hpos : 0 < 3 * lengths.length := by
      rcases Nat.eq_zero_or_pos (3 * lengths.length) with hz | hz
      · rw [hz] at hq; omega
      · exact hz
    obtain ⟨s, hs, hs1, hs2⟩ := featStores_cover F (q / (3 * lengths.length)) (q % (3 * lengths.length))
    have hq1 : q / (3 * lengths.length) < n := (Nat.div_lt_iff_lt_mul hpos).2 hq
    have hq2 := Nat.mod_lt q hpos
    have hs' := (hmem s).2 ⟨_, _, hq1, by omega, hs⟩
    obtain ⟨st, hst, hsst⟩ := List.mem_flatten.1 hs'
    obtain ⟨t, ht⟩ := List.mem_iff_getElem?.1 hst
    have htl := (List.getElem?_eq_some_iff.1 ht).1
    refine ⟨t, s.v, ?_, ?_⟩
    · rw [hthreads, List.length_map, hlen]; exact htl
    · refine List.mem_map.2 ⟨s, ?_, ?_⟩
      · simp only [List.getD, ht, Option.getD_some]; exact hsst
      · rw [hs1, hs2, Prod.mk.injEq]
        exact ⟨by rw [Nat.mul_comm]; exact Nat.div_add_mod q _, rfl⟩
  · intro t a l hl; cases hl
  · intro t t' a l l' _ hl; cases hl
  · intro t p hp
    rw [hthreads, List.getElem?_map] at hp
    obtain ⟨ip, hip, rfl⟩ := Option.map_eq_some_iff.1 hp
    have htl : t < ss.length := by rw [← hlen]; exact (List.getElem?_eq_some_iff.1 hip).1
    obtain ⟨y, hy, hst⟩ := forall₂_get hss (List.getElem?_eq_getElem htl)
    have hy' : y = ip := Option.some.inj (hy.symm.trans hip)
    subst hy'
    have e : ss.getD t [] = ss[t] := getD_lt _ htl
    simp only [e]
    exact wp_task him rfl hst _
  · intro t q v hqv
    obtain ⟨s, hs, he⟩ := List.mem_map.1 hqv
    have hs' : s ∈ ss.flatten := by
      by_cases htl : t < ss.length
      · rw [getD_lt _ htl] at hs
        exact List.mem_flatten.2 ⟨_, List.getElem_mem htl, hs⟩
      · simp only [List.getD, List.getElem?_eq_none (show ss.length ≤ t by omega), Option.getD_none] at hs
        cases hs
    obtain ⟨h2, h3, h4⟩ := hcons s hs'
    rw [Prod.mk.injEq] at he
    rw [← he.1, ← he.2, h4]
    exact hget _ _ h2 h3

/-- The copies: the call reads the caller's arrays and leaves the data in a new buffer. -/
theorem run_copies {h : Heap K} {vs : List View} {xs : List (Mat K)} {nf nt : Nat} (hwf : ∀ x ∈ xs, x.WF)
    (hnf : ∀ x ∈ xs, x.rows.length = nf) (hlen : ∀ x ∈ xs, x.len ≤ nt) (hv : List.Forall₂ (Held h) vs xs)
    (variableLen : Bool) :
    ∃ h1 x, Prog.run h (if variableLen then do
        let a ← copyIn nf nt vs
        copyFlat a (vs.length * nf * nt)
      else copyIn nf nt vs) = (h1, .ok x) ∧ Unchanged h h1 ∧ h1.bufs[x]? = some (padded nt xs).flatten.flatten := by
  have hv' : List.Forall₂ (fun v x => v.nt = x.len ∧ ∀ (c t : Nat) (row : List K) (e : K), x.rows[c]? = some row →
      row[t]? = some e → ∃ l, (⟨fun a => h.bufs[a]?, none⟩ : Shared K).ro v.addr = some l ∧ l[v.pos c t]? = some e) vs xs := by
    refine hv.imp ?_
    intro v x hvx
    refine ⟨hvx.2.1, ?_⟩
    intro c t row e h1 h2
    have := hvx.2.2 c t row e h1 h2
    unfold Heap.get at this
    exact Option.bind_eq_some_iff.1 this
  have hwp : wp (⟨fun a => h.bufs[a]?, none⟩ : Shared K) (if variableLen then do
        let a ← copyIn nf nt vs
        copyFlat a (vs.length * nf * nt)
      else copyIn nf nt vs) (fun _ => none) [] fun x own _ => own x = some (padded nt xs).flatten.flatten := by
    have hrect := padded_rect hwf hnf hlen
    have hlen1 : vs.length * nf * nt = (padded nt xs).flatten.flatten.length := by
      rw [flatten_length (n := nt), flatten_length (n := nf)]
      · simp [padded, hv.length_eq]
      · exact fun s hs => (hrect s hs).1
      · intro r hr
        obtain ⟨s, hs, hr⟩ := List.mem_flatten.1 hr
        exact (hrect s hs).2 r hr
    cases variableLen with
    | false =>
      exact wp_copyIn hwf hnf hlen hv' fun b _ _ => Function.update_self _ _ _
    | true =>
      simp only [if_true]
      rw [wp_bind]
      refine wp_copyIn hwf hnf hlen hv' fun b hb _ => ?_
      refine wp_copyFlat (Function.update_self _ _ _) hlen1 fun b' _ _ => Function.update_self _ _ _
  obtain ⟨h1, x, own', hrun, hQ, hro, hown⟩ := run_of_wp rfl (own := fun _ => none) (h := h) (fun a l ha => ha)
    (fun a l ha => by cases ha) hwp
  exact ⟨h1, x, hrun, fun a b hb => hro a b hb, (hown x _ hQ).1⟩

end Convst.Mem
