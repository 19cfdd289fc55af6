import Verif.Proofs.Memory
import Verif.Proofs.Windows
import Verif.Proofs.Kernels

/-! # Loops over arrays in memory -/

set_option autoImplicit false
set_option linter.unusedSectionVars false

namespace Convst.Mem
open Spec

variable {K W : Type} [Scalar K] {E : Shared K}

/-! ## Lists of rows as flat buffers -/

theorem flatten_length {α : Type} {L : List (List α)} {n : Nat} (h : ∀ r ∈ L, r.length = n) :
    L.flatten.length = L.length * n := by
  induction L with
  | nil => simp
  | cons r L ih =>
    rw [List.flatten_cons, List.length_append, ih fun r hr => h r (List.mem_cons_of_mem _ hr), h r List.mem_cons_self,
      List.length_cons, Nat.succ_mul, Nat.add_comm]

theorem flatten_get {α : Type} {L : List (List α)} {n c i : Nat} (h : ∀ r ∈ L, r.length = n) {r : List α}
    (hr : L[c]? = some r) (hi : i < n) : L.flatten[c * n + i]? = r[i]? := by
  induction L generalizing c with
  | nil => simp at hr
  | cons r' L ih =>
    have h0 := h r' List.mem_cons_self
    cases c with
    | zero =>
      simp only [List.getElem?_cons_zero, Option.some.injEq] at hr
      subst hr
      rw [List.flatten_cons, Nat.zero_mul, Nat.zero_add, List.getElem?_append_left (by omega)]
    | succ c =>
      simp only [List.getElem?_cons_succ] at hr
      rw [List.flatten_cons, Nat.succ_mul, List.getElem?_append_right (by omega),
        show c * n + n + i - r'.length = c * n + i by omega]
      exact ih (fun r hr => h r (List.mem_cons_of_mem _ hr)) hr

theorem flatten_split {α : Type} {L : List (List α)} {n c : Nat} (h : ∀ r ∈ L, r.length = n) {r : List α}
    (hr : L[c]? = some r) :
    L.flatten = (L.take c).flatten ++ r ++ (L.drop (c + 1)).flatten ∧ (L.take c).flatten.length = c * n := by
  obtain ⟨hc, hr'⟩ := List.getElem?_eq_some_iff.1 hr
  constructor
  · conv_lhs => rw [← List.take_append_drop c L, ← List.cons_getElem_drop_succ (h := hc), hr']
    simp
  · rw [flatten_length fun r hr => h r (List.mem_of_mem_take hr), List.length_take, Nat.min_eq_left (by omega)]

theorem take_snoc {α : Type} {L : List α} {c : Nat} (h : c < L.length) : L.take (c + 1) = L.take c ++ [L[c]] := by
  simp

/-! ## Loops -/

theorem wp_nested {nf n : Nat} {f : Nat → Nat → Prog K Unit} {own : Own K} {out : Outs K}
    {Q : Unit → Own K → Outs K → Prop} (S : Nat → Own K → Outs K → Prop) (h0 : S 0 own out)
    (hs : ∀ c i, c < nf → i < n → ∀ own out, S (c * n + i) own out → wp E (f c i) own out fun _ => S (c * n + i + 1))
    (hQ : ∀ own out, S (nf * n) own out → Q () own out) :
    wp E (forEach (List.range nf) fun c => forEach (List.range n) fun i => f c i) own out Q := by
  refine wp_forEach_range (fun c => S (c * n)) (by rwa [Nat.zero_mul]) ?_ hQ
  intro c hc own out hS
  refine wp_forEach_range (fun i => S (c * n + i)) hS (fun i hi own out hS => hs c i hc hi own out hS) ?_
  intro own out hS
  rwa [← Nat.succ_mul] at hS

/-- Copying a row, element by element, into the zeros after `P`. -/
theorem wp_fill {own : Own K} {out : Outs K} {b R : Nat} {P r : List K} {A I p : Nat → Nat} {m : Nat}
    {Q : Unit → Own K → Outs K → Prop} (hb : own b = none) (hR : r.length ≤ R) (hm : m = r.length)
    (hp : ∀ j, j < r.length → p j = P.length + j)
    (hsrc : ∀ j v, r[j]? = some v → ∃ l, (own (A j) = some l ∨ E.ro (A j) = some l) ∧ l[I j]? = some v)
    (h : Q () (Function.update own b (some (P ++ r ++ List.replicate (R - r.length) 0))) out) :
    wp E (forEach (List.range m) fun j => load (A j) (I j) >>= fun v => store b (p j) v)
      (Function.update own b (some (P ++ List.replicate R 0))) out Q := by
  subst hm
  refine wp_forEach_range (fun j own' out' => out' = out ∧
    own' = Function.update own b (some (P ++ r.take j ++ List.replicate (R - j) 0))) ⟨rfl, by simp⟩ ?_ ?_
  · rintro j hj own' out' ⟨rfl, rfl⟩
    have hv := List.getElem?_eq_getElem hj
    obtain ⟨l, hl, hlv⟩ := hsrc j _ hv
    rw [wp_bind]
    refine wp_load (l := l) (v := r[j]) ?_ hlv ?_
    · refine hl.imp_left fun hl => ?_
      rw [Function.update_of_ne]
      · exact hl
      · intro hc
        rw [hc, hb] at hl
        cases hl
    · have hlen : (P ++ r.take j).length = p j := by
        rw [hp j hj, List.length_append, List.length_take, Nat.min_eq_left (by omega)]
      refine wp_store (Function.update_self _ _ _) ?_ ⟨rfl, ?_⟩
      · rw [List.length_append, hlen, List.length_replicate]; omega
      · rw [Function.update_idem]
        congr 2
        rw [show R - j = (R - (j + 1)) + 1 by omega, List.replicate_succ, ← hlen, List.set_append_right _ _ (Nat.le_refl _),
          Nat.sub_self, List.set_cons_zero, take_snoc hj]
        simp only [List.append_assoc, List.cons_append, List.nil_append]
  · rintro own' out' ⟨rfl, rfl⟩
    rw [List.take_length]
    exact h

/-! ## Windows -/

/-- The window array `s` contains the windows `w`. -/
def Rep (own : Own K) (s : Win) (w : Strides2D K) : Prop :=
  own s.addr = some w.rows.flatten.flatten ∧ s.n = w.nCand ∧ s.nf = w.rows.length ∧ (∀ R ∈ w.rows, R.length = s.n) ∧
    ∀ R ∈ w.rows, ∀ r ∈ R, r.length = s.w

theorem wp_strides {own : Own K} {out : Outs K} {a off pitch nf len w d n : Nat} {phase : Bool} {l : List K}
    {rows : List (List K)} {Q : Win → Own K → Outs K → Prop} (hl : own a = some l ∨ E.ro a = some l)
    (hn : (if phase then .ok len else dim ((len : Int) - ((w : Int) - 1) * d)) = Except.ok (ε := Err) n)
    (hlen : rows.length = nf * n) (hw : ∀ r ∈ rows, r.length = w)
    (hv : ∀ c i r j v, c < nf → i < n → rows[c * n + i]? = some r → r[j]? = some v →
      l[off + c * pitch + if phase then (i + j * d) % len else i + j * d]? = some v)
    (h : ∀ b, own b = none → Q ⟨b, nf, n, w⟩ (Function.update own b (some rows.flatten)) out) :
    wp E (strides a off pitch nf len w d phase) own out Q := by
  unfold strides
  rw [wp_bind]
  refine wp_ret hn ?_
  rw [wp_bind]
  refine wp_zeros fun b hb _ _ => ?_
  rw [wp_bind]
  refine wp_nested (fun q own' out' => out' = out ∧
    own' = Function.update own b (some ((rows.take q).flatten ++ List.replicate ((nf * n - q) * w) 0))) ⟨rfl, by simp⟩
    ?_ ?_
  · rintro c i hc hi own' out' ⟨rfl, rfl⟩
    have hq : c * n + i < rows.length := by
      rw [hlen]
      calc c * n + i < c * n + n := by omega
        _ = (c + 1) * n := (Nat.succ_mul c n).symm
        _ ≤ nf * n := Nat.mul_le_mul_right _ hc
    have hr := List.getElem?_eq_getElem hq
    have hrw := hw _ (List.getElem_mem hq)
    have hP : (rows.take (c * n + i)).flatten.length = (c * n + i) * w := (flatten_split hw hr).2
    have hsub : (nf * n - (c * n + i)) * w = (nf * n - (c * n + i + 1)) * w + w := by
      rw [← Nat.succ_mul]
      congr 1
      omega
    refine wp_fill (r := rows[c * n + i]) hb ?_ hrw.symm (fun j hj => by rw [hP]) ?_ ⟨rfl, ?_⟩
    · rw [hrw, hsub]; omega
    · intro j v hj
      exact ⟨l, hl, hv c i _ j v hc hi hr hj⟩
    · congr 2
      rw [take_snoc hq, hrw, hsub, Nat.add_sub_cancel, List.flatten_append]
      simp only [List.append_assoc, List.flatten_cons, List.flatten_nil, List.append_nil]
  · rintro own' out' ⟨rfl, rfl⟩
    rw [← hlen, List.take_length, Nat.sub_self, Nat.zero_mul]
    refine wp_pure ?_
    simpa using h b hb

theorem wp_normaliseWin {own : Own K} {out : Outs K} {s : Win} {w : Strides2D K} {Q : Unit → Own K → Outs K → Prop}
    (hs : Rep own s w) (h : ∀ own', Rep own' s w.normalise → Q () own' out) : wp E (normaliseWin s) own out Q := by
  obtain ⟨h1, h2, h3, h4, h5⟩ := hs
  have hrl : w.rows.flatten.length = s.nf * s.n := by rw [h3]; exact flatten_length h4
  have hrw : ∀ r ∈ w.rows.flatten, r.length = s.w := by
    intro r hr
    obtain ⟨R, hR, hr⟩ := List.mem_flatten.1 hr
    exact h5 R hR r hr
  unfold normaliseWin
  generalize hrows : w.rows.flatten = rows at h1 hrl hrw
  refine wp_nested (fun q own' out' => out' = out ∧
    own' s.addr = some (((rows.take q).map znorm).flatten ++ (rows.drop q).flatten)) ⟨rfl, by simpa using h1⟩ ?_ ?_
  · rintro c i hc hi own' out' ⟨rfl, hown⟩
    have hq : c * s.n + i < rows.length := by
      rw [hrl]
      calc c * s.n + i < c * s.n + s.n := by omega
        _ = (c + 1) * s.n := (Nat.succ_mul c s.n).symm
        _ ≤ s.nf * s.n := Nat.mul_le_mul_right _ hc
    have hr := List.getElem?_eq_getElem hq
    have hrw' := hrw _ (List.getElem_mem hq)
    have hP : ((rows.take (c * s.n + i)).map znorm).flatten.length = (c * s.n + i) * s.w := by
      rw [flatten_length (n := s.w)]
      · rw [List.length_map, List.length_take, Nat.min_eq_left (by omega)]
      · intro r hr
        obtain ⟨r', hr', rfl⟩ := List.mem_map.1 hr
        rw [znorm_length]
        exact hrw r' (List.mem_of_mem_take hr')
    have hsplit : (rows.drop (c * s.n + i)).flatten = rows[c * s.n + i] ++ (rows.drop (c * s.n + i + 1)).flatten := by
      rw [← List.cons_getElem_drop_succ (h := hq), List.flatten_cons]
    rw [hsplit, ← List.append_assoc] at hown
    rw [wp_bind]
    refine wp_loadRow (Or.inl hown) rfl hP.symm hrw'.symm ?_
    refine wp_storeRow hown hP.symm (znorm_length _) ⟨rfl, ?_⟩
    rw [Function.update_self, take_snoc hq, List.map_append, List.flatten_append]
    simp only [List.append_assoc, List.map_cons, List.map_nil, List.flatten_cons, List.flatten_nil, List.append_nil]
  · rintro own' out' ⟨rfl, hown⟩
    rw [← hrl, List.take_length, List.drop_length] at hown
    refine h own' ⟨?_, h2, by simpa [Strides2D.normalise] using h3, ?_, ?_⟩
    · rw [hown, ← hrows]
      simp [Strides2D.normalise, List.map_flatten]
    · intro R hR
      simp only [Strides2D.normalise] at hR
      obtain ⟨R', hR', rfl⟩ := List.mem_map.1 hR
      rw [List.length_map]; exact h4 R' hR'
    · intro R hR r hr
      simp only [Strides2D.normalise] at hR
      obtain ⟨R', hR', rfl⟩ := List.mem_map.1 hR
      obtain ⟨r', hr', rfl⟩ := List.mem_map.1 hr
      rw [znorm_length]; exact h5 R' hR' r' hr'

theorem forall₂_range {α β : Type} {f : Nat → α} {R : α → β → Prop} {ys : List β} {n : Nat} (hn : ys.length = n)
    (h : ∀ i y, ys[i]? = some y → R (f i) y) : List.Forall₂ (fun i y => R (f i) y) (List.range n) ys := by
  rw [List.forall₂_iff_get]
  refine ⟨by simp [hn], ?_⟩
  intro i h1 h2
  simp only [List.get_eq_getElem, List.getElem_range]
  exact h i _ (List.getElem?_eq_getElem h2)

theorem wp_readChannel {own : Own K} {out : Outs K} {s : Win} {w : Strides2D K} {c : Nat} {R : List (List K)}
    {Q : List (List K) → Own K → Outs K → Prop} (hs : Rep own s w) (hc : w.rows[c]? = some R) (h : Q R own out) :
    wp E (readChannel s c) own out Q := by
  obtain ⟨h1, h2, h3, h4, h5⟩ := hs
  have hR := List.mem_of_getElem? hc
  have hrw : ∀ r ∈ w.rows.flatten, r.length = s.w := by
    intro r hr
    obtain ⟨R, hR, hr⟩ := List.mem_flatten.1 hr
    exact h5 R hR r hr
  refine wp_collect ?_ h
  refine forall₂_range (f := fun i => i) (R := fun i y => wp E (loadRow s.addr ((c * s.n + i) * s.w) s.w) own out
    fun b o o' => b = y ∧ o = own ∧ o' = out) (h4 R hR) ?_
  intro i r hr
  have hi : i < s.n := by rw [← h4 R hR]; exact (List.getElem?_eq_some_iff.1 hr).1
  have hg : w.rows.flatten[c * s.n + i]? = some r := by rw [flatten_get h4 hc hi, hr]
  obtain ⟨e1, e2⟩ := flatten_split hrw hg
  exact wp_loadRow (Or.inl h1) e1 e2.symm (h5 R hR r (List.mem_of_getElem? hr)).symm ⟨rfl, rfl, rfl⟩

/-! ## Features -/

theorem wp_loadRow_zero {a off : Nat} {own : Own K} {out : Outs K} {Q : List K → Own K → Outs K → Prop}
    (h : Q [] own out) : wp E (loadRow a off 0) own out Q := h

theorem wp_uFeature {own : Own K} {out : Outs K} {S : UShp K} {A : UArr} {s : Win} {rows : List (List K)} {l k : Nat}
    {f : Feat K} {Q : Feat K → Own K → Outs K → Prop} (hv : E.ro A.values = some S.values.flatten)
    (hw : ∀ v ∈ S.values, v.length = A.width) (ht : E.ro A.threshold = some S.threshold)
    (hf : uFeature S rows l k = .ok f) (hs : Rep own s ⟨rows.length, [rows]⟩) (h : Q f own out) :
    wp E (uFeatureMem A s l k) own out Q := by
  unfold uFeature at hf
  obtain ⟨v, hv', hf⟩ := Res.bind_eq_ok.1 hf
  obtain ⟨t, ht', hf⟩ := Res.bind_eq_ok.1 hf
  rw [aget_eq_ok] at hv' ht'
  obtain ⟨e1, e2⟩ := flatten_split hw hv'
  unfold uFeatureMem
  rw [wp_bind]
  refine wp_loadRow (d := (S.values.take k).flatten) (r := v.take l) (e := v.drop l ++ (S.values.drop (k + 1)).flatten)
    (Or.inr hv) ?_ e2.symm ?_ ?_
  · rw [e1]
    conv_lhs => rw [← List.take_append_drop l v]
    simp only [List.append_assoc]
  · rw [List.length_take, hw v (List.mem_of_getElem? hv')]
  rw [wp_bind]
  refine wp_load (Or.inr ht) ht' ?_
  rw [wp_bind]
  refine wp_readChannel hs (c := 0) rfl ?_
  exact wp_ret hf h

theorem wp_mFeature {own : Own K} {out : Outs K} {S : MShp K} {A : Mem.MArr} {s : Win} {w : Strides2D K} {l k : Nat}
    {f : Feat K} {Q : Feat K → Own K → Outs K → Prop} (hv : E.ro A.values = some S.values)
    (hsz : A.size = S.values.length) (ht : E.ro A.threshold = some S.threshold) (h1 : A.nChannels = S.nChannels)
    (h2 : A.lengths = S.lengths) (h3 : A.channelIds = S.channelIds)
    (hf : mFeature S w l k = .ok f) (hs : Rep own s w) (h : Q f own out) :
    wp E (mFeatureMem A s l k) own out Q := by
  unfold mFeature at hf
  obtain ⟨c0, hc0, hf⟩ := Res.bind_eq_ok.1 hf
  obtain ⟨c1, hc1, hf⟩ := Res.bind_eq_ok.1 hf
  obtain ⟨v0, hv0, hf⟩ := Res.bind_eq_ok.1 hf
  obtain ⟨v1, hv1, hf⟩ := Res.bind_eq_ok.1 hf
  obtain ⟨nc, hnc, hf⟩ := Res.bind_eq_ok.1 hf
  obtain ⟨values, hvals, hf⟩ := Res.bind_eq_ok.1 hf
  obtain ⟨t, ht', hf⟩ := Res.bind_eq_ok.1 hf
  obtain ⟨sub, hsub, hf⟩ := Res.bind_eq_ok.1 hf
  unfold mFeatureMem
  rw [h1, h2, h3]
  rw [wp_bind]; refine wp_ret hc0 ?_
  rw [wp_bind]; refine wp_ret hc1 ?_
  rw [wp_bind]; refine wp_ret hv0 ?_
  rw [wp_bind]; refine wp_ret hv1 ?_
  rw [wp_bind]
  have key : ∀ {Q' : List K → Own K → Outs K → Prop}, Q' (slice S.values v0 v1) own out →
      wp E (loadRow A.values v0 (min (v1 - v0) (A.size - v0))) own out Q' := by
    intro Q' hQ'
    by_cases hle : v0 ≤ S.values.length
    · refine wp_loadRow (d := S.values.take v0) (r := slice S.values v0 v1) (e := (S.values.drop v0).drop (v1 - v0))
        (Or.inr hv) ?_ ?_ ?_ hQ'
      · unfold slice
        rw [List.append_assoc, List.take_append_drop, List.take_append_drop]
      · rw [List.length_take, Nat.min_eq_left hle]
      · unfold slice
        rw [List.length_take, List.length_drop, hsz]
    · rw [hsz, show S.values.length - v0 = 0 by omega, Nat.min_zero]
      have : slice S.values v0 v1 = [] := by
        unfold slice
        rw [List.drop_eq_nil_of_le (by omega), List.take_nil]
      rw [this] at hQ'
      exact wp_loadRow_zero hQ'
  refine key ?_
  rw [wp_bind]; refine wp_ret hnc ?_
  rw [wp_bind]; refine wp_ret hvals ?_
  rw [wp_bind]; refine wp_load (Or.inr ht) (aget_eq_ok.1 ht') ?_
  rw [wp_bind]
  unfold Strides2D.select at hsub
  obtain ⟨rows, hrows, hsub⟩ := Res.bind_eq_ok.1 hsub
  rw [Res.pure_eq, Except.ok.injEq] at hsub
  subst hsub
  refine wp_collect (ys := rows) ?_ ?_
  · refine List.Forall₂.imp ?_ (mapM_eq_ok.1 hrows)
    intro c R hR
    exact wp_readChannel hs (aget_eq_ok.1 hR) ⟨rfl, rfl, rfl⟩
  · rw [hs.2.1]
    exact wp_ret hf h

/-! ## One iteration -/

/-- The memory-level kernel `mk` does what the kernel `kern` says. -/
structure Implements (E : Shared K) (kern : Kernel K W) (repr : W → Strides2D K) (mk : MemKernel K) : Prop where
  windows : ∀ {i l d : Nat} {w : W}, kern.windows i l d = .ok w → ∀ {own : Own K} {out : Outs K}
    {Q : Win → Own K → Outs K → Prop}, (∀ s own', Rep own' s (repr w) → Q s own' out) →
      wp E (mk.windows i l d) own out Q
  normalise : ∀ w, repr (kern.normalise w) = (repr w).normalise
  feature : ∀ {w : W} {l k : Nat} {f : Feat K}, kern.feature w l k = .ok f → ∀ {own : Own K} {out : Outs K} {s : Win}
    {Q : Feat K → Own K → Outs K → Prop}, Rep own s (repr w) → Q f own out → wp E (mk.feature s l k) own out Q

/-- The writes of a list of stores to a matrix of `cols` columns. -/
def writes (cols : Nat) (ss : List (Store K)) : Outs K := ss.map fun s => (s.row * cols + s.col, s.v)

theorem wp_storeFeat {xn cols i k : Nat} {f : Feat K} {own : Own K} {out : Outs K} {Q : Unit → Own K → Outs K → Prop}
    (hxn : E.xn = some xn) (h : Q () own out) :
    wp E (storeFeat xn (i * cols) k f) own (writes cols (featStores i k f) ++ out) Q := by
  unfold storeFeat
  simp only [writes, featStores, List.map_cons, List.map_nil, List.cons_append, List.nil_append]
  rw [wp_bind]
  refine wp_store_out hxn ?_
  rw [wp_bind]
  refine wp_store_out hxn ?_
  exact wp_store_out hxn h

theorem wp_features {kern : Kernel K W} {repr : W → Strides2D K} {mk : MemKernel K} (him : Implements E kern repr mk)
    {xn cols i l : Nat} (hxn : E.xn = some xn) {w : W} {ks : List Nat} {ss : List (List (Store K))}
    (hss : (ks.mapM fun k => do
      let f ← kern.feature w l k
      pure (featStores i k f)) = .ok ss) {s : Win} {own : Own K} (hs : Rep own s (repr w)) {out : Outs K}
    {Q : Unit → Own K → Outs K → Prop} (h : Q () own out) :
    wp E (forEach ks fun k => mk.feature s l k >>= fun f => storeFeat xn (i * cols) k f) own
      (writes cols ss.flatten ++ out) Q := by
  rw [mapM_eq_ok] at hss
  induction hss with
  | nil => exact h
  | cons h1 h2 ih =>
    rename_i k st ks ss
    obtain ⟨f, hf, he⟩ := Res.bind_eq_ok.1 h1
    rw [Res.pure_eq, Except.ok.injEq] at he
    subst he
    show wp E ((mk.feature s l k >>= fun f => storeFeat xn (i * cols) k f) >>= fun _ => forEach ks _) _ _ _
    rw [wp_bind, wp_bind]
    refine him.feature hf hs ?_
    rw [List.flatten_cons, show writes cols (featStores i k f ++ ss.flatten) ++ out =
      writes cols (featStores i k f) ++ (writes cols ss.flatten ++ out) by simp [writes]]
    exact wp_storeFeat hxn ih

theorem wp_task {kern : Kernel K W} {repr : W → Strides2D K} {mk : MemKernel K} (him : Implements E kern repr mk)
    {xn cols i ip : Nat} (hxn : E.xn = some xn) {normalize : List Bool} {g : Groups} {ss : List (Store K)}
    (hss : groupTask kern normalize g i ip = .ok ss) (own : Own K) :
    wp E (task mk normalize g xn cols i ip) own (writes cols ss) fun _ _ out => out = [] := by
  unfold groupTask at hss
  obtain ⟨p, hp, hss⟩ := Res.bind_eq_ok.1 hss
  obtain ⟨w, hw, hss⟩ := Res.bind_eq_ok.1 hss
  obtain ⟨lo, hlo, hss⟩ := Res.bind_eq_ok.1 hss
  obtain ⟨hi, hhi, hss⟩ := Res.bind_eq_ok.1 hss
  obtain ⟨no, hno, hss⟩ := Res.bind_eq_ok.1 hss
  obtain ⟨s1, hs1, hss⟩ := Res.bind_eq_ok.1 hss
  obtain ⟨yes, hyes, hss⟩ := Res.bind_eq_ok.1 hss
  have hss' : ∃ s2, (if yes.length > 0 then yes.mapM fun k => do
      let f ← kern.feature (kern.normalise w) p.1 k
      pure (featStores i k f) else pure []) = Except.ok (ε := Err) s2 ∧ ss = s1.flatten ++ s2.flatten := by
    by_cases hpos : yes.length > 0
    · simp only [if_pos hpos] at hss ⊢
      obtain ⟨s2, hs2, hss⟩ := Res.bind_eq_ok.1 hss
      exact ⟨s2, hs2, (Except.ok.inj hss).symm⟩
    · simp only [if_neg hpos] at hss ⊢
      obtain ⟨s2, hs2, hss⟩ := Res.bind_eq_ok.1 hss
      exact ⟨s2, hs2, (Except.ok.inj hss).symm⟩
  obtain ⟨s2, hs2, rfl⟩ := hss'
  unfold task
  rw [wp_bind]; refine wp_ret hp ?_
  rw [wp_bind]; refine him.windows hw fun s own1 hrep => ?_
  rw [wp_bind]; refine wp_ret hlo ?_
  rw [wp_bind]; refine wp_ret hhi ?_
  rw [wp_bind]; refine wp_ret hno ?_
  rw [wp_bind, show writes cols (s1.flatten ++ s2.flatten) = writes cols s1.flatten ++ writes cols s2.flatten by
    simp [writes]]
  refine wp_features him hxn hs1 hrep ?_
  rw [wp_bind]; refine wp_ret hyes ?_
  split at hs2
  · rename_i hpos
    rw [if_pos hpos, wp_bind]
    refine wp_normaliseWin hrep fun own2 hrep2 => ?_
    rw [← him.normalise] at hrep2
    have := wp_features (out := []) (Q := fun _ _ out => out = []) him hxn (cols := cols) hs2 hrep2 rfl
    rwa [List.append_nil] at this
  · rename_i hpos
    rw [Res.pure_eq, Except.ok.injEq] at hs2
    subst hs2
    rw [if_neg hpos]
    exact wp_pure rfl

end Convst.Mem
