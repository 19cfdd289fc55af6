import Verif.Spec.Mirror
import Verif.Proofs.Fitted
import Verif.Proofs.Units
import Verif.Props.Invariance

/-!
# Reversed series: windows, distances, sampling
-/

set_option autoImplicit false
set_option linter.unusedSectionVars false

namespace Convst
open Spec

section positions
variable {phase : Bool} {T l d t : Nat}

theorem nWin_pos_lt (h : t < nWin phase T l d) {j : Nat} (hj : j < l) : pos phase T d t j < T := by
  unfold pos
  unfold nWin at h
  cases phase <;> simp only [Bool.false_eq_true, if_false, if_true] at h ⊢
  · have h1 : j * d ≤ (l - 1) * d := Nat.mul_le_mul_right d (by omega)
    omega
  · exact Nat.mod_lt _ (by omega)

theorem pos_mirror (h : t < nWin phase T l d) {j : Nat} (hj : j < l) :
    pos phase T d (mirrorAt phase T l d t) j = T - 1 - pos phase T d t (l - 1 - j) := by
  have hD : (l - 1) * d = (l - 1 - j) * d + j * d := by
    rw [← Nat.add_mul]
    congr 1
    omega
  unfold mirrorAt pos
  unfold nWin at h
  cases phase <;> simp only [Bool.false_eq_true, if_false, if_true] at h ⊢
  · omega
  · have hT : 0 < T := by omega
    have e1 := Nat.div_add_mod (t + (l - 1) * d) T
    have e2 := Nat.div_add_mod (t + (l - 1 - j) * d) T
    have hq : (t + (l - 1 - j) * d) / T ≤ (t + (l - 1) * d) / T := Nat.div_le_div_right (by omega)
    have l1 := Nat.mod_lt (t + (l - 1) * d) hT
    have l2 := Nat.mod_lt (t + (l - 1 - j) * d) hT
    obtain ⟨q, hq⟩ := Nat.exists_eq_add_of_le hq
    rw [hq, Nat.mul_add] at e1
    have : T - 1 - (t + (l - 1) * d) % T + j * d = (T - 1 - (t + (l - 1 - j) * d) % T) + T * q := by omega
    rw [this, Nat.add_mul_mod_self_left, Nat.mod_eq_of_lt (by omega)]

theorem mirrorAt_lt (hl : 1 ≤ l) (h : t < nWin phase T l d) : mirrorAt phase T l d t < nWin phase T l d := by
  have h1 := nWin_pos_lt h (j := l - 1) (by omega)
  unfold mirrorAt
  unfold nWin at *
  cases phase <;> simp only [Bool.false_eq_true, if_false, if_true, pos] at * <;> omega

theorem mirrorAt_mirrorAt (hl : 1 ≤ l) (h : t < nWin phase T l d) :
    mirrorAt phase T l d (mirrorAt phase T l d t) = t := by
  have h0 := nWin_pos_lt h (j := 0) (by omega)
  have e := pos_mirror h (j := l - 1) (by omega)
  conv_lhs => unfold mirrorAt
  rw [show T - 1 - pos phase T d t (l - 1) = mirrorAt phase T l d t from rfl, e, Nat.sub_self]
  have : pos phase T d t 0 = t := by
    unfold pos
    unfold nWin at h
    cases phase <;> simp only [Bool.false_eq_true, if_false, if_true] at h ⊢
    · omega
    · rw [Nat.zero_mul, Nat.add_zero, Nat.mod_eq_of_lt h]
  omega

theorem mirror_perm (hl : 1 ≤ l) :
    ((List.range (nWin phase T l d)).map (mirrorAt phase T l d)).Perm (List.range (nWin phase T l d)) := by
  rw [List.perm_ext_iff_of_nodup _ List.nodup_range]
  · intro x
    rw [List.mem_map, List.mem_range]
    constructor
    · rintro ⟨t, ht, rfl⟩
      exact mirrorAt_lt hl (List.mem_range.1 ht)
    · intro hx
      exact ⟨_, List.mem_range.2 (mirrorAt_lt hl hx), mirrorAt_mirrorAt hl hx⟩
  · refine List.Nodup.map_on ?_ List.nodup_range
    intro x hx y hy h
    rw [← mirrorAt_mirrorAt hl (List.mem_range.1 hx), h, mirrorAt_mirrorAt hl (List.mem_range.1 hy)]

end positions

theorem getD_reverse {K : Type} (x : List K) (z : K) {p : Nat} (hp : p < x.length) :
    x.reverse.getD p z = x.getD (x.length - 1 - p) z := by
  rw [List.getD_eq_getElem?_getD, List.getElem?_reverse hp, ← List.getD_eq_getElem?_getD]

theorem window_reverse {K : Type} [Scalar K] {phase : Bool} {x : List K} {l d t : Nat}
    (h : t < nWin phase x.length l d) :
    window phase x.reverse l d (mirrorAt phase x.length l d t) = (window phase x l d t).reverse := by
  apply List.ext_getElem
  · simp [window]
  · intro j h1 h2
    have hj : j < l := by simpa [window] using h1
    rw [List.getElem_reverse]
    simp only [window, List.getElem_map, List.getElem_range, List.length_reverse, List.length_map, List.length_range]
    rw [pos_mirror h hj]
    have hp := nWin_pos_lt h (j := l - 1 - j) (by omega)
    rw [getD_reverse _ _ (by omega)]
    congr 1
    omega

theorem mean_reverse (w : List ℝ) : mean w.reverse = mean w := by
  rw [mean_eq, mean_eq, List.sum_reverse, List.length_reverse]

theorem std_reverse (w : List ℝ) : std w.reverse = std w := by
  rw [std_eq, std_eq]
  congr 1
  unfold var
  rw [List.length_reverse, List.map_reverse, List.sum_reverse, mean_reverse]

theorem znorm_reverse (w : List ℝ) : znorm w.reverse = (znorm w).reverse := by
  rw [znorm_eq, znorm_eq, mean_reverse, std_reverse, List.map_reverse]

theorem seen_reverse (norm : Bool) (w : List ℝ) : seen norm w.reverse = (seen norm w).reverse := by
  unfold seen
  split
  · exact znorm_reverse w
  · rfl

theorem seen_len (norm : Bool) (w : List ℝ) : (seen norm w).length = w.length := by
  unfold seen
  split
  · rw [znorm_eq, List.length_map]
  · rfl

theorem l1_reverse {w v : List ℝ} (h : v.length = w.length) : l1 w.reverse v.reverse = l1 w v := by
  rw [l1_eq_sum, l1_eq_sum, List.length_reverse, ← Finset.sum_range_reflect]
  apply Finset.sum_congr rfl
  intro j hj
  have hj := Finset.mem_range.1 hj
  rw [getD_reverse _ _ (by omega), getD_reverse _ _ (by omega), h]
  congr 3 <;> omega

theorem ssort_perm_eq {a b : List ℝ} (h : a.Perm b) : ssort a = ssort b :=
  List.Perm.eq_of_pairwise (le := fun x y : ℝ => x ≤ y) (fun _ _ _ _ h1 h2 => le_antisymm h1 h2)
    (ssort_sorted a) (ssort_sorted b) ((ssort_perm a).trans (h.trans (ssort_perm b).symm))

theorem smax_perm {a b : List ℝ} (h : a.Perm b) : smax a = smax b := by
  have key : ∀ (l : List ℝ) (x : ℝ), l.foldl (fun m x => if Scalar.ltb m x then x else m) x ∈ x :: l ∧
      ∀ y ∈ x :: l, y ≤ l.foldl (fun m x => if Scalar.ltb m x then x else m) x := by
    intro l
    induction l with
    | nil => intro x; simp
    | cons z l ih =>
      intro x
      rw [List.foldl_cons]
      obtain ⟨h1, h2⟩ := ih (if Scalar.ltb x z then z else x)
      have hz : x ≤ (if Scalar.ltb x z = true then z else x) ∧ z ≤ (if Scalar.ltb x z = true then z else x) := by
        simp only [real_ltb]
        split
        · exact ⟨le_of_lt ‹_›, le_rfl⟩
        · exact ⟨le_rfl, not_lt.1 ‹_›⟩
      refine ⟨?_, ?_⟩
      · rcases List.mem_cons.1 h1 with h | h
        · rw [h]
          split <;> simp
        · exact List.mem_cons_of_mem _ (List.mem_cons_of_mem _ h)
      · intro y hy
        have h3 := h2 _ List.mem_cons_self
        rcases List.mem_cons.1 hy with rfl | hy
        · exact hz.1.trans h3
        · rcases List.mem_cons.1 hy with rfl | hy
          · exact hz.2.trans h3
          · exact h2 y (List.mem_cons_of_mem _ hy)
  cases a with
  | nil => rw [List.nil_perm.1 h]
  | cons x l =>
    cases b with
    | nil => exact absurd (List.perm_nil.1 h) (by simp)
    | cons y m =>
      obtain ⟨h1, h2⟩ := key l x
      obtain ⟨h3, h4⟩ := key m y
      exact congrArg Except.ok (le_antisymm (h4 _ (h.subset h1)) (h2 _ (h.symm.subset h3)))

theorem percentile_perm {a b : List ℝ} (h : a.Perm b) (q : ℝ) : percentile a q = percentile b q := by
  rw [percentile_real, percentile_real]
  unfold percentileInner
  rw [h.length_eq, ssort_perm_eq h, maxOrNan_real, maxOrNan_real, smax_perm h]
  split
  · split
    · rename_i hl
      have ha : a.length = 1 := by rw [h.length_eq, hl]
      obtain ⟨x, rfl⟩ := List.length_eq_one_iff.1 ha
      rw [List.singleton_perm.1 h]
    · rfl
  · rfl

section sampling
variable {L : Type} {T : Train L} {P : Par} {o : Opt}

/-- The sources read from the reversed series. -/
def mirrorRec (T : Train L) (P : Par) (phase : Bool) (rec : Nat → Option Src) (i : Nat) : Option Src :=
  (rec i).map fun r => { r with index := mirrorAt phase (T.len r.sample) (P.length i) (P.dilation i) r.index }

theorem subseq_reversed (i : Nat) {s c t : Nat} (hlen : (T.series s c).length = T.len s)
    (ht : t < nWin o.phase (T.len s) (P.length i) (P.dilation i)) :
    subseq T.reversed P o i s c (mirrorAt o.phase (T.len s) (P.length i) (P.dilation i) t) =
      (subseq T P o i s c t).reverse := by
  unfold subseq
  rw [← seen_reverse, ← hlen]
  rw [← hlen] at ht
  exact congrArg _ (window_reverse ht)

theorem subseq_len (i s c t : Nat) : (subseq T P o i s c t).length = P.length i := by
  unfold subseq
  rw [seen_len]
  simp [window]

theorem distTo_reversed {i : Nat} (hl : 1 ≤ P.length i) {r : Src} {s : Nat}
    (hs : ∀ c ∈ r.channels, (T.series s c).length = T.len s)
    (hr : ∀ c ∈ r.channels, (T.series r.sample c).length = T.len r.sample)
    (ht : r.index < nWin o.phase (T.len r.sample) (P.length i) (P.dilation i)) :
    (distTo T.reversed P o i { r with index := mirrorAt o.phase (T.len r.sample) (P.length i) (P.dilation i) r.index } s).Perm
      (distTo T P o i r s) := by
  have e : distTo T.reversed P o i
      { r with index := mirrorAt o.phase (T.len r.sample) (P.length i) (P.dilation i) r.index } s =
      ((List.range (nWin o.phase (T.len s) (P.length i) (P.dilation i))).map
        (mirrorAt o.phase (T.len s) (P.length i) (P.dilation i))).map fun t =>
          (r.channels.map fun c => l1 (subseq T P o i s c t) (subseq T P o i r.sample c r.index)).sum := by
    unfold distTo
    rw [List.map_map]
    apply List.map_congr_left
    intro t ht'
    have ht' : t < nWin o.phase (T.len s) (P.length i) (P.dilation i) := List.mem_range.1 ht'
    simp only [Function.comp_apply]
    congr 1
    apply List.map_congr_left
    intro c hc
    rw [subseq_reversed i (hr c hc) ht]
    have h2 := subseq_reversed (P := P) (o := o) i (hs c hc) (mirrorAt_lt hl ht')
    rw [mirrorAt_mirrorAt hl ht'] at h2
    rw [h2, l1_reverse (by rw [subseq_len, subseq_len])]
  rw [e]
  exact (mirror_perm hl).map _

theorem near_mirror {phase : Bool} {n l d allow r t : Nat} (hr : r < nWin phase n l d)
    (ht : t < nWin phase n l d) (hl : 1 ≤ l) :
    Near n l d allow (mirrorAt phase n l d r) (mirrorAt phase n l d t) ↔ Near n l d allow r t := by
  have key : ∀ {r t : Nat}, r < nWin phase n l d → t < nWin phase n l d → Near n l d allow r t →
      Near n l d allow (mirrorAt phase n l d r) (mirrorAt phase n l d t) := by
    intro r t hr ht
    rintro ⟨j, hj, h⟩
    have hn : 0 < n := by
      have := nWin_pos_lt hr (j := 0) (by omega)
      omega
    have m : ∀ {x : Nat}, x < nWin phase n l d →
        (mirrorAt phase n l d x : Int) ≡ (n : Int) - 1 - (x + (l - 1 : Nat) * d) [ZMOD n] := by
      intro x hx
      have hp := nWin_pos_lt hx (j := l - 1) (by omega)
      unfold mirrorAt
      have : ((n - 1 - pos phase n d x (l - 1) : Nat) : Int) = (n : Int) - 1 - (pos phase n d x (l - 1) : Nat) := by omega
      rw [this]
      refine Int.ModEq.sub rfl ?_
      unfold pos
      cases phase
      · simp only [Bool.false_eq_true, if_false]
        push_cast
        exact Int.ModEq.refl _
      · simp only [if_true]
        push_cast
        exact Int.mod_modEq _ _
    have hlt : (mirrorAt phase n l d t : Int) < n := by
      have h1 := mirrorAt_lt hl ht
      have := nWin_pos_lt h1 (j := 0) (by omega)
      unfold mirrorAt
      omega
    have hfin : ∀ z : Int, (mirrorAt phase n l d t : Int) ≡ z [ZMOD n] → (mirrorAt phase n l d t : Int) = z % n := by
      intro z hz
      rw [← hz]
      exact (Int.emod_eq_of_lt (by omega) hlt).symm
    refine ⟨j, hj, ?_⟩
    have mr := m hr
    have mt := m ht
    rcases h with h | h
    · right
      apply hfin
      have ht' : (t : Int) ≡ r - j * d [ZMOD n] := by rw [h]; exact Int.mod_modEq _ _
      refine mt.trans ?_
      have e : (n : Int) - 1 - (t + (l - 1 : Nat) * d) ≡ (n : Int) - 1 - ((r - j * d) + (l - 1 : Nat) * d) [ZMOD n] :=
        Int.ModEq.sub rfl (Int.ModEq.add ht' rfl)
      refine e.trans ?_
      have e2 := (Int.ModEq.add mr (Int.ModEq.refl ((j : Int) * d))).symm
      refine Eq.trans ?_ e2
      congr 1
      ring
    · left
      apply hfin
      have ht' : (t : Int) ≡ r + j * d [ZMOD n] := by rw [h]; exact Int.mod_modEq _ _
      refine mt.trans ?_
      have e : (n : Int) - 1 - (t + (l - 1 : Nat) * d) ≡ (n : Int) - 1 - ((r + j * d) + (l - 1 : Nat) * d) [ZMOD n] :=
        Int.ModEq.sub rfl (Int.ModEq.add ht' rfl)
      refine e.trans ?_
      have e2 := (Int.ModEq.sub mr (Int.ModEq.refl ((j : Int) * d))).symm
      refine Eq.trans ?_ e2
      congr 1
      ring
  refine ⟨fun h => ?_, key hr ht⟩
  have := key (mirrorAt_lt hl hr) (mirrorAt_lt hl ht) h
  rwa [mirrorAt_mirrorAt hl hr, mirrorAt_mirrorAt hl ht] at this

/-- The sources of the shapelets up to `n` are windows of the series. -/
def RecOK (T : Train L) (P : Par) (phase : Bool) (n : Nat) (rec : Nat → Option Src) : Prop :=
  ∀ i, i ≤ n → ∀ r, rec i = some r → r.sample < T.ns ∧ r.index < nWin phase (T.len r.sample) (P.length i) (P.dilation i)

theorem blocked_mirror {rec : Nat → Option Src} {i s c t : Nat} (hrec : RecOK T P o.phase i rec)
    (heq : ∀ j, j < i → P.length j = P.length i) (hl : 1 ≤ P.length i)
    (ht : t < nWin o.phase (T.len s) (P.length i) (P.dilation i)) :
    Blocked T.reversed P o (mirrorRec T P o.phase rec) i s c
        (mirrorAt o.phase (T.len s) (P.length i) (P.dilation i) t) ↔ Blocked T P o rec i s c t := by
  constructor
  · rintro ⟨j, m, r', h1, h2, h3, h4, h5, h6, h7, h8⟩
    unfold mirrorRec at h4
    obtain ⟨r, hr, rfl⟩ := Option.map_eq_some_iff.1 h4
    refine ⟨j, m, r, h1, h2, h3, hr, h5, h6, h7, ?_⟩
    obtain ⟨-, hi⟩ := hrec j h1.le r hr
    have h5 : r.sample = s := h5
    rw [heq j h1, h2, h5] at hi
    have h8 : Near (T.len s) (P.length j) (P.dilation j) (allowance o.alpha m)
      (mirrorAt o.phase (T.len r.sample) (P.length j) (P.dilation j) r.index) _ := h8
    rw [heq j h1, h2, h5] at h8
    rw [heq j h1, h2]
    exact (near_mirror hi ht hl).1 h8
  · rintro ⟨j, m, r, h1, h2, h3, hr, h5, h6, h7, h8⟩
    refine ⟨j, m, { r with index := mirrorAt o.phase (T.len r.sample) (P.length j) (P.dilation j) r.index }, h1, h2, h3,
      by unfold mirrorRec; rw [hr]; rfl, h5, h6, h7, ?_⟩
    obtain ⟨-, hi⟩ := hrec j h1.le r hr
    rw [heq j h1, h2, h5] at hi
    show Near (T.len s) (P.length j) (P.dilation j) (allowance o.alpha m)
      (mirrorAt o.phase (T.len r.sample) (P.length j) (P.dilation j) r.index) _
    rw [heq j h1, h2] at h8
    rw [heq j h1, h2, h5]
    exact (near_mirror hi ht hl).2 h8

theorem admissible_mirror {rec : Nat → Option Src} {multi : Bool} {i s t : Nat} (hrec : RecOK T P o.phase i rec)
    {channels : List Nat} (heq : ∀ j, j < i → P.length j = P.length i) (hl : 1 ≤ P.length i)
    (ht : t < nWin o.phase (T.len s) (P.length i) (P.dilation i)) :
    Admissible T.reversed P o multi (mirrorRec T P o.phase rec) i channels s
        (mirrorAt o.phase (T.len s) (P.length i) (P.dilation i) t) ↔ Admissible T P o multi rec i channels s t := by
  unfold Admissible
  have e : (fun c => Blocked T.reversed P o (mirrorRec T P o.phase rec) i s c
        (mirrorAt o.phase (T.len s) (P.length i) (P.dilation i) t)) = fun c => Blocked T P o rec i s c t := by
    funext c
    exact propext (blocked_mirror hrec heq hl ht)
  rw [e]
  exact and_congr Iff.rfl (and_congr (iff_of_true (mirrorAt_lt hl ht) ht) Iff.rfl)

/-! ## The law -/

section law
open scoped ENNReal
variable {rec : Nat → Option Src} {multi : Bool} {i : Nat} {channels : List Nat}

theorem positions_mirror (hrec : RecOK T P o.phase i rec) (heq : ∀ j, j < i → P.length j = P.length i)
    (hl : 1 ≤ P.length i) :
    positions T.reversed P o multi (mirrorRec T P o.phase rec) i channels =
      (fun p : Nat × Nat => (p.1, mirrorAt o.phase (T.len p.1) (P.length i) (P.dilation i) p.2)) ''
        positions T P o multi rec i channels := by
  ext ⟨s, t⟩
  constructor
  · intro h
    have h : Admissible T.reversed P o multi (mirrorRec T P o.phase rec) i channels s t := h
    have ht : t < nWin o.phase (T.len s) (P.length i) (P.dilation i) := h.2.1
    refine ⟨(s, mirrorAt o.phase (T.len s) (P.length i) (P.dilation i) t), ?_, ?_⟩
    · show Admissible T P o multi rec i channels s _
      rw [← admissible_mirror hrec heq hl (mirrorAt_lt hl ht), mirrorAt_mirrorAt hl ht]
      exact h
    · simp only [mirrorAt_mirrorAt hl ht]
  · rintro ⟨⟨s', t'⟩, h, e⟩
    obtain ⟨rfl, rfl⟩ := Prod.mk.inj e
    have h : Admissible T P o multi rec i channels s' t' := h
    exact (admissible_mirror hrec heq hl h.2.1).2 h

theorem positions_ncard (hrec : RecOK T P o.phase i rec) (heq : ∀ j, j < i → P.length j = P.length i)
    (hl : 1 ≤ P.length i) :
    (positions T.reversed P o multi (mirrorRec T P o.phase rec) i channels).ncard =
      (positions T P o multi rec i channels).ncard := by
  rw [positions_mirror hrec heq hl]
  apply Set.ncard_image_of_injOn
  rintro ⟨s, t⟩ h ⟨s', t'⟩ h' e
  have h : Admissible T P o multi rec i channels s t := h
  have h' : Admissible T P o multi rec i channels s' t' := h'
  obtain ⟨e1, e2⟩ := Prod.mk.inj e
  have e1 : s = s' := e1
  subst e1
  have := congrArg (mirrorAt o.phase (T.len s) (P.length i) (P.dilation i)) e2
  simp only [mirrorAt_mirrorAt hl h.2.1, mirrorAt_mirrorAt hl h'.2.1] at this
  rw [this]

theorem starts_ncard (hrec : RecOK T P o.phase i rec) (heq : ∀ j, j < i → P.length j = P.length i)
    (hl : 1 ≤ P.length i) (s : Nat) :
    {t | Admissible T.reversed P o multi (mirrorRec T P o.phase rec) i channels s t}.ncard =
      {t | Admissible T P o multi rec i channels s t}.ncard := by
  have e : {t | Admissible T.reversed P o multi (mirrorRec T P o.phase rec) i channels s t} =
      mirrorAt o.phase (T.len s) (P.length i) (P.dilation i) '' {t | Admissible T P o multi rec i channels s t} := by
    ext t
    constructor
    · intro h
      have h : Admissible T.reversed P o multi (mirrorRec T P o.phase rec) i channels s t := h
      have ht : t < nWin o.phase (T.len s) (P.length i) (P.dilation i) := h.2.1
      refine ⟨mirrorAt o.phase (T.len s) (P.length i) (P.dilation i) t, ?_, mirrorAt_mirrorAt hl ht⟩
      show Admissible T P o multi rec i channels s _
      rw [← admissible_mirror hrec heq hl (mirrorAt_lt hl ht), mirrorAt_mirrorAt hl ht]
      exact h
    · rintro ⟨t', h, rfl⟩
      have h : Admissible T P o multi rec i channels s t' := h
      exact (admissible_mirror hrec heq hl h.2.1).2 h
  rw [e]
  apply Set.ncard_image_of_injOn
  intro t h t' h' e
  have h : Admissible T P o multi rec i channels s t := h
  have h' : Admissible T P o multi rec i channels s t' := h'
  rw [← mirrorAt_mirrorAt hl h.2.1, e, mirrorAt_mirrorAt hl h'.2.1]

theorem samples_mirror (hrec : RecOK T P o.phase i rec) (heq : ∀ j, j < i → P.length j = P.length i)
    (hl : 1 ≤ P.length i) :
    {s | ∃ t, Admissible T.reversed P o multi (mirrorRec T P o.phase rec) i channels s t} =
      {s | ∃ t, Admissible T P o multi rec i channels s t} := by
  ext s
  constructor
  · rintro ⟨t, h⟩
    have ht : t < nWin o.phase (T.len s) (P.length i) (P.dilation i) := h.2.1
    refine ⟨mirrorAt o.phase (T.len s) (P.length i) (P.dilation i) t, ?_⟩
    rw [← admissible_mirror hrec heq hl (mirrorAt_lt hl ht), mirrorAt_mirrorAt hl ht]
    exact h
  · rintro ⟨t, h⟩
    exact ⟨_, (admissible_mirror hrec heq hl h.2.1).2 h⟩

theorem posWeight_mirror (hrec : RecOK T P o.phase i rec) (heq : ∀ j, j < i → P.length j = P.length i)
    (hl : 1 ≤ P.length i) (sameLen : Bool) {s t : Nat}
    (ht : t < nWin o.phase (T.len s) (P.length i) (P.dilation i)) :
    posWeight sameLen T.reversed P o multi (mirrorRec T P o.phase rec) i channels s
        (mirrorAt o.phase (T.len s) (P.length i) (P.dilation i) t) =
      posWeight sameLen T P o multi rec i channels s t := by
  unfold posWeight
  rw [positions_ncard hrec heq hl, samples_mirror hrec heq hl, starts_ncard hrec heq hl]
  have hA := admissible_mirror hrec (multi := multi) (channels := channels) heq hl ht
  by_cases h : Admissible T P o multi rec i channels s t
  · rw [if_pos h, if_pos (hA.2 h)]
  · rw [if_neg h, if_neg (fun h' => h (hA.1 h'))]

theorem testWeight_reversed (s t : Nat) : testWeight T.reversed s t = testWeight T s t := rfl

theorem testWeight_lt {s t : Nat} (hs : s < T.ns) (h : testWeight T s t ≠ 0) : t < T.ns := by
  unfold testWeight at h
  split at h
  · split at h
    · omega
    · exact absurd rfl h
  · split at h
    · rename_i h1
      exact h1.1
    · exact absurd rfl h

theorem stepWeight_mirror (hrec : RecOK T P o.phase i rec) (heq : ∀ j, j < i → P.length j = P.length i)
    (hl : 1 ≤ P.length i) (hnf : 1 ≤ T.nf)
    (hlen : ∀ s, s < T.ns → ∀ c, c < T.nf → (T.series s c).length = T.len s) (sameLen : Bool)
    (nch : Nat → Nat) (chs : Nat → List Nat) (x : Nat → ℝ) :
    stepWeight sameLen T.reversed P o multi nch chs (mirrorRec T P o.phase rec) x i =
      stepWeight sameLen T P o multi nch chs rec x i := by
  unfold stepWeight
  have e0 : channelWeight multi T.reversed.nf (nch i) (chs i) = channelWeight multi T.nf (nch i) (chs i) := rfl
  rw [e0]
  by_cases hch : ChannelsOK multi T.nf (nch i) (chs i)
  swap
  · have : channelWeight multi T.nf (nch i) (chs i) = 0 := by
      unfold channelWeight
      rw [if_neg hch]
    rw [this, zero_mul, zero_mul]
  congr 1
  have hc : ∀ c ∈ chs i, c < T.nf := by
    unfold ChannelsOK at hch
    split at hch
    · exact hch.2.2
    · rw [hch]
      intro c hc
      rw [List.mem_singleton] at hc
      omega
  cases hr : rec i with
  | none =>
    have e : mirrorRec T P o.phase rec i = none := by unfold mirrorRec; rw [hr]; rfl
    rw [e]
    simp only
    have : positions T.reversed P o multi (mirrorRec T P o.phase rec) i (chs i) = ∅ ↔
        positions T P o multi rec i (chs i) = ∅ := by
      rw [positions_mirror hrec heq hl, Set.image_eq_empty]
    simp only [this]
  | some r =>
    have e : mirrorRec T P o.phase rec i =
        some { r with index := mirrorAt o.phase (T.len r.sample) (P.length i) (P.dilation i) r.index } := by
      unfold mirrorRec; rw [hr]; rfl
    rw [e]
    simp only
    obtain ⟨hs, ht⟩ := hrec i le_rfl r hr
    split
    · rename_i hrc
      rw [posWeight_mirror hrec heq hl sameLen ht, testWeight_reversed]
      by_cases hw : testWeight T r.sample r.test = 0
      · rw [hw, mul_zero, zero_mul, zero_mul]
      have htest := testWeight_lt hs hw
      have hp : (distTo T.reversed P o i
          { r with index := mirrorAt o.phase (T.len r.sample) (P.length i) (P.dilation i) r.index } r.test).Perm
          (distTo T P o i r r.test) :=
        distTo_reversed hl (fun c hcr => hlen _ htest _ (hc c (hrc ▸ hcr)))
          (fun c hcr => hlen _ hs _ (hc c (hrc ▸ hcr))) ht
      congr 1
      unfold thrWeight
      rw [percentile_perm hp, percentile_perm hp]
    · rfl

theorem law_mirror {a b : FitArgs ℝ L} {n mc : Nat} {c : Choices} (hab : paramsLaw b n mc c = paramsLaw a n mc c)
    (hob : optOf b = optOf a) (hc : c.InData T a.phase) (hnf : 1 ≤ T.nf)
    (hlen : ∀ s, s < T.ns → ∀ ch, ch < T.nf → (T.series s ch).length = T.len s)
    {l : Nat} (hl : 1 ≤ l) (hsz : ∀ x ∈ a.sizes, x = l) (sameLen : Bool) :
    lawOf sameLen T.reversed b n multi mc (c.mirrored T a.phase) = lawOf sameLen T a n multi mc c := by
  have hpar : paramsLaw b n mc (c.mirrored T a.phase) = paramsLaw a n mc c := hab
  unfold lawOf
  rw [hpar, hob]
  by_cases hall : ∀ i, i < c.par.n → c.par.length i = l
  · congr 1
    apply Finset.prod_congr rfl
    intro i hi
    have hi : i < c.par.n := Finset.mem_range.1 hi
    exact stepWeight_mirror (P := c.par) (o := optOf a) (rec := c.src)
      (fun j hj => hc j (by omega))
      (fun j hj => by rw [hall j (by omega), hall i hi]) (by rw [hall i hi]; exact hl) hnf hlen sameLen c.nch c.channels c.thr
  · push Not at hall
    obtain ⟨i, hi, hne⟩ := hall
    have : paramsLaw a n mc c = 0 := by
      unfold paramsLaw parWeight
      split
      · rw [Finset.prod_eq_zero (i := i) (Finset.mem_range.2 hi), zero_mul]
        have : lengthWeight a.sizes (c.par.length i) = 0 := by
          unfold lengthWeight
          rw [List.count_eq_zero_of_not_mem (fun h => hne (hsz _ h))]
          simp
        rw [this, zero_mul, zero_mul]
      · rw [zero_mul]
    rw [this, zero_mul, zero_mul]

theorem out_mirrored {a : FitArgs ℝ L} {c : Choices} (hc : c.InData T a.phase) {i : Nat} (hi : i < c.par.n) {r : Src}
    (hr : c.src i = some r)
    (hlen : ∀ ch ∈ r.channels, (T.series r.sample ch).length = T.len r.sample) :
    (c.mirrored T a.phase).out T.reversed (optOf a) i = some ⟨r.channels.flatMap fun k =>
      (subseq T c.par (optOf a) i r.sample k r.index).reverse, r.channels, c.thr i⟩ := by
  unfold Choices.out Choices.mirrored
  simp only [hr, Option.map_some, Option.some.injEq, Out.mk.injEq, and_true]
  have key : ∀ k ∈ r.channels, subseq T.reversed c.par (optOf a) i r.sample k
      (mirrorAt a.phase (T.len r.sample) (c.par.length i) (c.par.dilation i) r.index) =
        (subseq T c.par (optOf a) i r.sample k r.index).reverse := fun k hk =>
    subseq_reversed (P := c.par) (o := optOf a) i (hlen k hk) (hc i hi r hr).2
  rw [List.flatMap_def, List.flatMap_def, List.map_congr_left key]

end law

end sampling

end Convst
