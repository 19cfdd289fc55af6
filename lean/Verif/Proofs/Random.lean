import Verif.Model.Fit
import Verif.Proofs.Basics
import Mathlib.Data.List.Perm.Basic
import Mathlib.Data.List.Sort
import Mathlib.Tactic.Linarith

/-! # A small Hoare logic for random computations, and facts about the random primitives -/

set_option autoImplicit false

namespace Convst

/-- A generator whose draws are in range: `lo <= randint(lo,hi) < hi` and `0 <= random() < 1`. -/
class LawfulGen (G : Type) [Gen G ℝ] : Prop where
  randint_ge : ∀ (lo hi : Nat) (g : G), lo < hi → lo ≤ (Gen.randint lo hi g).1
  randint_lt : ∀ (lo hi : Nat) (g : G), lo < hi → (Gen.randint lo hi g).1 < hi
  unit_nonneg : ∀ g : G, 0 ≤ (Gen.unit g).1
  unit_lt : ∀ g : G, (Gen.unit g).1 < 1

/-- A generator whose integer draws are in range. -/
class LawfulInt (G : Type) {K : Type} [Gen G K] : Prop where
  int_ge : ∀ (lo hi : Nat) (g : G), lo < hi → lo ≤ (Gen.randint lo hi g).1
  int_lt : ∀ (lo hi : Nat) (g : G), lo < hi → (Gen.randint lo hi g).1 < hi

instance (G : Type) [Gen G ℝ] [LawfulGen G] : LawfulInt G where
  int_ge := LawfulGen.randint_ge
  int_lt := LawfulGen.randint_lt

variable {G α β σ : Type}

/-- `m` terminates without error from every generator state, with a result satisfying `Q`. -/
def Wp (m : RM G α) (Q : α → Prop) : Prop := ∀ g, ∃ a g', m g = .ok (a, g') ∧ Q a

theorem Wp.pure {a : α} {Q : α → Prop} (h : Q a) : Wp (G := G) (Pure.pure a) Q :=
  fun g => ⟨a, g, rfl, h⟩

theorem RM.bind_apply (m : RM G α) (f : α → RM G β) (g : G) :
    (m >>= f) g = (m g >>= fun p => f p.1 p.2) := rfl

theorem Wp.bind {m : RM G α} {f : α → RM G β} {P : α → Prop} {Q : β → Prop} (hm : Wp m P)
    (hf : ∀ a, P a → Wp (f a) Q) : Wp (m >>= f) Q := by
  intro g
  obtain ⟨a, g', h1, h2⟩ := hm g
  obtain ⟨b, g'', h3, h4⟩ := hf a h2 g'
  exact ⟨b, g'', by rw [RM.bind_apply, h1]; exact h3, h4⟩

theorem Wp.mono {m : RM G α} {P Q : α → Prop} (hm : Wp m P) (h : ∀ a, P a → Q a) : Wp m Q := by
  intro g
  obtain ⟨a, g', h1, h2⟩ := hm g
  exact ⟨a, g', h1, h a h2⟩

theorem Wp.ofRes {r : Res α} {a : α} {Q : α → Prop} (h : r = .ok a) (hQ : Q a) :
    Wp (G := G) (ofRes r) Q := fun g => ⟨a, g, by rw [h]; rfl, hQ⟩

/-- Sequencing after a computation without draws. -/
theorem Wp.bindRes {r : Res α} {a : α} {f : α → RM G β} {Q : β → Prop} (h : r = .ok a)
    (hf : Wp (f a) Q) : Wp (Convst.ofRes r >>= f) Q :=
  Wp.bind (P := fun b => b = a) (Wp.ofRes h rfl) (fun b hb => by rw [hb]; exact hf)

theorem Wp.mapM {f : α → RM G β} {R : α → β → Prop} {l : List α}
    (h : ∀ a ∈ l, Wp (f a) (R a)) : Wp (l.mapM f) (List.Forall₂ R l) := by
  induction l with
  | nil => rw [List.mapM_nil]; exact Wp.pure (by simp)
  | cons a l ih =>
    rw [List.mapM_cons]
    refine Wp.bind (h a (by simp)) fun b hb => ?_
    refine Wp.bind (ih fun a ha => h a (by simp [ha])) fun bs hbs => ?_
    exact Wp.pure (List.Forall₂.cons hb hbs)

theorem Wp.foldlM {f : σ → α → RM G σ} {P : List α → σ → Prop} {l : List α} {s : σ}
    (h0 : P [] s)
    (hstep : ∀ (pre : List α) (a : α) (post : List α) (s : σ), l = pre ++ a :: post → P pre s →
      Wp (f s a) (P (pre ++ [a]))) : Wp (l.foldlM f s) (P l) := by
  have aux : ∀ (post pre : List α) (s : σ), l = pre ++ post → P pre s →
      Wp (post.foldlM f s) (P l) := by
    intro post
    induction post with
    | nil =>
      intro pre s hl hs
      rw [List.append_nil] at hl
      rw [List.foldlM_nil, hl]; exact Wp.pure hs
    | cons a post ih =>
      intro pre s hl hs
      rw [List.foldlM_cons]
      refine Wp.bind (hstep pre a post s hl hs) fun s' hs' => ?_
      exact ih (pre ++ [a]) s' (by simp [hl]) hs'
  exact aux l [] s rfl h0

section IntDraws
variable {K : Type} [Gen G K] [LawfulInt G]

theorem wp_draw {lo hi : Nat} (h : lo < hi) : Wp (G := G) (draw lo hi) fun j => lo ≤ j ∧ j < hi := by
  intro g
  refine ⟨(Gen.randint lo hi g).1, (Gen.randint lo hi g).2, by simp [draw, h], ?_⟩
  exact ⟨LawfulInt.int_ge lo hi g h, LawfulInt.int_lt lo hi g h⟩

theorem wp_choice1 {a : List α} (h : a ≠ []) : Wp (G := G) (choice1 a) fun v => v ∈ a := by
  unfold choice1
  refine Wp.bind (wp_draw (List.length_pos_iff.2 h)) fun j hj => ?_
  exact Wp.ofRes (aget_ok hj.2) (List.getElem_mem _)

theorem wp_choiceN {a : List α} (h : a ≠ []) (n : Nat) :
    Wp (G := G) (choiceN a n) fun r => r.length = n ∧ ∀ v ∈ r, v ∈ a := by
  unfold choiceN
  refine Wp.mono (Wp.mapM (R := fun _ v => v ∈ a) fun _ _ => wp_choice1 h) ?_
  intro r hr
  refine ⟨by simpa using hr.length_eq.symm, ?_⟩
  intro v hv
  obtain ⟨i, hi, rfl⟩ := List.mem_iff_getElem.1 hv
  have := (List.forall₂_iff_get.1 hr).2 i (by rw [hr.length_eq]; exact hi) hi
  simpa using this

theorem perm_cons_set (x : α) (R : List α) (k : Nat) (hk : k < R.length) :
    (R[k] :: R.set k x).Perm (x :: R) := by
  have h1 : (R.set k x).Perm (x :: R.eraseIdx k) := List.set_perm_cons_eraseIdx hk x
  have h2 : (R[k] :: R.eraseIdx k).Perm R := List.getElem_cons_eraseIdx_perm hk
  exact (h1.cons _).trans ((List.Perm.swap _ _ _).trans (h2.cons x))

theorem wp_choiceNoRep {a : List α} (ha : a.Nodup) {k : Nat} (hk : k ≤ a.length) :
    Wp (G := G) (choiceNoRep a k) fun r => r.length = k ∧ r.Nodup ∧ ∀ v ∈ r, v ∈ a := by
  unfold choiceNoRep
  rw [if_neg (by omega)]
  refine Wp.bind (P := fun s : List α × List α => s.2.length = k ∧ s.1.length = a.length ∧
    (s.2 ++ s.1.drop k).Perm a) ?_ ?_
  · have key := Wp.foldlM (G := G) (l := List.range k) (s := (a, ([] : List α)))
      (f := fun (x : List α × List α) i => do
        let j ← draw i a.length
        let v ← ofRes (aget x.1 j)
        let si ← ofRes (aget x.1 i)
        let src' ← ofRes (aset x.1 j si)
        Pure.pure (src', x.2 ++ [v]))
      (P := fun (pre : List Nat) (s : List α × List α) =>
        s.2.length = pre.length ∧ s.1.length = a.length ∧ (s.2 ++ s.1.drop pre.length).Perm a)
      (by simp) ?_
    · refine Wp.mono key ?_
      intro s hs
      simpa using hs
    · rintro pre i post ⟨src, out⟩ hl ⟨h1, h2, h3⟩
      have hi : i = pre.length := by
        have := congrArg (fun l => l[pre.length]?) hl
        have hlt : pre.length < k := by
          have := congrArg List.length hl
          simp at this; omega
        rw [List.getElem?_range hlt] at this
        simp at this
        exact this.symm
      have hilt : i < a.length := by
        have := congrArg List.length hl
        simp at this; omega
      simp only at h1 h2 h3 ⊢
      refine Wp.bind (wp_draw hilt) fun j hj => ?_
      have hj' : j < src.length := by omega
      have hi' : i < src.length := by omega
      refine Wp.bindRes (aget_ok hj') ?_
      refine Wp.bindRes (aget_ok hi') ?_
      refine Wp.bindRes (aset_ok hj') ?_
      refine Wp.pure ⟨by simp [h1], by simp [h2], ?_⟩
      refine List.Perm.trans ?_ h3
      rw [List.length_append, List.length_singleton, ← hi, List.append_assoc]
      refine List.Perm.append_left _ ?_
      have hd : src.drop i = src[i] :: src.drop (i + 1) := List.drop_eq_getElem_cons hi'
      rw [hd]
      rcases Nat.eq_or_lt_of_le hj.1 with heq | hlt
      · subst heq
        rw [List.drop_set_of_lt (by omega)]
        simp
      · have hset : (src.set j src[i]).drop (i + 1) =
            (src.drop (i + 1)).set (j - (i + 1)) src[i] := by
          rw [List.drop_set, if_neg (by omega)]
        rw [hset]
        have hk' : j - (i + 1) < (src.drop (i + 1)).length := by
          rw [List.length_drop]; omega
        have hv : (src.drop (i + 1))[j - (i + 1)] = src[j] := by
          rw [List.getElem_drop]
          congr 1
          omega
        have := perm_cons_set src[i] (src.drop (i + 1)) (j - (i + 1)) hk'
        rw [hv] at this
        exact this
  · rintro ⟨src, out⟩ ⟨h1, _, h3⟩
    refine Wp.pure ⟨h1, ?_, ?_⟩
    · exact (List.nodup_append.1 (h3.nodup_iff.2 ha)).1
    · intro v hv
      exact h3.subset (List.mem_append_left _ hv)

end IntDraws

section Draws
variable [Gen G ℝ] [LawfulGen G]

theorem wp_unit : Wp (G := G) unitM fun u => 0 ≤ u ∧ u < 1 := by
  intro g
  exact ⟨_, _, rfl, LawfulGen.unit_nonneg g, LawfulGen.unit_lt g⟩

theorem wp_uniform {a b : ℝ} (h : a ≤ b) : Wp (G := G) (uniformM a b) fun v =>
    a ≤ v ∧ v ≤ b ∧ (v < b ∨ a = b) := by
  unfold uniformM
  refine Wp.bind wp_unit fun u hu => ?_
  refine Wp.pure ⟨?_, ?_, ?_⟩
  · have := mul_nonneg (sub_nonneg.2 h) hu.1
    linarith
  · nlinarith [hu.2, sub_nonneg.2 h]
  · rcases eq_or_lt_of_le h with h | h
    · exact Or.inr h
    · exact Or.inl (by nlinarith [hu.2, sub_pos.2 h])

end Draws

/-! ## Percentiles -/

theorem ssort_perm (a : List ℝ) : (ssort a).Perm a := List.mergeSort_perm _ _

theorem ssort_length (a : List ℝ) : (ssort a).length = a.length := (ssort_perm a).length_eq

theorem ssort_sorted (a : List ℝ) : (ssort a).Pairwise (· ≤ ·) := by
  have := List.pairwise_mergeSort (le := fun x y : ℝ => Scalar.leb x y)
    (fun a b c h1 h2 => by simp only [real_leb] at *; exact h1.trans h2)
    (fun a b => by simp only [Bool.or_eq_true, real_leb]; exact le_total a b) a
  exact this.imp fun h => by simpa using h

theorem ssort_mono (a : List ℝ) {i j : Nat} (hij : i ≤ j) (hj : j < a.length) :
    (ssort a).getD i 0 ≤ (ssort a).getD j 0 := by
  have hj' : j < (ssort a).length := by rw [ssort_length]; exact hj
  rw [getD_lt _ hj', getD_lt _ (by omega)]
  rcases Nat.eq_or_lt_of_le hij with rfl | h
  · exact le_refl _
  · exact List.pairwise_iff_getElem.1 (ssort_sorted a) i j (by omega) hj' h

theorem ssort_mem (a : List ℝ) {i : Nat} (hi : i < a.length) : (ssort a).getD i 0 ∈ a := by
  rw [getD_lt _ (by rw [ssort_length]; exact hi)]
  exact (ssort_perm a).subset (List.getElem_mem _)

theorem smax_spec {a : List ℝ} (h : a ≠ []) : ∃ m, smax a = .ok m ∧ m ∈ a ∧ ∀ x ∈ a, x ≤ m := by
  cases a with
  | nil => exact absurd rfl h
  | cons b l =>
    refine ⟨_, rfl, ?_⟩
    clear h
    induction l generalizing b with
    | nil => simp
    | cons c l ih =>
      simp only [List.foldl_cons]
      obtain ⟨h1, h2⟩ := ih (if Scalar.ltb b c then c else b)
      refine ⟨?_, ?_⟩
      · rcases List.mem_cons.1 h1 with h | h
        · rw [h]; split <;> simp
        · exact List.mem_cons_of_mem _ (List.mem_cons_of_mem _ h)
      · have hb : (if Scalar.ltb b c then c else b) ≤ _ := h2 _ (by simp)
        intro x hx
        rcases List.mem_cons.1 hx with rfl | hx
        · refine le_trans ?_ hb
          split
          · rename_i hc; exact (real_ltb _ _ |>.1 hc).le
          · exact le_refl _
        · rcases List.mem_cons.1 hx with rfl | hx
          · refine le_trans ?_ hb
            split
            · exact le_refl _
            · rename_i hc
              exact not_lt.1 fun h => hc ((real_ltb _ _).2 h)
          · exact h2 x (by simp [hx])

theorem percentile_num {K : Type} [Scalar K] {a : List K} (h : ∀ x ∈ a, Scalar.eqb x x = true) (q : K) :
    percentile a q = if Scalar.leb 0 q && Scalar.leb q (Scalar.ofNat 100) then percentileInner a q
      else .error .valueError := by
  unfold percentile
  rw [List.find?_eq_none.2 (by intro x hx; simp [h x hx])]

theorem percentile_real (a : List ℝ) (q : ℝ) :
    percentile a q = if Scalar.leb 0 q && Scalar.leb q (Scalar.ofNat 100) then percentileInner a q
      else .error .valueError := percentile_num (fun x _ => (real_eqb x x).2 rfl) q

/-- The interpolated value of the percentile function for a rank `r ∈ [1, n)`. -/
noncomputable def interp (S : List ℝ) (r : ℝ) : ℝ :=
  S.getD (⌊r⌋ - 1).toNat 0 * (1 - (r - (⌊r⌋.toNat : ℝ))) + S.getD ⌊r⌋.toNat 0 * (r - (⌊r⌋.toNat : ℝ))

theorem percentile_interp {a : List ℝ} {q : ℝ} (h0 : 0 ≤ q) (h1 : q < 100) (hn : 2 ≤ a.length) :
    let r : ℝ := 1 + ((a.length - 1 : Nat) : ℝ) * (q / 100)
    percentile a q = .ok (interp (ssort a) r) ∧ 1 ≤ r ∧ r < a.length := by
  intro r
  have hc : ((a.length - 1 : Nat) : ℝ) = (a.length : ℝ) - 1 := by
    rw [Nat.cast_sub (by omega)]; simp
  have hn' : (2 : ℝ) ≤ a.length := by exact_mod_cast hn
  have hr1 : 1 ≤ r := by
    have : 0 ≤ ((a.length - 1 : Nat) : ℝ) * (q / 100) := by positivity
    simp only [r]; linarith
  have hr2 : r < a.length := by
    simp only [r]; rw [hc]
    nlinarith [hn', h1]
  refine ⟨?_, hr1, hr2⟩
  have hf1 : 1 ≤ ⌊r⌋ := by rw [Int.le_floor]; exact_mod_cast hr1
  have hf2 : ⌊r⌋ < a.length := by rw [Int.floor_lt]; exact_mod_cast hr2
  rw [percentile_real]
  unfold percentileInner
  have e0 : (Scalar.leb (0 : ℝ) q && Scalar.leb q (Scalar.ofNat 100)) = true := by
    simp only [Bool.and_eq_true, real_leb, real_ofNat]
    exact ⟨h0, by push_cast; linarith⟩
  have e1 : Scalar.eqb q (Scalar.ofNat 100 : ℝ) = false := by
    simp only [real_eqb_f, real_ofNat]; push_cast; linarith
  have e2 : (1 + Scalar.ofNat (a.length - 1) * (q / Scalar.ofNat 100) : ℝ) = r := by
    simp only [real_ofNat, r]; push_cast; rfl
  rw [if_pos e0, if_neg (by omega), e1]
  simp only [Bool.false_eq_true, if_false]
  simp only [e2, real_floor]
  rw [aget_getD 0 (by rw [ssort_length]; omega), Res.bind_ok,
    aget_getD 0 (by rw [ssort_length]; omega), Res.bind_ok]
  rfl

theorem interp_bounds (a : List ℝ) {r : ℝ} (h1 : 1 ≤ r) (h2 : r < a.length) :
    (ssort a).getD (⌊r⌋ - 1).toNat 0 ≤ interp (ssort a) r ∧
      interp (ssort a) r ≤ (ssort a).getD ⌊r⌋.toNat 0 := by
  have hf1 : 1 ≤ ⌊r⌋ := by rw [Int.le_floor]; exact_mod_cast h1
  have hf2 : ⌊r⌋ < a.length := by rw [Int.floor_lt]; exact_mod_cast h2
  have hm := ssort_mono a (i := (⌊r⌋ - 1).toNat) (j := ⌊r⌋.toNat) (by omega) (by omega)
  have hc : ((⌊r⌋.toNat : ℕ) : ℝ) = (⌊r⌋ : ℝ) := by
    have : ((⌊r⌋.toNat : ℕ) : ℤ) = ⌊r⌋ := Int.toNat_of_nonneg (by omega)
    exact_mod_cast this
  have hl := Int.floor_le r
  have hu := Int.lt_floor_add_one r
  unfold interp
  rw [hc]
  constructor
  · nlinarith
  · nlinarith

theorem interp_mono (a : List ℝ) {r r' : ℝ} (h1 : 1 ≤ r) (hrr : r ≤ r') (h2 : r' < a.length) :
    interp (ssort a) r ≤ interp (ssort a) r' := by
  have hf1 : 1 ≤ ⌊r⌋ := by rw [Int.le_floor]; exact_mod_cast h1
  have hf2 : ⌊r'⌋ < a.length := by rw [Int.floor_lt]; exact_mod_cast h2
  have hff : ⌊r⌋ ≤ ⌊r'⌋ := Int.floor_le_floor hrr
  rcases Int.lt_or_eq_of_le hff with hlt | heq
  · refine (interp_bounds a h1 (lt_of_le_of_lt hrr h2)).2.trans ?_
    refine le_trans ?_ (interp_bounds a (h1.trans hrr) h2).1
    exact ssort_mono a (by omega) (by omega)
  · have hm := ssort_mono a (i := (⌊r⌋ - 1).toNat) (j := ⌊r⌋.toNat) (by omega) (by omega)
    unfold interp
    rw [← heq]
    nlinarith

theorem maxOrNan_real (a : List ℝ) : maxOrNan a = smax a := by
  unfold maxOrNan
  cases smax a with
  | error e => rfl
  | ok v =>
    show Except.ok _ = Except.ok _
    rw [if_pos ((real_eqb _ _).2 (sub_self v))]

/-- Percentiles are defined for `q ∈ [0,100]` on non-empty arrays, and lie between the extremes. -/
theorem percentile_ok {a : List ℝ} (ha : a ≠ []) {q : ℝ} (h0 : 0 ≤ q) (h1 : q ≤ 100) :
    ∃ p, percentile a q = .ok p ∧ (∃ x ∈ a, x ≤ p) ∧ ∃ x ∈ a, p ≤ x := by
  have hlen := List.length_pos_iff.2 ha
  have e0 : (Scalar.leb (0 : ℝ) q && Scalar.leb q (Scalar.ofNat 100)) = true := by
    simp only [Bool.and_eq_true, real_leb, real_ofNat]
    exact ⟨h0, by push_cast; linarith⟩
  rcases Nat.eq_or_lt_of_le hlen with hn | hn
  · refine ⟨a[0], ?_, ⟨a[0], List.getElem_mem _, le_refl _⟩, ⟨a[0], List.getElem_mem _, le_refl _⟩⟩
    rw [percentile_real]
    unfold percentileInner
    rw [if_pos e0, if_pos hn.symm, aget_ok hlen]
  · rcases lt_or_eq_of_le h1 with hq | hq
    · obtain ⟨e, hr1, hr2⟩ := percentile_interp h0 hq (a := a) (by omega)
      obtain ⟨b1, b2⟩ := interp_bounds a hr1 hr2
      refine ⟨_, e, ⟨_, ssort_mem a ?_, b1⟩, ⟨_, ssort_mem a ?_, b2⟩⟩
      · have := (Int.floor_lt (z := (a.length : ℤ))).2 (by exact_mod_cast hr2); omega
      · have := (Int.floor_lt (z := (a.length : ℤ))).2 (by exact_mod_cast hr2); omega
    · obtain ⟨m, h1, h2, _⟩ := smax_spec ha
      refine ⟨m, ?_, ⟨m, h2, le_refl _⟩, ⟨m, h2, le_refl _⟩⟩
      rw [percentile_real]
      unfold percentileInner
      rw [if_pos e0, if_neg (by omega), if_pos (by simp [hq]), maxOrNan_real, h1]

/-- Percentiles are monotone. -/
theorem percentile_mono {a : List ℝ} {q q' p p' : ℝ} (h0 : 0 ≤ q) (hqq : q ≤ q') (h1 : q' ≤ 100)
    (hp : percentile a q = .ok p) (hp' : percentile a q' = .ok p') (ha : a ≠ []) : p ≤ p' := by
  have hlen := List.length_pos_iff.2 ha
  have e0 : ∀ q : ℝ, 0 ≤ q → q ≤ 100 →
      (Scalar.leb (0 : ℝ) q && Scalar.leb q (Scalar.ofNat 100)) = true := by
    intro q h0 h1
    simp only [Bool.and_eq_true, real_leb, real_ofNat]
    exact ⟨h0, by push_cast; linarith⟩
  rcases Nat.eq_or_lt_of_le hlen with hn | hn
  · rw [percentile_real] at hp hp'
    unfold percentileInner at hp hp'
    rw [if_pos (e0 q h0 (hqq.trans h1)), if_pos hn.symm] at hp
    rw [if_pos (e0 q' (h0.trans hqq) h1), if_pos hn.symm, hp] at hp'
    cases hp'; exact le_refl _
  · rcases lt_or_eq_of_le h1 with hq | hq
    · obtain ⟨e, hr1, hr2⟩ := percentile_interp h0 (lt_of_le_of_lt hqq hq) (a := a) (by omega)
      obtain ⟨e', hr1', hr2'⟩ := percentile_interp (h0.trans hqq) hq (a := a) (by omega)
      rw [e] at hp; rw [e'] at hp'
      cases hp; cases hp'
      refine interp_mono a hr1 ?_ hr2'
      have : (0 : ℝ) ≤ ((a.length - 1 : Nat) : ℝ) := by positivity
      have := mul_le_mul_of_nonneg_left (div_le_div_of_nonneg_right hqq (by norm_num : (0:ℝ) ≤ 100)) this
      linarith
    · obtain ⟨m, hm1, hm2, hm3⟩ := smax_spec ha
      have e' : percentile a q' = .ok m := by
        rw [percentile_real]
        unfold percentileInner
        rw [if_pos (e0 q' (h0.trans hqq) h1), if_neg (by omega), if_pos (by simp [hq]), maxOrNan_real, hm1]
      rw [e'] at hp'; cases hp'
      obtain ⟨p2, h2, _, x, hx, hxp⟩ := percentile_ok ha h0 (hqq.trans h1)
      rw [hp] at h2; cases h2
      exact hxp.trans (hm3 x hx)

end Convst
