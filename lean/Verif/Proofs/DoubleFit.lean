import Verif.Proofs.Double
import Verif.Proofs.IeeeFit
import Verif.Spec.DoubleFit

/-!
# Lemmas on the thresholds and the features in double precision
-/

set_option autoImplicit false
set_option linter.unusedSectionVars false

namespace Convst
open Spec Ieee

variable {F : FloatFormat}

/-- A finite number of magnitude at most `2 ^ e`. -/
def Bd (e : Int) (a : Ieee F) : Prop := ∃ x : ℝ, a = fin x ∧ |x| ≤ (2 : ℝ) ^ e

theorem Bd.mono {e f : Int} {a : Ieee F} (h : Bd e a) (hef : e ≤ f) : Bd f a := by
  obtain ⟨x, rfl, hx⟩ := h
  exact ⟨x, rfl, hx.trans (two_le hef)⟩

theorem Bd.finite {e : Int} {a : Ieee F} (h : Bd e a) : IsFinite a := by
  obtain ⟨x, rfl, -⟩ := h
  exact ⟨x, rfl⟩

theorem Bd.neg {e : Int} {a : Ieee F} (h : Bd e a) : Bd e (Ieee.neg a) := by
  obtain ⟨x, rfl, hx⟩ := h
  exact ⟨-x, rfl, by rwa [abs_neg]⟩

theorem Bd.one : Bd 0 (1 : Ieee F) := ⟨1, rfl, by norm_num⟩

section
variable (hD : Double F)
include hD

theorem Spec.Double.rnd_le {e : Int} (he : -1022 ≤ e) {x : ℝ} (h : |x| ≤ (2 : ℝ) ^ e) : |F.rnd x| ≤ (2 : ℝ) ^ e := by
  rcases le_or_gt ((2 : ℝ) ^ (-1022 : Int)) |x| with h1 | h1
  · rw [hD.normal x h1]; exact hD.le h
  · exact (hD.small x h1.le).trans (two_le he)

theorem Spec.Double.bd {e : Int} (he : -1022 ≤ e) (he' : e ≤ 1000) {x : ℝ} (h : |x| ≤ (2 : ℝ) ^ e) :
    Bd e (Ieee.over (F.rnd x) : Ieee F) := by
  have h1 := hD.rnd_le he h
  refine ⟨F.rnd x, over_fin ?_, h1⟩
  rw [hD.top]
  exact h1.trans_lt (two_lt (by omega))

theorem Spec.Double.bd_add {e : Int} (he : -1000 ≤ e) (he' : e ≤ 900) {a b : Ieee F} (ha : Bd e a) (hb : Bd e b) :
    Bd (e + 1) (a + b) := by
  obtain ⟨x, rfl, hx⟩ := ha
  obtain ⟨y, rfl, hy⟩ := hb
  refine hD.bd (by omega) (by omega) ((abs_add_le _ _).trans ?_)
  rw [two_succ]
  exact add_le_add hx hy

theorem Spec.Double.bd_sub {e : Int} (he : -1000 ≤ e) (he' : e ≤ 900) {a b : Ieee F} (ha : Bd e a) (hb : Bd e b) :
    Bd (e + 1) (a - b) := hD.bd_add he he' ha hb.neg

theorem Spec.Double.bd_mul {e f : Int} (he : -1000 ≤ e + f) (he' : e + f ≤ 900) {a b : Ieee F} (ha : Bd e a) (hb : Bd f b) :
    Bd (e + f) (a * b) := by
  obtain ⟨x, rfl, hx⟩ := ha
  obtain ⟨y, rfl, hy⟩ := hb
  refine hD.bd (by omega) (by omega) ?_
  rw [abs_mul, two_add]
  exact mul_le_mul hx hy (abs_nonneg _) (two_pos _).le

theorem Spec.Double.bd_nat {n : Nat} {e : Nat} (he : e ≤ 53) (h : n ≤ 2 ^ e) : Bd e (Scalar.ofNat n : Ieee F) := by
  have h53 : n ≤ 2 ^ 53 := h.trans (Nat.pow_le_pow_right (by omega) he)
  refine ⟨n, hD.ofNat h53, ?_⟩
  rw [abs_of_nonneg (by positivity), zpow_natCast]
  exact_mod_cast h

theorem bd_smax {e : Int} {D : List (Ieee F)} (h : ∀ a ∈ D, Bd e a) {v : Ieee F} (hv : smax D = .ok v) : Bd e v := by
  cases D with
  | nil => cases hv
  | cons a D =>
    cases hv
    have key : ∀ (D : List (Ieee F)) (a : Ieee F), Bd e a → (∀ b ∈ D, Bd e b) →
        Bd e (D.foldl (fun m x => if Scalar.ltb m x then x else m) a) := by
      intro D
      induction D with
      | nil => exact fun a ha _ => ha
      | cons b D ih =>
        intro a ha hD
        refine ih _ ?_ fun c hc => hD c (by simp [hc])
        beta_reduce
        split
        · exact hD b (by simp)
        · exact ha
    exact key D a (h a (by simp)) fun b hb => h b (by simp [hb])

theorem Spec.Double.bd_percentile {e : Int} (he : 0 ≤ e) (he' : e ≤ 800) {D : List (Ieee F)} (h : ∀ a ∈ D, Bd e a)
    (hl : D.length ≤ 2 ^ 40) {q p : Ieee F} (hp : percentile D q = .ok p) : Bd (e + 44) p := by
  unfold percentile at hp
  split at hp
  swap
  · cases hp
  rename_i hq
  have hnone : D.find? (fun x => !(Scalar.eqb x x)) = none := by
    rw [List.find?_eq_none]
    intro a ha
    obtain ⟨x, rfl, -⟩ := h a ha
    rw [ieee_eqb_fin]; simp
  rw [hnone] at hp
  replace hp : percentileInner D q = .ok p := hp
  unfold percentileInner at hp
  split at hp
  · rw [aget_eq_ok] at hp
    exact (h p (List.mem_of_getElem? hp)).mono (by omega)
  split at hp
  · unfold maxOrNan at hp
    cases hs : smax D with
    | error x => rw [hs] at hp; cases hp
    | ok v =>
      rw [hs] at hp
      have hv := bd_smax hD h hs
      cases hp
      split
      · exact hv.mono (by omega)
      · exact (hD.bd_sub (by omega) (by omega) hv hv).mono (by omega)
  · simp only [Bool.and_eq_true] at hq
    obtain ⟨q1, q2⟩ := hq
    have e100 : (Scalar.ofNat 100 : Ieee F) = fin 100 := by
      have := hD.ofNat (n := 100) (by norm_num)
      rw [this]; norm_num
    rw [e100] at q2
    have hdiv : Bd 0 (q / Scalar.ofNat 100 : Ieee F) := by
      cases q with
      | nan => cases q1
      | inf s =>
        exfalso
        cases s with
        | false => cases q2
        | true => cases q1
      | fin x =>
        rw [ieee_leb_fin, decide_eq_true_eq] at q2
        have q1' : Scalar.leb (fin 0 : Ieee F) (fin x) = true := q1
        rw [ieee_leb_fin, decide_eq_true_eq] at q1'
        rw [e100]
        show Bd 0 (if (100 : ℝ) = 0 then _ else Ieee.over (F.rnd (x / 100)))
        rw [if_neg (by norm_num)]
        refine hD.bd (by norm_num) (by norm_num) ?_
        rw [abs_of_nonneg (by positivity), zpow_zero]
        linarith
    have hn : Bd (40 : Nat) (Scalar.ofNat (D.length - 1) : Ieee F) := hD.bd_nat (by norm_num) (by omega)
    have hr1 := hD.bd_mul (by norm_num) (by norm_num) hn hdiv
    have hr := hD.bd_add (e := 40) (by norm_num) (by norm_num) (Bd.one.mono (by norm_num)) (hr1.mono (by norm_num))
    generalize (1 + Scalar.ofNat (D.length - 1) * (q / Scalar.ofNat 100) : Ieee F) = rank at hr hp
    have hf : Bd (41 : Nat) (Scalar.ofNat (Scalar.floor rank).toNat : Ieee F) := by
      obtain ⟨ρ, rfl, hρ⟩ := hr
      refine hD.bd_nat (by norm_num) ?_
      show ⌊ρ⌋.toNat ≤ 2 ^ 41
      rw [Int.toNat_le]
      have h1 : (⌊ρ⌋ : ℝ) ≤ 2 ^ 41 := (Int.floor_le ρ).trans ((le_abs_self ρ).trans (hρ.trans (by norm_num)))
      exact_mod_cast h1
    have hm := hD.bd_sub (e := 41) (by norm_num) (by norm_num) (hr.mono (by norm_num)) (hf.mono (by norm_num))
    have hm1 := hD.bd_sub (e := 42) (by norm_num) (by norm_num) (Bd.one.mono (by norm_num)) (hm.mono (by norm_num))
    cases hlo : aget (ssort D) (Scalar.floor rank - 1).toNat with
    | error x => simp only [hlo] at hp; cases hp
    | ok lower =>
      cases hup : aget (ssort D) (Scalar.floor rank).toNat with
      | error x => simp only [hlo, hup] at hp; cases hp
      | ok upper =>
        simp only [hlo, hup] at hp
        cases hp
        rw [aget_eq_ok] at hlo hup
        have b1 := h lower (mem_ssort.1 (List.mem_of_getElem? hlo))
        have b2 := h upper (mem_ssort.1 (List.mem_of_getElem? hup))
        have c1 := hD.bd_mul (by omega) (by omega) b1 hm1
        have c2 := hD.bd_mul (by omega) (by omega) b2 hm
        exact (hD.bd_add (e := e + 43) (by omega) (by omega) (c1.mono (by omega)) (c2.mono (by omega))).mono (by omega)

/-- Thresholds. -/
theorem Spec.Double.bd_threshold {e : Int} (he : 0 ≤ e) (he' : e ≤ 800) {D : List (Ieee F)} (h : ∀ a ∈ D, Bd e a)
    (hl : D.length ≤ 2 ^ 40) {p q th : Ieee F} (ht : ThrFrom p q UnitDraw D th) : Bd (e + 46) th := by
  obtain ⟨p0, p1, u, h0, h1, hu, rfl⟩ := ht
  have b0 := hD.bd_percentile he he' h hl h0
  have b1 := hD.bd_percentile he he' h hl h1
  have bu : Bd 0 u := by
    cases u with
    | nan => exact hu.elim
    | inf s => exact hu.elim
    | fin v =>
      obtain ⟨v0, v1⟩ : 0 ≤ v ∧ v < 1 := hu
      exact ⟨v, rfl, by rw [abs_of_nonneg v0, zpow_zero]; exact v1.le⟩
  have c := hD.bd_mul (by omega) (by omega) (hD.bd_sub (by omega) (by omega) b1 b0) bu
  exact (hD.bd_add (e := e + 45) (by omega) (by omega) (b0.mono (by omega)) (c.mono (by omega))).mono (by omega)

/-- Features. -/
theorem Spec.Double.bd_features {e : Int} (he : 40 ≤ e) {D : List (Ieee F)} (h : ∀ a ∈ D, Bd e a)
    (hl : D.length ≤ 2 ^ 40) (thr : Ieee F) : ∀ a ∈ cells (Spec.features D thr), Bd e a := by
  have key : ∀ (D : List (Ieee F)) (i : Nat) (m : Ieee F) (a : Nat), (∀ a ∈ D, Bd e a) → Bd e m → a ≤ i →
      Bd e (scanMin D i m a).1 ∧ (scanMin D i m a).2 ≤ i + D.length := by
    intro D
    induction D with
    | nil => exact fun i m a _ hm ha => ⟨hm, ha⟩
    | cons x D ih =>
      intro i m a hD hm ha
      rw [scanMin, List.length_cons]
      split
      · obtain ⟨h1, h2⟩ := ih (i + 1) x i (fun b hb => hD b (by simp [hb])) (hD x (by simp)) (by omega)
        exact ⟨h1, by omega⟩
      · obtain ⟨h1, h2⟩ := ih (i + 1) m a (fun b hb => hD b (by simp [hb])) hm (by omega)
        exact ⟨h1, by omega⟩
  obtain ⟨k1, k2⟩ := key D 0 (-1) 0 h ((Bd.one.neg).mono (by omega)) le_rfl
  intro a ha
  simp only [cells, Spec.features, List.mem_cons, List.not_mem_nil, or_false] at ha
  rcases ha with rfl | rfl | rfl
  · exact k1
  · exact (hD.bd_nat (e := 40) (by norm_num) (by omega)).mono (by norm_num; omega)
  · exact (hD.bd_nat (e := 40) (by norm_num) ((List.countP_le_length).trans hl)).mono (by norm_num; omega)

/-- Lists of finite numbers. -/
theorem finite_list {p : ℝ → Prop} (x : List (Ieee F)) (h : ∀ a ∈ x, Finite p a) :
    ∃ z : List (Fl F.r), x = z.map Fl.ieee ∧ ∀ a ∈ z, p a.val := by
  induction x with
  | nil => exact ⟨[], rfl, by simp⟩
  | cons a x ih =>
    obtain ⟨z, rfl, hz⟩ := ih fun b hb => h b (by simp [hb])
    have ha := h a (by simp)
    cases a with
    | nan => exact ha.elim
    | inf s => exact ha.elim
    | fin v =>
      refine ⟨Fl.mk v :: z, rfl, ?_⟩
      intro b hb
      rcases List.mem_cons.1 hb with rfl | hb
      · exact ha
      · exact hz b hb

/-- Windows of series of moderate magnitude, normalised or not. -/
theorem Spec.Double.seen_list {x : List (Ieee F)} (hx : ∀ a ∈ x, Finite (Moderate F) a) (phase norm : Bool) {l d i : Nat}
    (hl : l ≤ 2 ^ 40) : ∃ z : List (Fl F.r), Spec.seen norm (window phase x l d i) = z.map Fl.ieee ∧
      (∀ a ∈ z, MildAt F 328 a.val) ∧ z.length ≤ 2 ^ 40 := by
  obtain ⟨z, rfl, hz⟩ := finite_list hD x hx
  exact ⟨_, hD.seen hz hl norm⟩

/-- Distances of univariate shapelets. -/
theorem Spec.Double.bd_uDistances (phase : Bool) (S : UShp (Ieee F)) {x : List (Ieee F)}
    (hx : ∀ a ∈ x, Finite (Moderate F) a) {k : Nat} (hl : S.lengths.getD k 0 ≤ 2 ^ 40) {v : List (Fl F.r)}
    (hv : uValues S k = v.map Fl.ieee) (hv' : ∀ a ∈ v, MildAt F 328 a.val) : ∀ a ∈ Spec.uDistances phase S x k, Bd 369 a := by
  intro a ha
  obtain ⟨i, -, rfl⟩ := List.mem_map.1 ha
  obtain ⟨w, hw, hw1, hw2⟩ := hD.seen_list hx phase (S.normalize.getD k false) (d := S.dilations.getD k 0) (i := i) hl
  rw [hw, hv]
  obtain ⟨e1, -, e3⟩ := hD.l1 (by norm_num) hw1 hv' hw2
  exact ⟨_, e1, e3⟩

/-- Distances of multivariate shapelets. -/
theorem Spec.Double.bd_mDistances (phase : Bool) (S : MShp (Ieee F)) {x : List (List (Ieee F))} {T : Nat}
    (hx : ∀ c, ∀ a ∈ x.getD c [], Finite (Moderate F) a) {k : Nat} (hl : S.lengths.getD k 0 ≤ 2 ^ 40)
    (hc : (mChannels S k).length ≤ 2 ^ 40)
    (hv : ∀ c, c < (mChannels S k).length → ∃ v : List (Fl F.r), mValues S k c = v.map Fl.ieee ∧ ∀ a ∈ v, MildAt F 328 a.val) :
    ∀ a ∈ Spec.mDistances phase S x T k, Bd 409 a := by
  intro a ha
  obtain ⟨i, -, rfl⟩ := List.mem_map.1 ha
  have key : ∀ c, c < (mChannels S k).length → ∃ g : Fl F.r, Spec.l1 (Spec.seen (S.normalize.getD k false) (window phase
      (x.getD ((mChannels S k).getD c 0) []) (S.lengths.getD k 0) (S.dilations.getD k 0) i)) (mValues S k c) = Fl.ieee g ∧
      g.val ∈ F.grid ∧ |g.val| ≤ (2 : ℝ) ^ (369 : Int) := by
    intro c hc'
    obtain ⟨v, h1, h2⟩ := hv c hc'
    obtain ⟨w, hw, hw1, hw2⟩ := hD.seen_list (hx ((mChannels S k).getD c 0)) phase (S.normalize.getD k false)
      (d := S.dilations.getD k 0) (i := i) hl
    rw [hw, h1]
    exact ⟨_, hD.l1 (by norm_num) hw1 h2 hw2⟩
  choose! g hg using key
  have h := hD.foldl (e := 369) (by norm_num) (g := g) (List.range (mChannels S k).length)
    (fun c hc' => hg c (List.mem_range.1 hc')) (by rw [List.length_range]; exact hc)
  rw [List.length_range] at h
  exact ⟨_, h.1, h.2.2.trans (hD.nat_le hc)⟩

end

end Convst
