import Verif.Spec.Double
import Verif.Proofs.Ieee

/-!
# Lemmas on double precision
-/

set_option autoImplicit false
set_option linter.unusedSectionVars false

namespace Convst
open Spec Ieee

variable {F : FloatFormat}

/-- A number of the format of magnitude at most `2 ^ e`; `Mild` is the case `e = 400`. -/
def MildAt (F : FloatFormat) (e : Int) (x : ℝ) : Prop := x ∈ F.grid ∧ |x| ≤ (2 : ℝ) ^ e

/-- A multiple of `2 ^ s`. -/
def Mult (s : Int) (x : ℝ) : Prop := ∃ N : Int, x = N * (2 : ℝ) ^ s

theorem two_le {a b : Int} (h : a ≤ b) : (2 : ℝ) ^ a ≤ (2 : ℝ) ^ b := zpow_le_zpow_right₀ (by norm_num) h
theorem two_lt {a b : Int} (h : a < b) : (2 : ℝ) ^ a < (2 : ℝ) ^ b := zpow_lt_zpow_right₀ (by norm_num) h
theorem two_pos (a : Int) : (0 : ℝ) < (2 : ℝ) ^ a := zpow_pos (by norm_num) a
theorem two_add (a b : Int) : (2 : ℝ) ^ (a + b) = (2 : ℝ) ^ a * (2 : ℝ) ^ b := zpow_add₀ (by norm_num) a b

theorem two_succ (a : Int) : (2 : ℝ) ^ (a + 1) = (2 : ℝ) ^ a + (2 : ℝ) ^ a := by rw [two_add]; ring

theorem MildAt.mono {e f : Int} {x : ℝ} (h : MildAt F e x) (hef : e ≤ f) : MildAt F f x :=
  ⟨h.1, h.2.trans (two_le hef)⟩

theorem Mult.mono {s t : Int} {x : ℝ} (h : Mult s x) (hts : t ≤ s) : Mult t x := by
  obtain ⟨N, rfl⟩ := h
  obtain ⟨n, hn⟩ := Int.eq_ofNat_of_zero_le (show 0 ≤ s - t by omega)
  refine ⟨N * 2 ^ n, ?_⟩
  rw [show s = n + t by omega, two_add, zpow_natCast]
  push_cast; ring

theorem Mult.zero (s : Int) : Mult s 0 := ⟨0, by simp⟩

theorem Mult.add {s : Int} {x y : ℝ} (hx : Mult s x) (hy : Mult s y) : Mult s (x + y) := by
  obtain ⟨N, rfl⟩ := hx
  obtain ⟨M, rfl⟩ := hy
  exact ⟨N + M, by push_cast; ring⟩

theorem Mult.sub {s : Int} {x y : ℝ} (hx : Mult s x) (hy : Mult s y) : Mult s (x - y) := by
  obtain ⟨N, rfl⟩ := hx
  obtain ⟨M, rfl⟩ := hy
  exact ⟨N - M, by push_cast; ring⟩

theorem Mult.ge {s : Int} {x : ℝ} (h : Mult s x) : x = 0 ∨ (2 : ℝ) ^ s ≤ |x| := by
  obtain ⟨N, rfl⟩ := h
  by_cases hN : N = 0
  · left; simp [hN]
  · right
    rw [abs_mul, abs_of_pos (two_pos s)]
    have : (1 : ℝ) ≤ |(N : ℝ)| := by exact_mod_cast Int.one_le_abs hN
    nlinarith [two_pos s]

section
variable (hD : Double F)
include hD

theorem Spec.Double.le_nat {k : Nat} (hk : k ≤ 2 ^ 53) {e : Int} {x : ℝ} (h : |x| ≤ k * (2 : ℝ) ^ e) :
    |F.r.rnd x| ≤ k * (2 : ℝ) ^ e := by
  obtain ⟨h1, h2⟩ := abs_le.1 h
  have hk' : |(k : Int)| ≤ 2 ^ 53 := by rw [abs_of_nonneg (by positivity)]; exact_mod_cast hk
  have a1 := F.r.mono h2
  have a2 := F.r.mono h1
  have b1 := hD.fix k e hk'
  have b2 := hD.fix (-k) e (by rw [abs_neg]; exact hk')
  push_cast at b1 b2
  rw [← neg_mul] at a2
  rw [b1] at a1
  rw [b2] at a2
  exact abs_le.2 ⟨by linarith, a1⟩

theorem Spec.Double.le {e : Int} {x : ℝ} (h : |x| ≤ (2 : ℝ) ^ e) : |F.r.rnd x| ≤ (2 : ℝ) ^ e := by
  have := hD.le_nat (k := 1) (by norm_num) (e := e) (x := x) (by simpa using h)
  simpa using this

theorem Spec.Double.ge {e : Int} {x : ℝ} (h : (2 : ℝ) ^ e ≤ |x|) : (2 : ℝ) ^ e ≤ |F.r.rnd x| := by
  have b1 := hD.fix 1 e (by norm_num)
  have b2 := hD.fix (-1) e (by norm_num)
  push_cast at b1 b2
  rw [one_mul] at b1
  rw [neg_one_mul] at b2
  rcases le_abs.1 h with h | h
  · have := F.r.mono h
    rw [b1] at this
    exact this.trans (le_abs_self _)
  · have : x ≤ -(2 : ℝ) ^ e := by linarith
    have := F.r.mono this
    rw [b2] at this
    exact (show (2 : ℝ) ^ e ≤ -F.r.rnd x by linarith).trans (neg_le_abs _)

theorem Spec.Double.mult {s : Int} {x : ℝ} (h : Mult s x) : Mult s (F.r.rnd x) := by
  by_cases hx : |x| ≤ (2 : ℝ) ^ (s + 53)
  · obtain ⟨N, rfl⟩ := h
    rw [abs_mul, abs_of_pos (two_pos s), add_comm, two_add] at hx
    have h1 : |(N : ℝ)| ≤ (2 : ℝ) ^ (53 : Int) := le_of_mul_le_mul_right hx (two_pos s)
    have h2 : |N| ≤ 2 ^ 53 := by
      have h3 : ((|N| : Int) : ℝ) ≤ ((2 ^ 53 : Int) : ℝ) := by
        rw [Int.cast_abs]
        refine h1.trans (le_of_eq ?_)
        norm_num
      exact_mod_cast h3
    exact ⟨N, hD.fix N s h2⟩
  · obtain ⟨N, hN⟩ := hD.digits x (s + 53) (not_le.1 hx).le
    exact Mult.mono ⟨N, hN⟩ (by omega)

/-- Zero or not too small, and not too large: the rounding of the format is the one of the unbounded range. -/
theorem Spec.Double.over {x : ℝ} (h : x = 0 ∨ (2 : ℝ) ^ (-1022 : Int) ≤ |x|) (h' : |x| ≤ (2 : ℝ) ^ (1000 : Int)) :
    (over (F.rnd x) : Ieee F) = fin (F.r.rnd x) ∧ F.r.rnd x ∈ F.grid := by
  have e : F.rnd x = F.r.rnd x := by
    rcases h with rfl | h
    · have := F.rnd_nat 0
      simpa using this
    · exact hD.normal x h
  refine ⟨?_, by rw [← e]; exact F.rnd_grid x⟩
  rw [e]
  apply over_fin
  rw [hD.top]
  exact lt_of_le_of_lt (hD.le h') (two_lt (by norm_num))

theorem Spec.Double.over_add {x y : ℝ} (hx : x ∈ F.grid) (hy : y ∈ F.grid) (h' : |x + y| ≤ (2 : ℝ) ^ (1000 : Int)) :
    (Ieee.over (F.rnd (x + y)) : Ieee F) = fin (F.r.rnd (x + y)) ∧ F.r.rnd (x + y) ∈ F.grid := by
  have e := F.rnd_add x hx y hy
  refine ⟨?_, by rw [← e]; exact F.rnd_grid _⟩
  rw [e]
  apply over_fin
  rw [hD.top]
  exact lt_of_le_of_lt (hD.le h') (two_lt (by norm_num))

/-- Numbers which can be added: of the format, multiples of `2 ^ s`, of magnitude at most `2 ^ e`. -/
structure Add (F : FloatFormat) (s e : Int) (a : ℝ) : Prop where
  grid : a ∈ F.grid
  mult : Mult s a
  le : |a| ≤ (2 : ℝ) ^ e

theorem Spec.Double.nat_le {k : Nat} (hk : k ≤ 2 ^ 40) {e : Int} : k * (2 : ℝ) ^ e ≤ (2 : ℝ) ^ (e + 40) := by
  rw [add_comm, two_add]
  apply mul_le_mul_of_nonneg_right _ (two_pos e).le
  have : (k : ℝ) ≤ ((2 ^ 40 : Nat) : ℝ) := by exact_mod_cast hk
  push_cast at this
  exact_mod_cast this

/-- Sums. -/
theorem Spec.Double.ssum {s e : Int} (he : e ≤ 900) (w : List (Fl F.r)) (hw : ∀ a ∈ w, Add F s e a.val)
    (hl : w.length ≤ 2 ^ 40) :
    Convst.ssum (w.map Fl.ieee) = (Fl.ieee (Convst.ssum w) : Ieee F) ∧ (Convst.ssum w).val ∈ F.grid ∧
      Mult s (Convst.ssum w).val ∧ |(Convst.ssum w).val| ≤ w.length * (2 : ℝ) ^ e := by
  induction w using List.reverseRecOn with
  | nil => exact ⟨rfl, F.grid_zero, Mult.zero s, by simp [Convst.ssum]⟩
  | append_singleton w a ih =>
    rw [List.length_append, List.length_singleton] at hl
    obtain ⟨i1, i2, i3, i4⟩ := ih (fun b hb => hw b (by simp [hb])) (by omega)
    obtain ⟨a1, a2, a3⟩ := hw a (by simp)
    have hle : |(Convst.ssum w).val + a.val| ≤ ((w.length + 1 : Nat) : ℝ) * (2 : ℝ) ^ e := by
      refine (abs_add_le _ _).trans ?_
      push_cast
      linarith
    have hle' := hle.trans (hD.nat_le (show w.length + 1 ≤ 2 ^ 40 from hl) (e := e))
    obtain ⟨o1, o2⟩ := hD.over_add i2 a1 (hle'.trans (two_le (by omega)))
    have e1 : Convst.ssum (w ++ [a]) = Convst.ssum w + a := by simp [Convst.ssum]
    have e2 : Convst.ssum ((w ++ [a]).map (Fl.ieee (F := F))) = Convst.ssum (w.map Fl.ieee) + Fl.ieee a := by
      simp [Convst.ssum]
    rw [e2, i1, e1]
    refine ⟨o1, o2, hD.mult (i3.add a2), ?_⟩
    rw [List.length_append, List.length_singleton]
    exact hD.le_nat (by omega) hle

theorem Spec.Double.nat {n : Nat} (h : n ≤ 2 ^ 53) : F.r.rnd n = n := by
  have := hD.fix n 0 (by rw [abs_of_nonneg (by positivity)]; exact_mod_cast h)
  simpa using this

theorem Spec.Double.ofNat {n : Nat} (h : n ≤ 2 ^ 53) : (Scalar.ofNat n : Ieee F) = fin n := by
  show Ieee.over (F.rnd n) = _
  rw [F.rnd_nat, hD.nat h]
  apply over_fin
  rw [hD.top, abs_of_nonneg (by positivity)]
  have h1 : (n : ℝ) ≤ ((2 ^ 53 : Nat) : ℝ) := by exact_mod_cast h
  push_cast at h1
  calc (n : ℝ) ≤ (2 : ℝ) ^ (53 : Int) := by exact_mod_cast h1
    _ < _ := two_lt (by norm_num)

/-- Means. -/
theorem Spec.Double.mean {s e : Int} (he : e ≤ 900) (hs : -900 ≤ s) (w : List (Fl F.r)) (hw : ∀ a ∈ w, Add F s e a.val)
    (hl : w.length ≤ 2 ^ 40) (hne : w ≠ []) :
    Convst.mean (w.map Fl.ieee) = (Fl.ieee (Convst.mean w) : Ieee F) ∧ Add F (s - 92) e (Convst.mean w).val ∧
      ((Convst.mean w).val = 0 ∨ (2 : ℝ) ^ (s - 40) ≤ |(Convst.mean w).val|) := by
  obtain ⟨i1, i2, i3, i4⟩ := hD.ssum he w hw hl
  have hn : 0 < w.length := List.length_pos_of_ne_nil hne
  have hn' : (0 : ℝ) < w.length := by exact_mod_cast hn
  have hlow : (Convst.ssum w).val / w.length = 0 ∨ (2 : ℝ) ^ (s - 40) ≤ |(Convst.ssum w).val / w.length| := by
    rcases i3.ge with h | h
    · left; rw [h]; simp
    · right
      rw [abs_div, abs_of_pos hn', le_div_iff₀ hn', mul_comm]
      refine (hD.nat_le hl).trans ?_
      rwa [sub_add_cancel]
  have hhigh : |(Convst.ssum w).val / w.length| ≤ (2 : ℝ) ^ e := by
    rw [abs_div, abs_of_pos hn', div_le_iff₀ hn', mul_comm]
    exact i4
  obtain ⟨o1, o2⟩ := hD.over (hlow.imp_right fun h => (two_le (by omega)).trans h) (hhigh.trans (two_le (by omega)))
  have e1 : (Convst.mean w).val = F.r.rnd ((Convst.ssum w).val / w.length) := by
    show F.r.rnd ((Convst.ssum w).val / F.r.rnd w.length) = _
    rw [hD.nat (by omega)]
  have e2 : Convst.mean (w.map (Fl.ieee (F := F))) = Ieee.over (F.rnd ((Convst.ssum w).val / w.length)) := by
    show Convst.ssum (w.map Fl.ieee) / Scalar.ofNat (w.map (Fl.ieee (F := F))).length = _
    rw [i1, List.length_map, hD.ofNat (by omega)]
    show (if (w.length : ℝ) = 0 then _ else _) = _
    rw [if_neg hn'.ne']
    rfl
  have hz : (Convst.mean w).val = 0 ∨ (2 : ℝ) ^ (s - 40) ≤ |(Convst.mean w).val| := by
    rw [e1]
    rcases hlow with h | h
    · left; rw [h]; exact F.r.zero
    · right; exact hD.ge h
  refine ⟨by rw [e2, o1, ← e1]; rfl, ⟨by rw [e1]; exact o2, ?_, by rw [e1]; exact hD.le hhigh⟩, hz⟩
  rw [e1]
  rcases hlow with h | h
  · rw [h, F.r.zero]; exact Mult.zero _
  · obtain ⟨N, hN⟩ := hD.digits _ _ h
    exact ⟨N, by rw [hN]; congr 2; omega⟩

theorem Spec.Double.ssum_nonneg (w : List (Fl F.r)) (hw : ∀ a ∈ w, 0 ≤ a.val) : 0 ≤ (Convst.ssum w).val := by
  induction w using List.reverseRecOn with
  | nil => exact le_rfl
  | append_singleton w a ih =>
    have e1 : Convst.ssum (w ++ [a]) = Convst.ssum w + a := by simp [Convst.ssum]
    rw [e1]
    exact F.r.nonneg (add_nonneg (ih fun b hb => hw b (by simp [hb])) (hw a (by simp)))

/-- Multiplying two numbers that are zero or not too small. -/
theorem mul_self_ge {s : Int} {d : ℝ} (h : d = 0 ∨ (2 : ℝ) ^ s ≤ |d|) : d * d = 0 ∨ (2 : ℝ) ^ (s + s) ≤ |d * d| := by
  rcases h with rfl | h
  · left; simp
  · right
    rw [abs_mul, two_add]
    exact mul_le_mul h h (two_pos s).le (abs_nonneg _)

/-- The deviations from the mean. -/
theorem Spec.Double.dev {w : List (Fl F.r)} (hw : ∀ a ∈ w, Add F (-300) 300 a.val) (hl : w.length ≤ 2 ^ 40) (hne : w ≠ [])
    {a : Fl F.r} (ha : a ∈ w) :
    (Fl.ieee a - Convst.mean (w.map Fl.ieee) : Ieee F) = Fl.ieee (a - Convst.mean w) ∧
      Add F (-392) 301 (a - Convst.mean w).val := by
  obtain ⟨m1, m2, -⟩ := hD.mean (s := -300) (e := 300) (by norm_num) (by norm_num) w hw hl hne
  obtain ⟨a1, a2, a3⟩ := hw a ha
  have hle : |a.val + -(Convst.mean w).val| ≤ (2 : ℝ) ^ (301 : Int) := by
    refine (abs_add_le _ _).trans ?_
    rw [abs_neg, show (301 : Int) = 300 + 1 by norm_num, two_succ]
    exact add_le_add a3 m2.le
  obtain ⟨o1, o2⟩ := hD.over_add a1 (F.grid_neg _ m2.grid) (hle.trans (two_le (by norm_num)))
  have e : (a - Convst.mean w).val = F.r.rnd (a.val + -(Convst.mean w).val) := by
    rw [fl_sub, sub_eq_add_neg]
  refine ⟨?_, ⟨by rw [e]; exact o2, ?_, by rw [e]; exact hD.le hle⟩⟩
  · rw [m1]
    refine o1.trans ?_
    rw [← e]; rfl
  · rw [fl_sub]
    exact hD.mult ((a2.mono (by norm_num)).sub (m2.mult.mono (by norm_num)))

/-- The squares of the deviations. -/
theorem Spec.Double.sq {w : List (Fl F.r)} (hw : ∀ a ∈ w, Add F (-300) 300 a.val) (hl : w.length ≤ 2 ^ 40) (hne : w ≠ [])
    {a : Fl F.r} (ha : a ∈ w) :
    ((Fl.ieee a - Convst.mean (w.map Fl.ieee)) * (Fl.ieee a - Convst.mean (w.map Fl.ieee)) : Ieee F) =
        Fl.ieee ((a - Convst.mean w) * (a - Convst.mean w)) ∧
      Add F (-836) 602 ((a - Convst.mean w) * (a - Convst.mean w)).val ∧
      0 ≤ ((a - Convst.mean w) * (a - Convst.mean w)).val := by
  obtain ⟨d1, d2⟩ := hD.dev hw hl hne ha
  rw [d1]
  set d := a - Convst.mean w
  have hlow := mul_self_ge hD d2.mult.ge
  have hhigh : |d.val * d.val| ≤ (2 : ℝ) ^ (602 : Int) := by
    rw [abs_mul, show (602 : Int) = 301 + 301 by norm_num, two_add]
    exact mul_le_mul d2.le d2.le (abs_nonneg _) (two_pos _).le
  obtain ⟨o1, o2⟩ := hD.over (hlow.imp_right fun h => (two_le (by norm_num)).trans h)
    (hhigh.trans (two_le (by norm_num)))
  refine ⟨o1, ⟨o2, ?_, hD.le hhigh⟩, F.r.nonneg (mul_self_nonneg _)⟩
  rw [fl_mul]
  rcases hlow with h | h
  · rw [h, F.r.zero]; exact Mult.zero _
  · obtain ⟨N, hN⟩ := hD.digits _ _ h
    exact Mult.mono ⟨N, hN⟩ (by norm_num)

theorem eps_bounds : (2 : ℝ) ^ (-27 : Int) ≤ |1 / 10 ^ 8| ∧ |(1 : ℝ) / 10 ^ 8| ≤ (2 : ℝ) ^ (-26 : Int) := by
  rw [abs_of_nonneg (by positivity)]
  constructor <;> norm_num

/-- The standard deviation plus `1e-8`. -/
theorem Spec.Double.std {w : List (Fl F.r)} (hw : ∀ a ∈ w, Add F (-300) 300 a.val) (hl : w.length ≤ 2 ^ 40) (hne : w ≠ []) :
    (Convst.std (w.map Fl.ieee) + Scalar.eps : Ieee F) = Fl.ieee (Convst.std w + Scalar.eps) ∧
      (2 : ℝ) ^ (-27 : Int) ≤ (Convst.std w + Scalar.eps).val ∧ (Convst.std w + Scalar.eps).val ≤ (2 : ℝ) ^ (302 : Int) := by
  set sq : List (Fl F.r) := w.map fun v => (v - Convst.mean w) * (v - Convst.mean w) with hsq
  have hadd : ∀ a ∈ sq, Add F (-836) 602 a.val := by
    intro a ha
    obtain ⟨v, hv, rfl⟩ := List.mem_map.1 ha
    exact (hD.sq hw hl hne hv).2.1
  have hnn : ∀ a ∈ sq, 0 ≤ a.val := by
    intro a ha
    obtain ⟨v, hv, rfl⟩ := List.mem_map.1 ha
    exact (hD.sq hw hl hne hv).2.2
  have hmap : (w.map (Fl.ieee (F := F))).map (fun v => (v - Convst.mean (w.map Fl.ieee)) * (v - Convst.mean (w.map Fl.ieee))) =
      sq.map Fl.ieee := by
    rw [hsq, List.map_map, List.map_map]
    apply List.map_congr_left
    intro v hv
    exact (hD.sq hw hl hne hv).1
  have hne' : sq ≠ [] := by simpa [hsq] using hne
  obtain ⟨v1, v2, v3⟩ := hD.mean (s := -836) (e := 602) (by norm_num) (by norm_num) sq hadd (by simpa [hsq] using hl) hne'
  have v4 : 0 ≤ (Convst.mean sq).val := by
    show 0 ≤ F.r.rnd ((Convst.ssum sq).val / F.r.rnd sq.length)
    exact F.r.nonneg (div_nonneg (hD.ssum_nonneg sq hnn) (F.r.nonneg (by positivity)))
  set v := (Convst.mean sq).val with hv
  -- the square root
  have s1 : |Real.sqrt v| ≤ (2 : ℝ) ^ (301 : Int) := by
    rw [abs_of_nonneg (Real.sqrt_nonneg _)]
    apply Real.sqrt_le_iff.2 ⟨(two_pos _).le, ?_⟩
    have := v2.le
    rw [abs_of_nonneg v4] at this
    refine this.trans (le_of_eq ?_)
    rw [← zpow_natCast, ← zpow_mul]; norm_num
  have s2 : Real.sqrt v = 0 ∨ (2 : ℝ) ^ (-438 : Int) ≤ |Real.sqrt v| := by
    rcases v3 with h | h
    · left; rw [h]; exact Real.sqrt_zero
    · right
      rw [abs_of_nonneg (Real.sqrt_nonneg _)]
      apply Real.le_sqrt_of_sq_le
      rw [abs_of_nonneg v4] at h
      refine le_trans (le_of_eq ?_) h
      rw [← zpow_natCast, ← zpow_mul]; norm_num
  obtain ⟨o1, o2⟩ := hD.over (s2.imp_right fun h => (two_le (by norm_num)).trans h) (s1.trans (two_le (by norm_num)))
  have e1 : (Convst.std w).val = F.r.rnd (Real.sqrt v) := rfl
  have e2 : Convst.std (w.map (Fl.ieee (F := F))) = fin (Convst.std w).val := by
    unfold Convst.std
    simp only
    rw [hmap, v1]
    show (if v < 0 then _ else _) = _
    rw [if_neg (not_lt.2 v4)]
    exact o1
  -- `1e-8`
  obtain ⟨p1, p2⟩ := eps_bounds hD
  obtain ⟨q1, q2⟩ := hD.over (Or.inr ((two_le (by norm_num)).trans p1)) (p2.trans (two_le (by norm_num)))
  have e3 : (Scalar.eps : Ieee F) = fin (Scalar.eps : Fl F.r).val := q1
  have e4 : (2 : ℝ) ^ (-27 : Int) ≤ (Scalar.eps : Fl F.r).val := by
    have h1 := hD.ge p1
    rwa [abs_of_nonneg (F.r.nonneg (by positivity))] at h1
  have e5 : (Scalar.eps : Fl F.r).val ≤ (2 : ℝ) ^ (301 : Int) := by
    have h1 := hD.le p2
    rw [abs_of_nonneg (F.r.nonneg (by positivity))] at h1
    exact h1.trans (two_le (by norm_num))
  have f1 : 0 ≤ (Convst.std w).val := F.r.nonneg (Real.sqrt_nonneg _)
  have f2 : (Convst.std w).val ≤ (2 : ℝ) ^ (301 : Int) := by
    have h1 := hD.le s1
    rwa [abs_of_nonneg (F.r.nonneg (Real.sqrt_nonneg _))] at h1
  have g0 : 0 ≤ (Convst.std w).val + (Scalar.eps : Fl F.r).val := by linarith [two_pos (-27)]
  have g1 : |(Convst.std w).val + (Scalar.eps : Fl F.r).val| ≤ (2 : ℝ) ^ (302 : Int) := by
    rw [abs_of_nonneg g0, show (302 : Int) = 301 + 1 by norm_num, two_succ]
    exact add_le_add f2 e5
  have g2 : (2 : ℝ) ^ (-27 : Int) ≤ |(Convst.std w).val + (Scalar.eps : Fl F.r).val| := by
    rw [abs_of_nonneg g0]; linarith
  obtain ⟨t1, -⟩ := hD.over_add (e1 ▸ o2) q2 (g1.trans (two_le (by norm_num)))
  have e6 : (Convst.std w + Scalar.eps).val = F.r.rnd ((Convst.std w).val + (Scalar.eps : Fl F.r).val) := rfl
  refine ⟨by rw [e2, e3]; exact t1, ?_, ?_⟩
  · have := hD.ge g2
    rwa [abs_of_nonneg (F.r.nonneg g0), ← e6] at this
  · have := hD.le g1
    rwa [abs_of_nonneg (F.r.nonneg g0), ← e6] at this

/-- Normalised windows. -/
theorem Spec.Double.znorm {w : List (Fl F.r)} (hw : ∀ a ∈ w, Add F (-300) 300 a.val) (hl : w.length ≤ 2 ^ 40) (hne : w ≠ []) :
    Convst.znorm (w.map Fl.ieee) = ((Convst.znorm w).map Fl.ieee : List (Ieee F)) ∧
      ∀ a ∈ Convst.znorm w, MildAt F 328 a.val := by
  obtain ⟨s1, s2, s3⟩ := hD.std hw hl hne
  set t := Convst.std w + Scalar.eps with ht
  have t0 : 0 < t.val := lt_of_lt_of_le (two_pos _) s2
  have key : ∀ a ∈ w, ((Fl.ieee a - Convst.mean (w.map Fl.ieee)) / (Convst.std (w.map Fl.ieee) + Scalar.eps) : Ieee F) =
      Fl.ieee ((a - Convst.mean w) / t) ∧ MildAt F 328 ((a - Convst.mean w) / t).val := by
    intro a ha
    obtain ⟨d1, d2⟩ := hD.dev hw hl hne ha
    rw [d1, s1]
    set d := a - Convst.mean w
    have hlow : d.val / t.val = 0 ∨ (2 : ℝ) ^ (-694 : Int) ≤ |d.val / t.val| := by
      rcases d2.mult.ge with h | h
      · left; rw [h]; simp
      · right
        rw [abs_div, abs_of_pos t0, le_div_iff₀ t0]
        refine le_trans ?_ h
        calc (2 : ℝ) ^ (-694 : Int) * t.val ≤ (2 : ℝ) ^ (-694 : Int) * (2 : ℝ) ^ (302 : Int) :=
              mul_le_mul_of_nonneg_left s3 (two_pos _).le
          _ = _ := by rw [← two_add]; norm_num
    have hhigh : |d.val / t.val| ≤ (2 : ℝ) ^ (328 : Int) := by
      rw [abs_div, abs_of_pos t0, div_le_iff₀ t0]
      refine d2.le.trans ?_
      calc (2 : ℝ) ^ (301 : Int) = (2 : ℝ) ^ (328 : Int) * (2 : ℝ) ^ (-27 : Int) := by rw [← two_add]; norm_num
        _ ≤ _ := mul_le_mul_of_nonneg_left s2 (two_pos _).le
    obtain ⟨o1, o2⟩ := hD.over (hlow.imp_right fun h => (two_le (by norm_num)).trans h)
      (hhigh.trans (two_le (by norm_num)))
    refine ⟨?_, o2, hD.le hhigh⟩
    show (if t.val = 0 then _ else _) = _
    rw [if_neg t0.ne']
    exact o1
  constructor
  · unfold Convst.znorm
    simp only
    rw [List.map_map, List.map_map]
    apply List.map_congr_left
    intro a ha
    exact (key a ha).1
  · intro a ha
    obtain ⟨v, hv, rfl⟩ := List.mem_map.1 ha
    exact (key v hv).2

theorem Spec.Double.moderate {x : ℝ} (h : Moderate F x) : Add F (-300) 300 x := by
  obtain ⟨h1, h2, h3⟩ := h
  rcases h2 with rfl | h2
  · exact ⟨F.grid_zero, Mult.zero _, h3⟩
  refine ⟨?_, ?_, h3⟩
  · rw [← h1, ← hD.normal x ((two_le (by norm_num)).trans h2)]
    exact F.rnd_grid x
  · obtain ⟨N, hN⟩ := hD.digits x _ h2
    rw [h1] at hN
    exact Mult.mono ⟨N, hN⟩ (by norm_num)

theorem Spec.Double.mild {x : ℝ} (h : Moderate F x) : Mild F x :=
  ⟨(hD.moderate h).grid, h.2.2.trans (two_le (by norm_num))⟩

theorem Spec.Double.mildAt {x : ℝ} (h : Moderate F x) : MildAt F 328 x :=
  ⟨(hD.moderate h).grid, h.2.2.trans (two_le (by norm_num))⟩

/-- Sums of terms computed one by one. -/
theorem Spec.Double.foldl {e : Int} (he : e ≤ 900) {f : Nat → Ieee F} {g : Nat → Fl F.r} (is : List Nat)
    (h : ∀ j ∈ is, f j = Fl.ieee (g j) ∧ (g j).val ∈ F.grid ∧ |(g j).val| ≤ (2 : ℝ) ^ e) (hl : is.length ≤ 2 ^ 40) :
    is.foldl (fun s j => s + f j) 0 = (Fl.ieee (is.foldl (fun s j => s + g j) 0) : Ieee F) ∧
      (is.foldl (fun s j => s + g j) 0).val ∈ F.grid ∧
      |(is.foldl (fun s j => s + g j) 0).val| ≤ is.length * (2 : ℝ) ^ e := by
  induction is using List.reverseRecOn with
  | nil => exact ⟨rfl, F.grid_zero, by simp⟩
  | append_singleton is j ih =>
    rw [List.length_append, List.length_singleton] at hl
    obtain ⟨i1, i2, i4⟩ := ih (fun b hb => h b (by simp [hb])) (by omega)
    obtain ⟨a1, a2, a3⟩ := h j (by simp)
    simp only [List.foldl_append, List.foldl_cons, List.foldl_nil, List.length_append, List.length_singleton]
    set t := is.foldl (fun s j => s + g j) 0
    have hle : |t.val + (g j).val| ≤ ((is.length + 1 : Nat) : ℝ) * (2 : ℝ) ^ e := by
      refine (abs_add_le _ _).trans ?_
      push_cast
      linarith
    have hle' := hle.trans (hD.nat_le (show is.length + 1 ≤ 2 ^ 40 from hl) (e := e))
    obtain ⟨o1, o2⟩ := hD.over_add i2 a2 (hle'.trans (two_le (by omega)))
    rw [i1, a1]
    exact ⟨o1, o2, hD.le_nat (by omega) hle⟩

theorem mild_getD {e : Int} {w : List (Fl F.r)} (h : ∀ a ∈ w, MildAt F e a.val) (j : Nat) :
    MildAt F e (w.getD j 0).val := by
  rw [List.getD_eq_getElem?_getD]
  cases e' : w[j]? with
  | none => exact ⟨F.grid_zero, by simpa using (two_pos e).le⟩
  | some a => exact h a (List.mem_of_getElem? e')

/-- Distances of one channel. -/
theorem Spec.Double.l1 {e : Int} (he : e ≤ 800) {w v : List (Fl F.r)} (hw : ∀ a ∈ w, MildAt F e a.val) (hv : ∀ a ∈ v, MildAt F e a.val)
    (hl : w.length ≤ 2 ^ 40) :
    Spec.l1 (w.map Fl.ieee) (v.map Fl.ieee) = (Fl.ieee (Spec.l1 w v) : Ieee F) ∧ (Spec.l1 w v).val ∈ F.grid ∧
      |(Spec.l1 w v).val| ≤ (2 : ℝ) ^ (e + 41) := by
  have h := hD.foldl (e := e + 1) (by omega)
    (f := fun j => Scalar.abs ((w.map (Fl.ieee (F := F))).getD j 0 - (v.map Fl.ieee).getD j 0))
    (g := fun j => Scalar.abs (w.getD j 0 - v.getD j 0)) (List.range w.length) (by
      intro j _
      obtain ⟨w1, w2⟩ := mild_getD hD hw j
      obtain ⟨v1, v2⟩ := mild_getD hD hv j
      have hle : |(w.getD j 0).val + -(v.getD j 0).val| ≤ (2 : ℝ) ^ (e + 1) := by
        refine (abs_add_le _ _).trans ?_
        rw [abs_neg, two_succ]
        exact add_le_add w2 v2
      obtain ⟨o1, o2⟩ := hD.over_add w1 (F.grid_neg _ v1) (hle.trans (two_le (by omega)))
      have e' : (w.getD j 0 - v.getD j 0).val = F.r.rnd ((w.getD j 0).val + -(v.getD j 0).val) := by
        rw [fl_sub, sub_eq_add_neg]
      refine ⟨?_, ?_, ?_⟩
      · show Scalar.abs _ = _
        rw [ieee_getD, ieee_getD]
        show Ieee.abs (Ieee.over (F.rnd ((w.getD j 0).val + -(v.getD j 0).val))) = _
        rw [o1, ← e']
        rfl
      · rw [fl_abs, e']
        rcases abs_choice (F.r.rnd ((w.getD j 0).val + -(v.getD j 0).val)) with h | h <;> rw [h]
        · exact o2
        · exact F.grid_neg _ o2
      · rw [fl_abs, abs_abs, e']
        exact hD.le hle) (by rw [List.length_range]; exact hl)
  rw [List.length_range] at h
  obtain ⟨h1, h2, h3⟩ := h
  refine ⟨?_, h2, (h3.trans (hD.nat_le hl)).trans (two_le (by omega))⟩
  unfold Spec.l1
  rw [List.length_map]
  exact h1

theorem window_ieee (phase : Bool) (x : List (Fl F.r)) (l d i : Nat) :
    window phase (x.map (Fl.ieee (F := F))) l d i = (window phase x l d i).map Fl.ieee := by
  unfold window
  rw [List.map_map]
  apply List.map_congr_left
  intro j _
  rw [Function.comp_apply, List.length_map, ieee_getD]
  rfl

theorem window_moderate {phase : Bool} {x : List (Fl F.r)} (hx : ∀ a ∈ x, Moderate F a.val) {l d i : Nat} :
    ∀ a ∈ window phase x l d i, Moderate F a.val := by
  intro a ha
  obtain ⟨j, -, rfl⟩ := List.mem_map.1 ha
  rw [List.getD_eq_getElem?_getD]
  cases e : x[pos phase x.length d i j]? with
  | none => exact ⟨F.r.zero, Or.inl rfl, by simpa using (two_pos 300).le⟩
  | some a => exact hx a (List.mem_of_getElem? e)

/-- Windows, normalised or not. -/
theorem Spec.Double.seen {phase : Bool} {x : List (Fl F.r)} (hx : ∀ a ∈ x, Moderate F a.val) {l d i : Nat}
    (hl : l ≤ 2 ^ 40) (norm : Bool) :
    Spec.seen norm (window phase (x.map (Fl.ieee (F := F))) l d i) =
        (Spec.seen norm (window phase x l d i)).map Fl.ieee ∧
      (∀ a ∈ Spec.seen norm (window phase x l d i), MildAt F 328 a.val) ∧
      (Spec.seen norm (window phase x l d i)).length ≤ 2 ^ 40 := by
  rw [window_ieee hD]
  have hwl : (window phase x l d i).length = l := window_length _ _ _ _ _
  have hm := window_moderate hD hx (phase := phase) (l := l) (d := d) (i := i)
  cases norm with
  | false => exact ⟨rfl, fun a ha => hD.mildAt (hm a ha), by rw [← hwl] at hl; exact hl⟩
  | true =>
    show Convst.znorm _ = (Convst.znorm _).map _ ∧ (∀ a ∈ Convst.znorm _, _) ∧ (Convst.znorm _).length ≤ _
    refine ⟨?_, ?_, by rw [znorm_length, hwl]; exact hl⟩
    · by_cases hne : window phase x l d i = []
      · rw [hne]; rfl
      · exact (hD.znorm (fun a ha => hD.moderate (hm a ha)) (by rw [hwl]; exact hl) hne).1
    · by_cases hne : window phase x l d i = []
      · rw [hne]; intro a ha; simp [Convst.znorm] at ha
      · exact (hD.znorm (fun a ha => hD.moderate (hm a ha)) (by rw [hwl]; exact hl) hne).2

theorem Spec.Double.uDistances (phase : Bool) (S : UShp (Fl F.r)) {x : List (Fl F.r)} (hx : ∀ a ∈ x, Moderate F a.val)
    {k : Nat} (hl : S.lengths.getD k 0 ≤ 2 ^ 40) (hv : ∀ a ∈ uValues S k, Mild F a.val) :
    Spec.uDistances phase S.ieee (x.map Fl.ieee) k = (Spec.uDistances phase S x k).map (Fl.ieee (F := F)) := by
  unfold Spec.uDistances distances
  rw [List.map_map, List.length_map, ieee_values]
  apply List.map_congr_left
  intro i _
  obtain ⟨s1, s2, s3⟩ := hD.seen hx hl (S.normalize.getD k false) (phase := phase) (d := S.dilations.getD k 0) (i := i)
  show Spec.l1 (Spec.seen (S.normalize.getD k false) (window phase (x.map Fl.ieee) (S.lengths.getD k 0)
    (S.dilations.getD k 0) i)) _ = _
  rw [s1]
  exact (hD.l1 (by norm_num) (fun a ha => (s2 a ha).mono (f := 400) (by norm_num)) hv s3).1

theorem Spec.Double.mDistances (phase : Bool) (S : MShp (Fl F.r)) {x : List (List (Fl F.r))} {T : Nat}
    (hx : ∀ row ∈ x, ∀ a ∈ row, Moderate F a.val) {k : Nat} (hl : S.lengths.getD k 0 ≤ 2 ^ 40)
    (hc : (mChannels S k).length ≤ 2 ^ 40) (hv : ∀ c, ∀ a ∈ mValues S k c, Mild F a.val) :
    Spec.mDistances phase S.ieee (x.map fun row => row.map Fl.ieee) T k =
      (Spec.mDistances phase S x T k).map (Fl.ieee (F := F)) := by
  unfold Spec.mDistances
  rw [List.map_map]
  apply List.map_congr_left
  intro i _
  have h := hD.foldl (e := 441) (by norm_num)
    (f := fun c => Spec.l1 (Spec.seen (S.normalize.getD k false) (window phase
      ((x.map fun row => row.map (Fl.ieee (F := F))).getD ((mChannels S k).getD c 0) []) (S.lengths.getD k 0)
        (S.dilations.getD k 0) i)) (mValues S.ieee k c))
    (g := fun c => Spec.l1 (Spec.seen (S.normalize.getD k false) (window phase (x.getD ((mChannels S k).getD c 0) [])
      (S.lengths.getD k 0) (S.dilations.getD k 0) i)) (mValues S k c)) (List.range (mChannels S k).length) (by
      intro c _
      have hrow : ∀ a ∈ x.getD ((mChannels S k).getD c 0) [], Moderate F a.val := by
        intro a ha
        rw [List.getD_eq_getElem?_getD] at ha
        cases e : x[(mChannels S k).getD c 0]? with
        | none => rw [e] at ha; simp at ha
        | some row => rw [e] at ha; exact hx row (List.mem_of_getElem? e) a ha
      obtain ⟨s1, s2, s3⟩ := hD.seen hrow hl (S.normalize.getD k false) (phase := phase)
        (d := S.dilations.getD k 0) (i := i)
      have e : (x.map fun row => row.map (Fl.ieee (F := F))).getD ((mChannels S k).getD c 0) [] =
          (x.getD ((mChannels S k).getD c 0) []).map Fl.ieee := by
        generalize (mChannels S k).getD c 0 = j
        rw [List.getD_eq_getElem?_getD, List.getD_eq_getElem?_getD, List.getElem?_map]
        cases x[j]? <;> rfl
      beta_reduce
      rw [e, s1, ieee_mValues]
      exact hD.l1 (e := 400) (by norm_num) (fun a ha => (s2 a ha).mono (by norm_num)) (hv c) s3) (by rw [List.length_range]; exact hc)
  exact h.1

/-- The scan. -/
theorem scanMin_ieee (D : List (Fl F.r)) (i : Nat) (m : Fl F.r) (a : Nat) :
    scanMin (D.map (Fl.ieee (F := F))) i (Fl.ieee m) a =
      (Fl.ieee (scanMin D i m a).1, (scanMin D i m a).2) := by
  induction D generalizing i m a with
  | nil => rfl
  | cons y D ih =>
    have e1 : Scalar.ltb (Fl.ieee y : Ieee F) (Fl.ieee m) = Scalar.ltb y m := by
      rw [Bool.eq_iff_iff, fl_ltb]
      refine (show Scalar.ltb (Fl.ieee y : Ieee F) (Fl.ieee m) = decide (y.val < m.val) from ieee_ltb_fin _ _) ▸ ?_
      exact decide_eq_true_iff
    have e2 : Scalar.eqb (Fl.ieee m : Ieee F) (-1) = Scalar.eqb m (-1) := by
      rw [Bool.eq_iff_iff, fl_eqb]
      refine (show Scalar.eqb (Fl.ieee m : Ieee F) (-1) = decide (m.val = -1) from ieee_eqb_neg _) ▸ ?_
      exact decide_eq_true_iff
    rw [List.map_cons, scanMin, scanMin, e1, e2]
    split
    · exact ih _ _ _
    · exact ih _ _ _

theorem scanMin_pos (D : List (Fl F.r)) (i : Nat) (m : Fl F.r) (a : Nat) (h : a ≤ i) :
    (scanMin D i m a).2 ≤ i + D.length := by
  induction D generalizing i m a with
  | nil => simpa [scanMin] using h
  | cons y D ih =>
    rw [scanMin, List.length_cons]
    split
    · have := ih (i + 1) y i (by omega); omega
    · have := ih (i + 1) m a (by omega); omega

/-- The three features. -/
theorem Spec.Double.features {D : List (Fl F.r)} (hl : D.length ≤ 2 ^ 40) (thr : Fl F.r) :
    cells (Spec.features (D.map (Fl.ieee (F := F))) (Fl.ieee thr)) = (cells (Spec.features D thr)).map Fl.ieee := by
  have hs := scanMin_ieee hD D 0 (-1) 0
  have hm1 : (Fl.ieee (-1 : Fl F.r) : Ieee F) = -1 := rfl
  rw [hm1] at hs
  have hp := scanMin_pos hD D 0 (-1) 0 le_rfl
  have hof : ∀ n : Nat, n ≤ 2 ^ 40 → (Scalar.ofNat n : Ieee F) = Fl.ieee (Scalar.ofNat n : Fl F.r) := by
    intro n hn
    rw [hD.ofNat (by omega)]
    show Ieee.fin _ = Ieee.fin (F.r.rnd n)
    rw [hD.nat (by omega)]
  have hc : (D.map (Fl.ieee (F := F))).countP (fun x => Scalar.leb x (Fl.ieee thr)) =
      D.countP fun x => Scalar.leb x thr := by
    rw [List.countP_map]
    congr 1
    funext x
    rw [Function.comp_apply, Bool.eq_iff_iff, fl_leb]
    refine (show Scalar.leb (Fl.ieee x : Ieee F) (Fl.ieee thr) = decide (x.val ≤ thr.val) from ieee_leb_fin _ _) ▸ ?_
    exact decide_eq_true_iff
  unfold Spec.features
  rw [hs, hc, hof _ (by omega), hof _ ((List.countP_le_length).trans hl)]
  rfl

end

end Convst
