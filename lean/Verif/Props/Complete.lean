import Verif.Proofs.Complete
import Verif.Props.Fit

/-!
# Exactly which results `fit` can return

`Script` is the generator that reads its draws from arbitrary streams, so `∃ g0 gs : Script` says: for some
random outcomes.  The rules (`ParDrawn`, `GoodAt` of `Verif/Spec/Fit.lean`) mention neither generators nor
the code.
-/

set_option autoImplicit false
set_option linter.unusedSectionVars false

namespace Convst.Props
open Convst Spec

/-- One shapelet as a user sees it. -/
structure Shown where
  length : Nat
  dilation : Nat
  normalize : Bool
  threshold : ℝ
  channels : List Nat
  values : List ℝ

/-- The shapelets held in univariate arrays. -/
noncomputable def uShown (S : UShp ℝ) : List Shown :=
  (List.range S.lengths.length).map fun k => ⟨S.lengths.getD k 0, S.dilations.getD k 0,
    S.normalize.getD k false, S.threshold.getD k 0, [0], uValues S k⟩

/-- The shapelets held in multivariate arrays. -/
noncomputable def mShown (S : MShp ℝ) : List Shown :=
  (List.range S.lengths.length).map fun k => ⟨S.lengths.getD k 0, S.dilations.getD k 0,
    S.normalize.getD k false, S.threshold.getD k 0, mChannels S k,
    (List.range (S.nChannels.getD k 0)).flatMap (mValues S k)⟩

/-- The sampled shapelet `v` with the parameters of shapelet `i`. -/
def showOut (P : Par) (i : Nat) (v : Out ℝ) : Shown :=
  ⟨P.length i, P.dilation i, P.normalize i, v.threshold, v.channels, v.values⟩

open Classical in
/-- The sampled shapelets in order, without the identically zero ones. -/
noncomputable def uListed (P : Par) (out : Nat → Option (Out ℝ)) : List Shown :=
  (List.range P.n).filterMap fun i =>
    ((out i).filter fun v => decide (∃ x ∈ v.values, x ≠ 0)).map (showOut P i)

/-- The sampled shapelets in order. -/
def mListed (P : Par) (out : Nat → Option (Out ℝ)) : List Shown :=
  (List.range P.n).filterMap fun i => (out i).map (showOut P i)

/-- The list of shapelets `l` may be the result of `fit` on the training set `T` with the options `a`, where
`n` points are available: for some choice of lengths, dilations and flags that may be drawn, and some choice
of sources respecting the sampling rules, `l` lists the sampled shapelets in order, in the univariate case
without the identically zero ones. -/
def UAllowed {L : Type} (T : Train L) (a : FitArgs ℝ L) (n : Nat) (l : List Shown) : Prop :=
  ∃ (P : Par) (rec : Nat → Option Src) (out : Nat → Option (Out ℝ)), ParDrawn a n P ∧
    (∀ i, i < P.n → GoodAt T P (optOf a) false (fun _ => 1) rec out i) ∧
    l = uListed P out

/-- The same for multivariate data, shapelets using between 1 and `mc` channels. -/
def MAllowed {L : Type} (T : Train L) (a : FitArgs ℝ L) (n mc : Nat) (l : List Shown) : Prop :=
  ∃ (P : Par) (nch : Nat → Nat) (rec : Nat → Option Src) (out : Nat → Option (Out ℝ)), ParDrawn a n P ∧
    (∀ i, i < P.n → 1 ≤ nch i ∧ nch i ≤ mc) ∧
    (∀ i, i < P.n → GoodAt T P (optOf a) true nch rec out i) ∧
    l = mListed P out

/-! ## From arrays to lists of shapelets -/

theorem kept_eq {kept : List Nat} {n : Nat} {p : Nat → Bool} (h1 : kept.Pairwise (· < ·))
    (h2 : ∀ i, i ∈ kept ↔ i < n ∧ p i = true) : kept = (List.range n).filter p := by
  refine List.Perm.eq_of_pairwise' (r := (· < ·)) h1 (List.pairwise_lt_range.filter _) ?_
  rw [List.perm_ext_iff_of_nodup (h1.imp fun h => Nat.ne_of_lt h) ((List.nodup_range).filter _)]
  intro i
  rw [h2, List.mem_filter, List.mem_range]

theorem map_kept {α : Type} {kept : List Nat} {n : Nat} {f : Nat → α} {g : Nat → Option α}
    (h1 : kept.Pairwise (· < ·)) (h2 : ∀ i, i ∈ kept ↔ i < n ∧ (g i).isSome = true)
    (h3 : ∀ k i : Nat, kept[k]? = some i → g i = some (f k)) :
    (List.range kept.length).map f = (List.range n).filterMap g := by
  have e : (List.range n).filterMap g = kept.filterMap g := by
    rw [kept_eq h1 h2, List.filterMap_filter]
    congr 1
    funext i
    cases g i <;> simp
  rw [e]
  apply List.ext_getElem?
  intro k
  have e2 : kept.filterMap g = (List.range kept.length).map f := by
    clear e h1 h2
    induction kept using List.reverseRecOn with
    | nil => rfl
    | append_singleton l x ih =>
      rw [List.filterMap_append, ih fun k i hk => h3 k i (by
        rw [List.getElem?_append_left (by
          rw [← not_le]; intro h; rw [List.getElem?_eq_none h] at hk; simp at hk)]; exact hk)]
      have := h3 l.length x (by simp)
      rw [List.length_append, List.length_singleton, List.range_succ, List.map_append]
      simp [this]
  rw [e2]

theorem getD_of_some {α : Type} {l : List α} {k : Nat} {x : α} (h : l[k]? = some x) (d : α) :
    l.getD k d = x := by
  rw [List.getD_eq_getElem?_getD, h]; rfl

theorem goodAt_channels {L : Type} {T : Train L} {P : Par} {o : Opt} {nch : Nat → Nat}
    {rec : Nat → Option Src} {out : Nat → Option (Out ℝ)} {i : Nat}
    (h : GoodAt T P o false nch rec out i) {v : Out ℝ} (hv : out i = some v) : v.channels = [0] := by
  obtain ⟨ch, hch, ⟨-, h2, -⟩ | ⟨r, v', -, h2, h3, -, h5⟩⟩ := h
  · rw [h2] at hv; simp at hv
  · rw [h2] at hv; obtain rfl := Option.some.inj hv
    rw [h5.channels, h3]
    simpa [ChannelsOK] using hch

theorem uShown_eq {L : Type} {T : Train L} {a : FitArgs ℝ L} {n : Nat} {P : Par} {rec : Nat → Option Src}
    {out : Nat → Option (Out ℝ)} {kept : List Nat} {S : UShp ℝ} (h : UFitted T a n P rec out kept S) :
    uShown S = uListed P out := by
  classical
  unfold uShown uListed
  rw [h.from_.count]
  refine map_kept h.from_.sorted ?_ ?_
  · intro i
    rw [h.from_.mem]
    refine and_congr_right fun _ => ?_
    rw [Option.isSome_map]
    cases out i with
    | none => simp
    | some v => simp [Option.filter]
  · intro k i hk
    have hi := (h.from_.mem i).1 (List.mem_of_getElem? hk)
    obtain ⟨v, hv, hval, ht⟩ := h.from_.shapelet k i hk
    obtain ⟨hlt, v', hv', hx⟩ := hi
    rw [hv] at hv'
    obtain rfl := Option.some.inj hv'
    rw [hv, Option.filter_some, if_pos (by simpa using hx), Option.map_some]
    unfold showOut
    rw [getD_of_some (h.from_.lengths k i hk), getD_of_some (h.from_.dilations k i hk),
      getD_of_some (h.from_.normalize k i hk), getD_of_some ht, hval, goodAt_channels (h.good i hlt) hv]

theorem mShown_eq {L : Type} {T : Train L} {a : FitArgs ℝ L} {n mc : Nat} {P : Par} {nch : Nat → Nat}
    {rec : Nat → Option Src} {out : Nat → Option (Out ℝ)} {kept : List Nat} {S : MShp ℝ}
    (h : MFitted T a n mc P nch rec out kept S) : mShown S = mListed P out := by
  unfold mShown mListed
  rw [h.from_.count]
  refine map_kept h.from_.sorted ?_ ?_
  · intro i
    rw [h.from_.mem]
    refine and_congr_right fun _ => ?_
    rw [Option.isSome_map, Option.isSome_iff_exists]
  · intro k i hk
    obtain ⟨v, hv, hch, hval, ht⟩ := h.from_.shapelet k i hk
    rw [hv, Option.map_some]
    unfold showOut
    rw [getD_of_some (h.from_.lengths k i hk), getD_of_some (h.from_.dilations k i hk),
      getD_of_some (h.from_.normalize k i hk), getD_of_some ht, hval, hch]


/-! ## C79 -/

section
variable {G L : Type} [Gen G ℝ] [LawfulGen G] [DecidableEq L]

/-- **C79.** Univariate data of equal length: for every generator and every schedule, `fit` returns a list of
shapelets the rules allow. -/
theorem C79_sound_same_length {a : FitArgs ℝ L} (hv : ValidSL a)
    (g0 : G) (gs : Nat → G) {order : Nat → List Nat} (ho : IsSchedule order) :
    ∃ S, uslGenerate a g0 gs order = .ok S ∧ UAllowed (trainSL a) a a.nt (uShown S) := by
  obtain ⟨P, rec, out, kept, S, h, hS⟩ := uslGenerate_spec hv g0 gs
  exact ⟨S, hS order ho, P, rec, out, h.drawn, h.good, uShown_eq h⟩

/-- **C79.** Univariate data of equal length: every list of shapelets the rules allow is returned by `fit` for some
random outcomes, whatever the schedule. -/
theorem C79_complete_same_length {a : FitArgs ℝ L} (hv : ValidSL a)
    {l : List Shown} (hl : UAllowed (trainSL a) a a.nt l) :
    ∃ (g0 : Script) (gs : Nat → Script) (S : UShp ℝ), uShown S = l ∧
      ∀ order, IsSchedule order → uslGenerate a g0 gs order = .ok S := by
  obtain ⟨P, rec, out, hP, hg, rfl⟩ := hl
  obtain ⟨g0, gs, kept, S, h, hS⟩ := uslGenerate_reach hv hP hg
  exact ⟨g0, gs, S, uShown_eq h, hS⟩

/-- **C79.** Univariate data of variable length: for every generator and every schedule, `fit` returns a list of
shapelets the rules allow. -/
theorem C79_sound_variable_length {a : FitArgs ℝ L} {minLen : Nat} {xLen : List Nat}
    (hv : ValidVL a minLen xLen)
    (g0 : G) (gs : Nat → G) {order : Nat → List Nat} (ho : IsSchedule order) :
    ∃ S, uvlGenerate a minLen xLen g0 gs order = .ok S ∧ UAllowed (trainVL a xLen) a minLen (uShown S) := by
  obtain ⟨P, rec, out, kept, S, h, hS⟩ := uvlGenerate_spec hv g0 gs
  exact ⟨S, hS order ho, P, rec, out, h.drawn, h.good, uShown_eq h⟩

/-- **C79.** Univariate data of variable length: every list of shapelets the rules allow is returned by `fit` for some
random outcomes, whatever the schedule. -/
theorem C79_complete_variable_length {a : FitArgs ℝ L} {minLen : Nat} {xLen : List Nat}
    (hv : ValidVL a minLen xLen)
    {l : List Shown} (hl : UAllowed (trainVL a xLen) a minLen l) :
    ∃ (g0 : Script) (gs : Nat → Script) (S : UShp ℝ), uShown S = l ∧
      ∀ order, IsSchedule order → uvlGenerate a minLen xLen g0 gs order = .ok S := by
  obtain ⟨P, rec, out, hP, hg, rfl⟩ := hl
  obtain ⟨g0, gs, kept, S, h, hS⟩ := uvlGenerate_reach hv hP hg
  exact ⟨g0, gs, S, uShown_eq h, hS⟩

/-- **C79.** Multivariate data of equal length: for every generator and every schedule, `fit` returns a list of
shapelets the rules allow. -/
theorem C79_sound_multivariate_same_length {a : FitArgs ℝ L} (hv : ValidSL a) {mc : Nat}
    (hmc : 1 ≤ mc) (hmcf : mc ≤ a.nf)
    (g0 : G) (gs : Nat → G) {order : Nat → List Nat} (ho : IsSchedule order) :
    ∃ S, mslGenerate a mc g0 gs order = .ok S ∧ MAllowed (trainSL a) a a.nt mc (mShown S) := by
  obtain ⟨P, nch, rec, out, kept, S, h, hS⟩ := mslGenerate_spec hv hmc hmcf g0 gs
  exact ⟨S, hS order ho, P, nch, rec, out, h.drawn, h.channels, h.good, mShown_eq h⟩

/-- **C79.** Multivariate data of equal length: every list of shapelets the rules allow is returned by `fit` for some
random outcomes, whatever the schedule. -/
theorem C79_complete_multivariate_same_length {a : FitArgs ℝ L} (hv : ValidSL a) {mc : Nat}
    {l : List Shown} (hl : MAllowed (trainSL a) a a.nt mc l) :
    ∃ (g0 : Script) (gs : Nat → Script) (S : MShp ℝ), mShown S = l ∧
      ∀ order, IsSchedule order → mslGenerate a mc g0 gs order = .ok S := by
  obtain ⟨P, nch, rec, out, hP, hc, hg, rfl⟩ := hl
  obtain ⟨g0, gs, kept, S, h, hS⟩ := mslGenerate_reach hv hP hc hg
  exact ⟨g0, gs, S, mShown_eq h, hS⟩

/-- **C79.** Multivariate data of variable length: for every generator and every schedule, `fit` returns a list of
shapelets the rules allow. -/
theorem C79_sound_multivariate_variable_length {a : FitArgs ℝ L} {minLen : Nat} {xLen : List Nat}
    (hv : ValidVL a minLen xLen) {mc : Nat} (hmc : 1 ≤ mc) (hmcf : mc ≤ a.nf)
    (g0 : G) (gs : Nat → G) {order : Nat → List Nat} (ho : IsSchedule order) :
    ∃ S, mvlGenerate a mc minLen xLen g0 gs order = .ok S ∧ MAllowed (trainVL a xLen) a minLen mc (mShown S) := by
  obtain ⟨P, nch, rec, out, kept, S, h, hS⟩ := mvlGenerate_spec hv hmc hmcf g0 gs
  exact ⟨S, hS order ho, P, nch, rec, out, h.drawn, h.channels, h.good, mShown_eq h⟩

/-- **C79.** Multivariate data of variable length: every list of shapelets the rules allow is returned by `fit` for some
random outcomes, whatever the schedule. -/
theorem C79_complete_multivariate_variable_length {a : FitArgs ℝ L} {minLen : Nat} {xLen : List Nat}
    (hv : ValidVL a minLen xLen) {mc : Nat}
    {l : List Shown} (hl : MAllowed (trainVL a xLen) a minLen mc l) :
    ∃ (g0 : Script) (gs : Nat → Script) (S : MShp ℝ), mShown S = l ∧
      ∀ order, IsSchedule order → mvlGenerate a mc minLen xLen g0 gs order = .ok S := by
  obtain ⟨P, nch, rec, out, hP, hc, hg, rfl⟩ := hl
  obtain ⟨g0, gs, kept, S, h, hS⟩ := mvlGenerate_reach hv hP hc hg
  exact ⟨g0, gs, S, mShown_eq h, hS⟩

end

/-! ## C25: the overlap limit does not hold when the later shapelet is longer -/

/-- One series of three points; two shapelets of length 2 or 3, no overlap tolerated beyond the minimum of
one point. -/
noncomputable def exC : FitArgs ℝ Nat where
  X := [[[1, 2, 4]]]
  nf := 1
  nt := 3
  y := [0]
  nShp := 2
  sizes := [2, 3]
  pNorm := 0
  pMin := 5
  pMax := 50
  alpha := 1
  phase := false
  prime := false

theorem exC_valid : ValidSL exC where
  data := ⟨rfl, by simp [exC], by simp [exC]⟩
  nf := le_refl _
  perc := ⟨by norm_num [exC], by norm_num [exC], by norm_num [exC]⟩
  nShp := by norm_num [exC]
  sizes := by simp [exC]
  bounds := by simp [exC]

/-- Lengths 2 and 3, dilation 1, no normalisation. -/
def exCPar : Par where
  n := 2
  length i := i + 2
  dilation _ := 1
  normalize _ := false

/-- The first shapelet starts at position 1, the second one at position 0. -/
def exCRec (i : Nat) : Option Src := some ⟨0, 1 - i, 0, [0]⟩

theorem exC_drawn : ParDrawn exC 3 exCPar where
  count := rfl
  length i hi := by
    have : i < 2 := hi
    interval_cases i <;> simp [exC, exCPar]
  dilation i hi := by
    have : i < 2 := hi
    refine ⟨le_refl _, ?_, fun _ => Or.inl rfl, fun _ => Or.inl rfl⟩
    show (i + 2 - 1) * 1 ≤ 3 - 1
    omega
  norm_none _ _ _ := rfl
  norm_all h := by
    exfalso
    have : (1 : ℝ) ≤ 0 := h
    norm_num at this

theorem exC_notBlocked (i : Nat) (hi : i < 2) :
    ¬ Blocked (trainSL exC) exCPar (optOf exC) exCRec i 0 0 (1 - i) := by
  rintro ⟨j, m, r, h1, -, -, h4, -, -, -, k, h5, h6⟩
  have hj : j = 0 := by omega
  have hi1 : i = 1 := by omega
  subst hj hi1
  obtain rfl := Option.some.inj h4
  have e : allowance (optOf exC).alpha m = 1 := by
    unfold allowance
    show ⌊max 1 ((1 - (1 : ℝ)) * (m : ℝ))⌋.toNat = 1
    norm_num
  rw [e] at h5
  have hk : k = 0 := by
    have : k + 1 < 0 + 2 := h5
    omega
  subst hk
  have h6 : ((0 : Nat) : Int) = (((1 : Nat) : Int) - (0 : Nat) * (1 : Nat)) % ((3 : Nat) : Int) ∨
      ((0 : Nat) : Int) = (((1 : Nat) : Int) + (0 : Nat) * (1 : Nat)) % ((3 : Nat) : Int) := h6
  omega

theorem exC_allowed : ∃ t0 t1 : ℝ, UAllowed (trainSL exC) exC 3
    [⟨2, 1, false, t0, [0], [2, 4]⟩, ⟨3, 1, false, t1, [0], [1, 2, 4]⟩] := by
  have hd : ∀ i, ∀ r : Src, i < 2 → distTo (trainSL exC) exCPar (optOf exC) i r 0 ≠ [] := by
    intro i r hi h
    have := congrArg List.length h
    unfold distTo at this
    rw [List.length_map, List.length_range] at this
    have h2 : nWin false 3 (i + 2) 1 = 0 := this
    interval_cases i <;> simp [nWin] at h2
  have hp : ∀ i, i < 2 → ∃ p0 p1, percentile (distTo (trainSL exC) exCPar (optOf exC) i
      ⟨0, 1 - i, 0, [0]⟩ 0) 5 = .ok p0 ∧ percentile (distTo (trainSL exC) exCPar (optOf exC) i
      ⟨0, 1 - i, 0, [0]⟩ 0) 50 = .ok p1 ∧ p0 ≤ p1 := by
    intro i hi
    obtain ⟨p0, h0, -⟩ := percentile_ok (hd i ⟨0, 1 - i, 0, [0]⟩ hi) (q := 5) (by norm_num) (by norm_num)
    obtain ⟨p1, h1, -⟩ := percentile_ok (hd i ⟨0, 1 - i, 0, [0]⟩ hi) (q := 50) (by norm_num) (by norm_num)
    exact ⟨p0, p1, h0, h1, percentile_mono (by norm_num) (by norm_num) (by norm_num) h0 h1
      (hd i ⟨0, 1 - i, 0, [0]⟩ hi)⟩
  choose! p0 p1 hp0 hp1 hle using hp
  refine ⟨p0 0, p0 1, exCPar, exCRec, fun i => some ⟨subseq (trainSL exC) exCPar (optOf exC) i 0 0 (1 - i),
    [0], p0 i⟩, exC_drawn, ?_, ?_⟩
  · intro i hi
    have hi : i < 2 := hi
    refine ⟨[0], rfl, Or.inr ⟨_, _, rfl, rfl, rfl, ⟨?_, ?_, ?_⟩, ?_⟩⟩
    · show 0 < 1
      omega
    · show 1 - i < nWin false 3 (i + 2) 1
      interval_cases i <;> simp [nWin]
    · exact exC_notBlocked i hi
    · refine ⟨rfl, by simp, by show 0 < 1; omega, rfl, ?_, ?_⟩
      · rintro ⟨s, h1, h2, -⟩
        have h1 : s < 1 := h1
        have h2 : s ≠ 0 := h2
        omega
      · refine ⟨p0 i, p1 i, hp0 i hi, hp1 i hi, le_refl _, hle i hi, ?_⟩
        rcases lt_or_eq_of_le (hle i hi) with h | h
        · exact Or.inl h
        · exact Or.inr h
  · have e0 : subseq (trainSL exC) exCPar (optOf exC) 0 0 0 1 = [2, 4] := by
      simp [subseq, seen, window, trainSL, exC, exCPar, optOf, pos, List.range_succ]
    have e1 : subseq (trainSL exC) exCPar (optOf exC) 1 0 0 0 = [1, 2, 4] := by
      simp [subseq, seen, window, trainSL, exC, exCPar, optOf, pos, List.range_succ]
    have n0 : ∃ x ∈ [(2 : ℝ), 4], x ≠ 0 := ⟨2, by simp, by norm_num⟩
    have n1 : ∃ x ∈ [(1 : ℝ), 2, 4], x ≠ 0 := ⟨1, by simp, by norm_num⟩
    unfold uListed
    show _ = List.filterMap _ [0, 1]
    rw [List.filterMap_cons_some (b := ⟨2, 1, false, p0 0, [0], [2, 4]⟩),
      List.filterMap_cons_some (b := ⟨3, 1, false, p0 1, [0], [1, 2, 4]⟩), List.filterMap_nil]
    · show Option.map _ (Option.filter _
        (some (⟨subseq (trainSL exC) exCPar (optOf exC) 1 0 0 0, [0], p0 1⟩ : Out ℝ))) = _
      rw [e1, Option.filter_some, if_pos (decide_eq_true n1)]
      rfl
    · show Option.map _ (Option.filter _
        (some (⟨subseq (trainSL exC) exCPar (optOf exC) 0 0 0 1, [0], p0 0⟩ : Out ℝ))) = _
      rw [e0, Option.filter_some, if_pos (decide_eq_true n0)]
      rfl

/-- Non-vacuity of C79: the hypotheses of `C79_complete_same_length` hold for two overlapping shapelets of
the single series of `exC`. -/
example : ∃ (t0 t1 : ℝ) (g0 : Script) (gs : Nat → Script) (S : UShp ℝ),
    uShown S = [⟨2, 1, false, t0, [0], [2, 4]⟩, ⟨3, 1, false, t1, [0], [1, 2, 4]⟩] ∧
    ∀ order, IsSchedule order → uslGenerate exC g0 gs order = .ok S := by
  obtain ⟨t0, t1, h⟩ := exC_allowed
  exact ⟨t0, t1, C79_complete_same_length exC_valid h⟩

/-- Multivariate and variable-length training sets with allowed results. -/
example : (∃ l, MAllowed (trainSL exB) exB 5 2 l) ∧ (∃ l, UAllowed (trainVL exB [5, 4]) exB 4 l) ∧
    ∃ l, MAllowed (trainVL exB [5, 4]) exB 4 2 l := by
  have ho : IsSchedule List.range := fun n => List.Perm.refl _
  obtain ⟨S1, -, h1⟩ := C79_sound_multivariate_same_length exB_valid (mc := 2) (by omega)
    (by simp [exB]) (⟨fun _ => 0, fun _ => 0⟩ : Script) (fun _ => ⟨fun _ => 0, fun _ => 0⟩) ho
  obtain ⟨S2, -, h2⟩ := C79_sound_variable_length exB_validVL
    (⟨fun _ => 0, fun _ => 0⟩ : Script) (fun _ => ⟨fun _ => 0, fun _ => 0⟩) ho
  obtain ⟨S3, -, h3⟩ := C79_sound_multivariate_variable_length exB_validVL (mc := 2) (by omega)
    (by simp [exB]) (⟨fun _ => 0, fun _ => 0⟩ : Script) (fun _ => ⟨fun _ => 0, fun _ => 0⟩) ho
  exact ⟨⟨_, h1⟩, ⟨_, h2⟩, ⟨_, h3⟩⟩

/-- **C25 (why the hypothesis on the lengths is needed).** With `alpha=1` and the training set consisting of
the single series `1, 2, 4`, some random outcomes make `fit` return the shapelet `2, 4` and after it the
longer shapelet `1, 2, 4`, both with dilation 1 and not normalised.  Wherever they are read from, they share
two time points, more than the limit `max(1, floor((1-alpha)*2)) = 1`. -/
theorem C25_longer_can_exceed : ∃ (t0 t1 : ℝ) (g0 : Script) (gs : Nat → Script) (S : UShp ℝ),
    (∀ order, IsSchedule order → uslGenerate exC g0 gs order = .ok S) ∧
    uShown S = [⟨2, 1, false, t0, [0], [2, 4]⟩, ⟨3, 1, false, t1, [0], [1, 2, 4]⟩] ∧
    (∀ t t', t < nWin false 3 2 1 → t' < nWin false 3 3 1 →
      window false [1, 2, 4] 2 1 t = [(2 : ℝ), 4] → window false [1, 2, 4] 3 1 t' = [(1 : ℝ), 2, 4] →
      (timePoints false 3 2 1 t ∩ timePoints false 3 3 1 t').card = 2) ∧
    ⌊max 1 ((1 - exC.alpha) * ((2 : Nat) : ℝ))⌋.toNat = 1 := by
  obtain ⟨t0, t1, h⟩ := exC_allowed
  obtain ⟨g0, gs, S, h1, h2⟩ := C79_complete_same_length exC_valid h
  refine ⟨t0, t1, g0, gs, S, h2, h1, ?_, ?_⟩
  · intro t t' ht ht' hw _
    have e1 : nWin false 3 2 1 = 2 := rfl
    have e2 : nWin false 3 3 1 = 1 := rfl
    rw [e1] at ht
    rw [e2] at ht'
    obtain rfl : t' = 0 := by omega
    interval_cases t
    · exfalso
      simp [window, pos, List.range_succ] at hw
    · decide
  · show ⌊max 1 ((1 - (1 : ℝ)) * ((2 : Nat) : ℝ))⌋.toNat = 1
    norm_num

end Convst.Props
