import Verif.Proofs.Overlap
import Verif.Proofs.Reach
import Verif.Props.Invariance
import Mathlib.Tactic.IntervalCases

/-!
# Properties of `fit`

Every theorem holds for every lawful random generator `G`, every state `g0` of the main generator,
every state `gs i` in which parallel iteration `i` starts to draw, and every execution order of the
parallel iterations: that is, for all random outcomes and schedules.
-/

set_option autoImplicit false
set_option linter.unusedSectionVars false

namespace Convst.Props
open Convst Spec

/-! ## A concrete generator and concrete arguments, used in the examples -/

/-- Three univariate series of five points, two classes. -/
noncomputable def exA : FitArgs ℝ Nat where
  X := [[[0, 1, 2, 3, 4]], [[1, 1, 0, 0, 2]], [[5, 4, 5, 4, 5]]]
  nf := 1
  nt := 5
  y := [0, 0, 1]
  nShp := 4
  sizes := [2, 3]
  pNorm := 1 / 2
  pMin := 5
  pMax := 50
  alpha := 1 / 2
  phase := false
  prime := true

theorem exA_valid : ValidSL exA where
  data := ⟨rfl, by simp [exA], by simp [exA]⟩
  nf := le_refl _
  perc := ⟨by norm_num [exA], by norm_num [exA], by norm_num [exA]⟩
  nShp := by norm_num [exA]
  sizes := by simp [exA]
  bounds := by simp [exA]

/-- Two bivariate series of true lengths 5 and 4, padded to five points. -/
noncomputable def exB : FitArgs ℝ Nat where
  X := [[[0, 1, 2, 3, 4], [2, 2, 1, 0, 0]], [[1, 1, 0, 2, 0], [3, 1, 4, 1, 0]]]
  nf := 2
  nt := 5
  y := [0, 1]
  nShp := 4
  sizes := [2, 3]
  pNorm := 1 / 2
  pMin := 5
  pMax := 50
  alpha := 1 / 2
  phase := true
  prime := false

theorem exB_valid : ValidSL exB where
  data := ⟨rfl, by simp [exB], by simp [exB]⟩
  nf := by norm_num [exB]
  perc := ⟨by norm_num [exB], by norm_num [exB], by norm_num [exB]⟩
  nShp := by norm_num [exB]
  sizes := by simp [exB]
  bounds := by simp [exB]

theorem exB_validVL : ValidVL exB 4 [5, 4] where
  data := ⟨rfl, rfl, by simp [exB], by simp [exB], by simp [exB], by simp⟩
  ne := by simp [exB]
  nf := by norm_num [exB]
  perc := ⟨by norm_num [exB], by norm_num [exB], by norm_num [exB]⟩
  nShp := by norm_num [exB]
  sizes := by simp [exB]
  bounds := by simp [exB]

variable {G L : Type} [Gen G ℝ] [LawfulGen G] [DecidableEq L]

theorem kept_le {kept : List Nat} {n : Nat} (h : kept.Pairwise (· < ·)) (hn : ∀ i ∈ kept, i < n) :
    kept.length ≤ n := by
  have h1 : kept.toFinset.card = kept.length :=
    List.toFinset_card_of_nodup (h.imp fun h => Nat.ne_of_lt h)
  rw [← h1, ← Finset.card_range n]
  refine Finset.card_le_card fun i hi => ?_
  rw [Finset.mem_range]; exact hn i (List.mem_toFinset.1 hi)

/-- What a successful result satisfies, for one of the four functions. -/
theorem usl_fitted {a : FitArgs ℝ L} (hv : ValidSL a) {g0 : G} {gs : Nat → G} {order : Nat → List Nat}
    (ho : IsSchedule order) {S : UShp ℝ} (hS : uslGenerate a g0 gs order = .ok S) :
    ∃ P rec out kept, UFitted (trainSL a) a a.nt P rec out kept S := by
  obtain ⟨P, rec, out, kept, S', h, h'⟩ := uslGenerate_spec hv g0 gs
  rw [h' order ho] at hS
  obtain rfl := Except.ok.inj hS
  exact ⟨P, rec, out, kept, h⟩

theorem uvl_fitted {a : FitArgs ℝ L} {minLen : Nat} {xLen : List Nat} (hv : ValidVL a minLen xLen)
    {g0 : G} {gs : Nat → G} {order : Nat → List Nat} (ho : IsSchedule order) {S : UShp ℝ}
    (hS : uvlGenerate a minLen xLen g0 gs order = .ok S) :
    ∃ P rec out kept, UFitted (trainVL a xLen) a minLen P rec out kept S := by
  obtain ⟨P, rec, out, kept, S', h, h'⟩ := uvlGenerate_spec hv g0 gs
  rw [h' order ho] at hS
  obtain rfl := Except.ok.inj hS
  exact ⟨P, rec, out, kept, h⟩

theorem msl_fitted {a : FitArgs ℝ L} (hv : ValidSL a) {mc : Nat} (hmc : 1 ≤ mc) (hmcf : mc ≤ a.nf)
    {g0 : G} {gs : Nat → G} {order : Nat → List Nat} (ho : IsSchedule order) {S : MShp ℝ}
    (hS : mslGenerate a mc g0 gs order = .ok S) :
    ∃ P nch rec out kept, MFitted (trainSL a) a a.nt mc P nch rec out kept S := by
  obtain ⟨P, nch, rec, out, kept, S', h, h'⟩ := mslGenerate_spec hv hmc hmcf g0 gs
  rw [h' order ho] at hS
  obtain rfl := Except.ok.inj hS
  exact ⟨P, nch, rec, out, kept, h⟩

theorem mvl_fitted {a : FitArgs ℝ L} {minLen : Nat} {xLen : List Nat} (hv : ValidVL a minLen xLen)
    {mc : Nat} (hmc : 1 ≤ mc) (hmcf : mc ≤ a.nf) {g0 : G} {gs : Nat → G} {order : Nat → List Nat}
    (ho : IsSchedule order) {S : MShp ℝ}
    (hS : mvlGenerate a mc minLen xLen g0 gs order = .ok S) :
    ∃ P nch rec out kept, MFitted (trainVL a xLen) a minLen mc P nch rec out kept S := by
  obtain ⟨P, nch, rec, out, kept, S', h, h'⟩ := mvlGenerate_spec hv hmc hmcf g0 gs
  rw [h' order ho] at hS
  obtain rfl := Except.ok.inj hS
  exact ⟨P, nch, rec, out, kept, h⟩

/-! ## C19–C22: `fit` is total and its result well-formed -/

theorem uFitted_wf {T : Train L} {a : FitArgs ℝ L} {n : Nat} (hn : ∀ l ∈ a.sizes, 2 ≤ l ∧ l ≤ n)
    {P : Par} {rec : Nat → Option Src} {out : Nat → Option (Out ℝ)} {kept : List Nat} {S : UShp ℝ}
    (h : UFitted T a n P rec out kept S) :
    UWF S ∧ S.lengths.length ≤ a.nShp ∧ ∀ k, k < S.lengths.length →
      S.lengths.getD k 0 ∈ a.sizes ∧ 1 ≤ S.dilations.getD k 0 ∧
      (S.lengths.getD k 0 - 1) * S.dilations.getD k 0 < n ∧
      (a.prime = true → S.dilations.getD k 0 = 1 ∨ (S.dilations.getD k 0).Prime) ∧
      (a.pNorm ≤ 0 → S.normalize.getD k true = false) ∧
      (1 ≤ a.pNorm → S.normalize.getD k false = true) := by
  refine ⟨h.wf, ?_, ?_⟩
  · rw [h.from_.count, ← h.drawn.count]
    exact kept_le h.from_.sorted fun i hi => ((h.from_.mem i).1 hi).1
  · intro k hk
    obtain ⟨i, r, -, -, -, hu⟩ := h.shapelet hk
    obtain ⟨d1, d2, d3, -⟩ := h.drawn.dilation i hu.lt
    have hm := h.drawn.length i hu.lt
    have := hn _ hm
    have hnk : S.normalize[k]? = some (P.normalize i) := by
      rw [← hu.normalize, List.getD_eq_getElem?_getD]
      exact (some_getD false (by rw [h.wf.normalize]; exact hk))
    rw [hu.length, hu.dilation, hu.normalize, getD_some hnk]
    exact ⟨hm, d1, by omega, d3, fun hp => h.drawn.norm_none hp i hu.lt,
      fun hp => h.drawn.norm_all hp i hu.lt⟩

theorem mFitted_wf {T : Train L} {a : FitArgs ℝ L} {n mc : Nat} (hn : ∀ l ∈ a.sizes, 2 ≤ l ∧ l ≤ n)
    {P : Par} {nch : Nat → Nat} {rec : Nat → Option Src} {out : Nat → Option (Out ℝ)}
    {kept : List Nat} {S : MShp ℝ} (h : MFitted T a n mc P nch rec out kept S) :
    MWF S a.nf ∧ S.lengths.length ≤ a.nShp ∧ ∀ k, k < S.lengths.length →
      S.lengths.getD k 0 ∈ a.sizes ∧ 1 ≤ S.dilations.getD k 0 ∧
      (S.lengths.getD k 0 - 1) * S.dilations.getD k 0 < n ∧
      (a.prime = true → S.dilations.getD k 0 = 1 ∨ (S.dilations.getD k 0).Prime) ∧
      (a.pNorm ≤ 0 → S.normalize.getD k true = false) ∧
      (1 ≤ a.pNorm → S.normalize.getD k false = true) ∧
      1 ≤ S.nChannels.getD k 0 ∧ S.nChannels.getD k 0 ≤ mc ∧
      (mChannels S k).length = S.nChannels.getD k 0 ∧ (mChannels S k).Nodup ∧
      ∀ c ∈ mChannels S k, c < T.nf := by
  refine ⟨h.wf, ?_, ?_⟩
  · rw [h.from_.count, ← h.drawn.count]
    exact kept_le h.from_.sorted fun i hi => ((h.from_.mem i).1 hi).1
  · intro k hk
    obtain ⟨i, r, -, -, hnc, -, hu⟩ := h.shapelet hk
    obtain ⟨d1, d2, d3, -⟩ := h.drawn.dilation i hu.lt
    have hm := h.drawn.length i hu.lt
    have := hn _ hm
    have hnk : S.normalize[k]? = some (P.normalize i) := by
      rw [← hu.normalize, List.getD_eq_getElem?_getD]
      exact (some_getD false (by rw [h.wf.normalize]; exact hk))
    rw [hu.length, hu.dilation, hu.normalize, getD_some hnk, hu.channels, hu.count, ← hu.count, hnc]
    exact ⟨hm, d1, by omega, d3, fun hp => h.drawn.norm_none hp i hu.lt,
      fun hp => h.drawn.norm_all hp i hu.lt, (h.channels i hu.lt).1, (h.channels i hu.lt).2,
      by rw [← hnc, hu.count], hu.nodup, hu.range⟩

/-- **C19 (and C26).** For every random outcome, univariate equal-length `fit` succeeds, with a result
that does not depend on the schedule, and returns well-formed arrays of at most `n_shapelets` shapelets
whose lengths are candidate lengths and whose dilated extent fits in the series. -/
theorem C19_fit_univariate_same_length {a : FitArgs ℝ L} (hv : ValidSL a) (g0 : G) (gs : Nat → G) :
    ∃ S, (∀ order, IsSchedule order → uslGenerate a g0 gs order = .ok S) ∧ UWF S ∧
      S.lengths.length ≤ a.nShp ∧ ∀ k, k < S.lengths.length →
        S.lengths.getD k 0 ∈ a.sizes ∧ 1 ≤ S.dilations.getD k 0 ∧
        (S.lengths.getD k 0 - 1) * S.dilations.getD k 0 < a.nt := by
  obtain ⟨P, rec, out, kept, S, h, h'⟩ := uslGenerate_spec hv g0 gs
  obtain ⟨h1, h2, h3⟩ := uFitted_wf hv.bounds h
  exact ⟨S, h', h1, h2, fun k hk => ⟨(h3 k hk).1, (h3 k hk).2.1, (h3 k hk).2.2.1⟩⟩

example (g0 : Script) (gs : Nat → Script) : ∃ S, uslGenerate exA g0 gs List.range = .ok S := by
  obtain ⟨S, h, -⟩ := C19_fit_univariate_same_length exA_valid g0 gs
  exact ⟨S, h _ fun _ => List.Perm.refl _⟩

/-- **C20.** The same for univariate variable-length data. -/
theorem C20_fit_univariate_variable_length {a : FitArgs ℝ L} {minLen : Nat} {xLen : List Nat}
    (hv : ValidVL a minLen xLen) (g0 : G) (gs : Nat → G) :
    ∃ S, (∀ order, IsSchedule order → uvlGenerate a minLen xLen g0 gs order = .ok S) ∧ UWF S ∧
      S.lengths.length ≤ a.nShp ∧ ∀ k, k < S.lengths.length →
        S.lengths.getD k 0 ∈ a.sizes ∧ 1 ≤ S.dilations.getD k 0 ∧
        (S.lengths.getD k 0 - 1) * S.dilations.getD k 0 < minLen := by
  obtain ⟨P, rec, out, kept, S, h, h'⟩ := uvlGenerate_spec hv g0 gs
  obtain ⟨h1, h2, h3⟩ := uFitted_wf hv.bounds h
  exact ⟨S, h', h1, h2, fun k hk => ⟨(h3 k hk).1, (h3 k hk).2.1, (h3 k hk).2.2.1⟩⟩

example (g0 : Script) (gs : Nat → Script) :
    ∃ S, uvlGenerate exB 4 [5, 4] g0 gs (fun n => (List.range n).reverse) = .ok S := by
  obtain ⟨S, h, -⟩ := C20_fit_univariate_variable_length exB_validVL g0 gs
  exact ⟨S, h _ fun _ => List.reverse_perm _⟩

/-- **C21.** The same for multivariate equal-length data; every shapelet uses between 1 and
`max_channels` distinct existing channels. -/
theorem C21_fit_multivariate_same_length {a : FitArgs ℝ L} (hv : ValidSL a) {mc : Nat} (hmc : 1 ≤ mc)
    (hmcf : mc ≤ a.nf) (g0 : G) (gs : Nat → G) :
    ∃ S, (∀ order, IsSchedule order → mslGenerate a mc g0 gs order = .ok S) ∧ MWF S a.nf ∧
      S.lengths.length ≤ a.nShp ∧ ∀ k, k < S.lengths.length →
        S.lengths.getD k 0 ∈ a.sizes ∧ 1 ≤ S.dilations.getD k 0 ∧
        (S.lengths.getD k 0 - 1) * S.dilations.getD k 0 < a.nt ∧
        1 ≤ S.nChannels.getD k 0 ∧ S.nChannels.getD k 0 ≤ mc ∧
        (mChannels S k).length = S.nChannels.getD k 0 ∧ (mChannels S k).Nodup ∧
        ∀ c ∈ mChannels S k, c < a.nf := by
  obtain ⟨P, nch, rec, out, kept, S, h, h'⟩ := mslGenerate_spec hv hmc hmcf g0 gs
  obtain ⟨h1, h2, h3⟩ := mFitted_wf hv.bounds h
  refine ⟨S, h', h1, h2, fun k hk => ?_⟩
  obtain ⟨a1, a2, a3, -, -, -, a7⟩ := h3 k hk
  exact ⟨a1, a2, a3, a7⟩

example (g0 : Script) (gs : Nat → Script) : ∃ S, mslGenerate exB 2 g0 gs List.range = .ok S := by
  obtain ⟨S, h, -⟩ := C21_fit_multivariate_same_length exB_valid (mc := 2) (by norm_num)
    (le_refl _) g0 gs
  exact ⟨S, h _ fun _ => List.Perm.refl _⟩

/-- **C22.** The same for multivariate variable-length data. -/
theorem C22_fit_multivariate_variable_length {a : FitArgs ℝ L} {minLen : Nat} {xLen : List Nat}
    (hv : ValidVL a minLen xLen) {mc : Nat} (hmc : 1 ≤ mc) (hmcf : mc ≤ a.nf) (g0 : G)
    (gs : Nat → G) :
    ∃ S, (∀ order, IsSchedule order → mvlGenerate a mc minLen xLen g0 gs order = .ok S) ∧
      MWF S a.nf ∧ S.lengths.length ≤ a.nShp ∧ ∀ k, k < S.lengths.length →
        S.lengths.getD k 0 ∈ a.sizes ∧ 1 ≤ S.dilations.getD k 0 ∧
        (S.lengths.getD k 0 - 1) * S.dilations.getD k 0 < minLen ∧
        1 ≤ S.nChannels.getD k 0 ∧ S.nChannels.getD k 0 ≤ mc ∧
        (mChannels S k).length = S.nChannels.getD k 0 ∧ (mChannels S k).Nodup ∧
        ∀ c ∈ mChannels S k, c < a.nf := by
  obtain ⟨P, nch, rec, out, kept, S, h, h'⟩ := mvlGenerate_spec hv hmc hmcf g0 gs
  obtain ⟨h1, h2, h3⟩ := mFitted_wf hv.bounds h
  refine ⟨S, h', h1, h2, fun k hk => ?_⟩
  obtain ⟨a1, a2, a3, -, -, -, a7⟩ := h3 k hk
  exact ⟨a1, a2, a3, a7⟩

example (g0 : Script) (gs : Nat → Script) :
    ∃ S, mvlGenerate exB 2 4 [5, 4] g0 gs List.range = .ok S := by
  obtain ⟨S, h, -⟩ := C22_fit_multivariate_variable_length exB_validVL (mc := 2) (by norm_num)
    (le_refl _) g0 gs
  exact ⟨S, h _ fun _ => List.Perm.refl _⟩

/-! ## C26: independence of the parallel iterations -/

/-- **C26.** Executing the parallel iterations of the four functions in any two orders gives the same
result. -/
theorem C26_schedule_independent {a : FitArgs ℝ L} (g0 : G) (gs : Nat → G)
    {order order' : Nat → List Nat} (ho : IsSchedule order) (ho' : IsSchedule order') :
    (ValidSL a → uslGenerate a g0 gs order = uslGenerate a g0 gs order') ∧
    (∀ minLen xLen, ValidVL a minLen xLen →
      uvlGenerate a minLen xLen g0 gs order = uvlGenerate a minLen xLen g0 gs order') ∧
    (∀ mc, 1 ≤ mc → mc ≤ a.nf → ValidSL a →
      mslGenerate a mc g0 gs order = mslGenerate a mc g0 gs order') ∧
    (∀ mc minLen xLen, 1 ≤ mc → mc ≤ a.nf → ValidVL a minLen xLen →
      mvlGenerate a mc minLen xLen g0 gs order = mvlGenerate a mc minLen xLen g0 gs order') := by
  refine ⟨fun hv => ?_, fun _ _ hv => ?_, fun _ h1 h2 hv => ?_, fun _ _ _ h1 h2 hv => ?_⟩
  · obtain ⟨S, h, -⟩ := C19_fit_univariate_same_length hv g0 gs
    rw [h _ ho, h _ ho']
  · obtain ⟨S, h, -⟩ := C20_fit_univariate_variable_length hv g0 gs
    rw [h _ ho, h _ ho']
  · obtain ⟨S, h, -⟩ := C21_fit_multivariate_same_length hv h1 h2 g0 gs
    rw [h _ ho, h _ ho']
  · obtain ⟨S, h, -⟩ := C22_fit_multivariate_variable_length hv h1 h2 g0 gs
    rw [h _ ho, h _ ho']

example (g0 : Script) (gs : Nat → Script) :
    uslGenerate exA g0 gs List.range = uslGenerate exA g0 gs fun n => (List.range n).reverse :=
  (C26_schedule_independent g0 gs (fun _ => List.Perm.refl _) fun _ => List.reverse_perm _).1 exA_valid

/-! ## C23, C24: sources and thresholds -/

theorem trainSL_len {a : FitArgs ℝ L} (hv : ValidSL a) {s : Nat} (hs : s < a.X.length) :
    ((trainSL a).series s 0).length = (trainSL a).len s := (hv.data.get hs (by have := hv.nf; omega)).2

theorem trainVL_len {a : FitArgs ℝ L} {minLen : Nat} {xLen : List Nat} (hv : ValidVL a minLen xLen)
    {s : Nat} (hs : s < a.X.length) :
    ((trainVL a xLen).series s 0).length = (trainVL a xLen).len s :=
  (hv.data.get hs (by have := hv.nf; omega)).2

/-- `transform` of the training set with the fitted shapelets, in the four settings. -/
theorem usl_transform {a : FitArgs ℝ L} (hv : ValidSL a) {S : UShp ℝ} (hwf : UWF S)
    (hroom : ∀ k, k < S.lengths.length →
      (S.lengths.getD k 0 - 1) * S.dilations.getD k 0 < a.nt) :
    uslApply a.X S a.phase = .ok (a.X.map fun s => uRow a.phase S (s.getD 0 [])) := by
  refine C01_univariate_same_length hwf _ ?_ ?_
  · intro s hs h0
    have := hv.data.nf s hs
    rw [h0] at this
    have := hv.nf
    simp at *; omega
  · intro s hs k hk
    have hl : (s.getD 0 []).length = a.nt := by
      have h1 := hv.data.nf s hs
      have : 0 < s.length := by have := hv.nf; omega
      rw [getD_lt _ this]; exact hv.data.nt s hs _ (List.getElem_mem this)
    rw [hl]
    exact fits_of_lt (hroom k hk)

theorem uvl_transform {a : FitArgs ℝ L} {minLen : Nat} {xLen : List Nat} (hv : ValidVL a minLen xLen)
    {S : UShp ℝ} (hwf : UWF S) (hroom : ∀ k, k < S.lengths.length →
      (S.lengths.getD k 0 - 1) * S.dilations.getD k 0 < minLen) :
    uvlApply a.X S a.phase xLen = .ok ((List.range a.X.length).map fun i =>
      uRow a.phase S (((a.X.getD i []).getD 0 []).take (xLen.getD i 0))) := by
  refine C02_univariate_variable_length hwf _ ?_ (by rw [hv.data.len]) ?_
  · intro s hs h0
    have := hv.data.nf s hs
    rw [h0] at this
    have := hv.nf
    simp at *; omega
  · intro i hi k hk
    have hl : (uPrefix a.X xLen i).length = xLen.getD i 0 :=
      (hv.data.get hi (by have := hv.nf; omega)).2
    rw [hl]
    exact fits_of_lt ((hroom k hk).trans_le (hv.data.xlen hi).2)

theorem rect_of_data {X : List (List (List ℝ))} {nf nt : Nat} (h1 : ∀ s ∈ X, s.length = nf)
    (h2 : ∀ s ∈ X, ∀ x ∈ s, x.length = nt) : ∀ x ∈ X, Rect x nf nt := fun x hx => ⟨h1 x hx, h2 x hx⟩

theorem msl_transform {a : FitArgs ℝ L} (hv : ValidSL a) {S : MShp ℝ} (hwf : MWF S a.nf)
    (hroom : ∀ k, k < S.lengths.length →
      (S.lengths.getD k 0 - 1) * S.dilations.getD k 0 < a.nt) :
    mslApply a.X a.nt S a.phase = .ok (a.X.map fun x => mRow a.phase S x a.nt) :=
  C03_multivariate_same_length hwf _ (rect_of_data hv.data.nf hv.data.nt)
    fun k hk => fits_of_lt (hroom k hk)

theorem mvl_transform {a : FitArgs ℝ L} {minLen : Nat} {xLen : List Nat} (hv : ValidVL a minLen xLen)
    {S : MShp ℝ} (hwf : MWF S a.nf) (hroom : ∀ k, k < S.lengths.length →
      (S.lengths.getD k 0 - 1) * S.dilations.getD k 0 < minLen) :
    mvlApply a.X a.nt S a.phase xLen = .ok ((List.range a.X.length).map fun i =>
      mRow a.phase S ((a.X.getD i []).map fun ch => ch.take (xLen.getD i 0)) (xLen.getD i 0)) := by
  have hle : ∀ i, i < a.X.length → min (xLen.getD i 0) a.nt = xLen.getD i 0 := by
    intro i hi
    refine Nat.min_eq_left (hv.data.le _ ?_)
    rw [← hv.data.len] at hi
    rw [getD_lt _ hi]; exact List.getElem_mem hi
  rw [C04_multivariate_variable_length hwf _ (rect_of_data hv.data.nf hv.data.nt)
    (by rw [hv.data.len]) ?_]
  · congr 1
    refine List.map_congr_left fun i hi => ?_
    rw [List.mem_range] at hi
    rw [hle i hi]
  · intro i hi k hk
    rw [hle i hi]
    exact fits_of_lt ((hroom k hk).trans_le (hv.data.xlen hi).2)

/-- **C23.** Univariate, equal lengths: every returned shapelet is the (normalised, when flagged)
dilated subsequence of some training series at some position, and `transform` of the training set gives
it minimum distance 0 on that series. -/
theorem C23_sources_univariate_same_length {a : FitArgs ℝ L} (hv : ValidSL a) {g0 : G} {gs : Nat → G}
    {order : Nat → List Nat} (ho : IsSchedule order) {S : UShp ℝ}
    (hS : uslGenerate a g0 gs order = .ok S) :
    ∃ M, uslApply a.X S a.phase = .ok M ∧ ∀ k, k < S.lengths.length → ∃ s t,
      s < a.X.length ∧ t < nWin a.phase a.nt (S.lengths.getD k 0) (S.dilations.getD k 0) ∧
      uValues S k = seen (S.normalize.getD k false)
        (window a.phase ((a.X.getD s []).getD 0 []) (S.lengths.getD k 0) (S.dilations.getD k 0) t) ∧
      ∃ row : List ℝ, M[s]? = some row ∧ row[3 * k]? = some 0 := by
  obtain ⟨P, rec, out, kept, h⟩ := usl_fitted hv ho hS
  obtain ⟨hwf, -, hk3⟩ := uFitted_wf hv.bounds h
  refine ⟨_, usl_transform hv hwf (fun k hk => (hk3 k hk).2.2.1), fun k hk => ?_⟩
  obtain ⟨i, r, -, -, -, hu⟩ := h.shapelet hk
  refine ⟨r.sample, r.index, hu.sample, ?_, ?_, _, row_get _ [] hu.sample, ?_⟩
  · rw [hu.length, hu.dilation]; exact hu.index
  · rw [hu.values, hu.length, hu.dilation, hu.normalize]; rfl
  · have h3 := row_cells (fun k => uFeatures a.phase S ((trainSL a).series r.sample 0) k)
      S.lengths.length k 0 hk (by omega)
    refine h3.trans ?_
    show some (features (uDistances (optOf a).phase S ((trainSL a).series r.sample 0) k) _).1 = _
    rw [hu.distances (trainSL_len hv hu.sample)]
    exact congrArg some (features_zero (distTo_nonneg _ _ _) (distTo_self hu.index))

/-- **C23 (and C27).** Univariate, variable lengths: the subsequence is read from the first `X_len[s]`
values of the source series. -/
theorem C23_sources_univariate_variable_length {a : FitArgs ℝ L} {minLen : Nat} {xLen : List Nat}
    (hv : ValidVL a minLen xLen) {g0 : G} {gs : Nat → G} {order : Nat → List Nat}
    (ho : IsSchedule order) {S : UShp ℝ} (hS : uvlGenerate a minLen xLen g0 gs order = .ok S) :
    ∃ M, uvlApply a.X S a.phase xLen = .ok M ∧ ∀ k, k < S.lengths.length → ∃ s t,
      s < a.X.length ∧
      t < nWin a.phase (xLen.getD s 0) (S.lengths.getD k 0) (S.dilations.getD k 0) ∧
      uValues S k = seen (S.normalize.getD k false)
        (window a.phase (((a.X.getD s []).getD 0 []).take (xLen.getD s 0)) (S.lengths.getD k 0)
          (S.dilations.getD k 0) t) ∧
      ∃ row : List ℝ, M[s]? = some row ∧ row[3 * k]? = some 0 := by
  obtain ⟨P, rec, out, kept, h⟩ := uvl_fitted hv ho hS
  obtain ⟨hwf, -, hk3⟩ := uFitted_wf hv.bounds h
  refine ⟨_, uvl_transform hv hwf (fun k hk => (hk3 k hk).2.2.1), fun k hk => ?_⟩
  obtain ⟨i, r, -, -, -, hu⟩ := h.shapelet hk
  have hs : r.sample < a.X.length := hu.sample
  refine ⟨r.sample, r.index, hs, ?_, ?_, _,
    (row_get _ 0 (by rw [List.length_range]; exact hs)), ?_⟩
  · rw [hu.length, hu.dilation]; exact hu.index
  · rw [hu.values, hu.length, hu.dilation, hu.normalize]; rfl
  · have h0 : (List.range a.X.length).getD r.sample 0 = r.sample := by
      rw [getD_lt _ (by rw [List.length_range]; exact hs), List.getElem_range]
    rw [h0]
    have h3 := row_cells (fun k => uFeatures a.phase S ((trainVL a xLen).series r.sample 0) k)
      S.lengths.length k 0 hk (by omega)
    refine h3.trans ?_
    show some (features (uDistances (optOf a).phase S ((trainVL a xLen).series r.sample 0) k) _).1 = _
    rw [hu.distances (trainVL_len hv hu.sample)]
    exact congrArg some (features_zero (distTo_nonneg _ _ _) (distTo_self hu.index))

/-- **C23.** Multivariate, equal lengths: for each of its channels a shapelet holds the subsequence of
one training series at one position (the same for all channels). -/
theorem C23_sources_multivariate_same_length {a : FitArgs ℝ L} (hv : ValidSL a) {mc : Nat}
    (hmc : 1 ≤ mc) (hmcf : mc ≤ a.nf) {g0 : G} {gs : Nat → G} {order : Nat → List Nat}
    (ho : IsSchedule order) {S : MShp ℝ} (hS : mslGenerate a mc g0 gs order = .ok S) :
    ∃ M, mslApply a.X a.nt S a.phase = .ok M ∧ ∀ k, k < S.lengths.length → ∃ s t,
      s < a.X.length ∧ t < nWin a.phase a.nt (S.lengths.getD k 0) (S.dilations.getD k 0) ∧
      (∀ c, c < S.nChannels.getD k 0 → mValues S k c = seen (S.normalize.getD k false)
        (window a.phase ((a.X.getD s []).getD ((mChannels S k).getD c 0) []) (S.lengths.getD k 0)
          (S.dilations.getD k 0) t)) ∧
      ∃ row : List ℝ, M[s]? = some row ∧ row[3 * k]? = some 0 := by
  obtain ⟨P, nch, rec, out, kept, h⟩ := msl_fitted hv hmc hmcf ho hS
  obtain ⟨hwf, -, hk3⟩ := mFitted_wf hv.bounds h
  refine ⟨_, msl_transform hv hwf (fun k hk => (hk3 k hk).2.2.1), fun k hk => ?_⟩
  obtain ⟨i, r, -, -, -, -, hu⟩ := h.shapelet hk
  refine ⟨r.sample, r.index, hu.sample, ?_, ?_, _, row_get _ [] hu.sample, ?_⟩
  · rw [hu.length, hu.dilation]; exact hu.index
  · intro c hc
    rw [hu.count] at hc
    rw [hu.values c hc, hu.length, hu.dilation, hu.normalize, hu.channels]; rfl
  · have h3 := row_cells (fun k => mFeatures a.phase S (a.X.getD r.sample []) a.nt k)
      S.lengths.length k 0 hk (by omega)
    refine h3.trans ?_
    show some (features (mDistances (optOf a).phase S (a.X.getD r.sample []) ((trainSL a).len r.sample) k)
      _).1 = _
    rw [hu.distances (s := r.sample) (fun c _ => rfl)]
    exact congrArg some (features_zero (distTo_nonneg _ _ _) (distTo_self hu.index))

theorem take_series {a : FitArgs ℝ L} {xLen : List Nat} (s c : Nat) :
    ((a.X.getD s []).map fun ch => ch.take (xLen.getD s 0)).getD c [] =
      (trainVL a xLen).series s c := by
  show _ = ((a.X.getD s []).getD c []).take _
  generalize a.X.getD s [] = l
  generalize xLen.getD s 0 = n
  simp only [List.getD_eq_getElem?_getD, List.getElem?_map]
  cases l[c]? <;> simp

/-- **C23 (and C27).** Multivariate, variable lengths. -/
theorem C23_sources_multivariate_variable_length {a : FitArgs ℝ L} {minLen : Nat} {xLen : List Nat}
    (hv : ValidVL a minLen xLen) {mc : Nat} (hmc : 1 ≤ mc) (hmcf : mc ≤ a.nf) {g0 : G} {gs : Nat → G}
    {order : Nat → List Nat} (ho : IsSchedule order) {S : MShp ℝ}
    (hS : mvlGenerate a mc minLen xLen g0 gs order = .ok S) :
    ∃ M, mvlApply a.X a.nt S a.phase xLen = .ok M ∧ ∀ k, k < S.lengths.length → ∃ s t,
      s < a.X.length ∧
      t < nWin a.phase (xLen.getD s 0) (S.lengths.getD k 0) (S.dilations.getD k 0) ∧
      (∀ c, c < S.nChannels.getD k 0 → mValues S k c = seen (S.normalize.getD k false)
        (window a.phase (((a.X.getD s []).getD ((mChannels S k).getD c 0) []).take (xLen.getD s 0))
          (S.lengths.getD k 0) (S.dilations.getD k 0) t)) ∧
      ∃ row : List ℝ, M[s]? = some row ∧ row[3 * k]? = some 0 := by
  obtain ⟨P, nch, rec, out, kept, h⟩ := mvl_fitted hv hmc hmcf ho hS
  obtain ⟨hwf, -, hk3⟩ := mFitted_wf hv.bounds h
  refine ⟨_, mvl_transform hv hwf (fun k hk => (hk3 k hk).2.2.1), fun k hk => ?_⟩
  obtain ⟨i, r, -, -, -, -, hu⟩ := h.shapelet hk
  have hs : r.sample < a.X.length := hu.sample
  refine ⟨r.sample, r.index, hu.sample, ?_, ?_, _,
    (row_get _ 0 (by rw [List.length_range]; exact hs)), ?_⟩
  · rw [hu.length, hu.dilation]; exact hu.index
  · intro c hc
    rw [hu.count] at hc
    rw [hu.values c hc, hu.length, hu.dilation, hu.normalize, hu.channels]; rfl
  · have h0 : (List.range a.X.length).getD r.sample 0 = r.sample := by
      rw [getD_lt _ (by rw [List.length_range]; exact hs), List.getElem_range]
    rw [h0]
    have h3 := row_cells (fun k => mFeatures a.phase S
      ((a.X.getD r.sample []).map fun ch => ch.take (xLen.getD r.sample 0)) (xLen.getD r.sample 0) k)
      S.lengths.length k 0 hk (by omega)
    refine h3.trans ?_
    show some (features (mDistances (optOf a).phase S _ ((trainVL a xLen).len r.sample) k) _).1 = _
    rw [hu.distances (s := r.sample) (fun c _ => take_series r.sample c)]
    exact congrArg some (features_zero (distTo_nonneg _ _ _) (distTo_self hu.index))

/-! ### C24 -/

/-- **C24.** Univariate, equal lengths: the threshold of every returned shapelet lies between the
`p_min`-th and the `p_max`-th percentile of its distances to some training series of the class of its
source series (another series when the class has several members), and `transform` counts at least one
occurrence on that series. -/
theorem C24_thresholds_univariate_same_length {a : FitArgs ℝ L} (hv : ValidSL a) {g0 : G}
    {gs : Nat → G} {order : Nat → List Nat} (ho : IsSchedule order) {S : UShp ℝ}
    (hS : uslGenerate a g0 gs order = .ok S) :
    ∃ M, uslApply a.X S a.phase = .ok M ∧ ∀ k, k < S.lengths.length → ∃ s t s',
      s < a.X.length ∧ s' < a.X.length ∧
      uValues S k = seen (S.normalize.getD k false)
        (window a.phase ((a.X.getD s []).getD 0 []) (S.lengths.getD k 0) (S.dilations.getD k 0) t) ∧
      a.y[s']? = a.y[s]? ∧
      ((∃ s2, s2 < a.X.length ∧ s2 ≠ s ∧ a.y[s2]? = a.y[s]?) → s' ≠ s) ∧
      (∃ p0 p1, percentile (uDistances a.phase S ((a.X.getD s' []).getD 0 []) k) a.pMin = .ok p0 ∧
        percentile (uDistances a.phase S ((a.X.getD s' []).getD 0 []) k) a.pMax = .ok p1 ∧
        p0 ≤ S.threshold.getD k 0 ∧ S.threshold.getD k 0 ≤ p1) ∧
      ∃ (row : List ℝ) (n : ℝ), M[s']? = some row ∧ row[3 * k + 2]? = some n ∧ 1 ≤ n := by
  obtain ⟨P, rec, out, kept, h⟩ := usl_fitted hv ho hS
  obtain ⟨hwf, -, hk3⟩ := uFitted_wf hv.bounds h
  refine ⟨_, usl_transform hv hwf (fun k hk => (hk3 k hk).2.2.1), fun k hk => ?_⟩
  obtain ⟨i, r, -, -, -, hu⟩ := h.shapelet hk
  have hd := hu.distances (trainSL_len hv hu.sampled.test_lt)
  obtain ⟨p0, p1, e0, e1, l0, l1, -⟩ := hu.sampled.threshold
  rw [← hd] at e0 e1
  have hne : uDistances a.phase S ((trainSL a).series r.test 0) k ≠ [] := by
    refine (C05_applies a.phase S _ k ?_).1
    rw [trainSL_len hv hu.sampled.test_lt]
    have hroom := (hk3 k hk).2.2.1
    show HasWindow a.phase a.nt _ _
    unfold HasWindow
    split
    · omega
    · exact hroom
  refine ⟨r.sample, r.index, r.test, hu.sample, hu.sampled.test_lt, ?_, hu.sampled.same_class,
    hu.sampled.other, ⟨p0, p1, e0, e1, l0, l1⟩, _, _, row_get _ [] hu.sampled.test_lt,
    row_cells (fun k => uFeatures a.phase S ((trainSL a).series r.test 0) k)
      S.lengths.length k 2 hk (by omega), ?_⟩
  · rw [hu.values, hu.length, hu.dilation, hu.normalize]; rfl
  · exact features_count (distances_nonneg _ _ _ _ _ _) hne hv.perc.lo
      (hv.perc.le.trans hv.perc.hi) e0 l0

/-- **C24.** Univariate, variable lengths. -/
theorem C24_thresholds_univariate_variable_length {a : FitArgs ℝ L} {minLen : Nat} {xLen : List Nat}
    (hv : ValidVL a minLen xLen) {g0 : G}
    {gs : Nat → G} {order : Nat → List Nat} (ho : IsSchedule order) {S : UShp ℝ}
    (hS : uvlGenerate a minLen xLen g0 gs order = .ok S) :
    ∃ M, uvlApply a.X S a.phase xLen = .ok M ∧ ∀ k, k < S.lengths.length → ∃ s t s',
      s < a.X.length ∧ s' < a.X.length ∧
      uValues S k = seen (S.normalize.getD k false)
        (window a.phase (((a.X.getD s []).getD 0 []).take (xLen.getD s 0)) (S.lengths.getD k 0)
          (S.dilations.getD k 0) t) ∧
      a.y[s']? = a.y[s]? ∧
      ((∃ s2, s2 < a.X.length ∧ s2 ≠ s ∧ a.y[s2]? = a.y[s]?) → s' ≠ s) ∧
      (∃ p0 p1,
        percentile (uDistances a.phase S (((a.X.getD s' []).getD 0 []).take (xLen.getD s' 0)) k) a.pMin
          = .ok p0 ∧
        percentile (uDistances a.phase S (((a.X.getD s' []).getD 0 []).take (xLen.getD s' 0)) k) a.pMax
          = .ok p1 ∧
        p0 ≤ S.threshold.getD k 0 ∧ S.threshold.getD k 0 ≤ p1) ∧
      ∃ (row : List ℝ) (n : ℝ), M[s']? = some row ∧ row[3 * k + 2]? = some n ∧ 1 ≤ n := by
  obtain ⟨P, rec, out, kept, h⟩ := uvl_fitted hv ho hS
  obtain ⟨hwf, -, hk3⟩ := uFitted_wf hv.bounds h
  refine ⟨_, uvl_transform hv hwf (fun k hk => (hk3 k hk).2.2.1), fun k hk => ?_⟩
  obtain ⟨i, r, -, -, -, hu⟩ := h.shapelet hk
  have hs : r.test < a.X.length := hu.sampled.test_lt
  have hd := hu.distances (trainVL_len hv hs)
  obtain ⟨p0, p1, e0, e1, l0, l1, -⟩ := hu.sampled.threshold
  rw [← hd] at e0 e1
  have hne : uDistances a.phase S ((trainVL a xLen).series r.test 0) k ≠ [] := by
    refine (C05_applies a.phase S _ k ?_).1
    rw [trainVL_len hv hs]
    have hroom := ((hk3 k hk).2.2.1).trans_le (hv.data.xlen hs).2
    show HasWindow a.phase (xLen.getD r.test 0) _ _
    unfold HasWindow
    split
    · omega
    · exact hroom
  have h0 : (List.range a.X.length).getD r.test 0 = r.test := by
    rw [getD_lt _ (by rw [List.length_range]; exact hs), List.getElem_range]
  refine ⟨r.sample, r.index, r.test, hu.sample, hs, ?_, hu.sampled.same_class,
    hu.sampled.other, ⟨p0, p1, e0, e1, l0, l1⟩, _, (features (uDistances a.phase S
      ((trainVL a xLen).series r.test 0) k) (S.threshold.getD k 0)).2.2,
    row_get _ 0 (by rw [List.length_range]; exact hs), ?_, ?_⟩
  · rw [hu.values, hu.length, hu.dilation, hu.normalize]; rfl
  · rw [h0]
    exact row_cells (fun k => uFeatures a.phase S ((trainVL a xLen).series r.test 0) k)
      S.lengths.length k 2 hk (by omega)
  · exact features_count (distances_nonneg _ _ _ _ _ _) hne hv.perc.lo
      (hv.perc.le.trans hv.perc.hi) e0 l0

/-- **C24.** Multivariate, equal lengths. -/
theorem C24_thresholds_multivariate_same_length {a : FitArgs ℝ L} (hv : ValidSL a) {mc : Nat}
    (hmc : 1 ≤ mc) (hmcf : mc ≤ a.nf) {g0 : G} {gs : Nat → G} {order : Nat → List Nat}
    (ho : IsSchedule order) {S : MShp ℝ} (hS : mslGenerate a mc g0 gs order = .ok S) :
    ∃ M, mslApply a.X a.nt S a.phase = .ok M ∧ ∀ k, k < S.lengths.length → ∃ s t s',
      s < a.X.length ∧ s' < a.X.length ∧
      (∀ c, c < S.nChannels.getD k 0 → mValues S k c = seen (S.normalize.getD k false)
        (window a.phase ((a.X.getD s []).getD ((mChannels S k).getD c 0) []) (S.lengths.getD k 0)
          (S.dilations.getD k 0) t)) ∧
      a.y[s']? = a.y[s]? ∧
      ((∃ s2, s2 < a.X.length ∧ s2 ≠ s ∧ a.y[s2]? = a.y[s]?) → s' ≠ s) ∧
      (∃ p0 p1, percentile (mDistances a.phase S (a.X.getD s' []) a.nt k) a.pMin = .ok p0 ∧
        percentile (mDistances a.phase S (a.X.getD s' []) a.nt k) a.pMax = .ok p1 ∧
        p0 ≤ S.threshold.getD k 0 ∧ S.threshold.getD k 0 ≤ p1) ∧
      ∃ (row : List ℝ) (n : ℝ), M[s']? = some row ∧ row[3 * k + 2]? = some n ∧ 1 ≤ n := by
  obtain ⟨P, nch, rec, out, kept, h⟩ := msl_fitted hv hmc hmcf ho hS
  obtain ⟨hwf, -, hk3⟩ := mFitted_wf hv.bounds h
  refine ⟨_, msl_transform hv hwf (fun k hk => (hk3 k hk).2.2.1), fun k hk => ?_⟩
  obtain ⟨i, r, -, -, -, -, hu⟩ := h.shapelet hk
  obtain ⟨v, hsam, hthr⟩ := hu.sampled
  have hd := hu.distances (s := r.test) (x := a.X.getD r.test []) (fun c _ => rfl)
  obtain ⟨p0, p1, e0, e1, l0, l1, -⟩ := hsam.threshold
  rw [← hd] at e0 e1
  rw [hthr] at l0 l1
  have hne : mDistances a.phase S (a.X.getD r.test []) a.nt k ≠ [] :=
    range_map_ne_nil _ (nWin_pos (hk3 k hk).2.2.1)
  refine ⟨r.sample, r.index, r.test, hu.sample, hsam.test_lt, ?_, hsam.same_class,
    hsam.other, ⟨p0, p1, e0, e1, l0, l1⟩, _, _, row_get _ [] hsam.test_lt,
    row_cells (fun k => mFeatures a.phase S (a.X.getD r.test []) a.nt k)
      S.lengths.length k 2 hk (by omega), ?_⟩
  · intro c hc
    rw [hu.count] at hc
    rw [hu.values c hc, hu.length, hu.dilation, hu.normalize, hu.channels]; rfl
  · exact features_count (mDistances_nonneg _ _ _ _ _) hne hv.perc.lo
      (hv.perc.le.trans hv.perc.hi) e0 l0

/-- **C24.** Multivariate, variable lengths. -/
theorem C24_thresholds_multivariate_variable_length {a : FitArgs ℝ L} {minLen : Nat}
    {xLen : List Nat} (hv : ValidVL a minLen xLen) {mc : Nat}
    (hmc : 1 ≤ mc) (hmcf : mc ≤ a.nf) {g0 : G} {gs : Nat → G} {order : Nat → List Nat}
    (ho : IsSchedule order) {S : MShp ℝ} (hS : mvlGenerate a mc minLen xLen g0 gs order = .ok S) :
    let X' := fun s => (a.X.getD s []).map fun ch => ch.take (xLen.getD s 0)
    ∃ M, mvlApply a.X a.nt S a.phase xLen = .ok M ∧ ∀ k, k < S.lengths.length → ∃ s t s',
      s < a.X.length ∧ s' < a.X.length ∧
      (∀ c, c < S.nChannels.getD k 0 → mValues S k c = seen (S.normalize.getD k false)
        (window a.phase ((X' s).getD ((mChannels S k).getD c 0) []) (S.lengths.getD k 0)
          (S.dilations.getD k 0) t)) ∧
      a.y[s']? = a.y[s]? ∧
      ((∃ s2, s2 < a.X.length ∧ s2 ≠ s ∧ a.y[s2]? = a.y[s]?) → s' ≠ s) ∧
      (∃ p0 p1, percentile (mDistances a.phase S (X' s') (xLen.getD s' 0) k) a.pMin = .ok p0 ∧
        percentile (mDistances a.phase S (X' s') (xLen.getD s' 0) k) a.pMax = .ok p1 ∧
        p0 ≤ S.threshold.getD k 0 ∧ S.threshold.getD k 0 ≤ p1) ∧
      ∃ (row : List ℝ) (n : ℝ), M[s']? = some row ∧ row[3 * k + 2]? = some n ∧ 1 ≤ n := by
  intro X'
  obtain ⟨P, nch, rec, out, kept, h⟩ := mvl_fitted hv hmc hmcf ho hS
  obtain ⟨hwf, -, hk3⟩ := mFitted_wf hv.bounds h
  refine ⟨_, mvl_transform hv hwf (fun k hk => (hk3 k hk).2.2.1), fun k hk => ?_⟩
  obtain ⟨i, r, -, -, -, -, hu⟩ := h.shapelet hk
  obtain ⟨v, hsam, hthr⟩ := hu.sampled
  have hs : r.test < a.X.length := hsam.test_lt
  have hd := hu.distances (s := r.test) (x := X' r.test) (fun c _ => take_series r.test c)
  obtain ⟨p0, p1, e0, e1, l0, l1, -⟩ := hsam.threshold
  rw [← hd] at e0 e1
  rw [hthr] at l0 l1
  have hne : mDistances a.phase S (X' r.test) (xLen.getD r.test 0) k ≠ [] :=
    range_map_ne_nil _ (nWin_pos (((hk3 k hk).2.2.1).trans_le (hv.data.xlen hs).2))
  have h0 : (List.range a.X.length).getD r.test 0 = r.test := by
    rw [getD_lt _ (by rw [List.length_range]; exact hs), List.getElem_range]
  refine ⟨r.sample, r.index, r.test, hu.sample, hsam.test_lt, ?_, hsam.same_class,
    hsam.other, ⟨p0, p1, e0, e1, l0, l1⟩, _, (mFeatures a.phase S (X' r.test) (xLen.getD r.test 0) k).2.2,
    row_get _ 0 (by rw [List.length_range]; exact hs), ?_, ?_⟩
  · intro c hc
    rw [hu.count] at hc
    rw [hu.values c hc, hu.length, hu.dilation, hu.normalize, hu.channels]
    show _ = seen _ (window _ (((a.X.getD r.sample []).map fun ch => ch.take (xLen.getD r.sample 0)).getD _ [])
      _ _ _)
    rw [take_series]; rfl
  · rw [h0]
    exact row_cells (fun k => mFeatures a.phase S (X' r.test) (xLen.getD r.test 0) k)
      S.lengths.length k 2 hk (by omega)
  · exact features_count (mDistances_nonneg _ _ _ _ _) hne hv.perc.lo
      (hv.perc.le.trans hv.perc.hi) e0 l0

/-! ## C25: overlap -/

theorem uFitted_overlap {T : Train L} {a : FitArgs ℝ L} {n : Nat} {P : Par}
    {rec : Nat → Option Src} {out : Nat → Option (Out ℝ)} {kept : List Nat} {S : UShp ℝ}
    (h : UFitted T a n P rec out kept S) :
    ∃ src : Nat → Nat × Nat, (∀ k, k < S.lengths.length → (src k).1 < T.ns ∧
      (src k).2 < nWin a.phase (T.len (src k).1) (S.lengths.getD k 0) (S.dilations.getD k 0) ∧
      uValues S k = seen (S.normalize.getD k false)
        (window a.phase (T.series (src k).1 0) (S.lengths.getD k 0) (S.dilations.getD k 0) (src k).2)) ∧
      ∀ k k', k < k' → k' < S.lengths.length → (src k).1 = (src k').1 →
        S.dilations.getD k 0 = S.dilations.getD k' 0 →
        S.normalize.getD k false = S.normalize.getD k' false →
        S.lengths.getD k' 0 ≤ S.lengths.getD k 0 →
        ∃ m, (∀ j, j < S.lengths.length → S.dilations.getD j 0 = S.dilations.getD k 0 →
            m ≤ S.lengths.getD j 0) ∧
          (timePoints a.phase (T.len (src k).1) (S.lengths.getD k 0) (S.dilations.getD k 0) (src k).2 ∩
            timePoints a.phase (T.len (src k).1) (S.lengths.getD k' 0) (S.dilations.getD k 0)
              (src k').2).card ≤ (if a.phase then 2 else 1) * allowance a.alpha m := by
  have hex : ∀ k, ∃ p : Nat × Src, k < S.lengths.length → kept[k]? = some p.1 ∧ rec p.1 = some p.2 ∧
      Admissible T P (optOf a) false rec p.1 [0] p.2.sample p.2.index ∧
      UShapelet T P (optOf a) S k p.1 p.2 := by
    intro k
    by_cases hk : k < S.lengths.length
    · obtain ⟨i, r, h⟩ := h.shapelet hk
      exact ⟨(i, r), fun _ => h⟩
    · exact ⟨(0, ⟨0, 0, 0, []⟩), fun h => absurd h hk⟩
  choose p hp using hex
  refine ⟨fun k => ((p k).2.sample, (p k).2.index), ?_, ?_⟩
  · intro k hk
    obtain ⟨-, -, -, hu⟩ := hp k hk
    refine ⟨hu.sample, ?_, ?_⟩
    · rw [hu.length, hu.dilation]; exact hu.index
    · rw [hu.values, hu.length, hu.dilation, hu.normalize]; rfl
  · intro k k' hkk hk' hs hd hn hl
    obtain ⟨e1, r1, -, hu⟩ := hp k (by omega)
    obtain ⟨e2, r2, adm, hu'⟩ := hp k' hk'
    simp only at hs ⊢
    obtain ⟨m, hm⟩ := exists_minLength P hu'.lt
    rw [hu.dilation, hu'.dilation] at hd
    rw [hu.normalize, hu'.normalize] at hn
    rw [hu.length, hu'.length] at hl
    have hlt : (p k).1 < (p k').1 := by
      obtain ⟨q1, q2⟩ := List.getElem?_eq_some_iff.1 e1
      obtain ⟨q3, q4⟩ := List.getElem?_eq_some_iff.1 e2
      rw [← q2, ← q4]
      exact List.pairwise_iff_getElem.1 h.from_.sorted k k' q1 q3 hkk
    refine ⟨m, ?_, ?_⟩
    · intro j hj hdj
      obtain ⟨-, -, -, huj⟩ := hp j hj
      rw [huj.length]
      refine hm.2 _ huj.lt ?_
      rw [← huj.dilation, hdj, hu.dilation, hd]
    · rw [hu.length, hu'.length, hu.dilation]
      refine shared_le (h.drawn.dilation _ hu.lt).1 ?_ hl ?_
      · have := hu'.index
        rw [hs]
        exact this.trans_le (nWin_le _ _ _ _)
      · intro hnear
        have hfree : ¬ Blocked T P (optOf a) rec (p k').1 (p k').2.sample 0 (p k').2.index := by
          have := adm.2.2
          simpa [EnoughFree] using this
        refine hfree ⟨(p k).1, m, (p k).2, hlt, hd, hn, r1, hs, by rw [hu.channels]; simp, hm, ?_⟩
        rw [← hs]; exact hnear

/-- **C25.** Univariate, equal lengths: there are sources (series, position) of the returned shapelets
such that two shapelets from the same series, with the same dilation and normalisation flag, the later
one not longer than the earlier one, share at most `max(1, floor((1-alpha)*m))` time points, where `m`
is at most every returned length with this dilation; with phase invariance (circular windows) the
bound is twice as large. -/
theorem C25_overlap_same_length {a : FitArgs ℝ L} (hv : ValidSL a) {g0 : G}
    {gs : Nat → G} {order : Nat → List Nat} (ho : IsSchedule order) {S : UShp ℝ}
    (hS : uslGenerate a g0 gs order = .ok S) :
    ∃ src : Nat → Nat × Nat, (∀ k, k < S.lengths.length → (src k).1 < a.X.length ∧
      (src k).2 < nWin a.phase a.nt (S.lengths.getD k 0) (S.dilations.getD k 0) ∧
      uValues S k = seen (S.normalize.getD k false)
        (window a.phase ((a.X.getD (src k).1 []).getD 0 []) (S.lengths.getD k 0) (S.dilations.getD k 0)
          (src k).2)) ∧
      ∀ k k', k < k' → k' < S.lengths.length → (src k).1 = (src k').1 →
        S.dilations.getD k 0 = S.dilations.getD k' 0 →
        S.normalize.getD k false = S.normalize.getD k' false →
        S.lengths.getD k' 0 ≤ S.lengths.getD k 0 →
        ∃ m, (∀ j, j < S.lengths.length → S.dilations.getD j 0 = S.dilations.getD k 0 →
            m ≤ S.lengths.getD j 0) ∧
          (timePoints a.phase a.nt (S.lengths.getD k 0) (S.dilations.getD k 0) (src k).2 ∩
            timePoints a.phase a.nt (S.lengths.getD k' 0) (S.dilations.getD k 0)
              (src k').2).card ≤
            (if a.phase then 2 else 1) * ⌊max 1 ((1 - a.alpha) * (m : ℝ))⌋.toNat := by
  obtain ⟨P, rec, out, kept, h⟩ := usl_fitted hv ho hS
  exact uFitted_overlap h

/-- **C25.** Univariate, variable lengths. -/
theorem C25_overlap_variable_length {a : FitArgs ℝ L} {minLen : Nat} {xLen : List Nat}
    (hv : ValidVL a minLen xLen) {g0 : G}
    {gs : Nat → G} {order : Nat → List Nat} (ho : IsSchedule order) {S : UShp ℝ}
    (hS : uvlGenerate a minLen xLen g0 gs order = .ok S) :
    ∃ src : Nat → Nat × Nat, (∀ k, k < S.lengths.length → (src k).1 < a.X.length ∧
      (src k).2 < nWin a.phase (xLen.getD (src k).1 0) (S.lengths.getD k 0) (S.dilations.getD k 0) ∧
      uValues S k = seen (S.normalize.getD k false)
        (window a.phase (((a.X.getD (src k).1 []).getD 0 []).take (xLen.getD (src k).1 0))
          (S.lengths.getD k 0) (S.dilations.getD k 0) (src k).2)) ∧
      ∀ k k', k < k' → k' < S.lengths.length → (src k).1 = (src k').1 →
        S.dilations.getD k 0 = S.dilations.getD k' 0 →
        S.normalize.getD k false = S.normalize.getD k' false →
        S.lengths.getD k' 0 ≤ S.lengths.getD k 0 →
        ∃ m, (∀ j, j < S.lengths.length → S.dilations.getD j 0 = S.dilations.getD k 0 →
            m ≤ S.lengths.getD j 0) ∧
          (timePoints a.phase (xLen.getD (src k).1 0) (S.lengths.getD k 0) (S.dilations.getD k 0)
              (src k).2 ∩
            timePoints a.phase (xLen.getD (src k).1 0) (S.lengths.getD k' 0) (S.dilations.getD k 0)
              (src k').2).card ≤
            (if a.phase then 2 else 1) * ⌊max 1 ((1 - a.alpha) * (m : ℝ))⌋.toNat := by
  obtain ⟨P, rec, out, kept, h⟩ := uvl_fitted hv ho hS
  exact uFitted_overlap h

example : timePoints false 5 3 1 0 ∩ timePoints false 5 3 1 2 = {2} := by decide

/-! ## C28, C31: prime dilations and normalisation flags -/

/-- **C28.** With `prime_dilations=True` every returned dilation is 1 or a prime (univariate). -/
theorem C28_fit_dilations_univariate {a : FitArgs ℝ L} (hp : a.prime = true) {g0 : G}
    {gs : Nat → G} {order : Nat → List Nat} (ho : IsSchedule order) {S : UShp ℝ} :
    (ValidSL a → uslGenerate a g0 gs order = .ok S → ∀ k, k < S.lengths.length →
      S.dilations.getD k 0 = 1 ∨ (S.dilations.getD k 0).Prime) ∧
    ∀ minLen xLen, ValidVL a minLen xLen → uvlGenerate a minLen xLen g0 gs order = .ok S →
      ∀ k, k < S.lengths.length → S.dilations.getD k 0 = 1 ∨ (S.dilations.getD k 0).Prime := by
  refine ⟨fun hv hS k hk => ?_, fun minLen xLen hv hS k hk => ?_⟩
  · obtain ⟨P, rec, out, kept, h⟩ := usl_fitted hv ho hS
    exact ((uFitted_wf hv.bounds h).2.2 k hk).2.2.2.1 hp
  · obtain ⟨P, rec, out, kept, h⟩ := uvl_fitted hv ho hS
    exact ((uFitted_wf hv.bounds h).2.2 k hk).2.2.2.1 hp

/-- **C28.** With `prime_dilations=True` every returned dilation is 1 or a prime (multivariate). -/
theorem C28_fit_dilations_multivariate {a : FitArgs ℝ L} (hp : a.prime = true) {mc : Nat}
    (hmc : 1 ≤ mc) (hmcf : mc ≤ a.nf) {g0 : G}
    {gs : Nat → G} {order : Nat → List Nat} (ho : IsSchedule order) {S : MShp ℝ} :
    (ValidSL a → mslGenerate a mc g0 gs order = .ok S → ∀ k, k < S.lengths.length →
      S.dilations.getD k 0 = 1 ∨ (S.dilations.getD k 0).Prime) ∧
    ∀ minLen xLen, ValidVL a minLen xLen → mvlGenerate a mc minLen xLen g0 gs order = .ok S →
      ∀ k, k < S.lengths.length → S.dilations.getD k 0 = 1 ∨ (S.dilations.getD k 0).Prime := by
  refine ⟨fun hv hS k hk => ?_, fun minLen xLen hv hS k hk => ?_⟩
  · obtain ⟨P, nch, rec, out, kept, h⟩ := msl_fitted hv hmc hmcf ho hS
    exact ((mFitted_wf hv.bounds h).2.2 k hk).2.2.2.1 hp
  · obtain ⟨P, nch, rec, out, kept, h⟩ := mvl_fitted hv hmc hmcf ho hS
    exact ((mFitted_wf hv.bounds h).2.2 k hk).2.2.2.1 hp

example : exA.prime = true := rfl

/-- **C31.** `proba_norm <= 0` gives no normalised shapelet, `proba_norm >= 1` only normalised ones
(univariate). -/
theorem C31_proba_norm_univariate {a : FitArgs ℝ L} {g0 : G}
    {gs : Nat → G} {order : Nat → List Nat} (ho : IsSchedule order) {S : UShp ℝ}
    (hS : (ValidSL a ∧ uslGenerate a g0 gs order = .ok S) ∨
      ∃ minLen xLen, ValidVL a minLen xLen ∧ uvlGenerate a minLen xLen g0 gs order = .ok S) :
    (a.pNorm ≤ 0 → ∀ b ∈ S.normalize, b = false) ∧ (1 ≤ a.pNorm → ∀ b ∈ S.normalize, b = true) := by
  have key : UWF S ∧ ∀ k, k < S.lengths.length →
      (a.pNorm ≤ 0 → S.normalize.getD k true = false) ∧
      (1 ≤ a.pNorm → S.normalize.getD k false = true) := by
    rcases hS with ⟨hv, hS⟩ | ⟨minLen, xLen, hv, hS⟩
    · obtain ⟨P, rec, out, kept, h⟩ := usl_fitted hv ho hS
      obtain ⟨h1, -, h3⟩ := uFitted_wf hv.bounds h
      exact ⟨h1, fun k hk => (h3 k hk).2.2.2.2⟩
    · obtain ⟨P, rec, out, kept, h⟩ := uvl_fitted hv ho hS
      obtain ⟨h1, -, h3⟩ := uFitted_wf hv.bounds h
      exact ⟨h1, fun k hk => (h3 k hk).2.2.2.2⟩
  constructor
  · intro hp b hb
    obtain ⟨k, hk, rfl⟩ := List.mem_iff_getElem.1 hb
    have := (key.2 k (by rw [← key.1.normalize]; exact hk)).1 hp
    rwa [getD_lt _ hk] at this
  · intro hp b hb
    obtain ⟨k, hk, rfl⟩ := List.mem_iff_getElem.1 hb
    have := (key.2 k (by rw [← key.1.normalize]; exact hk)).2 hp
    rwa [getD_lt _ hk] at this

/-- **C31.** The same for the multivariate functions. -/
theorem C31_proba_norm_multivariate {a : FitArgs ℝ L} {mc : Nat} (hmc : 1 ≤ mc) (hmcf : mc ≤ a.nf)
    {g0 : G} {gs : Nat → G} {order : Nat → List Nat} (ho : IsSchedule order) {S : MShp ℝ}
    (hS : (ValidSL a ∧ mslGenerate a mc g0 gs order = .ok S) ∨
      ∃ minLen xLen, ValidVL a minLen xLen ∧ mvlGenerate a mc minLen xLen g0 gs order = .ok S) :
    (a.pNorm ≤ 0 → ∀ b ∈ S.normalize, b = false) ∧ (1 ≤ a.pNorm → ∀ b ∈ S.normalize, b = true) := by
  have key : MWF S a.nf ∧ ∀ k, k < S.lengths.length →
      (a.pNorm ≤ 0 → S.normalize.getD k true = false) ∧
      (1 ≤ a.pNorm → S.normalize.getD k false = true) := by
    rcases hS with ⟨hv, hS⟩ | ⟨minLen, xLen, hv, hS⟩
    · obtain ⟨P, nch, rec, out, kept, h⟩ := msl_fitted hv hmc hmcf ho hS
      obtain ⟨h1, -, h3⟩ := mFitted_wf hv.bounds h
      exact ⟨h1, fun k hk => ⟨(h3 k hk).2.2.2.2.1, (h3 k hk).2.2.2.2.2.1⟩⟩
    · obtain ⟨P, nch, rec, out, kept, h⟩ := mvl_fitted hv hmc hmcf ho hS
      obtain ⟨h1, -, h3⟩ := mFitted_wf hv.bounds h
      exact ⟨h1, fun k hk => ⟨(h3 k hk).2.2.2.2.1, (h3 k hk).2.2.2.2.2.1⟩⟩
  constructor
  · intro hp b hb
    obtain ⟨k, hk, rfl⟩ := List.mem_iff_getElem.1 hb
    have := (key.2 k (by rw [← key.1.normalize]; exact hk)).1 hp
    rwa [getD_lt _ hk] at this
  · intro hp b hb
    obtain ⟨k, hk, rfl⟩ := List.mem_iff_getElem.1 hb
    have := (key.2 k (by rw [← key.1.normalize]; exact hk)).2 hp
    rwa [getD_lt _ hk] at this

end Convst.Props
