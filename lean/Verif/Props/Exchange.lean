import Verif.Proofs.Exchange
import Verif.Spec.Exchange

/-!
# C101: the order of the training samples and of the channels carries no information

Which lists of shapelets `fit` can return depends on the set of labelled series only.
-/

set_option autoImplicit false
set_option linter.unusedSectionVars false

namespace Convst.Props
open Convst Spec

section
variable {L : Type}

theorem renamed_SL {a b : FitArgs ℝ L} (ha : a.y.length = a.X.length) (hb : b.y.length = b.X.length)
    (h : Reordered a b) : ∃ σ, Renamed (trainSL a) (trainSL b) σ 1 := by
  obtain ⟨σ, hσ⟩ := perm_positions h.samples
  have hlen : b.X.length = a.X.length := by
    have := h.samples.length_eq
    simp [ha, hb] at this
    exact this.symm
  have hX : ∀ s, b.X[s]? = a.X[σ s]? := by
    intro s
    have := congrArg (Option.map Prod.fst) (hσ s)
    rwa [← List.getElem?_map, ← List.getElem?_map, List.map_fst_zip (le_of_eq ha.symm),
      List.map_fst_zip (le_of_eq hb.symm)] at this
  have hy : ∀ s, b.y[s]? = a.y[σ s]? := by
    intro s
    have := congrArg (Option.map Prod.snd) (hσ s)
    rwa [← List.getElem?_map, ← List.getElem?_map, List.map_snd_zip (le_of_eq ha),
      List.map_snd_zip (le_of_eq hb)] at this
  have hnf : b.nf = a.nf := by rw [h.options]
  have hnt : b.nt = a.nt := by rw [h.options]
  refine ⟨σ, hlen, hnf, fun s => ?_, fun c => Iff.rfl, fun s => hnt, fun s c => ?_, fun s => hy s⟩
  · show σ s < a.X.length ↔ s < a.X.length
    have e := hX s
    rw [← not_iff_not, not_lt, not_lt, ← List.getElem?_eq_none_iff, ← e, List.getElem?_eq_none_iff, hlen]
  · show (b.X.getD s []).getD c [] = (a.X.getD (σ s) []).getD c []
    rw [List.getD_eq_getElem?_getD (l := b.X), hX, ← List.getD_eq_getElem?_getD]

theorem renamed_VL {a b : FitArgs ℝ L} {xa xb : List Nat} (ha : a.y.length = a.X.length)
    (ha' : xa.length = a.X.length) (hb : b.y.length = b.X.length) (hb' : xb.length = b.X.length)
    (h : ReorderedVL a b xa xb) : ∃ σ, Renamed (trainVL a xa) (trainVL b xb) σ 1 := by
  obtain ⟨σ, hσ⟩ := perm_positions h.samples
  have hlen : b.X.length = a.X.length := by
    have := h.samples.length_eq
    simp [ha, hb, ha', hb'] at this
    exact this.symm
  have zla : (a.y.zip xa).length = a.X.length := by simp [ha, ha']
  have zlb : (b.y.zip xb).length = b.X.length := by simp [hb, hb']
  have hX : ∀ s, b.X[s]? = a.X[σ s]? := by
    intro s
    have := congrArg (Option.map Prod.fst) (hσ s)
    rwa [← List.getElem?_map, ← List.getElem?_map, List.map_fst_zip (le_of_eq zla.symm),
      List.map_fst_zip (le_of_eq zlb.symm)] at this
  have hz : ∀ s, (b.y.zip xb)[s]? = (a.y.zip xa)[σ s]? := by
    intro s
    have := congrArg (Option.map Prod.snd) (hσ s)
    rwa [← List.getElem?_map, ← List.getElem?_map, List.map_snd_zip (le_of_eq zla),
      List.map_snd_zip (le_of_eq zlb)] at this
  have hy : ∀ s, b.y[s]? = a.y[σ s]? := by
    intro s
    have := congrArg (Option.map Prod.fst) (hz s)
    rwa [← List.getElem?_map, ← List.getElem?_map, List.map_fst_zip (by omega),
      List.map_fst_zip (by omega)] at this
  have hx : ∀ s, xb[s]? = xa[σ s]? := by
    intro s
    have := congrArg (Option.map Prod.snd) (hz s)
    rwa [← List.getElem?_map, ← List.getElem?_map, List.map_snd_zip (by omega),
      List.map_snd_zip (by omega)] at this
  have hxD : ∀ s, xb.getD s 0 = xa.getD (σ s) 0 := by
    intro s
    rw [List.getD_eq_getElem?_getD, hx, ← List.getD_eq_getElem?_getD]
  have hnf : b.nf = a.nf := by rw [h.options]
  refine ⟨σ, hlen, hnf, fun s => ?_, fun c => Iff.rfl, hxD, fun s c => ?_, fun s => hy s⟩
  · show σ s < a.X.length ↔ s < a.X.length
    have e := hX s
    rw [← not_iff_not, not_lt, not_lt, ← List.getElem?_eq_none_iff, ← e, List.getElem?_eq_none_iff, hlen]
  · show ((b.X.getD s []).getD c []).take (xb.getD s 0) =
      ((a.X.getD (σ s) []).getD c []).take (xa.getD (σ s) 0)
    rw [hxD, List.getD_eq_getElem?_getD (l := b.X), hX, ← List.getD_eq_getElem?_getD]

theorem map_out_one (f : Nat → Option (Out ℝ)) : (fun i => (f i).map (Renamed.out 1)) = f := by
  funext i
  cases f i with
  | none => rfl
  | some v =>
    have e : ((1 : Equiv.Perm Nat).symm : Nat → Nat) = id := rfl
    simp [Renamed.out, e]

theorem parDrawn_data {a : FitArgs ℝ L} {X : List (List (List ℝ))} {y : List L} {n : Nat} {P : Par}
    (h : ParDrawn a n P) : ParDrawn { a with X := X, y := y } n P :=
  ⟨h.count, h.length, h.dilation, h.norm_none, h.norm_all⟩

theorem uAllowed_renamed {T T' : Train L} {σ : Equiv.Perm Nat} (h : Renamed T T' σ 1) {a : FitArgs ℝ L}
    {X : List (List (List ℝ))} {y : List L} {n : Nat} {l : List Shown} (hl : UAllowed T a n l) :
    UAllowed T' { a with X := X, y := y } n l := by
  obtain ⟨P, rec, out, hP, hg, rfl⟩ := hl
  refine ⟨P, _, _, parDrawn_data hP, fun i hi => h.goodAt (fun _ => rfl) (hg i hi), ?_⟩
  rw [map_out_one]

/-- The shapelet with its channels renamed by `f`. -/
def renameChannels (f : Nat → Nat) (s : Shown) : Shown := { s with channels := s.channels.map f }

theorem mAllowed_renamed {T T' : Train L} {σ τ : Equiv.Perm Nat} (h : Renamed T T' σ τ) {a : FitArgs ℝ L}
    {X : List (List (List ℝ))} {y : List L} {n mc : Nat} {l : List Shown} (hl : MAllowed T a n mc l) :
    MAllowed T' { a with X := X, y := y } n mc (l.map (renameChannels τ.symm)) := by
  obtain ⟨P, nch, rec, out, hP, hc, hg, rfl⟩ := hl
  refine ⟨P, nch, _, _, parDrawn_data hP, hc, fun i hi => h.goodAt (by simp) (hg i hi), ?_⟩
  unfold mListed
  rw [List.map_filterMap]
  congr 1
  funext i
  show ((out i).map (showOut P i)).map _ = ((out i).map (Renamed.out τ)).map (showOut P i)
  cases out i <;> rfl

theorem rename_one (l : List Shown) : l.map (renameChannels (1 : Equiv.Perm Nat).symm) = l := by
  rw [show (renameChannels (1 : Equiv.Perm Nat).symm) = id from ?_, List.map_id]
  funext s
  have e : ((1 : Equiv.Perm Nat).symm : Nat → Nat) = id := rfl
  simp [renameChannels, e]

theorem renamed_channels {a : FitArgs ℝ L} {order : List Nat} (ho : order.Perm (List.range a.nf)) :
    ∃ τ : Equiv.Perm Nat, (∀ c, c < a.nf → τ c = order.getD c 0) ∧ (∀ c, τ c < a.nf ↔ c < a.nf) ∧
      ∀ X : List (List (List ℝ)), (∀ s ∈ X, s.length = a.nf) → ∀ s c : Nat,
        ((X.map fun s => order.map fun c => s.getD c []).getD s []).getD c [] =
          (X.getD s []).getD (τ c) [] := by
  obtain ⟨τ, hτ⟩ := perm_positions ho.symm
  have hl : order.length = a.nf := by simpa using ho.length_eq
  have hlt : ∀ c, τ c < a.nf ↔ c < a.nf := by
    intro c
    have e := hτ c
    rw [← not_iff_not, not_lt, not_lt]
    have h1 : (List.range a.nf).length = a.nf := List.length_range
    conv_lhs => rw [← h1]
    rw [← List.getElem?_eq_none_iff, ← e, List.getElem?_eq_none_iff, hl]
  have hget : ∀ c, c < a.nf → order[c]? = some (τ c) := by
    intro c hc
    rw [hτ, List.getElem?_range ((hlt c).2 hc)]
  refine ⟨τ, fun c hc => (getD_of_some (hget c hc) 0).symm, hlt, fun X hX s c => ?_⟩
  by_cases hs : s < X.length
  · have hsl := hX _ (List.getElem_mem hs)
    rw [List.getD_eq_getElem?_getD (l := X.map _), List.getElem?_map, List.getElem?_eq_getElem hs,
      List.getD_eq_getElem?_getD (l := X), List.getElem?_eq_getElem hs]
    simp only [Option.map_some, Option.getD_some]
    by_cases hc : c < a.nf
    · rw [List.getD_eq_getElem?_getD (l := order.map _), List.getElem?_map, hget c hc]
      rfl
    · rw [List.getD_eq_getElem?_getD, List.getElem?_eq_none (by simp [hl]; omega),
        List.getD_eq_getElem?_getD, List.getElem?_eq_none (by rw [hsl]; have := hlt c; omega)]
  · rw [List.getD_eq_getElem?_getD (l := X.map _), List.getElem?_eq_none (by simpa using hs),
      List.getD_eq_getElem?_getD (l := X), List.getElem?_eq_none (by simpa using hs)]
    simp

theorem renamed_channels_SL {a : FitArgs ℝ L} (hd : DataSL a) {order : List Nat}
    (ho : order.Perm (List.range a.nf)) : ∃ τ : Equiv.Perm Nat,
      (∀ c, c < a.nf → τ c = order.getD c 0) ∧ (∀ c, τ c < a.nf ↔ c < a.nf) ∧
      Renamed (trainSL a) (trainSL (withChannels a order)) 1 τ := by
  obtain ⟨τ, h1, h2, h3⟩ := renamed_channels ho
  exact ⟨τ, h1, h2, by simp [trainSL, withChannels], rfl, fun s => Iff.rfl, h2, fun _ => rfl,
    fun s c => h3 a.X hd.nf s c, fun _ => rfl⟩

theorem renamed_channels_VL {a : FitArgs ℝ L} {xLen : List Nat} {n : Nat} (hd : DataVL a xLen n)
    {order : List Nat} (ho : order.Perm (List.range a.nf)) : ∃ τ : Equiv.Perm Nat,
      (∀ c, c < a.nf → τ c = order.getD c 0) ∧ (∀ c, τ c < a.nf ↔ c < a.nf) ∧
      Renamed (trainVL a xLen) (trainVL (withChannels a order) xLen) 1 τ := by
  obtain ⟨τ, h1, h2, h3⟩ := renamed_channels ho
  exact ⟨τ, h1, h2, by simp [trainVL, withChannels], rfl, fun s => Iff.rfl, h2, fun _ => rfl,
    fun s c => congrArg (List.take _) (h3 a.X hd.nf s c), fun _ => rfl⟩

theorem mem_withChannels {a : FitArgs ℝ L} {order : List Nat} {s : List (List ℝ)}
    (h : s ∈ (withChannels a order).X) : ∃ s' ∈ a.X, s = order.map fun c => s'.getD c [] := by
  obtain ⟨s', h1, rfl⟩ := List.mem_map.1 h
  exact ⟨s', h1, rfl⟩

theorem withChannels_shape {a : FitArgs ℝ L} (hnf : ∀ s ∈ a.X, s.length = a.nf)
    (hnt : ∀ s ∈ a.X, ∀ x ∈ s, x.length = a.nt) {order : List Nat} (ho : order.Perm (List.range a.nf)) :
    (∀ s ∈ (withChannels a order).X, s.length = a.nf) ∧
      ∀ s ∈ (withChannels a order).X, ∀ x ∈ s, x.length = a.nt := by
  constructor
  · intro s hs
    obtain ⟨s', h1, rfl⟩ := mem_withChannels hs
    simpa using ho.length_eq
  · intro s hs x hx
    obtain ⟨s', h1, rfl⟩ := mem_withChannels hs
    obtain ⟨c, hc, rfl⟩ := List.mem_map.1 hx
    have hc' : c < s'.length := by
      rw [hnf s' h1]
      simpa using ho.mem_iff.1 hc
    rw [List.getD_eq_getElem?_getD, List.getElem?_eq_getElem hc', Option.getD_some]
    exact hnt s' h1 _ (List.getElem_mem _)

theorem withChannels_SL {a : FitArgs ℝ L} (hv : ValidSL a) {order : List Nat}
    (ho : order.Perm (List.range a.nf)) : ValidSL (withChannels a order) := by
  obtain ⟨h1, h2⟩ := withChannels_shape hv.data.nf hv.data.nt ho
  exact ⟨⟨by simpa [withChannels] using hv.data.y, h1, h2⟩, hv.nf, ⟨hv.perc.lo, hv.perc.le, hv.perc.hi⟩,
    hv.nShp, hv.sizes, hv.bounds⟩

theorem withChannels_VL {a : FitArgs ℝ L} {minLen : Nat} {xLen : List Nat} (hv : ValidVL a minLen xLen)
    {order : List Nat} (ho : order.Perm (List.range a.nf)) :
    ValidVL (withChannels a order) minLen xLen := by
  obtain ⟨h1, h2⟩ := withChannels_shape hv.data.nf hv.data.nt ho
  exact ⟨⟨by simpa [withChannels] using hv.data.y, by simpa [withChannels] using hv.data.len, h1, h2,
    hv.data.le, hv.data.ge⟩, by simpa [withChannels] using hv.ne, hv.nf,
    ⟨hv.perc.lo, hv.perc.le, hv.perc.hi⟩, hv.nShp, hv.sizes, hv.bounds⟩

/-- Channels below `nf` renamed by `τ.symm` and back. -/
theorem rename_back {τ : Equiv.Perm Nat} {n : Nat} {f : Nat → Nat} (h1 : ∀ c, c < n → τ c = f c)
    (h2 : ∀ c, τ c < n ↔ c < n) {l : List Shown} (hl : ∀ s ∈ l, ∀ c ∈ s.channels, c < n) :
    (l.map (renameChannels τ.symm)).map (renameChannels f) = l := by
  rw [List.map_map]
  conv_rhs => rw [← List.map_id l]
  refine List.map_congr_left fun s hs => ?_
  show ({ s with channels := (s.channels.map τ.symm).map f } : Shown) = s
  rw [List.map_map, show s.channels.map (f ∘ τ.symm) = s.channels from ?_]
  conv_rhs => rw [← List.map_id s.channels]
  refine List.map_congr_left fun c hc => ?_
  have : τ.symm c < n := by rw [← h2]; simpa using hl s hs c hc
  show f (τ.symm c) = c
  rw [← h1 _ this]; simp

theorem mAllowed_channels {T : Train L} {a : FitArgs ℝ L} {n mc : Nat} {l : List Shown}
    (h : MAllowed T a n mc l) : ∀ s ∈ l, ∀ c ∈ s.channels, c < T.nf := by
  obtain ⟨P, nch, rec, out, -, -, hg, rfl⟩ := h
  intro s hs c hc
  obtain ⟨i, hi, hv'⟩ := List.mem_filterMap.1 hs
  obtain ⟨v, hv, rfl⟩ := Option.map_eq_some_iff.1 hv'
  clear hv'
  obtain ⟨ch, hch, ⟨-, h2, -⟩ | ⟨r, v', -, h2, h3, -, h5⟩⟩ := hg i (by simpa using hi)
  · rw [h2] at hv; simp at hv
  · rw [h2] at hv; obtain rfl := Option.some.inj hv
    have hc' : c ∈ v'.channels := hc
    rw [h5.channels, h3] at hc'
    simp only [ChannelsOK, if_true] at hch
    exact hch.2.2 c hc'

end

/-! ## C101 -/

section
variable {G L : Type} [Gen G ℝ] [LawfulGen G] [DecidableEq L]

/-- **C101.** Univariate data of equal length: whatever `fit` returns for one order of the training samples, it
returns for any other order under some random outcomes, whatever the schedule. -/
theorem C101_samples_same_length {a b : FitArgs ℝ L} (ha : ValidSL a) (hb : ValidSL b) (h : Reordered a b)
    (g0 : G) (gs : Nat → G) {order : Nat → List Nat} (ho : IsSchedule order) :
    ∃ S, uslGenerate a g0 gs order = .ok S ∧
      ∃ (g0' : Script) (gs' : Nat → Script) (S' : UShp ℝ), uShown S' = uShown S ∧
        ∀ order, IsSchedule order → uslGenerate b g0' gs' order = .ok S' := by
  obtain ⟨S, h1, h2⟩ := C79_sound_same_length ha g0 gs ho
  obtain ⟨σ, hσ⟩ := renamed_SL ha.data.y hb.data.y h
  refine ⟨S, h1, C79_complete_same_length hb ?_⟩
  have := uAllowed_renamed (X := b.X) (y := b.y) hσ h2
  rw [← h.options] at this
  rwa [show b.nt = a.nt by rw [h.options]]

/-- **C101.** The same for univariate data of variable length. -/
theorem C101_samples_variable_length {a b : FitArgs ℝ L} {minLen : Nat} {xa xb : List Nat}
    (ha : ValidVL a minLen xa) (hb : ValidVL b minLen xb) (h : ReorderedVL a b xa xb)
    (g0 : G) (gs : Nat → G) {order : Nat → List Nat} (ho : IsSchedule order) :
    ∃ S, uvlGenerate a minLen xa g0 gs order = .ok S ∧
      ∃ (g0' : Script) (gs' : Nat → Script) (S' : UShp ℝ), uShown S' = uShown S ∧
        ∀ order, IsSchedule order → uvlGenerate b minLen xb g0' gs' order = .ok S' := by
  obtain ⟨S, h1, h2⟩ := C79_sound_variable_length ha g0 gs ho
  obtain ⟨σ, hσ⟩ := renamed_VL ha.data.y ha.data.len hb.data.y hb.data.len h
  refine ⟨S, h1, C79_complete_variable_length hb ?_⟩
  have := uAllowed_renamed (X := b.X) (y := b.y) hσ h2
  rwa [← h.options] at this

/-- **C101.** The same for multivariate data of equal length. -/
theorem C101_samples_multivariate_same_length {a b : FitArgs ℝ L} (ha : ValidSL a) (hb : ValidSL b)
    (h : Reordered a b) {mc : Nat} (hmc : 1 ≤ mc) (hmcf : mc ≤ a.nf)
    (g0 : G) (gs : Nat → G) {order : Nat → List Nat} (ho : IsSchedule order) :
    ∃ S, mslGenerate a mc g0 gs order = .ok S ∧
      ∃ (g0' : Script) (gs' : Nat → Script) (S' : MShp ℝ), mShown S' = mShown S ∧
        ∀ order, IsSchedule order → mslGenerate b mc g0' gs' order = .ok S' := by
  obtain ⟨S, h1, h2⟩ := C79_sound_multivariate_same_length ha hmc hmcf g0 gs ho
  obtain ⟨σ, hσ⟩ := renamed_SL ha.data.y hb.data.y h
  refine ⟨S, h1, C79_complete_multivariate_same_length hb ?_⟩
  have := mAllowed_renamed (X := b.X) (y := b.y) hσ h2
  rw [← h.options, rename_one] at this
  rwa [show b.nt = a.nt by rw [h.options]]

/-- **C101.** The same for multivariate data of variable length. -/
theorem C101_samples_multivariate_variable_length {a b : FitArgs ℝ L} {minLen : Nat} {xa xb : List Nat}
    (ha : ValidVL a minLen xa) (hb : ValidVL b minLen xb) (h : ReorderedVL a b xa xb)
    {mc : Nat} (hmc : 1 ≤ mc) (hmcf : mc ≤ a.nf)
    (g0 : G) (gs : Nat → G) {order : Nat → List Nat} (ho : IsSchedule order) :
    ∃ S, mvlGenerate a mc minLen xa g0 gs order = .ok S ∧
      ∃ (g0' : Script) (gs' : Nat → Script) (S' : MShp ℝ), mShown S' = mShown S ∧
        ∀ order, IsSchedule order → mvlGenerate b mc minLen xb g0' gs' order = .ok S' := by
  obtain ⟨S, h1, h2⟩ := C79_sound_multivariate_variable_length ha hmc hmcf g0 gs ho
  obtain ⟨σ, hσ⟩ := renamed_VL ha.data.y ha.data.len hb.data.y hb.data.len h
  refine ⟨S, h1, C79_complete_multivariate_variable_length hb ?_⟩
  have := mAllowed_renamed (X := b.X) (y := b.y) hσ h2
  rwa [← h.options, rename_one] at this

/-- **C101.** Multivariate data of equal length: whatever `fit` returns for one order of the channels, it
returns for any other order under some random outcomes, up to the numbers of the channels. -/
theorem C101_channels_same_length {a : FitArgs ℝ L} (ha : ValidSL a) {channels : List Nat}
    (hp : channels.Perm (List.range a.nf)) {mc : Nat} (hmc : 1 ≤ mc) (hmcf : mc ≤ a.nf)
    (g0 : G) (gs : Nat → G) {order : Nat → List Nat} (ho : IsSchedule order) :
    ∃ S, mslGenerate a mc g0 gs order = .ok S ∧
      ∃ (g0' : Script) (gs' : Nat → Script) (S' : MShp ℝ),
        (mShown S').map (renameChannels fun c => channels.getD c 0) = mShown S ∧
        ∀ order, IsSchedule order → mslGenerate (withChannels a channels) mc g0' gs' order = .ok S' := by
  obtain ⟨S, h1, h2⟩ := C79_sound_multivariate_same_length ha hmc hmcf g0 gs ho
  obtain ⟨τ, t1, t2, hτ⟩ := renamed_channels_SL ha.data hp
  have h3 := mAllowed_renamed (X := (withChannels a channels).X) (y := a.y) hτ h2
  obtain ⟨g0', gs', S', h4, h5⟩ := C79_complete_multivariate_same_length (withChannels_SL ha hp) h3
  refine ⟨S, h1, g0', gs', S', ?_, h5⟩
  rw [h4, rename_back t1 t2 (mAllowed_channels h2)]

/-- **C101.** The same for multivariate data of variable length. -/
theorem C101_channels_variable_length {a : FitArgs ℝ L} {minLen : Nat} {xLen : List Nat}
    (ha : ValidVL a minLen xLen) {channels : List Nat} (hp : channels.Perm (List.range a.nf))
    {mc : Nat} (hmc : 1 ≤ mc) (hmcf : mc ≤ a.nf)
    (g0 : G) (gs : Nat → G) {order : Nat → List Nat} (ho : IsSchedule order) :
    ∃ S, mvlGenerate a mc minLen xLen g0 gs order = .ok S ∧
      ∃ (g0' : Script) (gs' : Nat → Script) (S' : MShp ℝ),
        (mShown S').map (renameChannels fun c => channels.getD c 0) = mShown S ∧
        ∀ order, IsSchedule order →
          mvlGenerate (withChannels a channels) mc minLen xLen g0' gs' order = .ok S' := by
  obtain ⟨S, h1, h2⟩ := C79_sound_multivariate_variable_length ha hmc hmcf g0 gs ho
  obtain ⟨τ, t1, t2, hτ⟩ := renamed_channels_VL ha.data hp
  have h3 := mAllowed_renamed (X := (withChannels a channels).X) (y := a.y) hτ h2
  obtain ⟨g0', gs', S', h4, h5⟩ := C79_complete_multivariate_variable_length (withChannels_VL ha hp) h3
  refine ⟨S, h1, g0', gs', S', ?_, h5⟩
  rw [h4, rename_back t1 t2 (mAllowed_channels h2)]

end

/-! ## The hypotheses can be met -/

/-- Three samples with two channels of four points, two classes. -/
noncomputable def exE : FitArgs ℝ Nat where
  X := [[[1, 2, 4, 0], [0, 3, 1, 1]], [[5, 1, 1, 2], [2, 2, 0, 7]], [[0, 0, 1, 8], [9, 1, 3, 3]]]
  nf := 2
  nt := 4
  y := [0, 1, 0]
  nShp := 5
  sizes := [2, 3]
  pNorm := 1 / 2
  pMin := 5
  pMax := 10
  alpha := 1 / 2
  phase := false
  prime := true

/-- The same samples in another order. -/
noncomputable def exE' : FitArgs ℝ Nat := { exE with
  X := [[[0, 0, 1, 8], [9, 1, 3, 3]], [[1, 2, 4, 0], [0, 3, 1, 1]], [[5, 1, 1, 2], [2, 2, 0, 7]]]
  y := [0, 0, 1] }

theorem exE_valid : ValidSL exE where
  data := ⟨rfl, by simp [exE], by simp [exE]⟩
  nf := by norm_num [exE]
  perc := ⟨by norm_num [exE], by norm_num [exE], by norm_num [exE]⟩
  nShp := by norm_num [exE]
  sizes := by simp [exE]
  bounds := by simp [exE]

theorem exE'_valid : ValidSL exE' where
  data := ⟨rfl, by simp [exE', exE], by simp [exE', exE]⟩
  nf := by norm_num [exE', exE]
  perc := ⟨by norm_num [exE', exE], by norm_num [exE', exE], by norm_num [exE', exE]⟩
  nShp := by norm_num [exE', exE]
  sizes := by simp [exE', exE]
  bounds := by simp [exE', exE]

theorem exE_reordered : Reordered exE exE' where
  samples := by
    show List.Perm [_, _, _] [_, _, _]
    exact ((List.Perm.swap _ _ _).cons _).trans (List.Perm.swap _ _ _)
  options := rfl

example (g0 : Script) (gs : Nat → Script) : ∃ S, mslGenerate exE 2 g0 gs List.range = .ok S ∧
    ∃ (g0' : Script) (gs' : Nat → Script) (S' : MShp ℝ), mShown S' = mShown S ∧
      ∀ order, IsSchedule order → mslGenerate exE' 2 g0' gs' order = .ok S' :=
  C101_samples_multivariate_same_length exE_valid exE'_valid exE_reordered (mc := 2) (by norm_num) (le_refl _) g0 gs
    fun _ => List.Perm.refl _

example (g0 : Script) (gs : Nat → Script) : ∃ S, mslGenerate exE 2 g0 gs List.range = .ok S ∧
    ∃ (g0' : Script) (gs' : Nat → Script) (S' : MShp ℝ),
      (mShown S').map (renameChannels fun c => [1, 0].getD c 0) = mShown S ∧
      ∀ order, IsSchedule order → mslGenerate (withChannels exE [1, 0]) 2 g0' gs' order = .ok S' :=
  C101_channels_same_length exE_valid (List.Perm.swap _ _ _) (mc := 2) (by norm_num) (le_refl _) g0 gs
    fun _ => List.Perm.refl _

end Convst.Props
