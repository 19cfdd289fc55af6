import Verif.Props.Complete

/-!
# Renaming samples and channels

Lemmas for C101: the rules of `Verif/Spec/Fit.lean` do not depend on the numbers given to the samples and to
the channels.
-/

set_option autoImplicit false
set_option linter.unusedSectionVars false

namespace Convst
open Spec

/-- A permutation of the successors. -/
def shiftPerm (σ : Equiv.Perm Nat) : Equiv.Perm Nat where
  toFun | 0 => 0
        | n + 1 => σ n + 1
  invFun | 0 => 0
         | n + 1 => σ.symm n + 1
  left_inv n := by cases n <;> simp
  right_inv n := by cases n <;> simp

theorem perm_positions {α : Type} {l l' : List α} (h : l.Perm l') :
    ∃ σ : Equiv.Perm Nat, ∀ i, l'[i]? = l[σ i]? := by
  induction h with
  | nil => exact ⟨1, fun i => by simp⟩
  | cons x h ih =>
    obtain ⟨σ, hσ⟩ := ih
    refine ⟨shiftPerm σ, fun i => ?_⟩
    cases i with
    | zero => simp [shiftPerm]
    | succ n => simp [shiftPerm, hσ]
  | swap x y l =>
    refine ⟨Equiv.swap 0 1, fun i => ?_⟩
    match i with
    | 0 => simp
    | 1 => simp
    | n + 2 =>
      rw [Equiv.swap_apply_of_ne_of_ne (by omega) (by omega)]
      simp
  | trans _ _ ih1 ih2 =>
    obtain ⟨σ, hσ⟩ := ih1
    obtain ⟨τ, hτ⟩ := ih2
    exact ⟨τ.trans σ, fun i => by rw [hτ, hσ]; rfl⟩

/-- `T'` is `T` with its samples and channels renamed: sample `s` of `T'` is sample `σ s` of `T`, channel `c`
of `T'` is channel `τ c` of `T`. -/
structure Renamed {L : Type} (T T' : Train L) (σ τ : Equiv.Perm Nat) : Prop where
  ns : T'.ns = T.ns
  nf : T'.nf = T.nf
  sample : ∀ s, σ s < T.ns ↔ s < T.ns
  channel : ∀ c, τ c < T.nf ↔ c < T.nf
  len : ∀ s, T'.len s = T.len (σ s)
  series : ∀ s c, T'.series s c = T.series (σ s) (τ c)
  label : ∀ s, T'.label s = T.label (σ s)

namespace Renamed
variable {L : Type} {T T' : Train L} {σ τ : Equiv.Perm Nat}

theorem symm (h : Renamed T T' σ τ) : Renamed T' T σ.symm τ.symm where
  ns := h.ns.symm
  nf := h.nf.symm
  sample s := by have := h.sample (σ.symm s); simp at this; rw [h.ns]; exact this.symm
  channel s := by have := h.channel (τ.symm s); simp at this; rw [h.nf]; exact this.symm
  len s := by rw [h.len]; simp
  series s c := by rw [h.series]; simp
  label s := by rw [h.label]; simp

/-- A source of `T` in the numbering of `T'`. -/
def src (σ τ : Equiv.Perm Nat) (r : Src) : Src :=
  ⟨σ.symm r.sample, r.index, σ.symm r.test, r.channels.map τ.symm⟩

/-- A shapelet of `T` in the numbering of `T'`. -/
def out (τ : Equiv.Perm Nat) (v : Out ℝ) : Out ℝ := { v with channels := v.channels.map τ.symm }

theorem blocked (h : Renamed T T' σ τ) {P : Par} {o : Opt} {rec : Nat → Option Src} {i s c t : Nat} :
    Blocked T' P o (fun i => (rec i).map (src σ τ)) i (σ.symm s) (τ.symm c) t ↔
      Blocked T P o rec i s c t := by
  constructor
  · rintro ⟨j, m, r, h1, h2, h3, h4, h5, h6, h7, h8⟩
    obtain ⟨r', h4', rfl⟩ := Option.map_eq_some_iff.1 h4
    refine ⟨j, m, r', h1, h2, h3, h4', by simpa [src] using h5, ?_, h7, ?_⟩
    · simpa [src] using h6
    · have := h8; rw [h.len] at this; simpa [src] using this
  · rintro ⟨j, m, r, h1, h2, h3, h4, h5, h6, h7, h8⟩
    refine ⟨j, m, src σ τ r, h1, h2, h3, by simp [h4], by simpa [src] using h5, ?_, h7, ?_⟩
    · simpa [src] using h6
    · rw [h.len]; simpa [src] using h8

theorem admissible (h : Renamed T T' σ τ) {multi : Bool} (hm : multi = false → τ.symm 0 = 0) {P : Par}
    {o : Opt} {rec : Nat → Option Src} {i s t : Nat} {channels : List Nat} :
    Admissible T' P o multi (fun i => (rec i).map (src σ τ)) i (channels.map τ.symm) (σ.symm s) t ↔
      Admissible T P o multi rec i channels s t := by
  unfold Admissible
  refine and_congr ?_ (and_congr ?_ ?_)
  · have := h.symm.sample s; rw [h.ns] at *; exact this
  · rw [h.len]; simp
  · unfold EnoughFree
    cases multi with
    | false =>
      simp only [Bool.false_eq_true, if_false]
      have := h.blocked (P := P) (o := o) (rec := rec) (i := i) (s := s) (c := 0) (t := t)
      rw [hm rfl] at this
      rw [this]
    | true =>
      simp only [if_true, List.length_map, List.countP_map]
      refine iff_of_eq (congrArg (fun n : Nat => (channels.length : ℝ) * o.alpha ≤ (n : ℝ)) ?_)
      refine List.countP_congr fun c _ => ?_
      simp [h.blocked]

theorem subseq_eq (h : Renamed T T' σ τ) {P : Par} {o : Opt} {i s c t : Nat} :
    subseq T' P o i (σ.symm s) (τ.symm c) t = subseq T P o i s c t := by
  unfold subseq; rw [h.series]; simp

theorem distTo_eq (h : Renamed T T' σ τ) {P : Par} {o : Opt} {i s : Nat} {r : Src} :
    distTo T' P o i (src σ τ r) (σ.symm s) = distTo T P o i r s := by
  unfold distTo
  rw [h.len]
  simp only [Equiv.apply_symm_apply, src, List.map_map]
  refine List.map_congr_left fun t _ => ?_
  congr 1
  refine List.map_congr_left fun c _ => ?_
  simp [h.subseq_eq]

theorem sampled (h : Renamed T T' σ τ) {P : Par} {o : Opt} {i : Nat} {r : Src} {v : Out ℝ}
    (hs : Sampled T P o i r v) : Sampled T' P o i (src σ τ r) (out τ v) where
  channels := by simp [src, out, hs.channels]
  values := by
    simp only [out, hs.values, src, List.flatMap_map]
    refine List.flatMap_congr fun c _ => ?_
    rw [h.subseq_eq]
  test_lt := by
    have := h.symm.sample r.test
    rw [h.ns] at *
    exact this.2 hs.test_lt
  same_class := by simp [src, h.label, hs.same_class]
  other := by
    rintro ⟨s, h1, h2, h3⟩ h4
    refine hs.other ⟨σ s, (h.sample s).2 (h.ns ▸ h1), ?_, ?_⟩ (by simpa [src] using h4)
    · intro e; apply h2; simp [src, ← e]
    · have := h3; rw [h.label, h.label] at this; simpa [src] using this
  threshold := by
    have := hs.threshold
    simp only [src, out]
    rw [show (⟨σ.symm r.sample, r.index, σ.symm r.test, r.channels.map τ.symm⟩ : Src) = src σ τ r from rfl,
      h.distTo_eq]
    exact this

theorem channelsOK (h : Renamed T T' σ τ) {multi : Bool} (hm : multi = false → τ.symm 0 = 0) {n : Nat}
    {channels : List Nat} (hc : ChannelsOK multi T.nf n channels) :
    ChannelsOK multi T'.nf n (channels.map τ.symm) := by
  unfold ChannelsOK at *
  cases multi with
  | false => simp only [Bool.false_eq_true, if_false] at *; simp [hc, hm]
  | true =>
    simp only [if_true] at *
    refine ⟨hc.1.map τ.symm.injective, by simpa using hc.2.1, fun c hc' => ?_⟩
    obtain ⟨c', h1, rfl⟩ := List.mem_map.1 hc'
    exact (h.symm.channel c').2 (h.nf ▸ hc.2.2 c' h1)

theorem goodAt (h : Renamed T T' σ τ) {multi : Bool} (hm : multi = false → τ.symm 0 = 0) {P : Par}
    {o : Opt} {nch : Nat → Nat} {rec : Nat → Option Src} {f : Nat → Option (Out ℝ)} {i : Nat}
    (hg : GoodAt T P o multi nch rec f i) :
    GoodAt T' P o multi nch (fun i => (rec i).map (src σ τ)) (fun i => (f i).map (out τ)) i := by
  obtain ⟨ch, hch, ⟨h1, h2, h3⟩ | ⟨r, v, h1, h2, h3, h4, h5⟩⟩ := hg
  · refine ⟨ch.map τ.symm, h.channelsOK hm hch, Or.inl ⟨by simp [h1], by simp [h2], fun s t h4 => ?_⟩⟩
    refine h3 (σ s) t ((h.admissible hm).1 ?_)
    simpa using h4
  · refine ⟨ch.map τ.symm, h.channelsOK hm hch, Or.inr ⟨src σ τ r, out τ v, by simp [h1], by simp [h2],
      by simp [src, h3], ?_, h.sampled h5⟩⟩
    exact (h.admissible hm).2 h4

end Renamed
end Convst
