import Verif.Proofs.SamplingAll
import Verif.Proofs.Overlap
import Verif.Proofs.FitFacts
import Verif.Proofs.Rows

/-! # Consequences of the sampling rules in any arithmetic -/

set_option autoImplicit false
set_option linter.unusedSectionVars false

namespace Convst
open Spec

section
variable {K L : Type} [Scalar K] {E : Setting K L} {P : Par}

/-- A position near in the sense of natural numbers is near in the sense of the computed limit. -/
theorem nearBy_of_near {T l d index t : Nat} {allow : Int} (h : Near T l d allow.toNat index t) :
    NearBy T l d allow index t := by
  obtain ⟨j, h1, h2⟩ := h
  exact ⟨j, by omega, h2⟩

theorem isMinLength_mem {i m : Nat} (hP : ParTraced E P) (h : IsMinLength P i m) : m ∈ E.sizes := by
  obtain ⟨⟨j, hj, -, rfl⟩, -⟩ := h
  exact hP.length j hj

theorem uTraced_shapelet {rec : Nat → Option Src} {out : Nat → Option (Out K)} {kept : List Nat} {S : UShp K}
    (h : UTraced E P rec out kept S) {k : Nat} (hk : k < S.lengths.length) :
    ∃ i r, kept[k]? = some i ∧ rec i = some r ∧ i < P.n ∧ r.channels = [0] ∧
      Usable E P false rec i [0] r.sample r.index ∧ S.lengths.getD k 0 = P.length i ∧
      S.dilations.getD k 0 = P.dilation i ∧ S.normalize.getD k false = P.normalize i ∧
      uValues S k = readAt E P i r.sample 0 r.index := by
  have hkl : k < kept.length := by rw [← h.from_.count]; exact hk
  have hki : kept[k]? = some kept[k] := List.getElem?_eq_getElem hkl
  obtain ⟨v, hv, hval, hthr⟩ := h.from_.shapelet k _ hki
  have hlt := ((h.from_.mem _).1 (List.getElem_mem hkl)).1
  obtain ⟨ch, hch, ⟨-, h2, -⟩ | ⟨r, v', h1, h2, h3, -, h4, h5, -⟩⟩ := h.good _ hlt
  · rw [hv] at h2; simp at h2
  · rw [hv] at h2; obtain rfl := Option.some.inj h2
    have hch : ch = [0] := by simpa [ChannelsOK] using hch
    subst hch
    refine ⟨kept[k], r, hki, h1, hlt, h3, h4, getD_some (h.from_.lengths k _ hki),
      getD_some (h.from_.dilations k _ hki), getD_some (h.from_.normalize k _ hki), ?_⟩
    rw [hval, h5]; simp

theorem mTraced_shapelet {mc : Nat} {nch : Nat → Nat} {rec : Nat → Option Src} {out : Nat → Option (Out K)}
    {kept : List Nat} {S : MShp K} {nf : Nat} (hS : MWF S nf)
    (h : MTraced E mc P nch rec out kept S) {k : Nat} (hk : k < S.lengths.length) :
    ∃ i r, kept[k]? = some i ∧ rec i = some r ∧ i < P.n ∧ mChannels S k = r.channels ∧
      Usable E P true rec i r.channels r.sample r.index ∧ S.lengths.getD k 0 = P.length i ∧
      S.dilations.getD k 0 = P.dilation i ∧ S.normalize.getD k false = P.normalize i ∧
      ∀ c, c < S.nChannels.getD k 0 → mValues S k c = readAt E P i r.sample (r.channels.getD c 0) r.index := by
  have hkl : k < kept.length := by rw [← h.from_.count]; exact hk
  have hki : kept[k]? = some kept[k] := List.getElem?_eq_getElem hkl
  obtain ⟨v, hv, hcs, hval, hthr⟩ := h.from_.shapelet k _ hki
  have hlt := ((h.from_.mem _).1 (List.getElem_mem hkl)).1
  obtain ⟨ch, hch, ⟨-, h2, -⟩ | ⟨r, v', h1, h2, h3, h3', h4, h5, -⟩⟩ := h.good _ hlt
  · rw [hv] at h2; simp at h2
  · rw [hv] at h2; obtain rfl := Option.some.inj h2
    obtain ⟨hnd, hnl, hrng⟩ : ch.Nodup ∧ ch.length = nch kept[k] ∧ ∀ c ∈ ch, c < E.nf := by
      simpa [ChannelsOK] using hch
    subst h3
    have hcnt : S.nChannels.getD k 0 = nch kept[k] := getD_some (h.from_.nChannels k _ hki)
    have hlen : S.lengths.getD k 0 = P.length kept[k] := getD_some (h.from_.lengths k _ hki)
    refine ⟨kept[k], r, hki, h1, hlt, hcs.trans h3', h4, hlen,
      getD_some (h.from_.dilations k _ hki), getD_some (h.from_.normalize k _ hki), ?_⟩
    intro c hc
    have hsrc : r.channels.flatMap (fun c => readAt E P kept[k] r.sample c r.index) =
        (List.range r.channels.length).flatMap fun c =>
          readAt E P kept[k] r.sample (r.channels.getD c 0) r.index := by
      conv_lhs => rw [eq_range_map r.channels 0]
      rw [List.flatMap_map]
    rw [h5, hcnt, ← hnl, hsrc] at hval
    rw [hcnt, ← hnl] at hc
    refine blocks_eq (l := P.length kept[k]) ?_ ?_ hval hc
    · intro c hc
      rw [← hlen]
      exact mValues_length hS hk (by rw [hcnt, ← hnl]; exact hc)
    · intro c _
      rw [readAt, seen_length, window_length]

theorem kept_order {kept : List Nat} (h : kept.Pairwise (· < ·)) {k k' i i' : Nat} (hkk : k < k')
    (e1 : kept[k]? = some i) (e2 : kept[k']? = some i') : i < i' := by
  obtain ⟨q1, q2⟩ := List.getElem?_eq_some_iff.1 e1
  obtain ⟨q3, q4⟩ := List.getElem?_eq_some_iff.1 e2
  rw [← q2, ← q4]
  exact List.pairwise_iff_getElem.1 h k k' q1 q3 hkk

theorem uTraced_apart {rec : Nat → Option Src} {out : Nat → Option (Out K)} {kept : List Nat} {S : UShp K}
    (h : UTraced E P rec out kept S) : UApart E S := by
  have hex : ∀ k, ∃ p : Nat × Src, k < S.lengths.length → kept[k]? = some p.1 ∧ rec p.1 = some p.2 ∧ p.1 < P.n ∧
      p.2.channels = [0] ∧ Usable E P false rec p.1 [0] p.2.sample p.2.index ∧ S.lengths.getD k 0 = P.length p.1 ∧
      S.dilations.getD k 0 = P.dilation p.1 ∧ S.normalize.getD k false = P.normalize p.1 ∧
      uValues S k = readAt E P p.1 p.2.sample 0 p.2.index := by
    intro k
    by_cases hk : k < S.lengths.length
    · obtain ⟨i, r, h⟩ := uTraced_shapelet h hk
      exact ⟨(i, r), fun _ => h⟩
    · exact ⟨(0, ⟨0, 0, 0, []⟩), fun h => absurd h hk⟩
  choose p hp using hex
  refine ⟨fun k => ((p k).2.sample, (p k).2.index), ?_, ?_⟩
  · intro k hk
    obtain ⟨-, -, -, -, hu, e1, e2, e3, e4⟩ := hp k hk
    refine ⟨hu.1, ?_, ?_⟩
    · rw [e1, e2]; exact hu.2.1
    · rw [e4, e1, e2, e3]; rfl
  · intro k k' hkk hk' hs hd hn hl
    obtain ⟨k1, r1, lt1, c1, -, l1, d1, n1, -⟩ := hp k (by omega)
    obtain ⟨k2, r2, lt2, c2, hu, l2, d2, n2, -⟩ := hp k' hk'
    simp only at hs ⊢
    obtain ⟨m, hm⟩ := exists_minLength P lt2
    rw [d1, d2] at hd
    rw [n1, n2] at hn
    rw [l1, l2] at hl
    refine ⟨m, isMinLength_mem h.drawn hm, ?_, ?_⟩
    · intro j hj hdj
      obtain ⟨-, -, ltj, -, -, lj, dj, -⟩ := hp j hj
      rw [lj]
      refine hm.2 _ ltj ?_
      rw [← dj, hdj, d1, hd]
    · rw [l1, l2, d1]
      refine shared_le (h.drawn.dilation _ lt1).1 ?_ hl ?_
      · rw [hs]
        exact hu.2.1.trans_le (nWin_le _ _ _ _)
      · intro hnear
        have hfree : ¬ Taken E P rec (p k').1 (p k').2.sample 0 (p k').2.index := by
          have := hu.2.2
          simpa [FreeEnough] using this
        refine hfree ⟨(p k).1, m, (p k).2, kept_order h.from_.sorted hkk k1 k2, hd, hn, r1, hs, by rw [c1]; simp, hm, ?_⟩
        rw [← hs]; exact nearBy_of_near hnear

theorem mTraced_apart {mc : Nat} {nch : Nat → Nat} {rec : Nat → Option Src} {out : Nat → Option (Out K)}
    {kept : List Nat} {S : MShp K} {nf : Nat} (hS : MWF S nf)
    (h : MTraced E mc P nch rec out kept S) : MApart E S := by
  have hex : ∀ k, ∃ p : Nat × Src, k < S.lengths.length → kept[k]? = some p.1 ∧ rec p.1 = some p.2 ∧ p.1 < P.n ∧
      mChannels S k = p.2.channels ∧ Usable E P true rec p.1 p.2.channels p.2.sample p.2.index ∧
      S.lengths.getD k 0 = P.length p.1 ∧
      S.dilations.getD k 0 = P.dilation p.1 ∧ S.normalize.getD k false = P.normalize p.1 ∧
      ∀ c, c < S.nChannels.getD k 0 →
        mValues S k c = readAt E P p.1 p.2.sample (p.2.channels.getD c 0) p.2.index := by
    intro k
    by_cases hk : k < S.lengths.length
    · obtain ⟨i, r, h⟩ := mTraced_shapelet hS h hk
      exact ⟨(i, r), fun _ => h⟩
    · exact ⟨(0, ⟨0, 0, 0, []⟩), fun h => absurd h hk⟩
  choose p hp using hex
  refine ⟨fun k => ((p k).2.sample, (p k).2.index), ?_, ?_⟩
  · intro k hk
    obtain ⟨-, -, -, ec, hu, e1, e2, e3, e4⟩ := hp k hk
    refine ⟨hu.1, ?_, ?_⟩
    · rw [e1, e2]; exact hu.2.1
    · intro c hc
      rw [e4 c hc, e1, e2, e3, ec]; rfl
  · intro k k' hkk hk' hs hd hn hl
    obtain ⟨k1, r1, lt1, c1, -, l1, d1, n1, -⟩ := hp k (by omega)
    obtain ⟨k2, r2, lt2, c2, hu, l2, d2, n2, -⟩ := hp k' hk'
    simp only at hs ⊢
    obtain ⟨m, hm⟩ := exists_minLength P lt2
    rw [d1, d2] at hd
    rw [n1, n2] at hn
    rw [l1, l2] at hl
    refine ⟨m, isMinLength_mem h.drawn hm, ?_, ?_⟩
    · intro j hj hdj
      obtain ⟨-, -, ltj, -, -, lj, dj, -⟩ := hp j hj
      rw [lj]
      refine hm.2 _ ltj ?_
      rw [← dj, hdj, d1, hd]
    · rw [l1, l2, d1, c1, c2]
      intro hcard
      have hnear : Near (E.len (p k).2.sample) (P.length (p k).1) (P.dilation (p k).1)
          (shareLimit E.alpha m).toNat (p k).2.index (p k').2.index := by
        by_contra hc
        have := shared_le (phase := E.phase) (h.drawn.dilation _ lt1).1 (by
          rw [hs]
          exact hu.2.1.trans_le (nWin_le _ _ _ _)) hl hc
        omega
      have hblk : ∀ c ∈ (p k).2.channels, Taken E P rec (p k').1 (p k').2.sample c (p k').2.index := by
        intro c hc
        refine ⟨(p k).1, m, (p k).2, kept_order h.from_.sorted hkk k1 k2, hd, hn, r1, hs, hc, hm, ?_⟩
        rw [← hs]; exact nearBy_of_near hnear
      have hfree := hu.2.2
      unfold FreeEnough at hfree
      rw [if_pos rfl] at hfree
      refine ⟨_, ?_, hfree⟩
      rw [← List.countP_eq_length_filter]
      classical
      have hcnt := List.length_eq_countP_add_countP
        (fun c => decide (¬ Taken E P rec (p k').1 (p k').2.sample c (p k').2.index)) (l := (p k').2.channels)
      have hle : ((p k').2.channels.countP fun c => decide (c ∈ (p k).2.channels)) ≤
          (p k').2.channels.countP fun c =>
            decide ¬ (decide (¬ Taken E P rec (p k').1 (p k').2.sample c (p k').2.index)) = true := by
        refine List.countP_mono_left fun c _ hc => ?_
        simp only [decide_eq_true_eq] at hc ⊢
        exact fun hn => hn (hblk c hc)
      refine le_of_le_of_eq (Nat.add_le_add (le_of_eq ?_) hle) hcnt.symm
      congr 1

theorem sampling_apart {mc nf : Nat} {S : Shapelets K} (hS : ShpWF S nf) (h : Sampling E mc S) : Apart E S := by
  cases S with
  | u S =>
    obtain ⟨P, rec, out, kept, h⟩ := h
    exact uTraced_apart h
  | m S =>
    obtain ⟨P, nch, rec, out, kept, h⟩ := h
    exact mTraced_apart hS h

/-- Weakening of what is known about the draws and the thresholds. -/
theorem sampling_mono {draw' : K → Prop} {thr' : List K → K → Prop} {mc : Nat} {S : Shapelets K}
    (hd : ∀ u, E.draw u → draw' u) (ht : ∀ D th, E.thr D th → thr' D th) (h : Sampling E mc S) :
    Sampling { E with draw := draw', thr := thr' } mc S := by
  have key : ∀ {P multi nch} {rec : Nat → Option Src} {out : Nat → Option (Out K)} {i : Nat},
      Traced E P multi nch rec out i → Traced { E with draw := draw', thr := thr' } P multi nch rec out i := by
    intro P multi nch rec out i h
    obtain ⟨ch, h1, h2 | ⟨r, v, a1, a2, a3, a4, a5, a6, a7, a8⟩⟩ := h
    · exact ⟨ch, h1, Or.inl h2⟩
    · exact ⟨ch, h1, Or.inr ⟨r, v, a1, a2, a3, a4, a5, a6, a7, ht _ _ a8⟩⟩
  have kp : ∀ {P}, ParTraced E P → ParTraced { E with draw := draw', thr := thr' } P := by
    intro P h
    exact ⟨h.count, h.length, h.dilation, h.prime, fun i hi => (h.flag i hi).imp fun u hu => ⟨hd u hu.1, hu.2⟩⟩
  cases S with
  | u S =>
    obtain ⟨P, rec, out, kept, h⟩ := h
    exact ⟨P, rec, out, kept, kp h.drawn, fun i hi => key (h.good i hi), h.from_⟩
  | m S =>
    obtain ⟨P, nch, rec, out, kept, h⟩ := h
    exact ⟨P, nch, rec, out, kept, kp h.drawn, h.channels, fun i hi => key (h.good i hi), h.from_⟩

/-- The rules follow from the description of the sampling. -/
theorem sampling_rules {mc nf : Nat} {S : Shapelets K} (hS : ShpWF S nf) (h : Sampling E mc S) : Rules E mc S := by
  refine ⟨h, sampling_apart hS h, ?_, ?_⟩
  · intro hp x hx
    cases S with
    | u S =>
      obtain ⟨P, rec, out, kept, h⟩ := h
      obtain ⟨k, hk⟩ := List.mem_iff_getElem?.1 hx
      have hkl : k < kept.length := by
        rw [← h.from_.count, ← hS.dilations]
        exact (List.getElem?_eq_some_iff.1 hk).1
      have hki : kept[k]? = some kept[k] := List.getElem?_eq_getElem hkl
      have hlt := ((h.from_.mem _).1 (List.getElem_mem hkl)).1
      obtain rfl := Option.some.inj (hk.symm.trans (h.from_.dilations k _ hki))
      exact h.drawn.prime hp _ hlt
    | m S =>
      obtain ⟨P, nch, rec, out, kept, h⟩ := h
      obtain ⟨k, hk⟩ := List.mem_iff_getElem?.1 hx
      have hkl : k < kept.length := by
        rw [← h.from_.count, ← hS.dilations]
        exact (List.getElem?_eq_some_iff.1 hk).1
      have hki : kept[k]? = some kept[k] := List.getElem?_eq_getElem hkl
      have hlt := ((h.from_.mem _).1 (List.getElem_mem hkl)).1
      obtain rfl := Option.some.inj (hk.symm.trans (h.from_.dilations k _ hki))
      exact h.drawn.prime hp _ hlt
  · intro x hx
    cases S with
    | u S =>
      obtain ⟨P, rec, out, kept, h⟩ := h
      obtain ⟨k, hk⟩ := List.mem_iff_getElem?.1 hx
      have hkl : k < kept.length := by
        rw [← h.from_.count, ← hS.normalize]
        exact (List.getElem?_eq_some_iff.1 hk).1
      have hki : kept[k]? = some kept[k] := List.getElem?_eq_getElem hkl
      have hlt := ((h.from_.mem _).1 (List.getElem_mem hkl)).1
      obtain rfl := Option.some.inj (hk.symm.trans (h.from_.normalize k _ hki))
      exact h.drawn.flag _ hlt
    | m S =>
      obtain ⟨P, nch, rec, out, kept, h⟩ := h
      obtain ⟨k, hk⟩ := List.mem_iff_getElem?.1 hx
      have hkl : k < kept.length := by
        rw [← h.from_.count, ← hS.normalize]
        exact (List.getElem?_eq_some_iff.1 hk).1
      have hki : kept[k]? = some kept[k] := List.getElem?_eq_getElem hkl
      have hlt := ((h.from_.mem _).1 (List.getElem_mem hkl)).1
      obtain rfl := Option.some.inj (hk.symm.trans (h.from_.normalize k _ hki))
      exact h.drawn.flag _ hlt

/-- The first requested multivariate shapelet is never dropped. -/
theorem mTraced_first {mc : Nat} {nch : Nat → Nat} {rec : Nat → Option Src} {out : Nat → Option (Out K)}
    {kept : List Nat} {S : MShp K} (h : MTraced E mc P nch rec out kept S) (hn : 1 ≤ E.nShp) (hs : 1 ≤ E.ns)
    (hlen : E.n ≤ E.len 0) (h1 : 1 ≤ E.n) (he : ∀ n, n ≤ mc → enoughOf E.alpha n n = true) :
    1 ≤ S.lengths.length := by
  classical
  have hP : 0 < P.n := by rw [h.drawn.count]; omega
  obtain ⟨hd, hfit⟩ := h.drawn.dilation 0 hP
  have hcount : ∀ v, out 0 = some v → 1 ≤ S.lengths.length := by
    intro v hv
    have hm : 0 ∈ kept := (h.from_.mem 0).2 ⟨hP, v, hv⟩
    rw [h.from_.count]
    exact List.length_pos_of_mem hm
  obtain ⟨ch, hch, ⟨-, -, hno⟩ | ⟨r, v, -, hv, -⟩⟩ := h.good 0 hP
  · exfalso
    obtain ⟨-, hnl, -⟩ : ch.Nodup ∧ ch.length = nch 0 ∧ ∀ c ∈ ch, c < E.nf := by
      simpa [ChannelsOK] using hch
    refine hno 0 0 ⟨by omega, ?_, ?_⟩
    · unfold nWin
      split <;> omega
    · have hfree : ∀ c, ¬ Taken E P rec 0 0 c 0 := by
        rintro c ⟨j, m, r, hj, -⟩
        omega
      unfold FreeEnough
      rw [if_pos rfl]
      have : ch.countP (fun c => decide (¬ Taken E P rec 0 0 c 0)) = ch.length :=
        List.countP_eq_length.2 fun c _ => decide_eq_true (hfree c)
      have e := he ch.length (by rw [hnl]; exact (h.channels 0 hP).2)
      convert e using 2
  · exact hcount v hv

end

end Convst
