import Verif.Props.EndToEnd
import Verif.Proofs.Rows
import Verif.Proofs.ObjectRows

/-! # C114: asking for no shapelets -/

set_option autoImplicit false
set_option linter.unusedSectionVars false

namespace Convst.Props
open Convst Spec

variable {K G R L : Type} [Scalar K] [Gen G K] [DecidableEq L]

/-- The empty set of shapelets of the kind used by a transform type. -/
def noShapelets : TType → Shapelets K
  | .multi | .multiVar => .m ⟨[], [], [], [], [], [], []⟩
  | _ => .u ⟨[], [], [], [], []⟩

theorem uInit_none (sizes : List Nat) (hs : sizes ≠ []) (n : Nat) (p : K) (g : G) :
    uInit 0 sizes n p false g = .ok (⟨[], [], [], [], []⟩, g) := by
  cases sizes with
  | nil => exact absurd rfl hs
  | cons a l => rfl

theorem uInit_none_prime (sizes : List Nat) (n : Nat) (p : K) (g : G) :
    uInit 0 sizes n p true g = .error .valueError := rfl

theorem mInit_none (sizes : List Nat) (n : Nat) (p : K) (mc : Nat) (g : G) :
    mInit 0 sizes n p mc false g = .ok (⟨[], [], [], [], [], [], []⟩, g) := rfl

theorem mInit_none_prime (sizes : List Nat) (n : Nat) (p : K) (mc : Nat) (g : G) :
    mInit 0 sizes n p mc true g = .error .valueError := rfl

/-- The same call, asking for no shapelets. -/
def noneCall : Call K L → Call K L
  | .usl a => .usl { a with nShp := 0 }
  | .uvl a m l => .uvl { a with nShp := 0 } m l
  | .msl a c => .msl { a with nShp := 0 } c
  | .mvl a c m l => .mvl { a with nShp := 0 } c m l

theorem prepare_none (env : Env G R L) (o : Rdst K R) (w : World R) (X : XIn K) (y : List L) :
    ({ o with nShp := 0 } : Rdst K R).prepare env w X y =
      ({ (o.prepare env w X y).1 with nShp := 0 }, (o.prepare env w X y).2.1,
        (o.prepare env w X y).2.2.map fun cs => (noneCall cs.1, cs.2)) := by
  have h1 : ∀ o : Rdst K R, setFitTransform { o with nShp := 0 } X =
      ({ (setFitTransform o X).1 with nShp := 0 }, (setFitTransform o X).2) := by
    intro o
    unfold setFitTransform
    rcases o with ⟨t, _, _, _, _, _, _, _, _, _, _, _, _, _, _, _, _, _⟩
    cases t <;> try rfl
    cases autoClass X with
    | error e => rfl
    | ok t' => cases t' <;> rfl
  have h2 : ∀ o : Rdst K R, loadTrain { o with nShp := 0 } X =
      ({ (loadTrain o X).1 with nShp := 0 }, (loadTrain o X).2) := by
    intro o
    unfold loadTrain
    simp only
    split
    · cases formatUneven X with
      | error e => rfl
      | ok AX =>
        simp only
        cases checkArray3D AX.1.py with
        | error e => rfl
        | ok _ =>
          rcases o with ⟨_, _, _, _, _, _, _, _, _, _, _, _, _, _, _, _, ml, _⟩
          cases ml with
          | some m => rfl
          | none =>
            simp only
            cases nmin AX.2 <;> rfl
    · cases toArr3 X <;> rfl
  unfold Rdst.prepare
  rw [h1 o]
  rcases hs : setFitTransform o X with ⟨o1, _ | u⟩
  · rfl
  simp only
  rw [h2 o1]
  rcases hl : loadTrain o1 X with ⟨o2, _ | AX⟩
  · rfl
  simp only
  rcases hb : subsample env o2.nSamples w AX.1 y with ⟨w1, _ | Ay⟩
  · rfl
  simp only
  cases checkParams (setLengths o2.lens o2.bounds o2.reduction (o2.minLen.getD 0)) (o2.minLen.getD 0) with
  | error e => rfl
  | ok sizes =>
    rcases o2 with ⟨t, _, _, _, _, _, _, _, _, _, _, _, _, rs, _, _, _, _⟩
    cases rs <;> cases t <;> rfl

theorem map_eq_ok {α β : Type} {f : α → β} {x : Res α} {b : β} : x.map f = .ok b ↔ ∃ a, x = .ok a ∧ f a = b := by
  cases x <;> simp [Except.map]

theorem order_none {order : Nat → List Nat} (h : IsSchedule order) : order 0 = [] :=
  List.Perm.eq_nil (by simpa using h 0)

/-- Kind of call made for a transform type. -/
def CallOf : TType → Call K L → Prop
  | .uni, .usl _ => True
  | .uniVar, .uvl _ _ _ => True
  | .multi, .msl _ _ => True
  | .multiVar, .mvl _ _ _ _ => True
  | _, _ => False

theorem run_none {c : Call K L} {t : TType} (ht : CallOf t c) (hs : c.args.sizes ≠ []) (hp : c.args.prime = false)
    {g0 g1 : G} {gs : Nat → G} {order order' : Nat → List Nat} (horder : IsSchedule order) {S : Shapelets K}
    (h : c.run g0 gs order' = .ok S) : (noneCall c).run g1 gs order = .ok (noShapelets t) := by
  have h0 := order_none horder
  have hu : (uniqueSorted ([] : List Nat)).length = 0 := by simp [uniqueSorted]
  cases c with
  | usl a =>
    cases t <;> simp only [CallOf] at ht
    have hp : a.prime = false := hp
    have hs : a.sizes ≠ [] := hs
    simp only [noneCall, Call.run, uslGenerate, hp, uInit_none _ hs, Bind.bind, Except.bind, hu, h0, fitLoop,
      List.foldlM]
    rfl
  | uvl a m xLen =>
    cases t <;> simp only [CallOf] at ht
    have hp : a.prime = false := hp
    have hs : a.sizes ≠ [] := hs
    obtain ⟨T, h, -⟩ := map_eq_ok.1 h
    obtain ⟨mx, hmx, h⟩ := Res.bind_eq_ok.1 h
    obtain ⟨P, hP, h⟩ := Res.bind_eq_ok.1 h
    obtain ⟨ls, hls, h⟩ := Res.bind_eq_ok.1 h
    simp only [noneCall, Call.run, uvlGenerate, hp, hmx, hls, uInit_none _ hs, Bind.bind, Except.bind, hu, h0, fitLoop,
      List.foldlM]
    rfl
  | msl a mc =>
    cases t <;> simp only [CallOf] at ht
    have hp : a.prime = false := hp
    simp only [noneCall, Call.run, mslGenerate, hp, mInit_none, Bind.bind, Except.bind, hu, h0, fitLoop, List.foldlM]
    rfl
  | mvl a mc m xLen =>
    cases t <;> simp only [CallOf] at ht
    have hp : a.prime = false := hp
    obtain ⟨T, h, -⟩ := map_eq_ok.1 h
    obtain ⟨mx, hmx, h⟩ := Res.bind_eq_ok.1 h
    obtain ⟨P, hP, h⟩ := Res.bind_eq_ok.1 h
    obtain ⟨ls, hls, h⟩ := Res.bind_eq_ok.1 h
    simp only [noneCall, Call.run, mvlGenerate, hp, hmx, hls, mInit_none, Bind.bind, Except.bind, hu, h0, fitLoop,
      List.foldlM]
    rfl

theorem run_none_prime {c : Call K L} (hp : c.args.prime = true) {g0 g1 : G} {gs : Nat → G}
    {order order' : Nat → List Nat} {S : Shapelets K} (h : c.run g0 gs order' = .ok S) :
    (noneCall c).run g1 gs order = .error .valueError := by
  cases c with
  | usl a =>
    have hp : a.prime = true := hp
    simp only [noneCall, Call.run, uslGenerate, hp, uInit_none_prime]
    rfl
  | uvl a m xLen =>
    have hp : a.prime = true := hp
    obtain ⟨T, h, -⟩ := map_eq_ok.1 h
    obtain ⟨mx, hmx, h⟩ := Res.bind_eq_ok.1 h
    simp only [noneCall, Call.run, uvlGenerate, hp, hmx, uInit_none_prime]
    rfl
  | msl a mc =>
    have hp : a.prime = true := hp
    simp only [noneCall, Call.run, mslGenerate, hp, mInit_none_prime]
    rfl
  | mvl a mc m xLen =>
    have hp : a.prime = true := hp
    obtain ⟨T, h, -⟩ := map_eq_ok.1 h
    obtain ⟨mx, hmx, h⟩ := Res.bind_eq_ok.1 h
    simp only [noneCall, Call.run, mvlGenerate, hp, hmx, mInit_none_prime]
    rfl

theorem prepared {env : Env G R L} {o o1 : Rdst K R} {w w' : World R} {X : XIn K} {y : List L} {c : Call K L}
    {seed : Nat} (h : o.prepare env w X y = (o1, w', .ok (c, seed))) :
    CallOf o1.transformType c ∧ c.args.sizes ≠ [] ∧ c.args.prime = o.prime ∧ o1.shapelets = o.shapelets := by
  obtain ⟨t, ml, mc, ls, rs', rfl, -, -, -, -, -, -, hc⟩ := prepare_cases h
  obtain ⟨ht, -, A0, xLen, A, w0, y', m, -, -, -, -, -, sizes, hsz, ha, k1, k2, k3, k4⟩ := hc c seed rfl
  refine ⟨?_, ?_, by rw [ha], rfl⟩
  · rcases ht with rfl | rfl | rfl | rfl
    · rw [k1 rfl]; trivial
    · rw [k2 rfl]; trivial
    · rw [k3 rfl]; trivial
    · rw [k4 rfl]; trivial
  · rw [ha]
    show sizes ≠ []
    rintro rfl
    unfold checkParams at hsz
    simp only at hsz
    split at hsz
    · cases hsz
    rename_i hne
    split at hsz
    · cases hsz
    split at hsz
    · split at hsz
      · cases hsz
      have := congrArg List.length (Except.ok.inj hsz)
      simp at this
      exact hne (by rw [this]; rfl)
    · have := congrArg List.length (Except.ok.inj hsz)
      simp at this
      exact hne (by rw [this]; rfl)

/-- **C114.** An object asked for no shapelets is fitted whenever it is fitted when asked for some, with the empty set
as result; apart from the set of shapelets everything is left as by the other fit. -/
theorem C114_fit {env : Env G R L} {o o' : Rdst K R} {w w' : World R} {X : XIn K} {y : List L} {gs : Nat → G}
    {order : Nat → List Nat} (horder : IsSchedule order) (hprime : o.prime = false)
    (h : o.fit env gs order w X y = (o', w', .ok ())) :
    ({ o with nShp := 0 } : Rdst K R).fit env gs order w X y =
      ({ o' with nShp := 0, shapelets := some (noShapelets o'.transformType) }, w', .ok ()) := by
  obtain ⟨o1, r1, hp, S, rfl, -, hok⟩ := fit_cases h
  obtain ⟨c, seed, S', rfl, hrun, -⟩ := hok rfl
  obtain ⟨h1, h2, h3, -⟩ := prepared hp
  have hq := prepare_none env o w X y
  rw [hp] at hq
  unfold Rdst.fit
  rw [hq]
  simp only [Except.map]
  rw [run_none h1 h2 (h3.trans hprime) horder hrun]

/-- **C114.** With `prime_dilations` asking for no shapelets is an error, and leaves the shapelets of an earlier fit. -/
theorem C114_fit_prime {env : Env G R L} {o o' : Rdst K R} {w w' : World R} {X : XIn K} {y : List L} {gs : Nat → G}
    {order : Nat → List Nat} (hprime : o.prime = true) (h : o.fit env gs order w X y = (o', w', .ok ())) :
    ({ o with nShp := 0 } : Rdst K R).fit env gs order w X y =
      ({ o' with nShp := 0, shapelets := o.shapelets }, w', .error .valueError) := by
  obtain ⟨o1, r1, hp, S, rfl, -, hok⟩ := fit_cases h
  obtain ⟨c, seed, S', rfl, hrun, -⟩ := hok rfl
  obtain ⟨h1, h2, h3, h4⟩ := prepared hp
  have hq := prepare_none env o w X y
  rw [hp] at hq
  unfold Rdst.fit
  rw [hq]
  simp only [Except.map]
  rw [run_none_prime (h3.trans hprime) hrun]
  simp only [h4]

theorem uwf_none : UWF (⟨[], [], [], [], []⟩ : UShp K) := by
  constructor <;> simp

theorem mwf_none (nf : Nat) : MWF (⟨[], [], [], [], [], [], []⟩ : MShp K) nf := by
  constructor <;> simp [mValOff]

/-- **C114.** An object with no shapelets gives one empty row per series, for every input it accepts. -/
theorem C114_transform {o : Rdst K R} (ht : o.transformType.Concrete)
    (hS : o.shapelets = some (noShapelets o.transformType)) :
    ∀ X : XIn K, X.WF → ∀ M, o.transform X = .ok M → ∃ xs, samples X = .ok xs ∧ M = xs.map fun _ => [] := by
  have hrow : ∀ x, objRow o.phase (noShapelets o.transformType : Shapelets K) x = [] := by
    intro x
    rcases ht with h | h | h | h <;> rw [h] <;> rfl
  have hwf : ∀ nf, ShpWF (noShapelets o.transformType : Shapelets K) nf := by
    intro nf
    rcases ht with h | h | h | h <;> rw [h] <;> first | exact uwf_none | exact mwf_none nf
  intro X hX M h
  · obtain ⟨xs, hxs, nf, hnf⟩ : ∃ xs, samples X = .ok xs ∧ ∃ nf, ∀ x ∈ xs, x.rows.length = nf := by
      have h' := h
      unfold Rdst.transform at h'
      rw [hS] at h'
      simp only at h'
      split at h'
      · obtain ⟨⟨A, lens⟩, hf, -⟩ := Res.bind_eq_ok.1 h'
        obtain ⟨xs, hxs, -⟩ := Res.bind_eq_ok.1 hf
        exact ⟨xs, hxs, A.nf, (formatUneven_samples hf hxs).2.2.2.1⟩
      · obtain ⟨A, hf, -⟩ := Res.bind_eq_ok.1 h'
        obtain ⟨h1, -, -, -, h2⟩ := toArr3_samples hX hf
        refine ⟨_, h1, A.nf, fun x hx => ?_⟩
        obtain ⟨s, hs, rfl⟩ := List.mem_map.1 hx
        exact (h2 s hs).1
    obtain ⟨rfl, -⟩ := transform_rows hS (hwf nf) hX hxs hnf h
    exact ⟨xs, hxs, List.map_congr_left fun x _ => hrow x⟩

/-- **C114.** It accepts every array and every list of series with at least one channel and three points, whatever
their number of channels and points. -/
theorem C114_transform_accepts {o : Rdst K R} (hS : o.shapelets = some (noShapelets o.transformType)) :
    (o.transformType = .uni ∨ o.transformType = .multi → ∀ dt (A : Arr3 K), (XIn.array dt A).WF → A.data ≠ [] →
      1 ≤ A.nf → 3 ≤ A.nt → o.transform (.array dt A) = .ok (A.data.map fun _ => [])) ∧
    (o.transformType.Var → ∀ (zs : List (Mat K)) nf, (∀ z ∈ zs, z.WF) → zs ≠ [] → 1 ≤ nf →
      (∀ z ∈ zs, z.rows.length = nf) → (∀ z ∈ zs, 3 ≤ z.len) → o.transform (.list zs) = .ok (zs.map fun _ => [])) := by
  constructor
  · rintro (ht | ht) dt A hX hne hf hn <;> rw [ht] at hS
    · exact transform_array_uni ht hS uwf_none hX hne hf hn (by simp)
    · exact transform_array_multi ht hS (mwf_none _) hX hne hf hn (by simp)
  · rintro (ht | ht) zs nf hz hne h1 hnf hlen <;> rw [ht] at hS
    · exact transform_list_multi ht hS (mwf_none nf) hz hne h1 hnf le_rfl hlen (by simp)
    · exact transform_list_uni ht hS uwf_none hz hne h1 hnf le_rfl hlen (by simp)

section example_none
variable {G : Type} [Gen G ℝ] [LawfulGen G]

/-- The hypotheses are met: an object asked for no shapelets is fitted on two series of five points. -/
example (g : G) (w : World Nat) (gs : Nat → G) : ∃ o' w',
    ({ exObj .uni with prime := false, nShp := 0 } : Rdst ℝ Nat).fit (exEnv g) gs List.range w (.array .float64 exArr)
      [0, 1] = (o', w', .ok ()) ∧ o'.transform (.array .float64 exArr) = .ok [[], []] ∧
      ∃ o'' w'', ({ exObj .uni with nShp := 0 } : Rdst ℝ Nat).fit (exEnv g) gs List.range w (.array .float64 exArr)
      [0, 1] = (o'', w'', .error .valueError) := by
  have hwf : (XIn.array .float64 exArr).WF := by simp [XIn.WF, exArr]
  have hord : IsSchedule List.range := fun _ => List.Perm.refl _
  have key : ∀ b, ∃ o' w', ({ exObj .uni with prime := b } : Rdst ℝ Nat).fit (exEnv g) gs List.range w
      (.array .float64 exArr) [0, 1] = (o', w', .ok ()) := by
    intro b
    obtain ⟨o', w', S, h1, -⟩ := C43_object_same_length (exEnv g) { exObj .uni with prime := b } w .float64 exArr
      [0, 1] (Or.inl rfl) hwf (by simp [exArr]) (by simp [exArr]) (by simp [exArr])
      (by simp [exArr]) ⟨by simp [exObj], by norm_num [exObj], rfl, by norm_num [exObj],
        fun _ => Or.inl ⟨[3], rfl, by simp, by simp⟩⟩ (by simp [exObj]) gs (order := List.range) hord
    exact ⟨o', w', h1⟩
  obtain ⟨o', w', h1⟩ := key false
  have h2 := C114_fit (o := { exObj .uni with prime := false }) hord rfl h1
  obtain ⟨o'', w'', h3⟩ := key true
  have h4 := C114_fit_prime (o := { exObj .uni with prime := true }) rfl h3
  refine ⟨_, _, h2, ?_, _, _, h4⟩
  have ht : o'.transformType = .uni := by
    obtain ⟨o1, r1, hp, S, rfl, -⟩ := fit_cases h1
    obtain ⟨t, ml, mc, ls, rs', rfl, -, ht, -⟩ := prepare_cases hp
    exact ht (by simp [exObj])
  exact (C114_transform_accepts (o := { o' with nShp := 0, shapelets := some (noShapelets o'.transformType) }) rfl).1
    (Or.inl ht) .float64 exArr hwf (by simp [exArr]) (by simp [exArr]) (by simp [exArr])

end example_none

end Convst.Props
