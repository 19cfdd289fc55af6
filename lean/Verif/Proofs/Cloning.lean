import Verif.Spec.Cloning
import Verif.Proofs.Basics

/-!
# Lemmas about constructors and `clone`
-/

set_option autoImplicit false
set_option linter.unusedSectionVars false

namespace Convst
open Spec
variable {K R : Type} {α β : Type}

theorem hm_bind_ok {x : HM α} {f : α → HM β} {n : Nat} {r : β × Nat} :
    (x >>= f) n = .ok r ↔ ∃ a m, x n = .ok (a, m) ∧ f a m = .ok r := by
  show (x n >>= fun p => f p.1 p.2) = .ok r ↔ _
  rw [Res.bind_eq_ok]
  constructor
  · rintro ⟨⟨a, m⟩, h1, h2⟩
    exact ⟨a, m, h1, h2⟩
  · rintro ⟨a, m, h1, h2⟩
    exact ⟨(a, m), h1, h2⟩

theorem hm_bind_of {x : HM α} {f : α → HM β} {n m : Nat} {a : α} (h : x n = .ok (a, m)) :
    (x >>= f) n = f a m := by
  show (x n >>= fun p => f p.1 p.2) = _
  rw [h]
  rfl

theorem hm_bind_err {x : HM α} {f : α → HM β} {n : Nat} {e : Err} (h : x n = .error e) :
    (x >>= f) n = .error e := by
  show (x n >>= fun p => f p.1 p.2) = _
  rw [h]
  rfl

theorem hm_pure (a : α) (n : Nat) : (pure a : HM α) n = .ok (a, n) := rfl

theorem hm_pure_ok {a : α} {n : Nat} {r : α × Nat} : (pure a : HM α) n = .ok r ↔ r = (a, n) := by
  rw [hm_pure, Except.ok.injEq, eq_comm]

/-- A computation never reuses an identity. -/
def Mono (x : HM α) : Prop := ∀ n a m, x n = .ok (a, m) → n ≤ m

theorem Mono.pure (a : α) : Mono (Pure.pure a : HM α) := by
  intro n b m h
  rw [hm_pure_ok] at h
  cases h
  exact le_rfl

theorem Mono.raise (e : Err) : Mono (raise e : HM α) := by
  intro n b m h
  cases h

theorem Mono.alloc (v : α) : Mono (alloc v) := by
  intro n b m h
  cases h
  exact Nat.le_succ n

theorem Mono.bind {x : HM α} {f : α → HM β} (hx : Mono x) (hf : ∀ a, Mono (f a)) : Mono (x >>= f) := by
  intro n b m h
  obtain ⟨a, k, h1, h2⟩ := hm_bind_ok.1 h
  exact le_trans (hx _ _ _ h1) (hf _ _ _ _ h2)

theorem Mono.mapM {f : α → HM β} (hf : ∀ a, Mono (f a)) (l : List α) : Mono (l.mapM f) := by
  induction l with
  | nil => exact Mono.pure _
  | cons a l ih =>
    rw [List.mapM_cons]
    exact (hf a).bind fun b => ih.bind fun bs => Mono.pure _

theorem Mono.ite {p : Prop} [Decidable p] {x y : HM α} (hx : Mono x) (hy : Mono y) : Mono (if p then x else y) := by
  split
  · exact hx
  · exact hy

/-! ## Copies -/

theorem HVal.Alike.refl (v : HVal K R) : v.Alike v := by
  cases v <;> rfl

theorem HVal.Alike.trans {u v w : HVal K R} (h : u.Alike v) (h' : v.Alike w) : u.Alike w := by
  cases u <;> cases v <;> cases w <;> simp only [HVal.Alike] at h h' ⊢ <;> simp_all

theorem CopyOf.mono {m m' : Nat} {o o' : Obj (HVal K R)} (hm : m ≤ m') (h : CopyOf m' o o') : CopyOf m o o' :=
  ⟨h.1, h.2.1, fun hn => ⟨le_trans hm (h.2.2 hn).1, fun i hi => le_trans hm ((h.2.2 hn).2 i hi)⟩⟩

theorem mono_copyObj (o : Obj (HVal K R)) : Mono (copyObj o) := by
  unfold copyObj
  split
  · exact Mono.pure _
  · exact Mono.pure _
  · exact Mono.alloc _
  · exact Mono.alloc _
  · exact Mono.alloc _
  · exact (Mono.mapM (fun e => (Mono.alloc _).bind fun _ => Mono.pure _) _).bind fun _ => Mono.alloc _

theorem copy_ests (l : List (Nat × InTr)) : ∀ n, ∃ l' m, (l.mapM fun e => (do
      let e' ← alloc e.2
      pure (e'.id, e'.val) : HM (Nat × InTr))) n = .ok (l', m) ∧ n ≤ m ∧ l'.map (·.2) = l.map (·.2) ∧
      ∀ i ∈ l'.map (·.1), n ≤ i := by
  induction l with
  | nil => exact fun n => ⟨[], n, rfl, le_rfl, rfl, by simp⟩
  | cons e l ih =>
    intro n
    obtain ⟨l', m, h, hm, hv, hi⟩ := ih (n + 1)
    refine ⟨(n, e.2) :: l', m, ?_, by omega, by simp [hv], ?_⟩
    · rw [List.mapM_cons, hm_bind_of (a := (n, e.2)) (m := n + 1) rfl, hm_bind_of h]
      rfl
    · intro i hi'
      rw [List.map_cons, List.mem_cons] at hi'
      rcases hi' with rfl | hi'
      · exact le_rfl
      · have := hi i hi'
        omega

/-- A copy always exists and shares nothing with the objects that exist already. -/
theorem copyObj_ok (o : Obj (HVal K R)) (n : Nat) : ∃ o' m, copyObj o n = .ok (o', m) ∧ n ≤ m ∧ CopyOf n o o' := by
  obtain ⟨i, v⟩ := o
  cases v with
  | py v => exact ⟨_, n, rfl, le_rfl, rfl, fun _ => rfl, fun h => absurd trivial h⟩
  | str s => exact ⟨_, n, rfl, le_rfl, rfl, fun _ => rfl, fun h => absurd trivial h⟩
  | nums l => exact ⟨⟨n, .nums l⟩, n + 1, rfl, by omega, rfl, fun h => h.elim, fun _ => ⟨le_rfl, by simp [HVal.inner]⟩⟩
  | arr l => exact ⟨⟨n, .arr l⟩, n + 1, rfl, by omega, rfl, fun h => h.elim, fun _ => ⟨le_rfl, by simp [HVal.inner]⟩⟩
  | rng l => exact ⟨⟨n, .rng l⟩, n + 1, rfl, by omega, rfl, fun h => h.elim, fun _ => ⟨le_rfl, by simp [HVal.inner]⟩⟩
  | ests l =>
    obtain ⟨l', m, h, hm, hv, hi⟩ := copy_ests l n
    refine ⟨⟨m, .ests l'⟩, m + 1, ?_, by omega, hv, fun h => h.elim, fun _ => ⟨hm, hi⟩⟩
    show ((l.mapM fun e => (do
      let e' ← alloc e.2
      pure (e'.id, e'.val) : HM (Nat × InTr))) >>= fun l' => alloc (HVal.ests l')) n = _
    rw [hm_bind_of h]
    rfl

/-- Copies of all arguments. -/
theorem copyAll_ok (a : Attrs K R) : ∀ n, ∃ a' m, (a.mapM fun p => (do
      let o ← copyObj p.2
      pure (p.1, o) : HM (String × Obj (HVal K R)))) n = .ok (a', m) ∧ n ≤ m ∧
      List.Forall₂ (fun p q => q.1 = p.1 ∧ CopyOf n p.2 q.2) a a' := by
  induction a with
  | nil => exact fun n => ⟨[], n, rfl, le_rfl, .nil⟩
  | cons p a ih =>
    intro n
    obtain ⟨o, m, h, hm, hc⟩ := copyObj_ok p.2 n
    obtain ⟨a', k, h', hk, hf⟩ := ih m
    refine ⟨(p.1, o) :: a', k, ?_, by omega, .cons ⟨rfl, hc⟩ ?_⟩
    · rw [List.mapM_cons, hm_bind_of (a := (p.1, o)) (m := m) (by rw [hm_bind_of h]; rfl), hm_bind_of h']
      rfl
    · exact hf.imp fun _ _ hh => ⟨hh.1, CopyOf.mono hm hh.2⟩

/-! ## Stable checks -/

/-- The check `f` accepts the value `v` and returns the object it is given. -/
def Fixes (f : Obj (HVal K R) → HM (Obj (HVal K R))) (v : HVal K R) : Prop :=
  ∀ c : Obj (HVal K R), c.val.Alike v → ∀ m, f c m = .ok (c, m)

/-- What the check stores is a value that it accepts and keeps. -/
def Stable (f : Obj (HVal K R) → HM (Obj (HVal K R))) : Prop :=
  ∀ o n o' n', f o n = .ok (o', n') → Fixes f o'.val

theorem stable_keep : Stable (K := K) (R := R) keep := by
  intro o n o' n' _ c _ m
  rfl

theorem alike_py {c : HVal K R} {v : PyVal K} (h : c.Alike (.py v)) : c = .py v := by
  cases c with
  | py w => exact h
  | _ => cases h

theorem alike_str {c : HVal K R} {v : String} (h : c.Alike (.str v)) : c = .str v := by
  cases c with
  | str w => exact h
  | _ => cases h

theorem alike_nums {c : HVal K R} {v : List (PyVal K)} (h : c.Alike (.nums v)) : c = .nums v := by
  cases c with
  | nums w => exact h
  | _ => cases h

theorem alike_arr {c : HVal K R} {v : LenArr K} (h : c.Alike (.arr v)) : c = .arr v := by
  cases c with
  | arr w => exact h
  | _ => cases h

theorem alike_rng {c : HVal K R} {v : R} (h : c.Alike (.rng v)) : c = .rng v := by
  cases c with
  | rng w => exact h
  | _ => cases h

theorem alike_ests {c : HVal K R} {l : List (Nat × InTr)} (h : c.Alike (.ests l)) :
    ∃ l', c = .ests l' ∧ l'.map (·.2) = l.map (·.2) := by
  cases c with
  | ests l' => exact ⟨l', rfl, h⟩
  | _ => cases h

theorem stable_keepBool : Stable (K := K) (R := R) keepBool := by
  rintro ⟨i, v⟩ n o' n' h c hc m
  obtain ⟨j, w⟩ := c
  cases v with
  | py v =>
    cases v with
    | bool b =>
      cases h
      obtain rfl := alike_py hc
      rfl
    | _ => cases h
  | _ => cases h

theorem stable_keepNumeric : Stable (K := K) (R := R) keepNumeric := by
  rintro ⟨i, v⟩ n o' n' h c hc m
  obtain ⟨j, w⟩ := c
  cases v with
  | py v =>
    cases v with
    | int b =>
      cases h
      obtain rfl := alike_py hc
      rfl
    | float b =>
      cases h
      obtain rfl := alike_py hc
      rfl
    | _ => cases h
  | _ => cases h

theorem stable_keepNumericOrNone : Stable (K := K) (R := R) keepNumericOrNone := by
  rintro ⟨i, v⟩ n o' n' h c hc m
  obtain ⟨j, w⟩ := c
  cases v with
  | py v =>
    cases v with
    | int b =>
      cases h
      obtain rfl := alike_py hc
      rfl
    | float b =>
      cases h
      obtain rfl := alike_py hc
      rfl
    | none =>
      cases h
      obtain rfl := alike_py hc
      rfl
    | _ => cases h
  | _ => cases h

variable [Scalar K]

theorem stable_toInt : Stable (K := K) (R := R) toInt := by
  rintro ⟨i, v⟩ n o' n' h c hc m
  obtain ⟨j, w⟩ := c
  cases v with
  | py v =>
    cases v with
    | int b =>
      cases h
      obtain rfl := alike_py hc
      rfl
    | float b =>
      cases h
      obtain rfl := alike_py hc
      rfl
    | _ => cases h
  | _ => cases h

/-- What `check_array_1D` returns. -/
theorem toArr_val {o : Obj (HVal K R)} {n n' : Nat} {o' : Obj (HVal K R)} (h : toArr o n = .ok (o', n')) :
    ∃ a : LenArr K, o'.val = .arr a ∧ a.length ≠ 0 := by
  obtain ⟨i, v⟩ := o
  cases v with
  | nums l =>
    cases hl : npAsArray l with
    | error e => simp [toArr, hl, raise] at h
    | ok a =>
      by_cases h0 : a.length = 0
      · simp [toArr, hl, raise, h0] at h
      · simp [toArr, hl, alloc, h0] at h
        exact ⟨a, by rw [← h.1], h0⟩
  | arr a =>
    unfold toArr at h
    simp only at h
    split at h
    · cases h
    · rename_i hl
      cases h
      exact ⟨a, rfl, hl⟩
  | _ => cases h

theorem toArr_arr {c : Obj (HVal K R)} {a : LenArr K} (hc : c.val = .arr a) (ha : a.length ≠ 0) (m : Nat) :
    toArr c m = .ok (c, m) := by
  obtain ⟨i, v⟩ := c
  obtain rfl : v = .arr a := hc
  unfold toArr
  simp only
  rw [if_neg ha]
  rfl

theorem stable_toArr : Stable (K := K) (R := R) toArr := by
  intro o n o' n' h c hc m
  obtain ⟨a, ha, hl⟩ := toArr_val h
  rw [ha] at hc
  exact toArr_arr (alike_arr hc) hl m

theorem stable_keepBounds : Stable (K := K) (R := R) keepBounds := by
  rintro ⟨i, v⟩ n o' n' h c hc m
  obtain ⟨j, w⟩ := c
  cases v with
  | py v =>
    cases v with
    | none =>
      cases h
      obtain rfl := alike_py hc
      rfl
    | _ => cases h
  | nums l =>
    unfold keepBounds at h
    simp only at h
    split at h
    · rename_i hl
      cases h
      obtain rfl := alike_nums hc
      unfold keepBounds
      simp only
      rw [if_pos hl]
      rfl
    · cases h
  | arr l =>
    unfold keepBounds at h
    simp only at h
    split at h
    · rename_i hl
      cases h
      obtain rfl := alike_arr hc
      unfold keepBounds
      simp only
      rw [if_pos hl]
      rfl
    · cases h
  | str l =>
    unfold keepBounds at h
    simp only at h
    split at h
    · rename_i hl
      cases h
      obtain rfl := alike_str hc
      unfold keepBounds
      simp only
      rw [if_pos hl]
      rfl
    · cases h
  | ests l =>
    unfold keepBounds at h
    simp only at h
    split at h
    · rename_i hl
      cases h
      obtain ⟨l', rfl, hl'⟩ := alike_ests hc
      have : l'.length = 2 := by
        have := congrArg List.length hl'
        simpa [hl] using this
      unfold keepBounds
      simp only
      rw [if_pos this]
      rfl
    · cases h
  | rng _ => cases h

theorem stable_keepReduction : Stable (K := K) (R := R) keepReduction := by
  rintro ⟨i, v⟩ n o' n' h c hc m
  obtain ⟨j, w⟩ := c
  cases v with
  | py v =>
    cases v with
    | int b =>
      unfold keepReduction at h
      simp only at h
      split at h
      · cases h
      · rename_i hb
        cases h
        obtain rfl := alike_py hc
        unfold keepReduction
        simp only
        rw [if_neg hb]
        rfl
    | float b =>
      unfold keepReduction at h
      simp only at h
      split at h
      · cases h
      · rename_i hb
        cases h
        obtain rfl := alike_py hc
        unfold keepReduction
        simp only
        rw [if_neg hb]
        rfl
    | _ => cases h
  | _ => cases h

theorem stable_toPercentiles : Stable (K := K) (R := R) toPercentiles := by
  intro o n o' n' h c hc m
  unfold toPercentiles at h
  obtain ⟨o1, n1, h1, h2⟩ := hm_bind_ok.1 h
  obtain ⟨a, ha, hl⟩ := toArr_val h1
  have key : ordered a = .ok true ∧ o' = o1 := by
    rw [ha] at h2
    cases ho : ordered a with
    | error e => simp [ho, raise] at h2
    | ok b =>
      cases b with
      | false => simp [ho, raise] at h2
      | true =>
        simp only [ho] at h2
        cases h2
        exact ⟨rfl, rfl⟩
  obtain ⟨ho, rfl⟩ := key
  rw [ha] at hc
  have hcv := alike_arr hc
  unfold toPercentiles
  rw [hm_bind_of (toArr_arr hcv hl m), hcv]
  simp only [ho]
  rfl

theorem stable_toRng (glob : R) (rs : Nat → R) : Stable (K := K) (R := R) (toRng glob rs) := by
  rintro ⟨i, v⟩ n o' n' h c hc m
  obtain ⟨j, w⟩ := c
  cases v with
  | py v =>
    cases v with
    | none =>
      cases h
      obtain rfl := alike_rng hc
      rfl
    | int z =>
      unfold toRng at h
      simp only at h
      split at h
      · cases h
      · cases h
        obtain rfl := alike_rng hc
        rfl
    | _ => cases h
  | rng r =>
    cases h
    obtain rfl := alike_rng hc
    rfl
  | _ => cases h

/-- A number of threads that `check_n_jobs` returns unchanged. -/
theorem toNJobs_int {cpu mt : Nat} {z : Int} (h1 : 1 ≤ z) (h2 : z ≤ mt) (h3 : z ≤ cpu) {c : Obj (HVal K R)}
    (hc : c.val = .py (.int z)) (m : Nat) : toNJobs cpu mt c m = .ok (c, m) := by
  obtain ⟨i, v⟩ := c
  obtain rfl : v = .py (.int z) := hc
  have : checkNJobs (K := K) cpu (.int z) = .ok z := by
    show (if z < 0 then _ else _) = _
    rw [if_neg (by omega), min_eq_left h3]
  unfold toNJobs
  simp only [this]
  rw [if_pos ⟨h1, h2⟩]
  rfl

theorem toNJobs_val {cpu mt : Nat} (hcpu : 0 < cpu) {o o' : Obj (HVal K R)} {n n' : Nat}
    (h : toNJobs cpu mt o n = .ok (o', n')) :
    (∃ b, o'.val = .py (.bool b)) ∨ ∃ z : Int, o'.val = .py (.int z) ∧ 1 ≤ z ∧ z ≤ mt ∧ z ≤ cpu := by
  obtain ⟨i, v⟩ := o
  cases v with
  | py v =>
    cases v with
    | bool b =>
      cases h
      exact Or.inl ⟨b, rfl⟩
    | none =>
      have hh : checkNJobs (K := K) cpu .none = .ok 1 := rfl
      unfold toNJobs at h
      simp only [hh] at h
      split at h
      · rename_i hc
        cases h
        exact Or.inr ⟨1, rfl, hc.1, hc.2, by omega⟩
      · cases h
    | int z =>
      have hh : ∃ k, checkNJobs (K := K) cpu (.int z) = .ok k ∧ k ≤ cpu := by
        by_cases hz : z < 0
        · exact ⟨_, if_pos hz, by omega⟩
        · exact ⟨_, if_neg hz, min_le_right _ _⟩
      obtain ⟨k, hk, hle⟩ := hh
      unfold toNJobs at h
      simp only [hk] at h
      split at h
      · rename_i hc
        split at h
        · rename_i hz
          cases h
          exact Or.inr ⟨z, rfl, by omega, by omega, by omega⟩
        · cases h
          exact Or.inr ⟨k, rfl, hc.1, hc.2, hle⟩
      · cases h
    | float x => cases h
    | other => cases h
  | _ => cases h

theorem stable_toNJobs {cpu : Nat} (hcpu : 0 < cpu) (mt : Nat) : Stable (K := K) (R := R) (toNJobs cpu mt) := by
  intro o n o' n' h c hc m
  rcases toNJobs_val hcpu h with ⟨b, hb⟩ | ⟨z, hz, h1, h2, h3⟩
  · rw [hb] at hc
    obtain ⟨j, w⟩ := c
    obtain rfl := alike_py hc
    rfl
  · rw [hz] at hc
    exact toNJobs_int h1 h2 h3 (alike_py hc) m

theorem stable_toTransformers : Stable (K := K) (R := R) toTransformers := by
  rintro ⟨i, v⟩ n o' n' h c hc m
  obtain ⟨j, w⟩ := c
  have hne : o'.val ≠ .py .none := by
    cases v with
    | py v => cases v <;> (cases h; simp)
    | _ => cases h; simp
  cases w with
  | py v =>
    cases v with
    | none =>
      exfalso
      apply hne
      cases o' with
      | mk i v =>
        cases v <;> simp_all [HVal.Alike]
    | _ => rfl
  | _ => rfl

/-! ## Constructors made of stable checks -/

theorem lookup_of_mem {γ : Type} {l : List (String × γ)} (hn : (l.map (·.1)).Nodup) {s : String} {v : γ}
    (h : (s, v) ∈ l) : l.lookup s = some v := by
  induction l with
  | nil => cases h
  | cons p l ih =>
    obtain ⟨t, u⟩ := p
    rw [List.map_cons, List.nodup_cons] at hn
    rw [List.mem_cons] at h
    rcases h with h | h
    · cases h
      simp [List.lookup]
    · have hne : s ≠ t := by
        rintro rfl
        exact hn.1 (List.mem_map.2 ⟨_, h, rfl⟩)
      rw [List.lookup_cons]
      have : (s == t) = false := by simpa using hne
      rw [this]
      exact ih hn.2 h

/-- The names of the attributes are those of the constructor. -/
theorem runInit_spec (stores : List (Assign K R)) (args : Attrs K R) {n m : Nat} {a : Attrs K R}
    (h : runInit stores args n = .ok (a, m)) :
    List.Forall₂ (fun (s : Assign K R) p => p.1 = s.1 ∧ ∃ o k k', args.lookup s.1 = some o ∧ s.2 o k = .ok (p.2, k'))
      stores a := by
  unfold runInit at h
  induction stores generalizing n a with
  | nil =>
    rw [List.mapM_nil] at h
    cases h
    exact .nil
  | cons s stores ih =>
    rw [List.mapM_cons] at h
    obtain ⟨p, n1, h1, h2⟩ := hm_bind_ok.1 h
    obtain ⟨ps, n2, h3, h4⟩ := hm_bind_ok.1 h2
    rw [hm_pure_ok] at h4
    cases h4
    refine .cons ?_ (ih h3)
    unfold assignOne at h1
    cases hl : args.lookup s.1 with
    | none =>
      rw [hl] at h1
      cases h1
    | some o =>
      rw [hl] at h1
      obtain ⟨o', k', h5, h6⟩ := hm_bind_ok.1 h1
      rw [hm_pure_ok] at h6
      cases h6
      exact ⟨rfl, o, _, _, rfl, h5⟩

theorem forall₂_names {γ δ : Type} {P : (String × γ) → (String × δ) → Prop} {l : List (String × γ)}
    {l' : List (String × δ)} (h : List.Forall₂ (fun p q => q.1 = p.1 ∧ P p q) l l') :
    l'.map (·.1) = l.map (·.1) := by
  induction h with
  | nil => rfl
  | cons h _ ih => rw [List.map_cons, List.map_cons, h.1, ih]

/-- Running the constructor on arguments that its checks keep returns these very objects. -/
theorem runInit_fixed (stores : List (Assign K R)) (args : Attrs K R)
    (hf : List.Forall₂ (fun (s : Assign K R) (q : String × Obj (HVal K R)) => q.1 = s.1 ∧ ∀ m, s.2 q.2 m = .ok (q.2, m))
      stores args)
    (big : Attrs K R) (hbig : ∀ q ∈ args, big.lookup q.1 = some q.2) (m : Nat) :
    runInit stores big m = .ok (args, m) := by
  unfold runInit
  induction hf with
  | nil => rfl
  | @cons s q stores args h _ ih =>
    rw [List.mapM_cons]
    have h1 := hbig q (by simp)
    rw [h.1] at h1
    have : assignOne big s m = .ok (q, m) := by
      unfold assignOne
      rw [h1]
      simp only
      rw [hm_bind_of (h.2 m), hm_pure, ← h.1]
    rw [hm_bind_of this, hm_bind_of (ih fun p hp => hbig p (List.mem_cons_of_mem _ hp))]
    rfl

/-- `clone` of an object whose attributes are kept by the constructor: it succeeds, and returns copies. -/
theorem clone_fixed (init : Attrs K R → HM (Attrs K R)) {names : List String} (hn : names.Nodup) {attrs : Attrs K R}
    (hnames : attrs.map (·.1) = names)
    (hinit : ∀ (args : Attrs K R) (n m : Nat), List.Forall₂ (fun p q => q.1 = p.1 ∧ CopyOf n p.2 q.2) attrs args →
      init args m = .ok (args, m)) (m : Nat) :
    ∃ attrs' m', cloneEst init attrs m = .ok (attrs', m') ∧
      List.Forall₂ (fun p q => q.1 = p.1 ∧ CopyOf m p.2 q.2) attrs attrs' := by
  obtain ⟨a, k, h1, hk, hc⟩ := copyAll_ok attrs m
  refine ⟨a, k, ?_, hc⟩
  unfold cloneEst
  rw [hm_bind_of h1, hm_bind_of (hinit a m k hc), if_pos]
  · rfl
  · rw [List.all_eq_true]
    intro p hp
    rw [lookup_of_mem (by rw [forall₂_names hc, hnames]; exact hn) (s := p.1) (v := p.2) hp]
    simp

theorem forall₂_trans_imp {α β γ : Type} {P : α → β → Prop} {Q : β → γ → Prop} {S : α → γ → Prop}
    (h : ∀ a b c, P a b → Q b c → S a c) {l : List α} {l' : List β} {l'' : List γ} (h1 : List.Forall₂ P l l')
    (h2 : List.Forall₂ Q l' l'') : List.Forall₂ S l l'' := by
  induction h1 generalizing l'' with
  | nil =>
    cases h2
    exact .nil
  | cons hp _ ih =>
    cases h2 with
    | cons hq ht => exact .cons (h _ _ _ hp hq) (ih ht)

theorem forall₂_and_left {α β : Type} {P : α → β → Prop} {Q : α → Prop} {l : List α} {l' : List β}
    (h1 : List.Forall₂ P l l') (h2 : ∀ a ∈ l, Q a) : List.Forall₂ (fun a b => Q a ∧ P a b) l l' := by
  induction h1 with
  | nil => exact .nil
  | cons hp _ ih => exact .cons ⟨h2 _ (by simp), hp⟩ (ih fun a ha => h2 a (List.mem_cons_of_mem _ ha))

/-- Objects made by a constructor all of whose checks are stable. -/
theorem runInit_copies (stores : List (Assign K R)) (hn : (stores.map (·.1)).Nodup)
    (hs : ∀ s ∈ stores, Stable s.2) {args attrs : Attrs K R} {n n' : Nat}
    (h : runInit stores args n = .ok (attrs, n')) :
    attrs.map (·.1) = stores.map (·.1) ∧ ∀ (c : Attrs K R) (k m : Nat),
      List.Forall₂ (fun p q => q.1 = p.1 ∧ CopyOf k p.2 q.2) attrs c → runInit stores c m = .ok (c, m) := by
  have hspec := runInit_spec stores args h
  have hnames : attrs.map (·.1) = stores.map (·.1) := forall₂_names hspec
  refine ⟨hnames, fun c k m hc => ?_⟩
  refine runInit_fixed stores c ?_ c ?_ m
  · refine forall₂_trans_imp ?_ (forall₂_and_left hspec hs) hc
    rintro s p q ⟨hst, hp, o, k1, k2, -, hstore⟩ ⟨hq, hcopy⟩
    exact ⟨hq.trans hp, fun m => hst _ _ _ _ hstore q.2 hcopy.1 m⟩
  · intro q hq
    exact lookup_of_mem (by rw [forall₂_names hc, hnames]; exact hn) hq

/-! ## Monotonicity of the constructors -/

theorem mono_runInit {stores : List (Assign K R)} (h : ∀ s ∈ stores, ∀ o, Mono (s.2 o)) (args : Attrs K R) :
    Mono (runInit stores args) := by
  unfold runInit
  induction stores with
  | nil => exact Mono.pure _
  | cons s stores ih =>
    rw [List.mapM_cons]
    refine Mono.bind ?_ fun p => Mono.bind (ih fun t ht => h t (List.mem_cons_of_mem _ ht)) fun _ => Mono.pure _
    unfold assignOne
    cases args.lookup s.1 with
    | none => exact Mono.raise _
    | some o => exact (h s (by simp) o).bind fun _ => Mono.pure _

theorem mono_keep (o : Obj (HVal K R)) : Mono (keep o) := Mono.pure _

theorem mono_keepBool (o : Obj (HVal K R)) : Mono (keepBool o) := by
  unfold keepBool
  cases o.val with
  | py v => cases v <;> first | exact Mono.pure _ | exact Mono.raise _
  | _ => exact Mono.raise _

theorem mono_keepNumeric (o : Obj (HVal K R)) : Mono (keepNumeric o) := by
  unfold keepNumeric
  cases o.val with
  | py v => cases v <;> first | exact Mono.pure _ | exact Mono.raise _
  | _ => exact Mono.raise _

theorem mono_keepNumericOrNone (o : Obj (HVal K R)) : Mono (keepNumericOrNone o) := by
  unfold keepNumericOrNone
  cases o.val with
  | py v => cases v <;> first | exact Mono.pure _ | exact mono_keepNumeric _
  | _ => exact mono_keepNumeric _

theorem mono_toInt (o : Obj (HVal K R)) : Mono (toInt o) := by
  unfold toInt
  cases o.val with
  | py v => cases v <;> first | exact Mono.pure _ | exact Mono.alloc _ | exact Mono.raise _
  | _ => exact Mono.raise _

theorem mono_toArr (o : Obj (HVal K R)) : Mono (toArr o) := by
  unfold toArr
  cases o.val with
  | nums l =>
    cases hl : npAsArray l with
    | error e => simp only [hl]; exact Mono.raise _
    | ok a => simp only [hl]; exact Mono.ite (Mono.raise _) (Mono.alloc _)
  | arr a => exact Mono.ite (Mono.raise _) (Mono.pure _)
  | _ => exact Mono.raise _

theorem mono_keepBounds (o : Obj (HVal K R)) : Mono (keepBounds o) := by
  unfold keepBounds
  cases o.val with
  | py v => cases v <;> first | exact Mono.pure _ | exact Mono.raise _
  | rng _ => exact Mono.raise _
  | _ => exact Mono.ite (Mono.pure _) (Mono.raise _)

theorem mono_keepReduction (o : Obj (HVal K R)) : Mono (keepReduction o) := by
  unfold keepReduction
  cases o.val with
  | py v => cases v <;> first | exact Mono.raise _ | exact Mono.ite (Mono.raise _) (Mono.pure _)
  | _ => exact Mono.raise _

theorem mono_toPercentiles (o : Obj (HVal K R)) : Mono (toPercentiles o) := by
  unfold toPercentiles
  refine (mono_toArr o).bind fun o' => ?_
  cases o'.val with
  | arr a =>
    cases ho : ordered a with
    | error e => simp only [ho]; exact Mono.raise _
    | ok b => cases b <;> simp only [ho] <;> first | exact Mono.raise _ | exact Mono.pure _
  | _ => exact Mono.raise _

theorem mono_toRng (glob : R) (rs : Nat → R) (o : Obj (HVal K R)) : Mono (toRng glob rs o) := by
  unfold toRng
  cases o.val with
  | py v =>
    cases v <;> first | exact Mono.raise _ | exact Mono.pure _ | exact Mono.ite (Mono.raise _) (Mono.alloc _)
  | rng r => exact Mono.pure _
  | _ => exact Mono.raise _

theorem mono_toNJobs (cpu mt : Nat) (o : Obj (HVal K R)) : Mono (toNJobs cpu mt o) := by
  unfold toNJobs
  cases o.val with
  | py v =>
    cases v with
    | bool b => exact Mono.pure _
    | none => exact Mono.ite (Mono.alloc _) (Mono.raise _)
    | int z =>
      obtain ⟨k, hk⟩ : ∃ k, checkNJobs (K := K) cpu (.int z) = .ok k := by
        by_cases hz : z < 0
        · exact ⟨_, if_pos hz⟩
        · exact ⟨_, if_neg hz⟩
      simp only [hk]
      exact Mono.ite (Mono.ite (Mono.pure _) (Mono.alloc _)) (Mono.raise _)
    | float x => exact Mono.raise _
    | other => exact Mono.raise _
  | _ => exact Mono.raise _

theorem mono_toTransformType (o : Obj (HVal K R)) : Mono (toTransformType o) := by
  unfold toTransformType
  cases o.val with
  | str s =>
    refine Mono.bind (Mono.alloc _) fun o' => ?_
    cases hv : validateTransformType s with
    | ok _ => simp only [hv]; exact Mono.pure _
    | error _ => simp only [hv]; exact Mono.raise _
  | _ => exact Mono.raise _

theorem mono_toTransformers (o : Obj (HVal K R)) : Mono (toTransformers o) := by
  unfold toTransformers
  cases o.val with
  | py v =>
    cases v with
    | none =>
      exact Mono.bind (Mono.alloc _) fun _ => Mono.bind (Mono.alloc _) fun _ => Mono.bind (Mono.alloc _) fun _ =>
        Mono.alloc _
    | _ => exact Mono.pure _
  | _ => exact Mono.pure _

theorem mono_rdstInit (pr : Proc R) (args : Attrs K R) : Mono (rdstInit pr args) := by
  refine mono_runInit ?_ args
  intro s hs o
  simp only [rdstStores, List.mem_cons, List.not_mem_nil, or_false] at hs
  rcases hs with rfl | rfl | rfl | rfl | rfl | rfl | rfl | rfl | rfl | rfl | rfl | rfl | rfl | rfl | rfl | rfl
  · exact mono_toTransformType o
  · exact mono_keepBool o
  · exact mono_keepNumeric o
  · exact mono_keepBool o
  · exact mono_keepNumericOrNone o
  · exact mono_toInt o
  · exact mono_toArr o
  · exact mono_keepBounds o
  · exact mono_keepReduction o
  · exact mono_keepBool o
  · exact mono_keepNumeric o
  · exact mono_toPercentiles o
  · exact mono_toRng _ _ o
  · exact mono_toNJobs _ _ o
  · exact mono_keep o
  · exact mono_keep o

theorem mono_cloneEst {init : Attrs K R → HM (Attrs K R)} (h : ∀ a, Mono (init a)) (a : Attrs K R) :
    Mono (cloneEst init a) := by
  unfold cloneEst
  refine Mono.bind (Mono.mapM (fun p => (mono_copyObj p.2).bind fun _ => Mono.pure _) a) fun args => ?_
  exact (h args).bind fun new => Mono.ite (Mono.pure _) (Mono.raise _)

end Convst
