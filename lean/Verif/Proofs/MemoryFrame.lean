import Verif.Proofs.Memory

/-! # Programs that write only to new buffers -/

set_option autoImplicit false
set_option linter.unusedSectionVars false

namespace Convst.Mem
open Spec

variable {K α β : Type}

section
variable [Zero K]

/-- All writes are to buffers with an address of at least `lo`, or allocated by the program. -/
def Framed (lo : Nat) : Prog K α → Prop
  | .ret _ => True
  | .alloc _ k => ∀ a, lo ≤ a → Framed lo (k a)
  | .read _ _ k => ∀ v, Framed lo (k v)
  | .write a _ _ k => lo ≤ a ∧ Framed lo k

/-- A program whose result is an address of at least `lo`, or satisfies another condition. -/
def Result (lo : Nat) (P : α → Prop) : Prog K α → Prop
  | .ret (.ok a) => P a
  | .ret (.error _) => True
  | .alloc _ k => ∀ a, lo ≤ a → Result lo P (k a)
  | .read _ _ k => ∀ v, Result lo P (k v)
  | .write _ _ _ k => Result lo P k

theorem Framed.bind' {lo : Nat} {P : α → Prop} {p : Prog K α} {f : α → Prog K β} (hp : Framed lo p) (hr : Result lo P p)
    (hf : ∀ a, P a → Framed lo (f a)) : Framed lo (p >>= f) := by
  show Framed lo (p.bind f)
  induction p with
  | ret r =>
    cases r with
    | ok a => exact hf a hr
    | error e => exact trivial
  | alloc n k ih => exact fun a ha => ih a (hp a ha) (hr a ha)
  | read a i k ih => exact fun v => ih v (hp v) (hr v)
  | write a i v k ih => exact ⟨hp.1, ih hp.2 hr⟩

theorem result_true {lo : Nat} (p : Prog K α) : Result lo (fun _ => True) p := by
  induction p with
  | ret r => cases r <;> trivial
  | alloc n k ih => exact fun a _ => ih a
  | read a i k ih => exact fun v => ih v
  | write a i v k ih => exact ih

theorem Framed.bind {lo : Nat} {p : Prog K α} {f : α → Prog K β} (hp : Framed lo p) (hf : ∀ a, Framed lo (f a)) :
    Framed lo (p >>= f) := hp.bind' (result_true p) fun a _ => hf a

theorem Result.bind {lo : Nat} {P : α → Prop} {Q : β → Prop} {p : Prog K α} {f : α → Prog K β} (hr : Result lo P p)
    (hf : ∀ a, P a → Result lo Q (f a)) : Result lo Q (p >>= f) := by
  show Result lo Q (p.bind f)
  induction p with
  | ret r =>
    cases r with
    | ok a => exact hf a hr
    | error e => exact trivial
  | alloc n k ih => exact fun a ha => ih a (hr a ha)
  | read a i k ih => exact fun v => ih v (hr v)
  | write a i v k ih => exact ih hr

theorem framed_forEach {ι : Type} {lo : Nat} {xs : List ι} {f : ι → Prog K Unit} (h : ∀ x, Framed lo (f x)) :
    Framed lo (forEach xs f) := by
  induction xs with
  | nil => exact trivial
  | cons x xs ih => exact Framed.bind (h x) fun _ => ih

theorem framed_collect {ι : Type} {lo : Nat} {xs : List ι} {f : ι → Prog K β} (h : ∀ x, Framed lo (f x)) :
    Framed lo (collect xs f) := by
  induction xs with
  | nil => exact trivial
  | cons x xs ih => exact Framed.bind (h x) fun _ => Framed.bind ih fun _ => trivial

theorem framed_ret {lo : Nat} (r : Res α) : Framed lo (.ret r : Prog K α) := trivial

theorem framed_load {lo : Nat} (a i : Nat) : Framed lo (load a i : Prog K K) := fun _ => trivial

theorem framed_store {lo a : Nat} (h : lo ≤ a) (i : Nat) (v : K) : Framed lo (store a i v) := ⟨h, trivial⟩

theorem framed_zeros {lo : Nat} (n : Nat) : Framed lo (zeros n : Prog K Nat) := fun _ _ => trivial

theorem result_zeros {lo : Nat} (n : Nat) : Result lo (fun a => lo ≤ a) (zeros n : Prog K Nat) := fun _ h => h

theorem framed_loadRow {lo : Nat} (a off n : Nat) : Framed lo (loadRow a off n : Prog K (List K)) := by
  induction n generalizing off with
  | zero => exact trivial
  | succ n ih => exact Framed.bind (framed_load _ _) fun _ => Framed.bind (ih _) fun _ => trivial

theorem framed_storeRow {lo a : Nat} (h : lo ≤ a) (off : Nat) (vs : List K) : Framed lo (storeRow a off vs) := by
  induction vs generalizing off with
  | nil => exact trivial
  | cons v vs ih => exact Framed.bind (framed_store h _ _) fun _ => ih _

/-! ## Executions -/

/-- `h'` has at least the buffers of `h`, unchanged. -/
def Keeps (h h' : Heap K) : Prop := h.bufs.length ≤ h'.bufs.length ∧ Unchanged h h'

theorem Keeps.refl (h : Heap K) : Keeps h h := ⟨Nat.le_refl _, fun _ _ hb => hb⟩

theorem Keeps.push {h h' : Heap K} (hk : Keeps h h') (n : Nat) : Keeps h (h'.push n) :=
  ⟨by have := hk.1; simp only [Heap.push, List.length_append]; omega, fun a b hb => by
    have h1 := hk.2 a b hb
    have := (List.getElem?_eq_some_iff.1 h1).1
    simp only [Heap.push]
    rw [List.getElem?_append_left this]
    exact h1⟩

theorem Keeps.set {h h' h'' : Heap K} (hk : Keeps h h') {a i : Nat} {v : K} (ha : h.bufs.length ≤ a)
    (hs : h'.set a i v = some h'') : Keeps h h'' := by
  unfold Heap.set at hs
  split at hs
  · split at hs
    · cases hs
      refine ⟨by simpa using hk.1, ?_⟩
      intro b l hb
      have hbl := (List.getElem?_eq_some_iff.1 hb).1
      show (h'.bufs.set a _)[b]? = _
      rw [List.getElem?_set_ne (by omega)]
      exact hk.2 b l hb
    · cases hs
  · cases hs

theorem Framed.run {h h' : Heap K} {p : Prog K α} (hp : Framed h.bufs.length p) (hk : Keeps h h') :
    Keeps h (p.run h').1 := by
  induction p generalizing h' with
  | ret r => exact hk
  | alloc n k ih => exact ih _ (hp _ hk.1) (hk.push n)
  | read a i k ih =>
    simp only [Prog.run]
    split
    · exact ih _ (hp _) hk
    · exact hk
  | write a i v k ih =>
    simp only [Prog.run]
    split
    · rename_i hs
      exact ih hp.2 (hk.set hp.1 hs)
    · exact hk

/-- The buffers of `h` are there and the threads do not write to them. -/
def KeepsConf (h : Heap K) (c : Conf K) : Prop := Keeps h c.heap ∧ ∀ p ∈ c.threads, Framed h.bufs.length p

theorem step_keeps {h : Heap K} {c c' : Conf K} (hc : KeepsConf h c) (hs : Conf.Step c c') : KeepsConf h c' := by
  obtain ⟨hi, hst⟩ := hs
  rename_i h0 h0' ts i p p'
  obtain ⟨hk, hf⟩ := hc
  have hp := hf p (List.mem_of_getElem? hi)
  have key : Keeps h h0' ∧ Framed h.bufs.length p' := by
    cases p with
    | ret r => simp [Prog.step] at hst
    | alloc n k =>
      simp only [Prog.step, Option.some.injEq, Prod.mk.injEq] at hst
      obtain ⟨rfl, rfl⟩ := hst
      exact ⟨Keeps.push hk n, hp _ hk.1⟩
    | read a j k =>
      simp only [Prog.step] at hst
      split at hst
      · simp only [Option.some.injEq, Prod.mk.injEq] at hst
        obtain ⟨rfl, rfl⟩ := hst
        exact ⟨hk, hp _⟩
      · simp only [Option.some.injEq, Prod.mk.injEq] at hst
        obtain ⟨rfl, rfl⟩ := hst
        exact ⟨hk, trivial⟩
    | write a j v k =>
      simp only [Prog.step] at hst
      split at hst
      · rename_i hs
        simp only [Option.some.injEq, Prod.mk.injEq] at hst
        obtain ⟨rfl, rfl⟩ := hst
        exact ⟨Keeps.set hk hp.1 hs, hp.2⟩
      · simp only [Option.some.injEq, Prod.mk.injEq] at hst
        obtain ⟨rfl, rfl⟩ := hst
        exact ⟨hk, trivial⟩
  refine ⟨key.1, ?_⟩
  intro q hq
  rcases List.mem_or_eq_of_mem_set hq with hq | rfl
  · exact hf q hq
  · exact key.2

theorem reaches_keeps {h : Heap K} {c c' : Conf K} (hr : Reaches c c') (hc : KeepsConf h c) : KeepsConf h c' := by
  induction hr with
  | refl => exact hc
  | tail _ hs ih => exact step_keeps ih hs

end

section
variable [Scalar K]

theorem framed_strides (lo a off pitch nf len w d : Nat) (phase : Bool) :
    Framed lo (strides a off pitch nf len w d phase : Prog K Win) ∧
      Result lo (fun s => lo ≤ s.addr) (strides a off pitch nf len w d phase : Prog K Win) := by
  unfold strides
  constructor
  · refine Framed.bind (framed_ret _) fun n => ?_
    refine Framed.bind' (framed_zeros _) (result_zeros _) fun b hb => ?_
    exact Framed.bind (framed_forEach fun _ => framed_forEach fun _ => framed_forEach fun _ =>
      Framed.bind (framed_load _ _) fun _ => framed_store hb _ _) fun _ => trivial
  · refine Result.bind (result_true _) fun n _ => ?_
    refine Result.bind (result_zeros _) fun b hb => ?_
    exact Result.bind (result_true _) fun _ _ => hb

theorem framed_copyIn (lo nf nt : Nat) (xs : List View) : Framed lo (copyIn nf nt xs : Prog K Nat) := by
  unfold copyIn
  refine Framed.bind' (framed_zeros _) (result_zeros _) fun b hb => ?_
  exact Framed.bind (framed_forEach fun _ => framed_forEach fun _ => framed_forEach fun _ =>
      Framed.bind (framed_load _ _) fun _ => framed_store hb _ _) fun _ => trivial

theorem framed_copyFlat (lo a size : Nat) : Framed lo (copyFlat a size : Prog K Nat) := by
  unfold copyFlat
  refine Framed.bind' (framed_zeros _) (result_zeros _) fun b hb => ?_
  exact Framed.bind (framed_forEach fun _ => Framed.bind (framed_load _ _) fun _ => framed_store hb _ _) fun _ => trivial

theorem framed_readChannel (lo : Nat) (s : Win) (c : Nat) : Framed lo (readChannel s c : Prog K _) :=
  framed_collect fun _ => framed_loadRow _ _ _

/-- The kernel writes only to its windows. -/
structure FramedKernel (lo : Nat) (kern : MemKernel K) : Prop where
  windows : ∀ i l d, Framed lo (kern.windows i l d)
  addr : ∀ i l d, Result lo (fun s => lo ≤ s.addr) (kern.windows i l d)
  feature : ∀ s l k, Framed lo (kern.feature s l k)

theorem framed_kernelOf {lo : Nat} (S : ShpArr) (x nf nt : Nat) (len : Nat → Nat) (phase : Bool) :
    FramedKernel lo (kernelOf S x nf nt len phase : MemKernel K) := by
  cases S with
  | u S =>
    refine ⟨fun i l d => (framed_strides _ _ _ _ _ _ _ _ _).1, fun i l d => (framed_strides _ _ _ _ _ _ _ _ _).2, ?_⟩
    intro s l k
    exact Framed.bind (framed_loadRow _ _ _) fun _ => Framed.bind (framed_load _ _) fun _ =>
      Framed.bind (framed_readChannel _ _ _) fun _ => trivial
  | m S =>
    refine ⟨fun i l d => (framed_strides _ _ _ _ _ _ _ _ _).1, fun i l d => (framed_strides _ _ _ _ _ _ _ _ _).2, ?_⟩
    intro s l k
    exact Framed.bind (framed_ret _) fun _ => Framed.bind (framed_ret _) fun _ => Framed.bind (framed_ret _) fun _ =>
      Framed.bind (framed_ret _) fun _ => Framed.bind (framed_loadRow _ _ _) fun _ => Framed.bind (framed_ret _) fun _ =>
      Framed.bind (framed_ret _) fun _ => Framed.bind (framed_load _ _) fun _ =>
      Framed.bind (framed_collect fun _ => framed_readChannel _ _ _) fun _ => trivial

theorem framed_task {lo : Nat} {kern : MemKernel K} (hk : FramedKernel lo kern) (normalize : List Bool) (g : Groups)
    {xn : Nat} (hxn : lo ≤ xn) (cols i ip : Nat) : Framed lo (task kern normalize g xn cols i ip) := by
  have hfe : ∀ (s : Win) (l : Nat) (ks : List Nat), Framed lo (forEach ks fun k => do
      let f ← kern.feature s l k
      storeFeat xn (i * cols) k f) := fun s l ks =>
    framed_forEach fun k => Framed.bind (hk.feature _ _ _) fun f =>
      Framed.bind (framed_store hxn _ _) fun _ => Framed.bind (framed_store hxn _ _) fun _ => framed_store hxn _ _
  unfold task
  refine Framed.bind (framed_ret _) fun p => ?_
  refine Framed.bind' (hk.windows _ _ _) (hk.addr _ _ _) fun s hs => ?_
  refine Framed.bind (framed_ret _) fun _ => Framed.bind (framed_ret _) fun _ => Framed.bind (framed_ret _) fun no => ?_
  refine Framed.bind (hfe _ _ _) fun _ => Framed.bind (framed_ret _) fun yes => ?_
  split
  · exact Framed.bind (framed_forEach fun _ => framed_forEach fun _ => Framed.bind (framed_loadRow _ _ _) fun _ =>
      framed_storeRow hs _ _) fun _ => hfe _ _ _
  · exact trivial

end

end Convst.Mem
