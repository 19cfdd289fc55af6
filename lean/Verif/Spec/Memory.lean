import Verif.Model.Memory
import Mathlib.Logic.Relation

/-!
# What is expected of `transform` at the level of memory

Vocabulary for C111.
-/

set_option autoImplicit false

namespace Convst.Spec
open Mem

variable {K : Type}

/-- Every buffer of the memory `h` still exists in `h'`, with the same content. -/
def Unchanged (h h' : Heap K) : Prop := ∀ (a : Nat) (b : List K), h.bufs[a]? = some b → h'.bufs[a]? = some b

/-- The caller's array `v` contains the series `x`. -/
def Held (h : Heap K) (v : View) (x : Mat K) : Prop :=
  v.nf = x.rows.length ∧ v.nt = x.len ∧
    ∀ (c t : Nat) (row : List K) (e : K), x.rows[c]? = some row → row[t]? = some e → h.get v.addr (v.pos c t) = some e

/-- The arrays `A` in the memory `h` are those of the univariate shapelets `S`. -/
def UHeld (h : Heap K) (A : Mem.UArr) (S : UShp K) : Prop :=
  h.bufs[A.values]? = some S.values.flatten ∧ (∀ v ∈ S.values, v.length = A.width) ∧
    h.bufs[A.threshold]? = some S.threshold ∧
    A.lengths = S.lengths ∧ A.dilations = S.dilations ∧ A.normalize = S.normalize ∧
    S.dilations.length = S.lengths.length ∧ S.normalize.length = S.lengths.length

/-- The arrays `A` in the memory `h` are those of the multivariate shapelets `S`. -/
def MHeld (h : Heap K) (A : Mem.MArr) (S : MShp K) : Prop :=
  h.bufs[A.values]? = some S.values ∧ A.size = S.values.length ∧ h.bufs[A.threshold]? = some S.threshold ∧
    A.lengths = S.lengths ∧ A.dilations = S.dilations ∧ A.normalize = S.normalize ∧
    A.nChannels = S.nChannels ∧ A.channelIds = S.channelIds ∧
    S.dilations.length = S.lengths.length ∧ S.normalize.length = S.lengths.length

/-- The arrays of the fitted shapelets. -/
def ShpHeld (h : Heap K) (A : ShpArr) (S : Shapelets K) : Prop :=
  match A, S with
  | .u A, .u S => UHeld h A S
  | .m A, .m S => MHeld h A S
  | _, _ => False

/-- `c'` is reached from `c` when the threads perform their memory operations in some order. -/
def Reaches [Zero K] (c c' : Conf K) : Prop := Relation.ReflTransGen Conf.Step c c'

/-- All threads have ended without an error. -/
def AllDone (c : Conf K) : Prop := ∀ p ∈ c.threads, p = .ret (.ok ())

/-- Some thread has failed, for example by an access outside of an array. -/
def Crashed (c : Conf K) : Prop := ∃ p ∈ c.threads, ∃ e, p = .ret (.error e)

/-- No execution from `c` goes on for ever. -/
def Terminates [Zero K] (c : Conf K) : Prop := ¬ ∃ f : Nat → Conf K, f 0 = c ∧ ∀ n, Conf.Step (f n) (f (n + 1))

end Convst.Spec
