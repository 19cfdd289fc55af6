import Verif.Spec.Fit
import Verif.Spec.Law

/-!
# Reordered training sets

The same training set written down in another order: C101 compares `fit` on both.
-/

set_option autoImplicit false

namespace Convst.Spec
variable {L : Type}

/-- `b` is `a` with its samples (series together with their labels) in another order. -/
structure Reordered (a b : FitArgs ℝ L) : Prop where
  samples : (a.X.zip a.y).Perm (b.X.zip b.y)
  options : b = { a with X := b.X, y := b.y }

/-- The same for series of different lengths: each series keeps its label and its length. -/
structure ReorderedVL (a b : FitArgs ℝ L) (xa xb : List Nat) : Prop where
  samples : (a.X.zip (a.y.zip xa)).Perm (b.X.zip (b.y.zip xb))
  options : b = { a with X := b.X, y := b.y }

/-- `a` with the channels of every sample taken in the order `order`: new channel `c` is the old channel
`order[c]`. -/
def withChannels (a : FitArgs ℝ L) (order : List Nat) : FitArgs ℝ L :=
  { a with X := a.X.map fun s => order.map fun c => s.getD c [] }

/-- The same choices when sample `s` has the number `f s` and channel `c` the number `g c`. -/
def Choices.renumbered (f g : Nat → Nat) (d : Choices) : Choices :=
  { d with
    channels := fun i => (d.channels i).map g
    src := fun i => (d.src i).map fun r => ⟨f r.sample, r.index, f r.test, r.channels.map g⟩ }

/-- Sample `s` of `T` has the number `f s` in `T'`, channel `c` has the number `g c`. -/
structure SameUpToNumbers (T T' : Train L) (f g : Equiv.Perm Nat) : Prop where
  samples : T'.ns = T.ns
  channels : T'.nf = T.nf
  len : ∀ s, T'.len (f s) = T.len s
  series : ∀ s c, T'.series (f s) (g c) = T.series s c
  label : ∀ s, T'.label (f s) = T.label s

end Convst.Spec
