import Verif.Model.Cloning

/-!
# Specification of copies of constructor arguments
-/

set_option autoImplicit false

namespace Convst.Spec
variable {K R : Type}

/-- Values that are not copied. -/
def _root_.Convst.HVal.Immutable : HVal K R → Prop
  | .py _ => True
  | .str _ => True
  | _ => False

/-- Equal values, up to the identities of the transformers in a list of transformers. -/
def _root_.Convst.HVal.Alike : HVal K R → HVal K R → Prop
  | .ests l, .ests l' => l.map (·.2) = l'.map (·.2)
  | v, v' => v = v'

/-- Identities of the mutable objects in a value. -/
def _root_.Convst.HVal.inner : HVal K R → List Nat
  | .ests l => l.map (·.1)
  | _ => []

/-- `o'` is what `clone` makes of the argument `o` when identities from `m` on are unused: an equal value; the
object itself when it is immutable, an object that shares nothing with any earlier object otherwise. -/
def CopyOf (m : Nat) (o o' : Obj (HVal K R)) : Prop :=
  o'.val.Alike o.val ∧ (o.val.Immutable → o' = o) ∧
  (¬ o.val.Immutable → m ≤ o'.id ∧ ∀ i ∈ o'.val.inner, m ≤ i)

/-- Every argument of the second list is the copy, under the same name, of the argument of the first list at
the same place. -/
def CopiesOf (m : Nat) (a a' : Attrs K R) : Prop :=
  List.Forall₂ (fun p q => q.1 = p.1 ∧ CopyOf m p.2 q.2) a a'

/-- All identities in use are below `m`. -/
def Below (m : Nat) (a : Attrs K R) : Prop := ∀ p ∈ a, p.2.id < m ∧ ∀ i ∈ p.2.val.inner, i < m

/-- `a` is the array of the numbers in the list `l`: integers if all are, floats otherwise. -/
inductive AsArray [Scalar K] : List (PyVal K) → LenArr K → Prop
  | ints (zs : List Int) : AsArray (zs.map .int) (.ints zs)
  | floats {l : List (PyVal K)} {xs : List K} (hf : ∃ x, .float x ∈ l)
      (h : List.Forall₂ (fun v x => v = .float x ∨ ∃ z, v = .int z ∧ x = ofInt z) l xs) : AsArray l (.floats xs)

/-- The non-empty array `o'` is stored for the argument `o`: the array itself, or one made from a list. -/
def ArrayOf [Scalar K] (o o' : Obj (HVal K R)) : Prop :=
  ∃ a, o'.val = .arr a ∧ a.length ≠ 0 ∧ (o' = o ∨ ∃ l, o.val = .nums l ∧ AsArray l a)

/-- `StoredAs pr name o o'`: the constructor of `R_DST` accepts `o` as the argument `name` and stores `o'`. -/
inductive StoredAs [Scalar K] (pr : Proc R) : String → Obj (HVal K R) → Obj (HVal K R) → Prop
  | type {o o' : Obj (HVal K R)} {s : String} (h : o.val = .str s) (h' : o'.val = .str s.toLower)
      (hs : s.toLower ∈ ["auto", "univariate", "multivariate", "multivariate_variable"]) :
      StoredAs pr "transform_type" o o'
  | bool {name : String} (hn : name ∈ ["phase_invariance", "normalize_output", "prime_dilations"])
      {o : Obj (HVal K R)} {b : Bool} (h : o.val = .py (.bool b)) : StoredAs pr name o o
  | number {name : String} (hn : name ∈ ["alpha", "proba_norm", "n_samples"]) {o : Obj (HVal K R)}
      (h : (∃ z, o.val = .py (.int z)) ∨ ∃ x, o.val = .py (.float x)) : StoredAs pr name o o
  | noSamples {o : Obj (HVal K R)} (h : o.val = .py .none) : StoredAs pr "n_samples" o o
  | count {o : Obj (HVal K R)} {z : Int} (h : o.val = .py (.int z)) : StoredAs pr "n_shapelets" o o
  | floatCount {o o' : Obj (HVal K R)} {x : K} (h : o.val = .py (.float x))
      (h' : o'.val = .py (.int (Scalar.trunc x))) : StoredAs pr "n_shapelets" o o'
  | lengths {o o' : Obj (HVal K R)} (h : ArrayOf o o') : StoredAs pr "shapelet_lengths" o o'
  | noBounds {o : Obj (HVal K R)} (h : o.val = .py .none) : StoredAs pr "shapelet_lengths_bounds" o o
  | bounds {o : Obj (HVal K R)} (h : (∃ l, o.val = .nums l ∧ l.length = 2) ∨ (∃ a, o.val = .arr a ∧ a.length = 2) ∨
      (∃ s, o.val = .str s ∧ s.length = 2) ∨ ∃ l, o.val = .ests l ∧ l.length = 2) :
      StoredAs pr "shapelet_lengths_bounds" o o
  | reduction {o : Obj (HVal K R)} (h : (∃ z, o.val = .py (.int z) ∧ z < 1) ∨
      ∃ x, o.val = .py (.float x) ∧ Scalar.leb 1 x = false) : StoredAs pr "lengths_bounds_reduction" o o
  | intPercentiles {o o' : Obj (HVal K R)} {p q : Int} {l : List Int} (h : ArrayOf o o')
      (h' : o'.val = .arr (.ints (p :: q :: l))) (hpq : p ≤ q) : StoredAs pr "percentiles" o o'
  | percentiles {o o' : Obj (HVal K R)} {p q : K} {l : List K} (h : ArrayOf o o')
      (h' : o'.val = .arr (.floats (p :: q :: l))) (hpq : Scalar.leb p q = true) : StoredAs pr "percentiles" o o'
  | globalState {o o' : Obj (HVal K R)} (h : o.val = .py .none) (hid : o'.id = 0) (h' : o'.val = .rng pr.glob) :
      StoredAs pr "random_state" o o'
  | seed {o o' : Obj (HVal K R)} {n : Nat} (h : o.val = .py (.int n)) (h' : o'.val = .rng (pr.randomState n)) :
      StoredAs pr "random_state" o o'
  | state {o : Obj (HVal K R)} {r : R} (h : o.val = .rng r) : StoredAs pr "random_state" o o
  | boolJobs {o : Obj (HVal K R)} {b : Bool} (h : o.val = .py (.bool b)) : StoredAs pr "n_jobs" o o
  | oneJob {o o' : Obj (HVal K R)} (h : o.val = .py .none) (h' : o'.val = .py (.int 1)) (hm : 1 ≤ pr.maxThreads) :
      StoredAs pr "n_jobs" o o'
  | jobs {o o' : Obj (HVal K R)} {z n : Int} (h : o.val = .py (.int z)) (h' : o'.val = .py (.int n))
      (hn : n = if z < 0 then pr.cpu + 1 + z else min z pr.cpu) (h1 : 1 ≤ n) (hm : n ≤ pr.maxThreads) :
      StoredAs pr "n_jobs" o o'
  | any {name : String} (hn : name ∈ ["max_channels", "min_len"]) {o : Obj (HVal K R)} : StoredAs pr name o o

/-- `EnsembleStored pr name o o'`: the constructor of `R_DST_Ensemble` accepts `o` as the argument `name` and stores
`o'`. -/
inductive EnsembleStored [Scalar K] (pr : Proc R) : String → Obj (HVal K R) → Obj (HVal K R) → Prop
  | any {name : String} (hn : name ∈ ["transform_type", "shapelet_lengths_bounds", "percentiles", "max_channels",
      "min_len", "lengths_bounds_reduction", "n_jobs", "prefer", "require", "alphas_ridge", "class_weight",
      "fit_intercept"]) {o : Obj (HVal K R)} : EnsembleStored pr name o o
  | bool {name : String} (hn : name ∈ ["phase_invariance", "normalize_output", "prime_dilations"])
      {o : Obj (HVal K R)} {b : Bool} (h : o.val = .py (.bool b)) : EnsembleStored pr name o o
  | number {name : String} (hn : name ∈ ["n_samples", "n_shapelets_per_estimator", "shp_alpha", "a_w"])
      {o : Obj (HVal K R)} (h : (∃ z, o.val = .py (.int z)) ∨ ∃ x, o.val = .py (.float x)) : EnsembleStored pr name o o
  | noSamples {o : Obj (HVal K R)} (h : o.val = .py .none) : EnsembleStored pr "n_samples" o o
  | array {name : String} (hn : name ∈ ["shapelet_lengths", "proba_norm"]) {o o' : Obj (HVal K R)}
      (h : ArrayOf o o') : EnsembleStored pr name o o'
  | state {o o' : Obj (HVal K R)} (h : StoredAs pr "random_state" o o') : EnsembleStored pr "random_state" o o'
  | transformers {o : Obj (HVal K R)} (h : o.val ≠ .py .none) : EnsembleStored pr "input_transformers" o o
  | defaultTransformers {o o' : Obj (HVal K R)} (h : o.val = .py .none) {a b c : Nat} (hab : a ≠ b) (hac : a ≠ c)
      (hbc : b ≠ c) (h' : o'.val = .ests [(a, .raw), (b, .derivate 1 false), (c, .periodigram "boxcar" false)]) :
      EnsembleStored pr "input_transformers" o o'

end Convst.Spec
