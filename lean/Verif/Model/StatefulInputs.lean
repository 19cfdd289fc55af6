import Verif.Model.Cloning

/-!
# Model of input transformers as objects, and of `R_DST_Ensemble` with them

`Derivate(random=True)` and `Periodigram(random=True)` draw a parameter from NumPy's global generator at each
`fit` (`_input_transformers.py:86-89`, `:96-97`, `:106-109`, `:123-124`).  A pipeline without a cache fits the
transformer objects it was given, not copies of them, so that `R_DST_Ensemble` changes the objects in its
`input_transformers`, which may also be one object several times.

The objects are the values of a heap; `Model/Classifiers.lean` describes the ensemble for transformers without
state.
-/

set_option autoImplicit false

namespace Convst

/-- The state of every input transformer object.  (`rdst_ensemble.py:199-202`.) -/
abbrev Heap := Nat → InTr

/-- What is not convst's code: `choice r n` is the position drawn by `np.random.choice` in an array of `n`
elements, and the new state of the global generator; `pg window x` is
`scipy.signal.periodogram(x, detrend=False, window=window)[1]`.  (`_input_transformers.py:97`.) -/
structure InEnv (K R : Type) where
  choice : R → Nat → Nat × R
  pg : String → List K → List K

/-- `Periodigram._get_windows` (`_input_transformers.py:126-146`). -/
def windows : List String :=
  ["boxcar", "triang", "blackman", "hamming", "hann", "bartlett", "flattop", "parzen", "bohman", "blackmanharris",
    "nuttall", "barthann", "cosine", "exponential", "tukey", "taylor"]

section
variable {K R : Type} [Scalar K]

/-- `fit` of an input transformer: the new state of the object and of the process (`_input_transformers.py:65-66`,
`:74-75`, `:86-89` with `:96-97`, `:106-109` with `:123-124`). -/
def InTr.fit (ienv : InEnv K R) (t : InTr) (w : World R) : InTr × World R :=
  match t with
  | .derivate _ true =>
    let p := ienv.choice w.glob 4
    (.derivate (1 + p.1) true, { w with glob := p.2 })
  | .periodigram _ true =>
    let p := ienv.choice w.glob windows.length
    (.periodigram (windows.getD p.1 "") true, { w with glob := p.2 })
  | t => (t, w)

/-- `transform` of an input transformer (`_input_transformers.py:68-70`, `:77-78`, `:91-94`, `:111-121`). -/
def InTr.transform (ienv : InEnv K R) (t : InTr) (X : XIn K) : Res (XIn K) :=
  match t with
  | .raw => .ok X
  | .zNormalizer => do
    let A ← toArr3 X
    let data ← zNormAllSamples A.data
    pure (.array .float64 ⟨data, A.nf, A.nt⟩)
  | .derivate order _ => Convst.derivate order X
  | .periodigram window _ => periodigramIn (ienv.pg window) X

/-- An `R_DST_Ensemble` whose `input_transformers` are the objects `objs`; the field `reps` of `base` is not
used.  (`rdst_ensemble.py:172-202`.) -/
structure ObjEnsemble (K R : Type) where
  base : Ensemble K R
  objs : List Nat

/-- The ensemble of `Model/Classifiers.lean` with the transformers in their current states.
(`rdst_ensemble.py:233`.) -/
def ObjEnsemble.now (ienv : InEnv K R) (h : Heap) (e : ObjEnsemble K R) : Ensemble K R :=
  { e.base with reps := e.objs.map fun k => (h k).transform ienv }

/-- `R_DST_Ensemble.predict` (`rdst_ensemble.py:268-278`): the pipelines hold the transformer objects, so they
apply them in their current states. -/
def ObjEnsemble.predict (ienv : InEnv K R) (h : Heap) (e : ObjEnsemble K R) (X : XIn K) : Res (List Nat) :=
  ({ e.base with
      models := List.zipWith (fun k m => { m with rep := (h k).transform ienv }) e.objs e.base.models } :
    Ensemble K R).predict X

end

section
variable {G K R : Type} [Scalar K] [Gen G K]

/-- `_parallel_fit` on the pipeline of member `i` (`rdst_ensemble.py:61-62`): the transformer object is fitted, then
applied, then the rest of the pipeline is fitted. -/
def fitObjMember (ienv : InEnv K R) (env : EnsEnv G K R) (e : ObjEnsemble K R) (gs : Nat → G) (order : Nat → List Nat)
    (X : XIn K) (y : List Int) (i : Nat) (rs : RState R) (w : World R) (h : Heap) :
    RState R × World R × Heap × Res (Member K R) :=
  match e.objs[i]? with
  | none => (rs, w, h, .error .indexError)
  | some k =>
    let p := (h k).fit ienv w
    let h := Function.update h k p.1
    let r := fitMember env (e.now ienv h) gs order X y i rs p.2
    (r.1, r.2.1, h, r.2.2)

/-- The members fitted one after the other in the order `order`.  (`rdst_ensemble.py:228-259`.) -/
def fitObjMembers (fitOne : Nat → RState R → World R → Heap → RState R × World R × Heap × Res (Member K R)) :
    List Nat → RState R → World R → Heap → (Nat → Option (Member K R)) →
      RState R × World R × Heap × Res (Nat → Option (Member K R))
  | [], rs, w, h, slots => (rs, w, h, .ok slots)
  | i :: order, rs, w, h, slots =>
    match fitOne i rs w h with
    | (rs, w, h, .error e) => (rs, w, h, .error e)
    | (rs, w, h, .ok m) => fitObjMembers fitOne order rs w h (Function.update slots i (some m))

/-- `R_DST_Ensemble.fit` (`rdst_ensemble.py:225-266`); see `Ensemble.fit`.  Each member's work is again one step. -/
def ObjEnsemble.fit (ienv : InEnv K R) (env : EnsEnv G K R) (gs : Nat → Nat → G) (sched : Nat → Nat → List Nat)
    (order : List Nat) (e : ObjEnsemble K R) (h : Heap) (w : World R) (X : XIn K) (y : List Int) :
    ObjEnsemble K R × Heap × World R × Res Unit :=
  match (e.now ienv h).manageNJobs env.cpu with
  | (b, .error er) => (⟨b, e.objs⟩, h, w, .error er)
  | (b, .ok ()) =>
  match setNumThreads env.maxThreads w (b.nJobsRdst.getD 1) with
  | (w, .error er) => (⟨b, e.objs⟩, h, w, .error er)
  | (w, .ok ()) =>
  match fitObjMembers (fun i => fitObjMember ienv env ⟨b, e.objs⟩ (gs i) (sched i) X y i) order b.rs w h (fun _ => none) with
  | (rs, w, h, .error er) => (⟨{ b with rs := rs }, e.objs⟩, h, w, .error er)
  | (rs, w, h, .ok slots) =>
    let models := (List.range e.objs.length).filterMap slots
    let b := { b with rs := rs, models := models }
    match models.mapM fun m => (looAcc m.cv y : Res K) with
    | .error er => (⟨b, e.objs⟩, h, w, .error er)
    | .ok accs => (⟨{ b with weights := some (accs.map fun a => Scalar.rpow a b.aW) }, e.objs⟩, h, w, .ok ())

end
end Convst
