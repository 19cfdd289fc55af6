import Verif.Model.Classifiers

/-!
# The weights of an ensemble, read from the scores of every `alpha`

`Model/Classifiers.lean` takes the leave-one-out predictions *for the chosen* `alpha` from the learner.  Here the
selection made by convst, `np.where(self.alphas == self.alpha_)`, is modelled as it is written.
-/

set_option autoImplicit false

namespace Convst
variable {G K R : Type} [Scalar K]

/-- Attributes of a fitted `RidgeClassifierCV(store_cv_values=True)` used by convst: `alpha_` and
`cv_values_`, the
latter by training series, target (one per class, a single one for two classes) and position in `alphas`.
(`rdst_ensemble.py:49-50`.) -/
structure CvAttrs (K : Type) where
  alpha : K
  cvValues : List (List (List K))

/-- `_internalRidgeCV.get_loocv_train_acc` (`rdst_ensemble.py:47-54`).  `hits` is `alpha_idx`; `cv_values_[:, :, alpha_idx]`
has as many entries on its last axis as `alpha_idx`, and so has the array of predicted indices given to
`accuracy_score`, which accepts a vector or a single column only (`ValueError` otherwise). -/
def loocvTrainAcc (alphas : List K) (a : CvAttrs K) (y : List Int) : Res K :=
  let hits := whereIdx alphas.length fun i => Scalar.eqb (alphas.getD i 0) a.alpha
  match hits with
  | [j] => do
    let cv ← a.cvValues.mapM fun targets => targets.mapM fun v => aget v j
    looAcc cv y
  | _ => .error .valueError

/-- `R_DST_Ensemble.fit` (`rdst_ensemble.py:225-266`), as `Ensemble.fit` except for the weights, for which the given
function reads the accuracy of a fitted member. -/
def Ensemble.fitWith [Gen G K] (acc : Member K R → List Int → Res K) (env : EnsEnv G K R) (gs : Nat → Nat → G)
    (sched : Nat → Nat → List Nat) (order : List Nat) (e : Ensemble K R) (w : World R) (X : XIn K) (y : List Int) :
    Ensemble K R × World R × Res Unit :=
  match e.manageNJobs env.cpu with
  | (e, .error er) => (e, w, .error er)
  | (e, .ok ()) =>
  match setNumThreads env.maxThreads w (e.nJobsRdst.getD 1) with
  | (w, .error er) => (e, w, .error er)
  | (w, .ok ()) =>
  match fitMembers (fun i => fitMember env e (gs i) (sched i) X y i) order e.rs w (fun _ => none) with
  | (rs, w, .error er) => ({ e with rs := rs }, w, .error er)
  | (rs, w, .ok slots) =>
    let models := (List.range e.reps.length).filterMap slots
    let e := { e with rs := rs, models := models }
    match models.mapM fun m => acc m y with
    | .error er => (e, w, .error er)
    | .ok accs => ({ e with weights := some (accs.map fun a => Scalar.rpow a e.aW) }, w, .ok ())

/-- `R_DST_Ensemble.fit` with `alphas_ridge = alphas`.  `attrs` gives the attributes of the ridge
classifier of a
fitted member.  (`rdst_ensemble.py:251-255`.) -/
def Ensemble.fitAlphas [Gen G K] (alphas : List K) (attrs : Member K R → CvAttrs K) (env : EnsEnv G K R)
    (gs : Nat → Nat → G) (sched : Nat → Nat → List Nat) (order : List Nat) (e : Ensemble K R) (w : World R)
    (X : XIn K) (y : List Int) : Ensemble K R × World R × Res Unit :=
  e.fitWith (fun m y => loocvTrainAcc alphas (attrs m) y) env gs sched order w X y

end Convst
