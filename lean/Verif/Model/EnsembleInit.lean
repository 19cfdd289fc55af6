import Verif.Model.StatefulInputs

/-!
# The constructor of `R_DST_Ensemble`
-/

set_option autoImplicit false

namespace Convst

/-- The constructor arguments of `R_DST_Ensemble` (`rdst_ensemble.py:146-171`) with the types the checks
require.  `p` holds the arguments passed on to the `R_DST` of every member (`n_shapelets_per_estimator` is
`p.nShp`, `shp_alpha` is `p.alpha`) together with `normalize_output`; its fields `pNorm`, `rs` and `nJobs` are not
used.  `prefer`, `require`, `class_weight`, `fit_intercept` and `alphas_ridge` are stored without a check and
are part of the environment. -/
structure EnsArgs (K R : Type) where
  p : Params K R
  inputs : Option (List (XIn K → Res (XIn K)))
  pNorms : List K
  rs : RState R
  aW : K
  nJobs : PyVal K

/-- `R_DST_Ensemble.__init__` (`rdst_ensemble.py:172-211`): the lengths and `proba_norm` must not be empty
(`check_array_1D`), and there must be as many probabilities as transformers.  `dflt` are the transformers used when
none are given.  Everything else is stored as it is. -/
def Ensemble.init {K R : Type} (dflt : List (XIn K → Res (XIn K))) (a : EnsArgs K R) : Res (Ensemble K R) :=
  if a.p.lens.length = 0 then .error .valueError
  else if a.pNorms.length = 0 then .error .valueError
  else
    let reps := match a.inputs with
      | none => dflt
      | some l => l
    if reps.length ≠ a.pNorms.length then .error .valueError
    else .ok ⟨a.p, reps, a.pNorms, a.rs, a.aW, a.nJobs, none, [], none⟩

end Convst
