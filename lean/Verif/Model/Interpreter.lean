import Verif.Model.Classifiers

/-!
# Model of `convst/interpreters/rdst_interpreter.py`

Figures are modelled by the data passed to matplotlib: positions, values, columns.  Colours, sizes, titles
and the figure objects are not modelled.
-/

set_option autoImplicit false

namespace Convst

section
variable {K R L : Type} [Scalar K]

/-! ## NumPy pieces -/

/-- `a[i]` with a Python integer: negative indices count from the end; `IndexError` outside.
(`rdst_interpreter.py:237-241`.) -/
def npGet {α : Type} (a : List α) (i : Int) : Res α :=
  if 0 ≤ i then pyGet a i.toNat
  else if 0 ≤ (a.length : Int) + i then pyGet a ((a.length : Int) + i).toNat
  else .error .indexError

/-- The scan of `np.argmin`.  (`rdst_interpreter.py:139`.) -/
def argminFrom (best : K) (bi i : Nat) : List K → Nat
  | [] => bi
  | a :: l => if Scalar.ltb a best then argminFrom a i (i + 1) l else argminFrom best bi (i + 1) l

/-- `np.argmin`: the first index of the minimum; `ValueError` on an empty array.
(`rdst_interpreter.py:139`.) -/
def argmin : List K → Res Nat
  | [] => .error .valueError
  | a :: l => .ok (argminFrom a 0 1 l)

/-- `c[ids] = vals`: `ValueError` for different lengths, `IndexError` when an index is out of range.  The
indices are not repeated (they come from `np.where`).  (`rdst_interpreter.py:385`.) -/
def assignAt (c : List K) (ids : List Nat) (vals : List K) : Res (List K) :=
  if ids.length = vals.length then
    (ids.zip vals).foldlM (init := c) fun c p =>
      if p.1 < c.length then .ok (c.set p.1 p.2) else .error .indexError
  else .error .valueError

/-! ## `Shapelet` -/

/-- Attributes of a `Shapelet` instance (`rdst_interpreter.py:49-55`). -/
structure ShpView (K : Type) where
  values : List K
  length : Nat
  dilation : Nat
  norm : Bool
  threshold : K
  phase : Bool

/-- `Shapelet.plot_on_X` (`rdst_interpreter.py:134-142`): the abscissas and the ordinates of the points
scattered over the series `X`, a 1D array. -/
def ShpView.plotOnX (s : ShpView K) (X : List K) : Res (List Nat × List K) := do
  let c ← computeShapeletDistVector X s.values s.length s.dilation s.norm s.phase
  let m ← argmin c
  let idx := (List.range s.length).map fun i => (m + i * s.dilation) % X.length
  if s.norm then
    let w ← takeIds X idx
    pure (idx, s.values.map fun v => v * std w + mean w)
  else pure (idx, s.values)

/-- `Shapelet.plot_distance_vector` (`rdst_interpreter.py:189-202`): the curve, with the height of the
horizontal line. -/
def ShpView.plotDistanceVector (s : ShpView K) (X : List K) : Res (List K × K) := do
  let c ← computeShapeletDistVector X s.values s.length s.dilation s.norm s.phase
  pure (c, s.threshold)

/-! ## `RDST_interpreter` -/

/-- A fitted or unfitted estimator passed to an interpreter.  (`rdst_interpreter.py:220`.) -/
inductive Estimator (K R L : Type)
  | rdst (o : Rdst K R)
  | ridge (c : RidgeClf K R L)
  | ensemble (e : Ensemble K R)

/-- `hasattr(est, 'shapelets_')`.  (`rdst_interpreter.py:221`.) -/
def Estimator.hasShapelets : Estimator K R L → Bool
  | .rdst o => o.shapelets.isSome
  | _ => false

/-- `hasattr(est, 'classifier')`: only `R_DST_Ridge._init_components` sets this attribute.
(`rdst_interpreter.py:369`, `:470`, `rdst_ridge.py:157`.) -/
def Estimator.hasClassifier : Estimator K R L → Bool
  | .ridge c => c.classifier.isSome
  | _ => false

/-- `RDST_interpreter.__init__` (`rdst_interpreter.py:220-227`). -/
def interpRdst (est : Estimator K R L) : Res (Rdst K R) :=
  if est.hasShapelets then
    match est with
    | .rdst o => .ok o
    | _ => .error .typeError
  else .error .notFitted

/-- `RDST_interpreter._get_params` (`rdst_interpreter.py:229-242`): the tuple of a multivariate model has
seven entries, so that the unpacking raises `ValueError`. -/
def getParams (o : Rdst K R) (id : Int) : Res (ShpView K) :=
  match o.shapelets with
  | none => .error .attributeError
  | some (.m _) => .error .valueError
  | some (.u S) =>
    if o.transformType = .multi ∨ o.transformType = .multiVar then .error .notImplemented
    else do
      let length ← npGet S.lengths id
      let row ← npGet S.values id
      let dilation ← npGet S.dilations id
      let norm ← npGet S.normalize id
      let threshold ← npGet S.threshold id
      pure ⟨row.take length, length, dilation, norm, threshold, o.phase⟩

/-- `RDST_interpreter.plot_on_X` (`rdst_interpreter.py:284-288`). -/
def interpPlotOnX (o : Rdst K R) (id : Int) (X : List K) : Res (List Nat × List K) := do
  let s ← getParams o id
  s.plotOnX X

/-- `RDST_interpreter.plot_distance_vector` (`rdst_interpreter.py:322-325`). -/
def interpPlotDistanceVector (o : Rdst K R) (id : Int) (X : List K) : Res (List K × K) := do
  let s ← getParams o id
  s.plotDistanceVector X

/-- `RDST_interpreter.plot` (`rdst_interpreter.py:348-350`): the values drawn. -/
def interpPlot (o : Rdst K R) (id : Int) : Res (List K) := do
  let s ← getParams o id
  pure s.values

/-! ## `RDST_Ridge_interpreter` -/

/-- `RDST_Ridge_interpreter.__init__` (`rdst_interpreter.py:368-376`). -/
def interpRidge (est : Estimator K R L) : Res (RidgeClf K R L × Rdst K R) :=
  if est.hasClassifier then
    match est with
    | .ridge c =>
      match c.transformer with
      | none => .error .attributeError
      | some o => (interpRdst (.rdst o : Estimator K R L)).map fun o => (c, o)
    | _ => .error .typeError
  else .error .notFitted

/-- Number of shapelets, `shapelets_[1].shape[0]`.  (`rdst_interpreter.py:384`.) -/
def nLengths : Shapelets K → Nat
  | .u S => S.lengths.length
  | .m S => S.lengths.length

/-- `_get_shp_importance` (`rdst_interpreter.py:378-386`). -/
def shpImportance (c : RidgeClf K R L) (classId : Int) : Res (List K) :=
  match c.classifier with
  | some (some (sc, m)) =>
    match c.transformer.bind (·.shapelets) with
    | none => .error .attributeError
    | some S => do
      let coefs := if m.coef.length = 1 then m.coef.map (fun r => r.map fun v => -v) ++ m.coef else m.coef
      let c0 := List.replicate (nLengths S * 3) (0 : K)
      let r ← npGet coefs classId
      assignAt c0 sc.atts r
  | _ => .error .attributeError

/-- The loop `rdst_interpreter.py:427-430` over the remaining entries of `idx`. -/
def pickLoop (nShp : Int) : List Nat → List Nat → List Nat
  | [], ids => ids
  | a :: idx, ids =>
    if (ids.length : Int) < nShp then
      if ids.contains a then pickLoop nShp idx ids else pickLoop nShp idx (ids ++ [a])
    else ids

/-- `rdst_interpreter.py:424-430`: the selected shapelets.  `order` is the result of `coefs.argsort()`,
whose order of equal entries is not specified. -/
def bestShapelets (order : List Nat) (nShp : Int) : List Nat :=
  pickLoop nShp (order.map (· / 3)).reverse []

/-- What is drawn for one shapelet (`rdst_interpreter.py:436-465`): three columns of features to be split
by class, the values, the best match on a series of another class and on one of the class, and the two
distance vectors. -/
structure ShpFigure (K : Type) where
  shp : Nat
  isClass : List Bool
  cols : List (List K)
  values : List K
  matchOther : List Nat × List K
  matchClass : List Nat × List K
  distOther : List K × K
  distClass : List K × K

/-- `np.random.choice(np.where(p)[0])`, the draw being `pick`; `ValueError` when no index qualifies.
(`rdst_interpreter.py:433-434`.) -/
def chooseWhere (n : Nat) (p : Nat → Bool) (pick : Nat) : Res Nat :=
  pyGetOr (whereIdx n p) (pick % (whereIdx n p).length)
where
  /-- Entry of a non-empty list; `ValueError` on an empty one. -/
  pyGetOr (l : List Nat) (i : Nat) : Res Nat :=
    match l[i]? with
    | some v => .ok v
    | none => .error .valueError

/-- `X[i, 0]`.  (`rdst_interpreter.py:458-462`.) -/
def firstChannel (A : Arr3 K) (i : Nat) : Res (List K) := do
  let s ← pyGet A.data i
  pyGet s 0

/-- The figure of one shapelet.  (`rdst_interpreter.py:437-464`.) -/
def shpFigure (o : Rdst K R) (A : Arr3 K) (isClass : List Bool) (F : List (List K)) (i1 i2 id : Nat) :
    Res (ShpFigure K) := do
  let c0 ← column F (id * 3)
  let c1 ← column F (1 + id * 3)
  let c2 ← column F (2 + id * 3)
  let values ← interpPlot o id
  let x2 ← firstChannel A i2
  let x1 ← firstChannel A i1
  let mo ← interpPlotOnX o id x2
  let mc ← interpPlotOnX o id x1
  let do' ← interpPlotDistanceVector o id x2
  let dc ← interpPlotDistanceVector o id x1
  pure ⟨id, isClass, [c0, c1, c2], values, mo, mc, do', dc⟩

/-- `visualize_best_shapelets_one_class` (`rdst_interpreter.py:419-465`) for an array `X` and integer
labels: the figures shown. -/
def visualizeBest (c : RidgeClf K R Int) (o : Rdst K R) (order : List K → List Nat) (pick1 pick2 : Nat)
    (dt : DType) (A : Arr3 K) (y : List Int) (classId nShp : Int) : Res (List (ShpFigure K)) := do
  let coefs ← shpImportance c classId
  let ids := bestShapelets (order coefs) nShp
  let F ← o.transform (.array dt A)
  let i1 ← chooseWhere y.length (fun i => y[i]? == some classId) pick1
  let i2 ← chooseWhere y.length (fun i => !(y[i]? == some classId)) pick2
  ids.mapM (shpFigure o A (y.map (· == classId)) F i1 i2)

/-! ## `RDST_Ensemble_interpreter` -/

/-- `RDST_Ensemble_interpreter.__init__` (`rdst_interpreter.py:469-476`). -/
def interpEnsemble (est : Estimator K R L) : Res (Ensemble K R) :=
  if est.hasClassifier then
    match est with
    | .ensemble e => .ok e
    | _ => .error .typeError
  else .error .notFitted

end
end Convst
