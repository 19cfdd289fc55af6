import Verif.Model.Experiments

/-!
# Model of `convst/utils/plot_utils.py`

The SciPy tests and the clique enumeration of networkx are parameters.  A figure is the list of what is
drawn in it that depends on the data: panels with their counts and annotations, axis positions, labels and
bars.  Colours, fonts and the calls of seaborn and matplotlib that do not depend on the data are left out.
-/

set_option autoImplicit false

namespace Convst

/-! ## `pairwise_plot` -/

section
variable {N D K : Type} [LinearOrder N] [Scalar K]

/-- A table of scores: index (dataset names) and named columns.  (`plot_utils.py:27-30`.) -/
structure Table (N D K : Type) where
  index : List D
  cols : List (N × List K)

/-- `df.columns.difference([baseline])` (`plot_utils.py:75`): sorted distinct names but the baseline. -/
def competitors (df : Table N D K) (baseline : N) : List N :=
  (uniques (df.cols.map (·.1))).filter (· ≠ baseline)

/-- Numbers of rows and columns of the figure (`plot_utils.py:76-81`): `len(competitors)/ncols` divides by
zero for `max_ncols = 0`; `plt.subplots` needs positive numbers. -/
def gridShape (nc : Nat) (maxNcols : Int) : Res (Nat × Nat) :=
  if (nc : Int) < maxNcols then
    if nc = 0 then .error .valueError else .ok (1, nc)
  else if maxNcols = 0 then .error .zeroDivision
  else if maxNcols < 0 then .error .valueError
  else if nc = 0 then .error .valueError
  else .ok ((nc + maxNcols.toNat - 1) / maxNcols.toNat, maxNcols.toNat)

/-- What `plt.subplots` returns (`squeeze=True`): a single axes, a 1D or a 2D array.
(`plot_utils.py:84-86`.) -/
inductive Axes
  | one
  | vec (n : Nat)
  | grid (rows cols : Nat)

/-- `plt.subplots(ncols=.., nrows=..)` (`plot_utils.py:84-86`). -/
def subplots (nrows ncols : Nat) : Axes :=
  if nrows = 1 ∧ ncols = 1 then .one
  else if nrows = 1 then .vec ncols
  else if ncols = 1 then .vec nrows
  else .grid nrows ncols

/-- `ax[i, j]`.  (`plot_utils.py:91`.) -/
def Axes.get2 : Axes → Nat → Nat → Res (Nat × Nat)
  | .one, _, _ => .error .typeError
  | .vec _, _, _ => .error .indexError
  | .grid r c, i, j => if i < r ∧ j < c then .ok (i, j) else .error .indexError

/-- `ax[i]`, used for a single row.  (`plot_utils.py:167`.) -/
def Axes.get1 : Axes → Nat → Res (Nat × Nat)
  | .one, _ => .error .typeError
  | .vec n, i => if i < n then .ok (0, i) else .error .indexError
  | .grid r _, i => if i < r then .ok (i, 0) else .error .indexError

/-- `ax` used as a single axes.  (`plot_utils.py:130`.) -/
def Axes.get0 : Axes → Res (Nat × Nat)
  | .one => .ok (0, 0)
  | _ => .error .attributeError

/-- The axes of competitor `i` (`plot_utils.py:89`, `:126-127`, `:165`). -/
def axesOf (ax : Axes) (nrows ncols i : Nat) : Res (Nat × Nat) :=
  if nrows > 1 then ax.get2 (i / ncols) (i % ncols)
  else if ncols = 1 then ax.get0
  else ax.get1 (i % ncols)

/-- Wins, draws and losses shown in a panel (`plot_utils.py:122-123`): `x` competitor, `y` baseline. -/
def winDrawLoss (margin : K) (x y : List K) : Nat × Nat × Nat :=
  let p := x.zip y
  (p.countP fun q => Scalar.ltb (q.1 + margin) q.2,
   p.countP fun q => Scalar.leb q.1 (q.2 + margin) && Scalar.leb (q.2 - margin) q.1,
   p.countP fun q => Scalar.ltb q.2 (q.1 - margin))

/-- Datasets whose name is written in a panel (`plot_utils.py:107-117`): the loop runs only if some
difference reaches the threshold, and names those above it. -/
def shownNames (above : K) (index : List D) (x y : List K) : List D :=
  if (x.zip y).any fun q => Scalar.leb above (Scalar.abs (q.1 - q.2)) then
    (index.zip (x.zip y)).filterMap fun r =>
      if Scalar.ltb above (Scalar.abs (r.2.1 - r.2.2)) then some r.1 else none
  else []

/-- One panel of the figure.  (`plot_utils.py:88-125`.) -/
structure Panel (N D K : Type) where
  comp : N
  place : Nat × Nat
  points : List (K × K)
  wdl : Nat × Nat × Nat
  names : List D

/-- `df[name].values`; `KeyError` for an unknown column.  (`plot_utils.py:104-105`.) -/
def columnOf (df : Table N D K) (name : N) : Res (List K) :=
  match df.cols.find? fun c => decide (c.1 = name) with
  | some c => .ok c.2
  | none => .error .keyError

/-- `pairwise_plot` (`plot_utils.py:27-203`). -/
def pairwisePlot (df : Table N D K) (baseline : N) (margin above : K) (maxNcols : Int) :
    Res (List (Panel N D K)) := do
  let comps := competitors df baseline
  let (nrows, ncols) ← gridShape comps.length maxNcols
  let ax := subplots nrows ncols
  comps.zipIdx.mapM fun ci => do
    let place ← axesOf ax nrows ncols ci.2
    let x ← columnOf df ci.1
    let y ← columnOf df baseline
    pure ⟨ci.1, place, x.zip y, winDrawLoss margin x y, shownNames above df.index x y⟩

end

/-! ## `_wilcoxon_holm` -/

section
variable {N D K : Type} [LinearOrder N] [LinearOrder D] [Scalar K]

/-- A row of the table of performances.  (`plot_utils.py:272-273`.) -/
structure PerfRow (N D K : Type) where
  clf : N
  ds : D
  acc : K

/-- The p-values of SciPy's `friedmanchisquare` and of `wilcoxon(.., zero_method='pratt')`.
(`plot_utils.py:258-260`.) -/
structure Stats (K : Type) where
  friedman : List (List K) → Res K
  wilcoxon : List K → List K → Res K

/-- Rows of one classifier, in table order.  (`plot_utils.py:272-273`.) -/
def rowsOf (df : List (PerfRow N D K)) (c : N) : List (PerfRow N D K) := df.filter fun r => decide (r.clf = c)

/-- `df_perf.loc[df_perf['classifier_name'] == c]['accuracy']`.  (`plot_utils.py:272-273`.) -/
def accOf (df : List (PerfRow N D K)) (c : N) : List K := (rowsOf df c).map (·.acc)

/-- `max_nb_datasets` (`plot_utils.py:250-253`). -/
def maxCount (df : List (PerfRow N D K)) : Nat :=
  ((uniques (df.map (·.clf))).map fun c => (rowsOf df c).length).foldl max 0

/-- The classifiers compared (`plot_utils.py:255-256`): those with the maximal number of rows, sorted by
name (`groupby` sorts). -/
def testedClassifiers (df : List (PerfRow N D K)) : List N :=
  (uniques (df.map (·.clf))).filter fun c => decide ((rowsOf df c).length = maxCount df)

/-- All pairs `(l[i], l[j])` with `i < j`, in the order of the loops `plot_utils.py:268-283`. -/
def pairsOf {α : Type} : List α → List (α × α)
  | [] => []
  | a :: l => l.map (fun b => (a, b)) ++ pairsOf l

/-- An entry of `p_values`.  (`plot_utils.py:283`.) -/
structure PVal (N K : Type) where
  c1 : N
  c2 : N
  p : K
  sig : Bool

/-- The loop of Holm's correction (`plot_utils.py:290-299`), from index `i` on. -/
def holmLoop (alpha : K) (k : Nat) : Nat → List (PVal N K) → List (PVal N K)
  | _, [] => []
  | i, v :: vs =>
    if Scalar.leb v.p (alpha / Scalar.ofNat (k - i)) then { v with sig := true } :: holmLoop alpha k (i + 1) vs
    else v :: vs

/-- `p_values.sort(key=itemgetter(2))` (`plot_utils.py:287`), a stable sort. -/
def sortPVals (ps : List (PVal N K)) : List (PVal N K) := ps.mergeSort fun a b => Scalar.leb a.p b.p

/-- The order of `sort_values(['classifier_name', 'dataset_name'])`.  (`plot_utils.py:303`.) -/
def rowLe (a b : PerfRow N D K) : Bool := decide (a.clf < b.clf ∨ a.clf = b.clf ∧ a.ds ≤ b.ds)

/-- `sorted_df_perf` (`plot_utils.py:302-303`). -/
def sortedPerf (df : List (PerfRow N D K)) : List (PerfRow N D K) :=
  (df.filter fun r => decide (r.clf ∈ testedClassifiers df)).mergeSort rowLe

/-- `a.reshape(m, n)`: rows of `n` consecutive entries; `ValueError` if the size does not fit.
(`plot_utils.py:305-306`.) -/
def reshape2 {α : Type} (a : List α) (m n : Nat) : Res (List (List α)) :=
  if a.length = m * n then .ok ((List.range m).map fun i => (a.drop (i * n)).take n) else .error .valueError

/-- `Series.rank(ascending=False)` (`method='average'`): the mean of the positions, counted from 1, of the
entries equal to `v` in the descending order of the column.  (`plot_utils.py:313`.) -/
def avgRank (col : List K) (v : K) : K :=
  let s := col.mergeSort fun a b => Scalar.leb b a
  let pos := whereIdx s.length fun i => Scalar.eqb (s.getD i 0) v
  ssum (pos.map fun i => Scalar.ofNat (i + 1)) / Scalar.ofNat pos.length

/-- `df_ranks.rank(ascending=False).mean(axis=1)` (`plot_utils.py:313-314`) for the matrix of accuracies:
ranks are taken in each column. -/
def meanRanks (M : List (List K)) (n : Nat) : List K :=
  M.map fun row => mean ((List.range n).map fun j => avgRank (M.map fun r => r.getD j 0) (row.getD j 0))

/-- `.sort_values(ascending=False)` of the average ranks.  (The order of equal ranks is that of a stable
sort here; pandas does not specify it.).  (`plot_utils.py:314`.) -/
def sortRanks (rs : List (N × K)) : List (N × K) := rs.mergeSort fun a b => Scalar.leb b.2 a.2

/-- The second half of `_wilcoxon_holm` (`plot_utils.py:300-314`): the average ranks. -/
def averageRanks (df : List (PerfRow N D K)) : Res (List (N × K)) := do
  let cs := testedClassifiers df
  let n := maxCount df
  let sorted := sortedPerf df
  let M ← reshape2 (sorted.map (·.acc)) cs.length n
  if (uniques (sorted.map (·.ds))).length = n then
    pure (sortRanks (cs.zip (meanRanks M n)))
  else .error .valueError

/-- The first half of `_wilcoxon_holm` (`plot_utils.py:249-299`): the p-values and the decisions. -/
def pValues (st : Stats K) (alpha : K) (df : List (PerfRow N D K)) : Res (List (PVal N K)) := do
  let cs := testedClassifiers df
  let _ ← st.friedman (cs.map (accOf df))
  let ps ← (pairsOf cs).mapM fun c => do
    let p ← st.wilcoxon (accOf df c.1) (accOf df c.2)
    pure (⟨c.1, c.2, p, false⟩ : PVal N K)
  pure (holmLoop alpha ps.length 0 (sortPVals ps))

/-- `_wilcoxon_holm` (`plot_utils.py:244-316`). -/
def wilcoxonHolm (st : Stats K) (alpha : K) (df : List (PerfRow N D K)) :
    Res (List (PVal N K) × List (N × K) × Nat) := do
  let ps ← pValues st alpha df
  let rs ← averageRanks df
  pure (ps, rs, maxCount df)

/-! ## `_form_cliques`, `_graph_ranks`, `draw_cd_diagram` -/

/-- Position of a name: `np.where(nnames == name)[0][0]`; `IndexError` when absent.
(`plot_utils.py:235-236`.) -/
def nameIdx (names : List N) (c : N) : Res Nat :=
  match names.findIdx? fun a => decide (a = c) with
  | some i => .ok i
  | none => .error .indexError

/-- The graph of `_form_cliques` (`plot_utils.py:230-241`): the list of the pairs `(min_i, max_j)` whose
entry is set. -/
def cliqueEdges (ps : List (PVal N K)) (names : List N) : Res (List (Nat × Nat)) :=
  (ps.filter fun v => v.sig == false).mapM fun v => do
    let i ← nameIdx names v.c1
    let j ← nameIdx names v.c2
    pure (min i j, max i j)

/-- Adjacency in `networkx.Graph(g_data)`, which is undirected.  (`plot_utils.py:241`.) -/
def adjacent (edges : List (Nat × Nat)) (i j : Nat) : Bool :=
  edges.contains (i, j) || edges.contains (j, i)

/-- `rankpos` (`plot_utils.py:406-411`) with `reverse=True`. -/
def rankpos (width textspace : K) (lowv highv : Int) (rank : K) : K :=
  textspace + (width - Scalar.ofNat 2 * textspace) / ofInt (highv - lowv) * (ofInt highv - rank)

/-- A label: the name, on the left or on the right, at a height, and the position of its rank.
(`plot_utils.py:476-518`.) -/
structure CdLabel (N K : Type) where
  name : N
  left : Bool
  height : K
  pos : K

/-- A bar joining classifiers: the range of indices it spans and its end points.
(`plot_utils.py:528-540`.) -/
structure CdBar (K : Type) where
  lo : Nat
  hi : Nat
  x1 : K
  x2 : K

/-- The critical difference diagram.  (`plot_utils.py:320-540`.) -/
structure CdFigure (N K : Type) where
  lowv : Int
  highv : Int
  height : K
  labels : List (CdLabel N K)
  bars : List (CdBar K)

/-- Hundredths.  (`plot_utils.py:399-521`.) -/
def cents (n : Nat) : K := Scalar.ofNat n / Scalar.ofNat 100

/-- `min` of a list of scalars.  (`plot_utils.py:395`.) -/
def kMin : List K → Res K
  | [] => .error .valueError
  | a :: l => .ok (l.foldl (fun m v => if Scalar.ltb v m then v else m) a)

/-- `max` of a list of scalars.  (`plot_utils.py:397`.) -/
def kMax : List K → Res K
  | [] => .error .valueError
  | a :: l => .ok (l.foldl (fun m v => if Scalar.ltb m v then v else m) a)

/-- `_graph_ranks` (`plot_utils.py:320-540`) as called by `draw_cd_diagram` (`reverse=True`, no bounds
given).  `cliques m adj` is what `networkx.find_cliques` enumerates.  The heights of the bars are left out. -/
def graphRanks (cliques : Nat → (Nat → Nat → Bool) → List (List Nat)) (ranks : List (N × K))
    (ps : List (PVal N K)) (width textspace : K) : Res (CdFigure N K) := do
  let sums := ranks.map (·.2)
  let names := ranks.map (·.1)
  let lo ← kMin sums
  let hi ← kMax sums
  let k := ranks.length
  let lowv : Int := min 1 (Scalar.floor lo)
  let highv : Int := max (k : Int) (-(Scalar.floor (-hi)))
  if highv - lowv = 0 then .error .zeroDivision
  else
    let cline : K := cents 65
    let minnot : K := cents 40
    let height : K := cline + (Scalar.ofNat (k + 1) / Scalar.ofNat 2) * cents 20 + minnot
    let half := (k + 1) / 2
    let pos := rankpos width textspace lowv highv
    let labels := ranks.zipIdx.map fun r =>
      if r.2 < half then
        (⟨r.1.1, true, cline + minnot + Scalar.ofNat r.2 * cents 24, pos r.1.2⟩ : CdLabel N K)
      else ⟨r.1.1, false, cline + minnot + Scalar.ofNat (k - r.2 - 1) * cents 24, pos r.1.2⟩
    let edges ← cliqueEdges ps names
    let bars := ((cliques k (adjacent edges)).filter fun c => c.length != 1).map fun c =>
      let a := c.foldl min (c.headD 0)
      let b := c.foldl max 0
      (⟨a, b, pos (sums.getD a 0) + cents 2, pos (sums.getD b 0) - cents 2⟩ : CdBar K)
    pure ⟨lowv, highv, height, labels, bars⟩

/-- `draw_cd_diagram` (`plot_utils.py:205-224`): the figure and the file it is saved to; a file is written
only when no path is given. -/
def drawCdDiagram (st : Stats K) (cliques : Nat → (Nat → Nat → Bool) → List (List Nat)) (alpha : K)
    (df : List (PerfRow N D K)) (width : K) (path : Option String) : Res (CdFigure N K × Option String) := do
  let (ps, rs, _) ← wilcoxonHolm st alpha df
  let fig ← graphRanks cliques rs ps width (cents 125)
  pure (fig, if path.isNone then some "cd-diagram.png" else none)

end
end Convst
