import Verif.Model.Prelude

/-!
# The benchmark script `PaperScripts/test_models.py`

The script fills a table with one row for each pair of a dataset and a model, and writes the whole table to a CSV
file after each row, so that a run that was interrupted can be continued with `resume=True`.

Simplifications: reading back a written CSV file gives the table (`read_csv` of `to_csv`); the call
`cross_validate_UCR_UEA(n_cv, name).score(pipeline)` is an oracle that raises or gives the two columns
`accuracy` and `time`; printing and the compilation runs before the loop (`test_models.py:41-48`) are left out.
-/

set_option autoImplicit false

namespace Convst

variable {K D M : Type} [Scalar K]

/-- A row of the result table (`test_models.py:35-38`); `none` in a numeric column is `nan`, `none` as the name
of a dataset or a model is the initial value `0`. -/
structure BenchRow (K D M : Type) where
  dataset : Option D
  model : Option M
  accMean : Option K
  accStd : Option K
  timeMean : Option K
  timeStd : Option K

/-- The two columns of `_scores`: `accuracy` and `time`, one value for each split.
(`test_models.py:62-66`.) -/
structure BenchScores (K : Type) where
  acc : List K
  time : List K

/-- What ends a run of the script before the end of the loop.  (`test_models.py:33`, `:55`, `:62`.) -/
inductive BenchErr
  | fileNotFound
  | keyError
  /-- an exception raised while a pipeline is evaluated -/
  | raised (e : Err)

/-- `Series.mean()`: `nan` for no values.  (`test_models.py:63`, `:65`.) -/
def seriesMean (x : List K) : Option K := if x.isEmpty then none else some (mean x)

/-- `Series.std()` of pandas: the sample deviation, `nan` for fewer than two values.  (`test_models.py:64`,
`:66`.) -/
def seriesStd (x : List K) : Option K :=
  if x.length < 2 then none
  else some (Scalar.sqrt (ssum (x.map fun v => (v - mean x) * (v - mean x)) / Scalar.ofNat (x.length - 1)))

/-- A row of `pd.DataFrame(0, ...)` (`test_models.py:35-38`). -/
def BenchRow.init : BenchRow K D M := ⟨none, none, some 0, some 0, some 0, some 0⟩

/-- The initial table: one row for each dataset and model (`test_models.py:35-38`). -/
def benchInit (n : Nat) : List (BenchRow K D M) := List.replicate n BenchRow.init

/-- The assignments after the evaluation (`test_models.py:63-68`). -/
def benchFill (name : D) (model : M) (s : BenchScores K) : BenchRow K D M :=
  ⟨some name, some model, seriesMean s.acc, seriesStd s.acc, seriesMean s.time, seriesStd s.time⟩

/-- The condition under which a row is computed: the accuracy is `nan` or `0.0` (`test_models.py:55`). -/
def BenchRow.todo (row : BenchRow K D M) : Bool :=
  match row.accMean with
  | none => true
  | some a => Scalar.eqb a 0

/-- The pairs of the two nested loops, in order (`test_models.py:51-53`). -/
def benchGrid (names : List D) (models : List M) : List (D × M) :=
  names.flatMap fun d => models.map fun m => (d, m)

/-- The loop (`test_models.py:50-72`) from row `i` on, on the table `t`: the successive contents written to the
file, and the exception that ended it, if any.  `ω i` is what the evaluation of row `i` gives. -/
def benchLoop (ω : Nat → Except Err (BenchScores K)) :
    List (D × M) → Nat → List (BenchRow K D M) → List (List (BenchRow K D M)) × Option BenchErr
  | [], _, _ => ([], none)
  | (d, m) :: rest, i, t =>
    match t[i]? with
    | none => ([], some .keyError)
    | some row =>
      if row.todo then
        match ω i with
        | .error e => ([], some (.raised e))
        | .ok s =>
          let t' := t.set i (benchFill d m s)
          let (ws, e) := benchLoop ω rest (i + 1) t'
          (t' :: ws, e)
      else benchLoop ω rest (i + 1) t

/-- A run of the script (`test_models.py:32-73`): everything it writes to the file, in order, and the exception
that ended it, if any. -/
def benchRun (grid : List (D × M)) (resume : Bool) (ω : Nat → Except Err (BenchScores K))
    (file : Option (List (BenchRow K D M))) : List (List (BenchRow K D M)) × Option BenchErr :=
  if resume then
    match file with
    | none => ([], some .fileNotFound)
    | some t => benchLoop ω grid 0 t
  else
    let t := benchInit grid.length
    let (ws, e) := benchLoop ω grid 0 t
    (t :: ws, e)

/-- The file after the first `w` writes of a run.  The writes are those of `test_models.py:39` and `:69`. -/
def fileAfter {T : Type} (file : Option T) (writes : List T) (w : Nat) : Option T :=
  match (writes.take w).getLast? with
  | none => file
  | some t => some t

end Convst
