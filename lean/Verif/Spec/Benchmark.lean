import Verif.Model.Benchmark

/-!
# Specification: interrupted and resumed benchmarks
-/

set_option autoImplicit false

namespace Convst.Spec

variable {K D M : Type} [Scalar K]

/-- The evaluations of one run: what the evaluation of row `i` gives in that run. -/
abbrev Evals (K : Type) := Nat → Except Err (BenchScores K)

/-- `Interrupted grid ωs file`: the file left behind by a first run without `resume`, started without a file, and
any number of runs with `resume`, each of which was killed after any number of writes (a run that is not killed
has made all its writes); `ωs` are the evaluations of these runs, the last run first. -/
inductive Interrupted (grid : List (D × M)) : List (Evals K) → Option (List (BenchRow K D M)) → Prop
  | first (ω : Evals K) (w : Nat) : Interrupted grid [ω] (fileAfter none (benchRun grid false ω none).1 w)
  | resume {ωs : List (Evals K)} {file : Option (List (BenchRow K D M))} (h : Interrupted grid ωs file)
      (ω : Evals K) (w : Nat) :
      Interrupted grid (ω :: ωs) (fileAfter file (benchRun grid true ω file).1 w)

/-- The mean of some numbers, none of no numbers. -/
def sampleMean : List K → Option K
  | [] => none
  | x => some (x.foldl (· + ·) 0 / Scalar.ofNat x.length)

/-- The deviation of a sample (divisor `n - 1`), none of fewer than two numbers. -/
def sampleStd : List K → Option K
  | [] => none
  | [_] => none
  | x => some (Scalar.sqrt ((x.map fun v => (v - x.foldl (· + ·) 0 / Scalar.ofNat x.length) *
      (v - x.foldl (· + ·) 0 / Scalar.ofNat x.length)).foldl (· + ·) 0 / Scalar.ofNat (x.length - 1)))

/-- The row for dataset `d` and model `m` when the splits gave the accuracies and times `s`. -/
def RowOf (d : D) (m : M) (s : BenchScores K) (row : BenchRow K D M) : Prop :=
  row.dataset = some d ∧ row.model = some m ∧ row.accMean = sampleMean s.acc ∧ row.accStd = sampleStd s.acc ∧
    row.timeMean = sampleMean s.time ∧ row.timeStd = sampleStd s.time

/-- Row `i` holds the results of the `i`-th pair of the grid, from one of the runs. -/
def HoldsResult (grid : List (D × M)) (ωs : List (Evals K)) (i : Nat) (row : BenchRow K D M) : Prop :=
  ∃ d m s ω, grid[i]? = some (d, m) ∧ ω ∈ ωs ∧ ω i = .ok s ∧ RowOf d m s row

/-- The row holds an accuracy other than `0`; otherwise it has `nan` or `0`. -/
def Finished (row : BenchRow K D M) : Prop := ∃ a, row.accMean = some a ∧ Scalar.eqb a 0 = false

end Convst.Spec
