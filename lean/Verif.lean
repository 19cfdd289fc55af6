import Verif.Props.Transform
import Verif.Props.Invariance
import Verif.Props.Variants
import Verif.Props.Separate
import Verif.Proofs.Random
import Verif.Props.Fit
import Verif.Props.FitMore
import Verif.Props.Draws
import Verif.Props.Params
import Verif.Props.Object
import Verif.Props.EndToEnd
import Verif.Props.FitCount
import Verif.Props.Histories
import Verif.Props.Unique
import Verif.Props.InputTransformers
import Verif.Props.Ridge
import Verif.Props.RidgeFit
import Verif.Proofs.Ensemble
import Verif.Props.EnsembleEnd
import Verif.Props.EnsembleRace
import Verif.Props.InterpreterFigures
import Verif.Props.Experiments
import Verif.Props.PlotUtils
import Verif.Props.Plots
import Verif.Props.CdDiagram
import Verif.Props.Seeds
import Verif.Props.Complete
import Verif.Props.Cloning
import Verif.Props.Relabel
import Verif.Props.Units
import Verif.Props.UnitsRidge
import Verif.Props.Lifecycle
import Verif.Props.Stability
import Verif.Props.StatefulInputs
import Verif.Props.EnsembleLists
import Verif.Props.Hankel
import Verif.Model.GridSearch
import Verif.Props.GridSearch
import Verif.Props.GridParams
import Verif.Model.Rounded
import Verif.Spec.Rounded
import Verif.Proofs.Rounded
import Verif.Props.Rounded
import Verif.Spec.RoundedZ
import Verif.Proofs.RoundedZ
import Verif.Props.RoundedZ
import Verif.Model.Benchmark
import Verif.Spec.Benchmark
import Verif.Props.Benchmark
import Verif.Props.Constructor
import Verif.Model.EnsembleInit
import Verif.Spec.FitSafe
import Verif.Spec.RoundedFit
import Verif.Proofs.FitSafe
import Verif.Proofs.FitSafeAll
import Verif.Proofs.RoundedFit
import Verif.Props.RoundedFit
import Verif.Spec.Exchange
import Verif.Proofs.Exchange
import Verif.Props.Exchange
import Verif.Spec.Law
import Verif.Proofs.Law
import Verif.Proofs.LawDraws
import Verif.Proofs.LawInit
import Verif.Proofs.LawSteps
import Verif.Proofs.LawPick
import Verif.Proofs.LawRun
import Verif.Proofs.LawFit
import Verif.Proofs.LawVariants
import Verif.Proofs.LawCompare
import Verif.Proofs.Tape
import Verif.Props.Law
import Verif.Model.Missing
import Verif.Spec.Missing
import Verif.Proofs.Missing
import Verif.Props.Missing
import Verif.Model.Alphas
import Verif.Props.Alphas
import Verif.Spec.MissingFit
import Verif.Proofs.MissingFit
import Verif.Props.MissingFit
import Verif.Model.SetParams
import Verif.Spec.SetParams
import Verif.Proofs.SetParams
import Verif.Props.SetParams
import Verif.Props.SetParamsClf
import Verif.Model.EarlyAbandon
import Verif.Proofs.EarlyAbandon
import Verif.Props.EarlyAbandon
import Verif.Model.Ieee
import Verif.Spec.Ieee
import Verif.Proofs.Ieee
import Verif.Props.Ieee
import Verif.Model.Memory
import Verif.Spec.Memory
import Verif.Proofs.Memory
import Verif.Proofs.MemoryArrays
import Verif.Proofs.MemoryTransform
import Verif.Proofs.MemoryFrame
import Verif.Props.Memory
import Verif.Model.MemoryFit
import Verif.Spec.MemoryFit
import Verif.Proofs.MemoryRace
import Verif.Proofs.MemoryFitValue
import Verif.Proofs.MemoryFitMask
import Verif.Proofs.MemoryFitSample
import Verif.Proofs.MemoryFitLoop
import Verif.Proofs.MemoryFitEnd
import Verif.Proofs.MemoryFitAll
import Verif.Props.MemoryFit
import Verif.Spec.IeeeFit
import Verif.Proofs.IeeeFit
import Verif.Props.IeeeFit
import Verif.Props.NoShapelets
import Verif.Props.ParamLaw
import Verif.Props.Sampling
import Verif.Props.SamplingCount
import Verif.Props.Double
import Verif.Props.DoubleFit
import Verif.Props.ScalerFloat
import Verif.Props.DoubleRidge
import Verif.Props.Digital
import Verif.Props.DoubleVote
import Verif.Props.DoubleEns
import Verif.Props.RoundedRidge
import Verif.Props.FlatRounded
import Verif.Props.Mirror
import Verif.Props.ExchangeLaw
import Verif.Props.Sources
import Verif.Props.PlainScaler
import Verif.Props.Places
import Verif.Props.ManyChannels
import Verif.Props.Cases
import Verif.Props.CasesPlots
import Verif.Props.CasesTransform
import Verif.Props.CasesParams
import Verif.Props.CasesFit
import Verif.Props.CasesMore
import Verif.Props.CasesLaw
import Verif.Props.Hold
import Verif.Props.HoldRidge
import Verif.Props.Periodic
import Verif.Props.Reads
import Verif.Props.ReadsFit
import Verif.Props.PhaseSwitch
