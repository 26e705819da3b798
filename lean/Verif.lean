import Verif.Props.Trim
import Verif.Props.Matrix
import Verif.Props.MatrixRound
import Verif.Props.Graph
import Verif.Props.Dijkstra
import Verif.Props.DijkstraPaths
import Verif.Props.EndToEnd
import Verif.Props.Rerun
import Verif.Props.Importance
import Verif.Props.Reduce
import Verif.Props.ReduceCases
import Verif.Props.Sampling
import Verif.Props.SA
import Verif.Props.Simulation
import Verif.Props.Parse
import Verif.Props.Main
import Verif.Props.Cli
import Verif.Props.Tools
import Verif.Props.Ck
import Verif.Props.CkFiles
import Verif.Props.CkThermo
import Verif.Props.CkData
import Verif.Props.Psr
import Verif.Props.PsrJac
import Verif.Props.FullMain
import Verif.Props.SAAlone
import Verif.Props.Raise
import Verif.Props.Load
import Verif.Props.Program
import Verif.Props.Inputs
import Verif.Props.Limit
import Verif.Lemmas.Order
import Verif.Props.Order
import Verif.Props.SAOrder
import Verif.Props.CondOrder
import Verif.Props.Thermo
import Verif.Model.PsrCase
import Verif.Props.PsrCase
import Verif.Lemmas.SpeciesOrder
import Verif.Props.SpeciesOrder
import Verif.Props.Accuracy
import Verif.Props.Published
import Verif.Props.States
import Verif.Props.Gap
import Verif.Props.GapProgram
import Verif.Props.Underflow
import Verif.Props.Cost
import Verif.Props.CycleGain
import Verif.Props.MatrixOrder
import Verif.Props.MatrixOrderDrgep
import Verif.Props.Undefined
import Verif.Props.Convert
import Verif.Props.ErrorRound
import Verif.Props.Repr
import Verif.Props.CkRound
import Verif.Props.SARound
import Verif.Props.MainRound
import Verif.Props.SaveText
import Verif.Props.Files
import Verif.Props.Rewrite
import Verif.Props.SAMinimal
import Verif.Props.Calls
import Verif.Props.Rename
import Verif.Props.Yaml
import Verif.Props.Blank
import Verif.Props.SACalls
import Verif.Props.Headings
import Verif.Props.ParseAgree
import Verif.Props.Kinetics
import Verif.Props.Concurrent
import Verif.Props.Provenance
import Verif.Props.WrongType
import Verif.Props.ProgramDoc
import Verif.Props.DataFiles
import Verif.Props.ConcurrentMain
import Verif.Props.Phases
import Verif.Props.EquationOfState
import Verif.Props.InfiniteMetrics
import Verif.Props.TwoThresholds
import Verif.Props.TwoThresholdsProgram
import Verif.Props.ReducedChemkin
import Verif.Model.TrimSoln
import Verif.Spec.ReducedChemkin
import Verif.Props.Directory
import Verif.Props.Slash
import Verif.Props.Amid
import Verif.Props.GapBoth
import Verif.Props.Defaults
import Verif.Spec.Defaults
import Verif.Lemmas.Defaults
import Verif.Model.Library
import Verif.Spec.Library
import Verif.Props.Library
import Verif.Props.TornRun
import Verif.Lemmas.NanLoop
import Verif.Props.AloneRound
import Verif.Props.RewriteKept
import Verif.Props.RenameRound
import Verif.Props.LibraryMixture
import Verif.Props.LibraryThreshold
import Verif.Props.RewriteKeptPfa
