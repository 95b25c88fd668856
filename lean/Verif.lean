import Verif.Model.History
import Verif.Model.Misc
import Verif.Proof.Refine
import Verif.Proof.Counts
import Verif.Proof.Lift
import Verif.Proof.Wrap
import Verif.Proof.Progress
import Verif.Props.Demo
import Verif.Props.Obs
import Verif.Props.Lattice
import Verif.Props.Clusters
import Verif.Props.Entropy
import Verif.Props.Wrapping
import Verif.Proof.Trace
import Verif.Proof.Observe
import Verif.Props.Sequence
import Verif.Proof.Ids
import Verif.Proof.Run
import Verif.Proof.Window
import Verif.Proof.Default
import Verif.Proof.RunEnd
import Verif.Proof.RunSeq
import Verif.Proof.Frame
import Verif.Props.Runs
import Verif.Props.ResetAny
import Verif.Proof.Custom
import Verif.Proof.Lines
import Verif.Props.Lists
import Verif.Proof.Rules
import Verif.Props.L1L2
import Verif.Spec.Lines
import Verif.Proof.Shortest
import Verif.Props.ShortestPath
import Verif.Props.FirstStraight
import Verif.Props.Ensemble
import Verif.Props.Analysis
import Verif.Props.Misc
import Verif.Proof.Bounds
import Verif.Proof.Sizes
import Verif.Props.Bounds
import Verif.Proof.Relabel
import Verif.Props.Relabel
import Verif.Proof.Uniform
import Verif.Props.Uniform
import Verif.Props.Averages
import Verif.Props.CrossCheck
import Verif.Props.Scan
import Verif.Props.Seed
import Verif.Props.Files
import Verif.Props.Closing
import Verif.Props.Tests
import Verif.Props.Rounding
import Verif.Model.Output
import Verif.Spec.Text
import Verif.Props.Output
import Verif.Spec.Symmetry
import Verif.Proof.Symmetry
import Verif.Props.Symmetry
import Verif.Spec.Mean
import Verif.Proof.Mean
import Verif.Props.Mean
import Verif.Props.Law
import Verif.Proof.Raise
import Verif.Props.Raised
import Verif.Props.RaisedRuns
import Verif.Props.Requests
import Verif.Spec.Plane
import Verif.Props.Plane
import Verif.Model.World
import Verif.Proof.Keep
import Verif.Props.World
import Verif.Model.Demos
import Verif.Props.Demos
import Verif.Props.Recorded
import Verif.Proof.Work
import Verif.Props.Work
import Verif.Conformance
import Verif.Model.Arrays
import Verif.Proof.Arrays
import Verif.Props.Arrays
import Verif.Model.Launch
import Verif.Props.Launch
import Verif.Proof.Ending
import Verif.Props.Ending
import Verif.Proof.Tally
import Verif.Props.Tally
import Verif.Props.TestsMore
import Verif.Model.Access
import Verif.Proof.Roots
import Verif.Props.Roots
import Verif.Props.Access
import Verif.Props.SpDrivers
import Verif.Model.Lines
import Verif.Props.Lines
import Verif.Model.Arguments
import Verif.Props.Arguments
import Verif.Props.LineLaw
import Verif.Proof.Three
import Verif.Props.Three
import Verif.Proof.Variance
import Verif.Props.Variance
import Verif.Props.TableRounding
import Verif.Model.Table
import Verif.Spec.Decimal
import Verif.Proof.Decimal
import Verif.Props.TableFiles
import Verif.Spec.Json
import Verif.Model.Json
import Verif.Proof.Json
import Verif.Props.FileTexts
import Verif.Proof.Moves
import Verif.Props.RunLaw
import Verif.Spec.Growth
import Verif.Props.Growth
import Verif.Props.EnsembleLaw
import Verif.Proof.Cross
import Verif.Props.Parallel
import Verif.Spec.Dual
import Verif.Proof.Dual
import Verif.Props.Dual
import Verif.Proof.Fewest
import Verif.Props.Sharing
import Verif.Proof.Peierls
import Verif.Proof.Thresholds
import Verif.Props.Threshold
import Verif.Props.LineLimit
import Verif.Proof.Small
import Verif.Props.LowDensity
import Verif.Proof.NearFull
import Verif.Props.NearFull
import Verif.Proof.Boundary
import Verif.Proof.Enclose
import Verif.Proof.Giant
import Verif.Props.HighDensity
import Verif.Model.Cells
import Verif.Proof.Cells
import Verif.Proof.CellsStep
import Verif.Props.Cells
import Verif.Model.Duration
import Verif.Props.Duration
import Verif.Model.Loose
import Verif.Proof.Loose
import Verif.Props.Loose
import Verif.Proof.Hoeffding
import Verif.Props.Hoeffding
import Verif.Model.Double
import Verif.Proof.Double
import Verif.Props.Ieee
import Verif.Props.IeeeSpecial
import Verif.Props.Orders
import Verif.Props.EndToEnd
import Verif.Spec.Chance
import Verif.Model.Words
import Verif.Proof.Words
import Verif.Props.WordLaw
import Verif.Props.WordGrowth
import Verif.Spec.Float
import Verif.Model.Repr
import Verif.Proof.Repr
import Verif.Props.Repr
import Verif.Spec.Twister
import Verif.Model.Twister
import Verif.Proof.Twister
import Verif.Proof.TwisterSeed
import Verif.Proof.TwisterSpec
import Verif.Props.Twister
import Verif.Props.TwisterLaw
import Verif.Proof.TwisterEval
import Verif.Proof.Evaluate
import Verif.Props.Seeds
import Verif.Proof.EvalComps
import Verif.Props.SeedsTable
import Verif.Model.DemosSeeded
import Verif.Props.SeededGrowth
import Verif.Props.SeededDemos
import Verif.Props.SeedsGrowth
import Verif.Model.DataFiles
import Verif.Proof.LogTable
import Verif.Props.DataFiles
