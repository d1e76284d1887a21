import Verif.Model.Lib
import Verif.Spec
import Verif.Proofs.Logic
import Verif.Proofs.Walk
import Verif.Proofs.ValidFlags
import Verif.Proofs.PrepGraph
import Verif.Proofs.WitnessSearch
import Verif.Proofs.Contractor
import Verif.Proofs.Hierarchy
import Verif.Proofs.Recorded
import Verif.Proofs.Shape
import Verif.Proofs.FastGraph
import Verif.Proofs.Finish
import Verif.Proofs.Assemble
import Verif.Proofs.SearchGraph
import Verif.Proofs.Search
import Verif.Proofs.MainLoop
import Verif.Proofs.Extract
import Verif.Proofs.Safe
import Verif.Proofs.SafeQuery
import Verif.Model.History
import Verif.Proofs.InputGraph
import Verif.Proofs.Refine
import Verif.Proofs.Rel
import Verif.Proofs.Reuse
import Verif.Proofs.Reorder
import Verif.Proofs.BinaryHeap
import Verif.Model.PriorityQueue
import Verif.Proofs.PriorityQueue
import Verif.Model.ListQueue
import Verif.Proofs.Paths
import Verif.Proofs.Api
import Verif.Proofs.Errs
import Verif.Proofs.Halves
import Verif.Spec32
import Verif.Proofs.Convert
import Verif.Props.Example
import Verif.Props.Query
import Verif.Props.Preparation
import Verif.Props.Input
import Verif.Props.Structures
import Verif.Props.Build
import Verif.Props.Convert
import Verif.Props.Readme32
import Verif.Props.ServerDevice
import Verif.Model.TextIO
import Verif.SpecText
import Verif.Proofs.TextIO
import Verif.Props.Text
import Verif.Model.Writer
import Verif.Proofs.Writer
import Verif.Props.Writing
import Verif.SpecPrep
import Verif.Model.WitnessHistory
import Verif.Proofs.WitnessComplete
import Verif.Proofs.WitnessCalls
import Verif.Props.Witness
import Verif.Model.Dijkstra
import Verif.Model.FloydWarshall
import Verif.Proofs.Dijkstra
import Verif.Proofs.FloydWarshall
import Verif.Props.Oracles
import Verif.Proofs.SelfPath
import Verif.Props.Bounds
import Verif.Proofs.Distance
import Verif.Props.EndToEnd
import Verif.Proofs.WitnessLimit
import Verif.Proofs.Needed
import Verif.Model.Bincode
import Verif.Proofs.Bincode
import Verif.Proofs.Disk
import Verif.Props.Disk
import Verif.Proofs.Hub
import Verif.Proofs.Sizes
import Verif.Props.Hub
import Verif.Props.Sizes
import Verif.Proofs.Simple
import Verif.Props.Simple
import Verif.Model.Float32
import Verif.SpecFloat
import Verif.Proofs.Float32
import Verif.Proofs.Accuracy
import Verif.SpecPriority
import Verif.Proofs.Priority
import Verif.Props.Relevance
import Verif.Model.Unwind
import Verif.Proofs.Unwind
import Verif.Props.Unwind
import Verif.Model.Output
import Verif.Proofs.Output
import Verif.Props.Output
import Verif.Proofs.Order
import Verif.Props.Order
import Verif.SpecSearch
import Verif.Proofs.SearchSpace
import Verif.Proofs.SearchLog
import Verif.Props.SearchSpace
import Verif.Props.Work
import Verif.Model.TextBytes
import Verif.Proofs.TextBytes
import Verif.Props.Bytes
import Verif.Model.DiskWriter
import Verif.Proofs.DiskWriter
import Verif.Props.Saving
import Verif.Props.Values
import Verif.SpecGraph
import Verif.Proofs.Foreign
import Verif.Proofs.Covering
import Verif.Props.Foreign
import Verif.Model.TestSuite
import Verif.Proofs.SafeOracles
import Verif.Proofs.TestSuite
import Verif.Props.TestSuite
import Verif.Props.InputBytes
import Verif.Proofs.AnyOrder
import Verif.Props.AnyOrder
import Verif.Proofs.Budget
import Verif.Props.Budget
import Verif.Props.Rename
import Verif.Proofs.Depth
import Verif.Props.Depth
import Verif.Props.Truncate
import Verif.Props.Changes
import Verif.SpecMinimal
import Verif.Proofs.ZeroBudget
import Verif.Proofs.Minimal
import Verif.Props.Minimal
import Verif.Model.DiskReader
import Verif.Proofs.DiskReader
import Verif.Props.Reading
import Verif.Props.Release
import Verif.SpecWork
import Verif.Proofs.WitnessLog
import Verif.Proofs.Sessions
import Verif.Props.PrepWork
import Verif.Props.TestPower
import Verif.Props.Determined
import Verif.Props.Elimination
import Verif.Props.Locality
import Verif.Props.Symmetric
import Verif.Props.Compatible
import Verif.Props.Ieee
import Verif.Props.Log
import Verif.SpecHeavy
import Verif.Proofs.Near
import Verif.Proofs.Heavy
import Verif.Proofs.HeavyRun
import Verif.Props.Heavy
import Verif.Props.Stop
import Verif.Props.Pieces
import Verif.Props.Border
import Verif.Props.Subdivide
import Verif.Proofs.RefineTests
import Verif.Props.ReleaseTests
import Verif.Proofs.ReadErrors
import Verif.Props.ReadErrors
import Verif.Props.Starts
import Verif.Props.Recipe
import Verif.Props.LargestId
import Verif.Props.Rounding
import Verif.Props.Nearest
import Verif.Props.Trip
import Verif.Props.Turns
import Verif.Props.SecondBest
import Verif.Props.Rules
import Verif.Props.Stations
import Verif.Props.Unpack
import Verif.Props.Height
import Verif.Props.Heaviest
import Verif.Props.Levels
import Verif.Props.Embed
import Verif.Props.NoTies
import Verif.Props.Comparisons
import Verif.Props.QueueWork
import Verif.Props.Scaled
import Verif.Props.ScaledQuery
import Verif.Props.Beginning
import Verif.Props.TwoCriteria
import Verif.Props.RoundTrip
import Verif.Props.Threads
import Verif.Replay
