import Verif.Props.Dp
import Verif.Proofs.Walks
import Verif.Props.PyGraph
import Verif.Props.ShortestPath
import Verif.Proofs.CoarseHeap
import Verif.Proofs.TwoColumns
import Verif.Props.TwoColumns
import Verif.Props.CppGraph
import Verif.Props.Util
import Verif.Props.Sampling
import Verif.Props.Grid
import Verif.Props.SampleSO3
import Verif.Props.Geometry
import Verif.Props.Robot
import Verif.Props.Robots
import Verif.Props.Kuka
import Verif.Props.RailExact
import Verif.Props.Path
import Verif.Props.Io
import Verif.Props.Urdf
import Verif.Props.Planning
import Verif.Props.Incremental
import Verif.Props.Solve
import Verif.Props.Aliasing
import Verif.Props.AnyQueue
import Verif.Props.Certificate
import Verif.Props.Optimization
import Verif.Props.OptimalPath
import Verif.Props.Plot
import Verif.Props.Gui
import Verif.Props.Segments
import Verif.Props.SegmentsExact
import Verif.Props.QuatCost
import Verif.Props.QuatSearch
import Verif.Props.Resources
import Verif.Props.Torch
import Verif.Props.TablePath
import Verif.Props.Heap
import Verif.Props.CppQueries
import Verif.Props.Passage
import Verif.Props.Sampler
import Verif.Props.RotationTable
import Verif.Props.Editor
import Verif.Props.Settings
import Verif.Props.Cover
import Verif.Props.Puma
import Verif.Props.TaskPlot
import Verif.Props.CppPrint
import Verif.Props.Layout
import Verif.Props.CppInit
import Verif.Props.WristExact
import Verif.Props.KukaStretched
import Verif.Props.RailPlan
import Verif.Props.GridComplete
import Verif.Props.Rounding
import Verif.Props.Bodies
import Verif.Model.Examples
import Verif.Props.Examples
import Verif.Model.Tasks
import Verif.Props.Scripts
import Verif.Props.Workspace
import Verif.Props.Reach
import Verif.Props.ArmFits
import Verif.Props.EditorFiles
import Verif.Props.Resample
import Verif.Model.OptScript
import Verif.Props.SelfClear
import Verif.Props.OptScript
import Verif.Props.ProgramExact
import Verif.Props.OverTable
import Verif.Props.Nominal
import Verif.Props.Angles
import Verif.Model.CppPointers
import Verif.Proofs.CppPointers
import Verif.Props.CppPointers
import Verif.Proofs.Snapped
import Verif.Props.Snapped
import Verif.Props.RandomTests
import Verif.Props.RandomKuka
import Verif.Props.RepoTests
import Verif.Props.KukaTests
import Verif.Model.DocArm
import Verif.Props.DocArm
import Verif.Props.Distinct
import Verif.Model.FkFloat
import Verif.Props.FkFloat
import Verif.Props.GridFloat
import Verif.Model.BoxScript
import Verif.Props.InTheBox
import Verif.Proofs.Uniform
import Verif.Props.Uniform
import Verif.Proofs.Equidistribution
import Verif.Props.Evenly
import Verif.Props.Between
import Verif.Props.RowOrder
import Verif.Props.MoreSamples
import Verif.Props.FreeOpen
import Verif.Props.AlmostSure
import Verif.Proofs.Nearby
import Verif.Props.Ranges
import Verif.Props.NoShorter
import Verif.Props.Approaches
import Verif.Props.Cases
import Verif.Props.AlmostEnds
import Verif.Props.Welds
import Verif.Props.PassageEnds
import Verif.Props.Chances
import Verif.Model.CppTravel
import Verif.Props.Travel
import Verif.Props.Grown
import Verif.Props.CppUnused
import Verif.Props.SameAnswers
import Verif.Props.GrownAny
import Verif.Props.OutOfReach
import Verif.Props.MovedTogether
import Verif.Props.Backwards
import Verif.Props.OutOfReachRail
import Verif.Props.Scaled
import Verif.Props.ScaledPy
import Verif.Props.FewerObstacles
import Verif.Props.FewerRounds
import Verif.Props.MoreOrientations
import Verif.Props.BackwardsPlan
import Verif.Props.ObstacleOrder
import Verif.Model.WristBase
import Verif.Props.Sharper
import Verif.Props.WristLeft
