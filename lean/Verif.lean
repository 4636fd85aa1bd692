import Verif.Spec
import Verif.SpecState
import Verif.Model.Base
import Verif.Model.Event
import Verif.Model.Causet
import Verif.Model.CausetLinks
import Verif.Model.Distance
import Verif.Props.Reach
import Verif.Props.Events
import Verif.Props.Cones
import Verif.Props.Built
import Verif.Props.Construct
import Verif.Props.Simplex
import Verif.Props.MergeLink
import Verif.Props.Path
import Verif.Props.Perimetral
import Verif.Props.Layers
import Verif.Props.Layered
import Verif.Props.Components
import Verif.Props.Sorting
import Verif.Props.Matrix
import Verif.Props.Rank
import Verif.Props.RankNumbers
import Verif.Props.Paths
import Verif.Props.Distance
import Verif.Props.GraphDist
import Verif.Props.Antipaths
import Verif.Model.Embedding
import Verif.Props.Relate
import Verif.Props.Create
import Verif.Props.Embed
import Verif.Model.Spacetimes
import Verif.Model.EmbPermutation
import Verif.Props.CreateOrder
import Verif.Props.Flat
import Verif.Props.EmbPermutation
import Verif.Props.FlatTol
import Verif.Props.Curved
import Verif.Props.BlackHole
import Verif.Model.Calculations
import Verif.Props.Harmonic
import Verif.Props.Newton
import Verif.Model.Shapes
import Verif.Props.Shapes
import Verif.Props.Limits
import Verif.Lemmas.Volume
import Verif.Props.Volume
import Verif.Props.Edges
import Verif.Props.Surfaces
import Verif.Props.PlotShape
import Verif.Props.Sprinkle
import Verif.Props.Intensity
import Verif.Props.SprinkleOrder
import Verif.Props.Colors
import Verif.Model.Plotting
import Verif.Props.Fading
import Verif.Props.PlotLinks
import Verif.Props.PlotDynamic
import Verif.Props.PlotStatic
import Verif.Props.PlotParams
import Verif.Props.PlotOutcome
import Verif.Model.Permutations
import Verif.Props.Permuted
import Verif.Props.Fences
import Verif.Props.AntiPerm
import Verif.Model.TextFile
import Verif.Props.TextFile
import Verif.Model.EmbInit
import Verif.Props.EmbInit
import Verif.Props.SprInit
import Verif.Model.LightCone
import Verif.Props.ConeFlat
import Verif.Props.ConeDS
import Verif.Props.ConeDSXY
import Verif.Props.ConeBH
import Verif.Model.Diagram
import Verif.Props.Diagram
import Verif.Props.ShapeState
import Verif.Lemmas.DisjoinExact
import Verif.Lemmas.MergeExact
import Verif.Props.DisjoinLinks
import Verif.Props.MergeExact
import Verif.Props.MatrixExact
import Verif.Props.LinkAny
import Verif.Props.Program
import Verif.Props.PlotCones
import Verif.Props.Schedule
import Verif.Model.Iterables
import Verif.Props.Iterables
import Verif.Lemmas.NewClosed
import Verif.Props.Frame
import Verif.Model.Objects
import Verif.SpecObjects
import Verif.Props.Objects
import Verif.Props.SpacetimeOrder
import Verif.Props.EmbPermOutcome
import Verif.Lemmas.Polar
import Verif.Lemmas.UniformLaw
import Verif.Props.Uniform
import Verif.Props.UniformSprinkle
import Verif.Lemmas.PoissonProcess
import Verif.Props.PoissonSprinkle
import Verif.Model.PlotCalls
import Verif.Props.PlotCalls
import Verif.Props.PlotKwargs
import Verif.Model.FloatCausality
import Verif.Props.FloatRound
import Verif.Props.FloatCausality
import Verif.Props.FloatExact
import Verif.Lemmas.Isolation
import Verif.Props.Isolation
import Verif.Model.PermutedOld
import Verif.Props.LayeredPerm
import Verif.Props.PermutedOld
import Verif.Props.PermutedOldExt
import Verif.Model.AntichainOld
import Verif.Props.AntichainOld
import Verif.Lemmas.Iso
import Verif.Props.Iso
import Verif.Lemmas.Dual
import Verif.Props.Dual
import Verif.Model.Generators
import Verif.Props.Generators
import Verif.Props.Convex
import Verif.Props.ProgramEmb
import Verif.Model.Repr
import Verif.Props.Repr
import Verif.Model.Horizon
import Verif.Props.Horizon
import Verif.Props.FloatCurved
import Verif.Model.FloatBH
import Verif.Props.FloatBH
import Verif.Model.Float32
import Verif.Props.Float32Round
import Verif.Props.Float32
import Verif.Props.Float32Sprinkle
import Verif.Props.Float32Exact
import Verif.Model.Ieee
import Verif.Props.Ieee
import Verif.Props.IeeeFlat
import Verif.Props.IeeeCurved
import Verif.Props.IeeeAgree
import Verif.Props.IeeeBH
import Verif.Model.Rows
import Verif.Props.Rows
import Verif.Props.RowsRelate
import Verif.Props.RowsCases
import Verif.Model.ReprSpacetime
import Verif.Props.ReprSpacetime
import Verif.Model.Float32Period
import Verif.Props.Float32Period
import Verif.Props.Float32Torus
import Verif.Props.Float32TorusExact
import Verif.Props.Float32Types
import Verif.Props.Float32Ball
import Verif.Model.Float32Curved
import Verif.Props.Float32CurvedErr
import Verif.Props.Float32Curved
import Verif.Props.Float32CurvedExact
import Verif.Props.Float32CurvedNum
import Verif.Props.Float32BH
import Verif.Model.SprinkleDim
import Verif.Props.SprinkleDim
import Verif.Props.RowsBroadcast
import Verif.Props.Symmetry
import Verif.Props.SymmetryMaps
import Verif.Props.SymmetryCurved
import Verif.Props.Units
import Verif.Props.UnitsVolume
import Verif.Props.Metrics
import Verif.Props.LightCone
import Verif.Props.Subspaces
import Verif.Props.MoveRegion
import Verif.Props.CreateSteps
import Verif.Props.CreateMore
import Verif.Props.MatrixPowers
import Verif.Props.PermSymmetry
import Verif.Props.PathBounds
import Verif.Props.MatrixChains
import Verif.Props.Triangle
