import Verif.Model.Main
import Verif.Props.Geometry
import Verif.Props.Color
import Verif.Props.Mir
import Verif.Props.Lost
import Verif.Props.Layout
import Verif.Props.Ports
import Verif.Props.RouteGraph
import Verif.Props.Search
import Verif.Props.Routing
import Verif.Props.Avoid
import Verif.Props.Reuse
import Verif.Props.PathData
import Verif.Props.Render
import Verif.Proofs.Grid
import Verif.Props.Drawing
import Verif.Spec.Grammar
import Verif.Proofs.Parser
import Verif.Props.Parser
import Verif.Spec.Lexical
import Verif.Proofs.Lexer
import Verif.Props.Lexer
import Verif.Props.RoundTrip
import Verif.Props.Bounds
import Verif.Props.Cli
import Verif.Props.Comments
import Verif.Model.F32
import Verif.Props.F32
import Verif.Model.F32Draw
import Verif.Proofs.F32Round
import Verif.Proofs.F32Geometry
import Verif.Proofs.F32Routing
import Verif.Props.F32Draw
import Verif.Spec.Picture
import Verif.Spec.Streets
import Verif.Proofs.Streets
import Verif.Props.Streets
import Verif.Props.Picture
import Verif.Model.Debug
import Verif.Props.Debug
import Verif.Props.DebugText
import Verif.Model.Machine
import Verif.Proofs.Machine
import Verif.Props.Machine
import Verif.Model.ParseErrors
import Verif.Proofs.ParseErrors
import Verif.Proofs.ParseAutomaton
import Verif.Proofs.Viable
import Verif.Props.ParseErrors
import Verif.Model.SvgText
import Verif.Spec.Xml
import Verif.Spec.Tidy
import Verif.Spec.Clearance
import Verif.Spec.Skipped
import Verif.Proofs.SvgText
import Verif.Props.SvgText
import Verif.Model.Reports
import Verif.Model.LexCombinators
import Verif.Model.ParsePolicy
import Verif.Spec.Reports
import Verif.Proofs.Reports
import Verif.Props.Reports
import Verif.Props.Rename
import Verif.Props.OneRow
import Verif.Proofs.Trips
import Verif.Proofs.ThreeTables
import Verif.Proofs.ThreeRoutes
import Verif.Proofs.GridPlaces
import Verif.Proofs.GridRoads
import Verif.Proofs.GridRoutes
import Verif.Proofs.GridColumns
import Verif.Proofs.GridLast
import Verif.Proofs.GridLeave
import Verif.Proofs.GridWays
import Verif.Proofs.GridBottom
import Verif.Props.ThreeTables
import Verif.Props.Grid
import Verif.Props.GridLast
import Verif.Props.RelationOrder
import Verif.Props.RouteLength
import Verif.Proofs.LongWay
import Verif.Props.LongWay
import Verif.Props.Effort
import Verif.Props.Program
import Verif.Model.Display
import Verif.Proofs.Display
import Verif.Props.Display
import Verif.Tests
import Verif.Proofs.SvgExact
import Verif.Props.SvgExact
import Verif.Props.Stability
import Verif.Model.Stdout
import Verif.Proofs.Prefix
import Verif.Props.Stdout
import Verif.Props.ReuseAlike
import Verif.Proofs.Determined
import Verif.Proofs.LexCombinators
import Verif.Proofs.ParsePolicy
import Verif.Props.Determined
import Verif.Props.Formatting
import Verif.Props.LexCombinators
import Verif.Props.Panics
import Verif.Props.ParsePolicy
import Verif.Props.Pieces
import Verif.Props.Corners
import Verif.Props.Tidy
import Verif.Props.Clearance
import Verif.Props.AddedRelation
import Verif.Props.Args
import Verif.Props.Documented
import Verif.Props.Ieee
import Verif.Props.Reading
import Verif.Model.IeeeDraw
import Verif.Proofs.IeeeNum
import Verif.Proofs.IeeeGeom
import Verif.Proofs.IeeePlace
import Verif.Proofs.IeeeRoute
import Verif.Proofs.IeeeRender
import Verif.Props.IeeeDraw
import Verif.Model.Storage
import Verif.Proofs.Storage
import Verif.Proofs.HoleHeap
import Verif.Proofs.StorageDoc
import Verif.Proofs.StorageRoute
import Verif.Proofs.StorageDraw
import Verif.Props.Storage
import Verif.Model.Whole
import Verif.Props.Whole
import Verif.Proofs.OutputSize
import Verif.Props.OutputSize
import Verif.Proofs.RowCrossing
import Verif.Props.OutputQuadratic
import Verif.Model.Steps
import Verif.Proofs.Steps
import Verif.Proofs.StepsBound
import Verif.Proofs.StepsLower
import Verif.Props.Steps
import Verif.Model.IeeeDebug
import Verif.Proofs.IeeeDebug
import Verif.Props.IeeeDebug
import Verif.Model.StepsWhole
import Verif.Proofs.StepsWhole
import Verif.Proofs.StepsWholeBound
import Verif.Props.StepsWhole
import Verif.Proofs.StepsLeast
import Verif.Props.StepsLeast
import Verif.Proofs.StepsWholeLeast
import Verif.Props.StepsWholeLeast
import Verif.Model.HashTable
import Verif.Proofs.HashTable
import Verif.Model.HashMaps
import Verif.Proofs.HashMaps
import Verif.Props.HashMaps
import Verif.Model.StepsHeap
import Verif.Proofs.StepsHeap
import Verif.Props.StepsHeap
import Verif.Spec.Blocks
import Verif.Props.Blocks
import Verif.Proofs.ReadingLower
import Verif.Spec.Neighbours
import Verif.Proofs.Loss
import Verif.Proofs.Neighbours
import Verif.Proofs.Beside
import Verif.Props.Neighbours
import Verif.Props.Beside
import Verif.Props.Rows
import Verif.Model.Builders
import Verif.Props.Builders
import Verif.Props.RowLength
import Verif.Proofs.Above
import Verif.Props.Above
import Verif.Proofs.Longest
import Verif.Props.Longest
import Verif.Props.Stay
import Verif.Props.Additions
import Verif.Props.StayTables
import Verif.Props.Meet
