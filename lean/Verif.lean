import Verif.Props.Words
import Verif.Props.Commands
import Verif.Props.Program
import Verif.Props.Fluent
import Verif.Props.Geometry
import Verif.Props.Contours
import Verif.Props.Wires
import Verif.Props.WireVectors
import Verif.Props.Tree
import Verif.Props.PocketWitness
import Verif.Props.PocketAreas
import Verif.Props.ProfileMachine
import Verif.Props.ProfilePath
import Verif.Props.Tabs
import Verif.Props.TabPath
import Verif.Props.TabWitness
import Verif.Props.TabRun
import Verif.Props.PocketRun
import Verif.Props.Drill
import Verif.Props.LinkedPolygon
import Verif.Props.ZigZag
import Verif.Props.ZigZagSeveral
import Verif.Props.ContourStrategy
import Verif.Props.Surface
import Verif.Props.Machining
import Verif.Props.Isolation
import Verif.Props.Visualize
import Verif.Props.Rapids
import Verif.Props.PocketCqPath
import Verif.Props.SurfaceBoundary
import Verif.Props.Scaling
import Verif.Props.CoverageExample
import Verif.Props.EndToEnd
import Verif.Props.Arcs
import Verif.Props.Binary64
import Verif.Props.Repr
import Verif.Props.SurfacePath
import Verif.Props.ProfileRun
import Verif.Spec.PocketTotal
import Verif.Props.PocketTotal
import Verif.Spec.TabTotal
import Verif.Props.TabTotal
import Verif.Spec.DepthOfCut
import Verif.Props.DepthOfCut
import Verif.Model.Placed
import Verif.Spec.Placement
import Verif.Props.Placement
import Verif.Spec.Gouge
import Verif.Props.Gouge
import Verif.Props.GougeExample
import Verif.Spec.Reach
import Verif.Props.Reach
import Verif.Props.ReachExample
import Verif.Spec.Circle
import Verif.Props.Circle
import Verif.Model.AllGroups
import Verif.Spec.ModeWords
import Verif.Props.ModeWords
import Verif.Props.PlungeFeed
import Verif.Proofs.Nudge
import Verif.Spec.IntEngine
import Verif.Props.IntEngine
import Verif.Props.IntEngineExample
import Verif.Spec.ProfileTotal
import Verif.Props.ProfileTotal
import Verif.Spec.ProfileClear
import Verif.Props.ProfileClear
import Verif.Props.TabClear
import Verif.Model.Mesh
import Verif.Spec.Mesh
import Verif.Props.Mesh
import Verif.Model.Show
import Verif.Props.Show
import Verif.Spec.SurfaceTotal
import Verif.Props.SurfaceTotal
import Verif.Props.SurfaceTool
import Verif.Spec.MeshPath
import Verif.Props.MeshPath
import Verif.Spec.SurfaceStep
import Verif.Props.SurfaceStep
import Verif.Model.Cache
import Verif.Spec.Cache
import Verif.Props.Cache
import Verif.Spec.ProfileStep
import Verif.Props.ProfileStep
import Verif.Spec.Shift
import Verif.Props.Shift
import Verif.Props.ShiftProfile
import Verif.Props.ShiftPocket
import Verif.Props.ShiftSurface
import Verif.Props.ShiftMachine
import Verif.Props.ShiftExample
import Verif.Spec.Feeds
import Verif.Props.Feeds
import Verif.Props.FeedsExample
import Verif.Spec.OnePass
import Verif.Props.OnePass
import Verif.Spec.Heights
import Verif.Props.Heights
import Verif.Props.HeightsExample
import Verif.Spec.AddsPasses
import Verif.Props.AddsPasses
import Verif.Props.AddsPassesExample
import Verif.Spec.Split
import Verif.Proofs.Forgetful
import Verif.Props.Split
import Verif.Props.Order
import Verif.Props.OrderExample
import Verif.Model.Scan64
import Verif.Spec.Scan64
import Verif.Props.Scan64
import Verif.Props.Sample64
import Verif.Model.Tabs64
import Verif.Spec.Tabs64
import Verif.Props.Tabs64
import Verif.Props.Tabs64Wire
import Verif.Model.Profile64
import Verif.Spec.Profile64
import Verif.Props.Profile64
import Verif.Model.EdgeTabs64
import Verif.Spec.EdgeTabs64
import Verif.Props.EdgeTabs64
import Verif.Spec.Units
import Verif.Props.Units
import Verif.Props.UnitsProfile
import Verif.Props.UnitsMachine
import Verif.Props.UnitsExample
import Verif.Spec.Solid
import Verif.Props.Solid
import Verif.Props.SolidExample
import Verif.Spec.UnitsPocket
import Verif.Props.UnitsPocket
import Verif.Props.UnitsPocketExample
import Verif.Spec.UnitsSurface
import Verif.Props.UnitsSurface
import Verif.Props.UnitsSurfaceExample
import Verif.Spec.Turn
import Verif.Props.Turn
import Verif.Props.TurnProfile
import Verif.Props.TurnPocket
import Verif.Props.TurnMachine
import Verif.Props.TurnPlanar
import Verif.Props.TurnExample
import Verif.Props.ProfileExample
import Verif.Spec.Drill64
import Verif.Model.Drill64
import Verif.Props.Drill64
import Verif.Spec.Contour64
import Verif.Model.Routers64
import Verif.Props.Near64
import Verif.Props.Contours64
import Verif.Spec.Pocket64
import Verif.Model.Pocket64
import Verif.Props.Pocket64
import Verif.Props.Pocket64Example
import Verif.Props.DrillMachine64
import Verif.Props.Gouge64
import Verif.Props.Gouge64Example
import Verif.Props.Instances
import Verif.Props.DepthOfCut64
import Verif.Props.DepthOfCut64Example
import Verif.Props.ProfileRun64
import Verif.Props.ProfileClear64
import Verif.Props.Instances64
import Verif.Props.ZigZag64
import Verif.Props.Surface64
import Verif.Props.SurfaceStep64
import Verif.Props.SurfaceReach64
import Verif.Props.TabRun64
import Verif.Props.TabClear64
import Verif.Props.TabInstances64
import Verif.Props.TabStep
import Verif.Props.TabStep64
import Verif.Props.Mesh64
import Verif.Props.SurfaceTotal64
import Verif.Props.MeshTotal64
import Verif.Props.SolidMore
import Verif.Spec.Library64
import Verif.Props.Solid64
import Verif.Props.Solid64Example
import Verif.Props.SolidPocket64
import Verif.Props.SolidPocket64Example
