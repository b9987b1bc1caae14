import Verif.Lemmas.AddBars
import Verif.Lemmas.Affine
import Verif.Lemmas.Assemble
import Verif.Lemmas.Bars
import Verif.Lemmas.Body
import Verif.Lemmas.BodyFlip
import Verif.Lemmas.BodyLimit
import Verif.Lemmas.Bounds
import Verif.Lemmas.Collect
import Verif.Lemmas.Converge
import Verif.Lemmas.Convex
import Verif.Lemmas.ElemGeom
import Verif.Lemmas.Element
import Verif.Lemmas.Extend
import Verif.Lemmas.Fem
import Verif.Lemmas.Forms
import Verif.Lemmas.GradLimit
import Verif.Lemmas.Green
import Verif.Lemmas.Inertia
import Verif.Lemmas.Init
import Verif.Lemmas.Integrals
import Verif.Lemmas.LayerShear
import Verif.Lemmas.Library
import Verif.Lemmas.Outline
import Verif.Lemmas.OutlinePoly
import Verif.Lemmas.Paths
import Verif.Lemmas.Perturb
import Verif.Lemmas.Pieces
import Verif.Lemmas.PlasticLimit
import Verif.Lemmas.Poincare
import Verif.Lemmas.Prandtl
import Verif.Lemmas.Pres
import Verif.Lemmas.Quad
import Verif.Lemmas.QuadError
import Verif.Lemmas.Recovery
import Verif.Lemmas.Rects
import Verif.Lemmas.Refine
import Verif.Lemmas.Relabel
import Verif.Lemmas.Rigid
import Verif.Lemmas.Rings
import Verif.Lemmas.Round
import Verif.Lemmas.Runs
import Verif.Lemmas.RunsWarp
import Verif.Lemmas.ShearFlow
import Verif.Lemmas.ShearForms
import Verif.Lemmas.ShearParabola
import Verif.Lemmas.Shift
import Verif.Lemmas.ShiftStress
import Verif.Lemmas.Similar
import Verif.Lemmas.Slices
import Verif.Lemmas.Slopes
import Verif.Lemmas.Soft
import Verif.Lemmas.Split
import Verif.Lemmas.Store
import Verif.Lemmas.StressFunction
import Verif.Lemmas.StressL2
import Verif.Lemmas.StressSetup
import Verif.Lemmas.StressTurn
import Verif.Lemmas.Sums
import Verif.Lemmas.Taper
import Verif.Lemmas.Text
import Verif.Lemmas.Tied
import Verif.Lemmas.TriInt
import Verif.Lemmas.VenantUnique
import Verif.Lemmas.Walls
import Verif.Lemmas.WeakLimit
import Verif.Lemmas.Winding
import Verif.Lemmas.WindingMap
import Verif.Model.AddBars
import Verif.Model.Analyses
import Verif.Model.AxisPlot
import Verif.Model.Basic
import Verif.Model.Bisect
import Verif.Model.Concrete
import Verif.Model.Fea
import Verif.Model.Fibre
import Verif.Model.GeomPlot
import Verif.Model.Geometry
import Verif.Model.GetterApi
import Verif.Model.Hat1
import Verif.Model.Library
import Verif.Model.LibraryMore
import Verif.Model.Mohr
import Verif.Model.Network
import Verif.Model.Offset
import Verif.Model.Outline
import Verif.Model.Overlap
import Verif.Model.Perimeter
import Verif.Model.Plastic
import Verif.Model.Recovery
import Verif.Model.Remesh
import Verif.Model.Section
import Verif.Model.SectionPlot
import Verif.Model.SetOps
import Verif.Model.Solver
import Verif.Model.Store
import Verif.Model.Stress
import Verif.Model.StressPlot
import Verif.Model.StressPost
import Verif.Model.Tables
import Verif.Model.Walls
import Verif.Model.Warping
import Verif.Props.AddBars
import Verif.Props.AddBarsExample
import Verif.Props.Align
import Verif.Props.AxisPlot
import Verif.Props.BeamPoints
import Verif.Props.BeamStress
import Verif.Props.Body
import Verif.Props.BodyGrid
import Verif.Props.BodyWarp
import Verif.Props.BodyWarpGrid
import Verif.Props.Circle
import Verif.Props.Clt
import Verif.Props.ConcreteBeams
import Verif.Props.ConcreteCores
import Verif.Props.ConcreteGap
import Verif.Props.ConcreteWalls
import Verif.Props.Construct
import Verif.Props.Converge
import Verif.Props.ConvergeExample
import Verif.Props.ConvergeRect
import Verif.Props.ConvergeTriangle
import Verif.Props.Equilibrium
import Verif.Props.Exact
import Verif.Props.Example
import Verif.Props.Extend
import Verif.Props.ExtendExample
import Verif.Props.Extrapolate
import Verif.Props.Facets
import Verif.Props.Fibre
import Verif.Props.FibreCells
import Verif.Props.ForceCentre
import Verif.Props.FromPoints
import Verif.Props.GeomPlot
import Verif.Props.Getters
import Verif.Props.Girders
import Verif.Props.GridMesh
import Verif.Props.Hat1
import Verif.Props.History
import Verif.Props.Import
import Verif.Props.Inertia
import Verif.Props.LayerCentre
import Verif.Props.LayerShear
import Verif.Props.Library
import Verif.Props.LibraryNastran
import Verif.Props.LibrarySteel
import Verif.Props.MeshRequest
import Verif.Props.Mohr
import Verif.Props.MovePoints
import Verif.Props.Moved
import Verif.Props.Network
import Verif.Props.Offset
import Verif.Props.Order
import Verif.Props.Outline
import Verif.Props.OutlineExample
import Verif.Props.OutlineGeometry
import Verif.Props.OutlineMesh
import Verif.Props.OutlineRound
import Verif.Props.Overlap
import Verif.Props.Perimeter
import Verif.Props.Plastic
import Verif.Props.PlasticExample
import Verif.Props.PlasticLimit
import Verif.Props.Points
import Verif.Props.Quadrature
import Verif.Props.Recovery
import Verif.Props.RecoveryExact
import Verif.Props.RectExample
import Verif.Props.RectPlastic
import Verif.Props.RectShapes
import Verif.Props.Rects
import Verif.Props.Reference
import Verif.Props.Refine
import Verif.Props.RefineExample
import Verif.Props.Relabel
import Verif.Props.Remesh
import Verif.Props.Rigid
import Verif.Props.RoundRecovery
import Verif.Props.Rounding
import Verif.Props.SaintVenant
import Verif.Props.SectionPlot
import Verif.Props.SetOps
import Verif.Props.Shape
import Verif.Props.ShapeFactor
import Verif.Props.Shear
import Verif.Props.ShearCentre
import Verif.Props.ShearEnergy
import Verif.Props.ShearExample
import Verif.Props.ShearFine
import Verif.Props.ShearFlow
import Verif.Props.ShearMixed
import Verif.Props.ShearNegative
import Verif.Props.ShearParabola
import Verif.Props.ShearShapes
import Verif.Props.ShearSlices
import Verif.Props.SlabBody
import Verif.Props.SlabEnergy
import Verif.Props.SlabGrid
import Verif.Props.Slopes
import Verif.Props.Split
import Verif.Props.StressDict
import Verif.Props.StressFunction
import Verif.Props.StressLimit
import Verif.Props.StressLimitGrid
import Verif.Props.StressPlot
import Verif.Props.StressState
import Verif.Props.StressTurn
import Verif.Props.SuperT
import Verif.Props.Superpose
import Verif.Props.SymmetricBody
import Verif.Props.Tables
import Verif.Props.Torsion
import Verif.Props.TorsionBound
import Verif.Props.TorsionExample
import Verif.Props.TorsionRects
import Verif.Props.TorsionRound
import Verif.Props.TorsionRoundExample
import Verif.Props.TorsionShapes
import Verif.Props.Transform
import Verif.Props.Tubes
import Verif.Props.TwistCentre
import Verif.Props.TwistSlab
import Verif.Props.Walls
import Verif.Props.WallsExample
import Verif.Props.WarpError
import Verif.Props.WarpMoment
import Verif.Props.WarpMore
import Verif.Props.WarpTurn
import Verif.Spec.AddBars
import Verif.Spec.Align
import Verif.Spec.AxisPlot
import Verif.Spec.Beam
import Verif.Spec.BeamStress
import Verif.Spec.Body
import Verif.Spec.Concrete
import Verif.Spec.Converge
import Verif.Spec.Extend
import Verif.Spec.Fem
import Verif.Spec.Fibre
import Verif.Spec.Field
import Verif.Spec.GeomPlot
import Verif.Spec.Getters
import Verif.Spec.History
import Verif.Spec.Import
import Verif.Spec.LayerShear
import Verif.Spec.Library
import Verif.Spec.Mesh
import Verif.Spec.MeshData
import Verif.Spec.MeshOutline
import Verif.Spec.Mohr
import Verif.Spec.Moved
import Verif.Spec.Offset
import Verif.Spec.Outline
import Verif.Spec.OutlinePoly
import Verif.Spec.Overlap
import Verif.Spec.Perimeter
import Verif.Spec.PlasticLimit
import Verif.Spec.Poly
import Verif.Spec.Recovery
import Verif.Spec.Rects
import Verif.Spec.Refine
import Verif.Spec.Region
import Verif.Spec.Relabel
import Verif.Spec.Rounding
import Verif.Spec.Rule
import Verif.Spec.SaintVenant
import Verif.Spec.SectionPlot
import Verif.Spec.SetOps
import Verif.Spec.Shapes
import Verif.Spec.ShearFlow
import Verif.Spec.ShearParabola
import Verif.Spec.Slices
import Verif.Spec.Slopes
import Verif.Spec.Stress
import Verif.Spec.StressDict
import Verif.Spec.StressFunction
import Verif.Spec.StressLimit
import Verif.Spec.StressPlot
import Verif.Spec.StressTurn
import Verif.Spec.Tables
import Verif.Spec.Transform
import Verif.Spec.Twist
import Verif.Spec.Walls
