import Verif.Lemmas.AffineMaps
import Verif.Lemmas.Agreement
import Verif.Lemmas.AgreementBoxes
import Verif.Lemmas.Angle
import Verif.Lemmas.AngleNormalize
import Verif.Lemmas.ArcLength
import Verif.Lemmas.AreaSign
import Verif.Lemmas.Between
import Verif.Lemmas.Box
import Verif.Lemmas.Bresenham
import Verif.Lemmas.BspSelector
import Verif.Lemmas.Capsule
import Verif.Lemmas.CohenSutherland
import Verif.Lemmas.CollinearSegments
import Verif.Lemmas.Colors
import Verif.Lemmas.Composite
import Verif.Lemmas.CompoundAssign
import Verif.Lemmas.Compress
import Verif.Lemmas.Congruent
import Verif.Lemmas.Constants
import Verif.Lemmas.Convex
import Verif.Lemmas.ConvexBorder
import Verif.Lemmas.ConvexCross
import Verif.Lemmas.ConvexFound
import Verif.Lemmas.ConvexParity
import Verif.Lemmas.ConvexProper
import Verif.Lemmas.ConvexTouch
import Verif.Lemmas.ConvexTrace
import Verif.Lemmas.ConvexVisit
import Verif.Lemmas.ConvexWalk
import Verif.Lemmas.Curvature
import Verif.Lemmas.Determinant
import Verif.Lemmas.Distance
import Verif.Lemmas.EberlyDistance
import Verif.Lemmas.EdgeList
import Verif.Lemmas.EdgeListComponents
import Verif.Lemmas.EdgeListSequences
import Verif.Lemmas.EdgeListTrace
import Verif.Lemmas.Estimate
import Verif.Lemmas.EstimateNear
import Verif.Lemmas.ExactPredicates
import Verif.Lemmas.ExactProduct
import Verif.Lemmas.ExactSum
import Verif.Lemmas.Expansion
import Verif.Lemmas.ExpansionSum
import Verif.Lemmas.Expressions
import Verif.Lemmas.ExpressionsProduct
import Verif.Lemmas.ExpressionsSound
import Verif.Lemmas.ExpressionsTensor
import Verif.Lemmas.FastExpansion
import Verif.Lemmas.FastSum
import Verif.Lemmas.FastSumRun
import Verif.Lemmas.FastVoxel
import Verif.Lemmas.FixedPoint
import Verif.Lemmas.FixedPointMixed
import Verif.Lemmas.FloatGrid
import Verif.Lemmas.FloodFill
import Verif.Lemmas.GrahamLines
import Verif.Lemmas.GrahamLowest
import Verif.Lemmas.GrahamScan
import Verif.Lemmas.Grid
import Verif.Lemmas.Homogeneous
import Verif.Lemmas.InPlace
import Verif.Lemmas.Incircle
import Verif.Lemmas.IncircleSums
import Verif.Lemmas.Insphere
import Verif.Lemmas.InsphereForms
import Verif.Lemmas.InspherePredicate
import Verif.Lemmas.IntegerSequence
import Verif.Lemmas.Interpolation
import Verif.Lemmas.KdTree
import Verif.Lemmas.Lexicographic
import Verif.Lemmas.Line
import Verif.Lemmas.LineIntersection
import Verif.Lemmas.LinearSum
import Verif.Lemmas.Lup
import Verif.Lemmas.Memoize
import Verif.Lemmas.Mesh
import Verif.Lemmas.MeshAdjacency
import Verif.Lemmas.MeshCache
import Verif.Lemmas.MeshUniform
import Verif.Lemmas.MixedTypes
import Verif.Lemmas.MotionPolylines
import Verif.Lemmas.MotionSegments
import Verif.Lemmas.MovingAxes
import Verif.Lemmas.MovingSphere
import Verif.Lemmas.MovingSphereBox
import Verif.Lemmas.MovingSphereObb
import Verif.Lemmas.MovingSphereSegment
import Verif.Lemmas.MovingSpheres
import Verif.Lemmas.NodeBsp
import Verif.Lemmas.NodeBspLocate
import Verif.Lemmas.NodeBspPaint
import Verif.Lemmas.NodeBspScore
import Verif.Lemmas.NodeBspTri
import Verif.Lemmas.Obb
import Verif.Lemmas.Orient2d
import Verif.Lemmas.Orient3d
import Verif.Lemmas.Orient3dSums
import Verif.Lemmas.Orientation
import Verif.Lemmas.OrientationTraversal
import Verif.Lemmas.OrientationTraversal2
import Verif.Lemmas.OrientationTraversal3
import Verif.Lemmas.OrientedIntersection
import Verif.Lemmas.PiBounds
import Verif.Lemmas.PiCalculator
import Verif.Lemmas.Plane
import Verif.Lemmas.PointInPolygon
import Verif.Lemmas.PointSequence
import Verif.Lemmas.PolarTransform
import Verif.Lemmas.Policy
import Verif.Lemmas.PolygonBox
import Verif.Lemmas.PolygonContainment
import Verif.Lemmas.PolygonHoles
import Verif.Lemmas.PolygonSimple
import Verif.Lemmas.PolylineClip
import Verif.Lemmas.PolylineCut
import Verif.Lemmas.PolylineDistance
import Verif.Lemmas.PolylineIntersection
import Verif.Lemmas.PolylineOffset
import Verif.Lemmas.PolylinePieces
import Verif.Lemmas.PolylineSide
import Verif.Lemmas.PolylineSplit
import Verif.Lemmas.PredicatesRandom
import Verif.Lemmas.PrivateAllocator
import Verif.Lemmas.RamerDouglasPeucker
import Verif.Lemmas.RandomIndex
import Verif.Lemmas.RayIntersection
import Verif.Lemmas.ReferenceFrame
import Verif.Lemmas.RegionArea
import Verif.Lemmas.RegionCentroid
import Verif.Lemmas.RemoveCollinear
import Verif.Lemmas.Renumber
import Verif.Lemmas.RigidMotion
import Verif.Lemmas.RootDistance
import Verif.Lemmas.Rotation
import Verif.Lemmas.RoundAcc
import Verif.Lemmas.RoundBounds
import Verif.Lemmas.Rounded
import Verif.Lemmas.Rounding
import Verif.Lemmas.RunningStat
import Verif.Lemmas.ScaleExpansion
import Verif.Lemmas.SegmentIntersection
import Verif.Lemmas.SegmentIntersection3
import Verif.Lemmas.SegmentPolygon
import Verif.Lemmas.SegmentRange
import Verif.Lemmas.SegmentTriangle
import Verif.Lemmas.SegmentTriangle2
import Verif.Lemmas.SelfIntersection
import Verif.Lemmas.SeparatingAxis
import Verif.Lemmas.SequenceEqual
import Verif.Lemmas.SimpleArea
import Verif.Lemmas.SimpleBorder
import Verif.Lemmas.SolidBsp
import Verif.Lemmas.SolidBspDist
import Verif.Lemmas.SolidBspPoint
import Verif.Lemmas.SolidBspRay
import Verif.Lemmas.SolidBspReal
import Verif.Lemmas.SolidBspRect
import Verif.Lemmas.Sphere
import Verif.Lemmas.SphereHits
import Verif.Lemmas.SplitSide
import Verif.Lemmas.Subsequence
import Verif.Lemmas.SweepCompare
import Verif.Lemmas.SweepEvents
import Verif.Lemmas.SweepInvariant
import Verif.Lemmas.SweepOrder
import Verif.Lemmas.SweepQueue
import Verif.Lemmas.SweepRun
import Verif.Lemmas.SweepStep
import Verif.Lemmas.TaggedQuantity
import Verif.Lemmas.TriangleBox
import Verif.Lemmas.TupleCompare
import Verif.Lemmas.TurnAngle
import Verif.Lemmas.Vec
import Verif.Lemmas.Vector
import Verif.Lemmas.Views
import Verif.Lemmas.VisibleCone
import Verif.Lemmas.VisibleExamples
import Verif.Lemmas.VisibleFan
import Verif.Lemmas.VisibleLoop
import Verif.Lemmas.VisibleMesh
import Verif.Lemmas.VisibleSearch
import Verif.Lemmas.VisibleStart
import Verif.Lemmas.VisibleStep
import Verif.Model.AngleNormalize
import Verif.Model.Basic
import Verif.Model.Basic3
import Verif.Model.BentleyOttmann
import Verif.Model.Box
import Verif.Model.Bresenham
import Verif.Model.CohenSutherland
import Verif.Model.CollinearSegments
import Verif.Model.Colors
import Verif.Model.Composite
import Verif.Model.CompoundAssign
import Verif.Model.Congruent
import Verif.Model.Constants
import Verif.Model.Curvature
import Verif.Model.Determinant
import Verif.Model.Distance
import Verif.Model.EberlyDistance
import Verif.Model.EdgeList
import Verif.Model.Expressions
import Verif.Model.FastVoxel
import Verif.Model.FixedPoint
import Verif.Model.FixedPointFunctions
import Verif.Model.FixedPointMixed
import Verif.Model.FloodFill
import Verif.Model.GrahamScan
import Verif.Model.Grid
import Verif.Model.Homogeneous
import Verif.Model.InPlace
import Verif.Model.IntegerSequence
import Verif.Model.Interpolation
import Verif.Model.Interval
import Verif.Model.KdTree
import Verif.Model.Line
import Verif.Model.LineCoordinate
import Verif.Model.Lup
import Verif.Model.MappedPolicy
import Verif.Model.Memoize
import Verif.Model.Mesh
import Verif.Model.MixedTypes
import Verif.Model.MovingSphere
import Verif.Model.MovingSphereObb
import Verif.Model.NodeBsp
import Verif.Model.Obb
import Verif.Model.Orientation
import Verif.Model.OrientationTraversal
import Verif.Model.PiCalculator
import Verif.Model.Plane
import Verif.Model.PointInPolygon
import Verif.Model.PointSequence
import Verif.Model.PolarTransform
import Verif.Model.Policy
import Verif.Model.PolygonContainment
import Verif.Model.PolygonHoles
import Verif.Model.PolygonIntersection
import Verif.Model.PolygonSimple
import Verif.Model.PolylineClip
import Verif.Model.PolylineCut
import Verif.Model.PolylineDistance
import Verif.Model.PolylineIntersection
import Verif.Model.PolylineOffset
import Verif.Model.PolylineSide
import Verif.Model.PolylineSplit
import Verif.Model.Predicates
import Verif.Model.Predicates3
import Verif.Model.PredicatesAdapt
import Verif.Model.PredicatesCircle
import Verif.Model.PredicatesRandom
import Verif.Model.PredicatesSphere
import Verif.Model.PrivateAllocator
import Verif.Model.RamerDouglasPeucker
import Verif.Model.RandomIndex
import Verif.Model.RayIntersection
import Verif.Model.ReferenceFrame
import Verif.Model.RemoveCollinear
import Verif.Model.RootDistance
import Verif.Model.Rotation
import Verif.Model.Rounded
import Verif.Model.RunningStat
import Verif.Model.SegmentIntersection
import Verif.Model.SegmentIntersection3
import Verif.Model.SegmentRange
import Verif.Model.SegmentTriangle
import Verif.Model.SelfIntersection
import Verif.Model.SeparatingAxis
import Verif.Model.SequenceEqual
import Verif.Model.SolidBsp
import Verif.Model.Sphere
import Verif.Model.SphereHits
import Verif.Model.Subsequence
import Verif.Model.TaggedQuantity
import Verif.Model.TupleCompare
import Verif.Model.Vector
import Verif.Model.Views
import Verif.Model.VisibleSearch
import Verif.Props.Agreement
import Verif.Props.AgreementBoxes
import Verif.Props.AgreementTriangles
import Verif.Props.Angle
import Verif.Props.AngleNormalize
import Verif.Props.ArcLength
import Verif.Props.BentleyOttmann
import Verif.Props.Between
import Verif.Props.Box
import Verif.Props.BoxDistance
import Verif.Props.BoxIntersection
import Verif.Props.Bresenham
import Verif.Props.BspSelector
import Verif.Props.Capsule
import Verif.Props.CohenSutherland
import Verif.Props.CollinearSegments
import Verif.Props.Colors
import Verif.Props.Composite
import Verif.Props.CompoundAssign
import Verif.Props.ConcaveVertex
import Verif.Props.Congruent
import Verif.Props.Constants
import Verif.Props.Convex
import Verif.Props.ConvexParity
import Verif.Props.ConvexWalk
import Verif.Props.Curvature
import Verif.Props.Determinant
import Verif.Props.Distance
import Verif.Props.EberlyDistance
import Verif.Props.EdgeList
import Verif.Props.ExactArithmetic
import Verif.Props.ExactPredicates
import Verif.Props.Expansions
import Verif.Props.Expressions
import Verif.Props.FastVoxel
import Verif.Props.FixedPoint
import Verif.Props.FixedPointFunctions
import Verif.Props.FixedPointMixed
import Verif.Props.FloodFill
import Verif.Props.GrahamScan
import Verif.Props.Grid
import Verif.Props.GridMap
import Verif.Props.Homogeneous
import Verif.Props.InPlace
import Verif.Props.IncirclePredicate
import Verif.Props.InspherePredicate
import Verif.Props.IntegerSequence
import Verif.Props.Interpolation
import Verif.Props.Interval
import Verif.Props.KdTree
import Verif.Props.Lexicographic
import Verif.Props.Line
import Verif.Props.LineCoordinate
import Verif.Props.LineIntersection
import Verif.Props.Lup
import Verif.Props.MappedPolicy
import Verif.Props.Memoize
import Verif.Props.Mesh
import Verif.Props.MeshAdjacency
import Verif.Props.MeshFind
import Verif.Props.MeshUniform
import Verif.Props.MixedTypes
import Verif.Props.MotionPolylines
import Verif.Props.MotionSegments
import Verif.Props.MovingSphere
import Verif.Props.MovingSphereObb
import Verif.Props.MovingSpheres
import Verif.Props.NodeBsp
import Verif.Props.Obb
import Verif.Props.Orient2dPredicate
import Verif.Props.Orient3dPredicate
import Verif.Props.Orientation
import Verif.Props.OrientationTraversal
import Verif.Props.OrientedIntersection
import Verif.Props.PiCalculator
import Verif.Props.Plane
import Verif.Props.PointInPolygon
import Verif.Props.PointSequence
import Verif.Props.PolarTransform
import Verif.Props.Policy
import Verif.Props.PolygonBox
import Verif.Props.PolygonContainment
import Verif.Props.PolygonHoles
import Verif.Props.PolygonSimple
import Verif.Props.PolylineClip
import Verif.Props.PolylineCut
import Verif.Props.PolylineDistance
import Verif.Props.PolylineIntersection
import Verif.Props.PolylineOffset
import Verif.Props.PolylineSide
import Verif.Props.PolylineSplit
import Verif.Props.PredicatesRandom
import Verif.Props.PrivateAllocator
import Verif.Props.RamerDouglasPeucker
import Verif.Props.RandomIndex
import Verif.Props.RayIntersection
import Verif.Props.ReferenceFrame
import Verif.Props.RegionArea
import Verif.Props.RemoveCollinear
import Verif.Props.Renumber
import Verif.Props.RigidMotion
import Verif.Props.RootDistance
import Verif.Props.Rotation
import Verif.Props.RoundedDistance
import Verif.Props.RoundedGrid
import Verif.Props.RoundedOrientation
import Verif.Props.RunningStat
import Verif.Props.ScaledExpansions
import Verif.Props.SegmentIntersection
import Verif.Props.SegmentIntersection3
import Verif.Props.SegmentPolygon
import Verif.Props.SegmentPolylineDistance
import Verif.Props.SegmentRange
import Verif.Props.SegmentTriangle
import Verif.Props.SelfIntersection
import Verif.Props.SeparatingAxis
import Verif.Props.SequenceEqual
import Verif.Props.SimpleBorder
import Verif.Props.SolidBsp
import Verif.Props.Sphere
import Verif.Props.SphereHits
import Verif.Props.SplitSide
import Verif.Props.Subsequence
import Verif.Props.TaggedQuantity
import Verif.Props.TriangleBox
import Verif.Props.TupleCompare
import Verif.Props.Vector
import Verif.Props.Views
import Verif.Props.VisibleSearch
import Verif.Spec.AffineMaps
import Verif.Spec.Angle
import Verif.Spec.BentleyOttmann
import Verif.Spec.Box
import Verif.Spec.BoxAsObb
import Verif.Spec.BspSelector
import Verif.Spec.CellPath
import Verif.Spec.ClosestReport
import Verif.Spec.CollinearSegments
import Verif.Spec.Colors
import Verif.Spec.Composite
import Verif.Spec.Constants
import Verif.Spec.Convex
import Verif.Spec.Curvature
import Verif.Spec.Determinant
import Verif.Spec.EdgeList
import Verif.Spec.ExactPredicates
import Verif.Spec.Expansion
import Verif.Spec.Expressions
import Verif.Spec.FixedPoint
import Verif.Spec.FixedPointFunctions
import Verif.Spec.FixedPointMixed
import Verif.Spec.FloodFill
import Verif.Spec.Geometry
import Verif.Spec.GrahamScan
import Verif.Spec.Grid
import Verif.Spec.Homogeneous
import Verif.Spec.InPlace
import Verif.Spec.InspherePredicate
import Verif.Spec.Intersection
import Verif.Spec.Interval
import Verif.Spec.KdTree
import Verif.Spec.Lexicographic
import Verif.Spec.Line
import Verif.Spec.Lup
import Verif.Spec.MappedPolicy
import Verif.Spec.Memoize
import Verif.Spec.Mesh
import Verif.Spec.MixedTypes
import Verif.Spec.Motion
import Verif.Spec.NodeBsp
import Verif.Spec.Obb
import Verif.Spec.Order
import Verif.Spec.Plane
import Verif.Spec.PointInPolygon
import Verif.Spec.PointSequence
import Verif.Spec.Policy
import Verif.Spec.PolygonContainment
import Verif.Spec.PolygonHoles
import Verif.Spec.PolygonIntersection
import Verif.Spec.PolygonSimple
import Verif.Spec.Polyline
import Verif.Spec.PolylineCut
import Verif.Spec.PolylineIntersection
import Verif.Spec.PolylineOffset
import Verif.Spec.PolylineSide
import Verif.Spec.PolylineSplit
import Verif.Spec.PredicatesRandom
import Verif.Spec.PriorityQueue
import Verif.Spec.PrivateAllocator
import Verif.Spec.ReferenceFrame
import Verif.Spec.RemoveCollinear
import Verif.Spec.Renumber
import Verif.Spec.Rounding
import Verif.Spec.RunningStat
import Verif.Spec.SegmentRange
import Verif.Spec.SelfIntersection
import Verif.Spec.SeparatingAxis
import Verif.Spec.SimpleBorder
import Verif.Spec.SolidBsp
import Verif.Spec.Sphere
import Verif.Spec.SphereHits
import Verif.Spec.SplitSide
import Verif.Spec.Subsequence
import Verif.Spec.TaggedQuantity
import Verif.Spec.TupleCompare
import Verif.Spec.Vector
import Verif.Spec.Views
import Verif.Spec.VisibleSearch
