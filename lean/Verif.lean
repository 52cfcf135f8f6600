import Verif.Base.Binary64
import Verif.Base.Flt
import Verif.Base.FltRound
import Verif.Base.FltTrig
import Verif.Base.RealFlt
import Verif.Base.Res
import Verif.Lemmas.Binary64
import Verif.Lemmas.CCW
import Verif.Lemmas.CoordinateList
import Verif.Lemmas.DDDiv
import Verif.Lemmas.DDInt
import Verif.Lemmas.DDMul
import Verif.Lemmas.DDSign
import Verif.Lemmas.DDSqrt
import Verif.Lemmas.DDSum
import Verif.Lemmas.Doubles
import Verif.Lemmas.Envelope
import Verif.Lemmas.Ext
import Verif.Lemmas.Flt
import Verif.Lemmas.Geometries
import Verif.Lemmas.Jordan
import Verif.Lemmas.JordanArea
import Verif.Lemmas.JordanMoment
import Verif.Lemmas.Loop
import Verif.Lemmas.Mirror
import Verif.Lemmas.Plane
import Verif.Lemmas.SegmentGaps
import Verif.Lemmas.Sequences
import Verif.Lemmas.TwoProd
import Verif.Lemmas.TwoSum
import Verif.Model.Angle
import Verif.Model.Centroid
import Verif.Model.Coordinate
import Verif.Model.CoordinateArrays
import Verif.Model.CoordinateList
import Verif.Model.Coordinates
import Verif.Model.DD
import Verif.Model.DDConstants
import Verif.Model.Distance
import Verif.Model.Distance3D
import Verif.Model.Envelope
import Verif.Model.Geometries
import Verif.Model.GeometryFactory
import Verif.Model.Intersection
import Verif.Model.IntersectionMatrix
import Verif.Model.Kinds
import Verif.Model.LineIntersector
import Verif.Model.LineSegment
import Verif.Model.MathUtil
import Verif.Model.Matrix
import Verif.Model.OctagonalEnvelope
import Verif.Model.Orientation
import Verif.Model.PackedBase
import Verif.Model.Position
import Verif.Model.PrecisionDigits
import Verif.Model.PrecisionModel
import Verif.Model.Quadrant
import Verif.Model.RingAlgorithms
import Verif.Model.SequenceFactories
import Verif.Model.Sequences
import Verif.Model.Texts
import Verif.Model.Triangle
import Verif.Model.TriangleObject
import Verif.Model.Vectors
import Verif.Props.Affine
import Verif.Props.Agree
import Verif.Props.Angle
import Verif.Props.Angle64
import Verif.Props.AngleDoubles
import Verif.Props.Area
import Verif.Props.Area64
import Verif.Props.ArrayFilters
import Verif.Props.ArrayScroll
import Verif.Props.Boxes
import Verif.Props.CCW
import Verif.Props.CCWMotion
import Verif.Props.CapRefine
import Verif.Props.Centroid
import Verif.Props.Centroid64
import Verif.Props.CentroidDoubles
import Verif.Props.CentroidMore
import Verif.Props.CentroidSimple
import Verif.Props.CircumcentreDD64
import Verif.Props.CircumcentreDoubles
import Verif.Props.ClosestDoubles
import Verif.Props.Constructors
import Verif.Props.ConvexRings
import Verif.Props.ConvexShapes
import Verif.Props.Coordinate
import Verif.Props.CoordinateArrays
import Verif.Props.CoordinateData
import Verif.Props.CoordinateList
import Verif.Props.CrossingCounter
import Verif.Props.CrossingDoubles
import Verif.Props.DD
import Verif.Props.DDAccuracy
import Verif.Props.DDConstants
import Verif.Props.DDDet
import Verif.Props.DDDiv
import Verif.Props.DDExact
import Verif.Props.DDPow
import Verif.Props.DDRound
import Verif.Props.DDSqrt
import Verif.Props.DDSquare
import Verif.Props.DDSum
import Verif.Props.Densify
import Verif.Props.Distance
import Verif.Props.Distance3D
import Verif.Props.Distance3DExact
import Verif.Props.Distance64
import Verif.Props.DistanceDoubles
import Verif.Props.Envelope
import Verif.Props.Envelope64
import Verif.Props.EnvelopeExact
import Verif.Props.EnvelopeHistory
import Verif.Props.EqualsExact
import Verif.Props.Exceptions
import Verif.Props.Exceptions2
import Verif.Props.Exceptions3
import Verif.Props.Factory
import Verif.Props.Filter
import Verif.Props.Geometries
import Verif.Props.GeometryCompare
import Verif.Props.GridPredicates
import Verif.Props.HeightsDoubles
import Verif.Props.Homogeneous64
import Verif.Props.Intersection
import Verif.Props.Intersection64
import Verif.Props.IntersectionMatrix
import Verif.Props.IntersectionPatterns
import Verif.Props.IntersectorAny
import Verif.Props.IntersectorHeights
import Verif.Props.IntersectorReuse
import Verif.Props.Joined
import Verif.Props.Kinds
import Verif.Props.Length
import Verif.Props.Length64
import Verif.Props.LineEnds
import Verif.Props.LineIntersector
import Verif.Props.LineSegment
import Verif.Props.LineSegmentReal
import Verif.Props.LineString
import Verif.Props.MathUtil
import Verif.Props.Matrix
import Verif.Props.Mirror
import Verif.Props.More
import Verif.Props.NearbyDoubles
import Verif.Props.Nested
import Verif.Props.Octagon64
import Verif.Props.OctagonalEnvelope
import Verif.Props.OnLine
import Verif.Props.Order
import Verif.Props.Orientation
import Verif.Props.OrientationGrid
import Verif.Props.PackedBase
import Verif.Props.PackedEnvelope
import Verif.Props.Panics
import Verif.Props.Panics2
import Verif.Props.Parts
import Verif.Props.PlainDoubles
import Verif.Props.PointInRing
import Verif.Props.PointInRingAny
import Verif.Props.PointInRingMore
import Verif.Props.PolygonMeasures
import Verif.Props.PrecisionDigits
import Verif.Props.PrecisionModel
import Verif.Props.PrecisionModel64
import Verif.Props.Quadrant
import Verif.Props.Quasirandom
import Verif.Props.Rectangle
import Verif.Props.Refinements
import Verif.Props.RelationMeaning
import Verif.Props.RingDoubles
import Verif.Props.Scaling
import Verif.Props.Segment64
import Verif.Props.SegmentDistance
import Verif.Props.SegmentMoves64
import Verif.Props.SegmentSets
import Verif.Props.SegmentsDoubles
import Verif.Props.SequenceComparator
import Verif.Props.SequenceFactories
import Verif.Props.Sequences
import Verif.Props.SequencesMore
import Verif.Props.SimpleRings
import Verif.Props.SizesDoubles
import Verif.Props.SnappedCrossing
import Verif.Props.Space64
import Verif.Props.SpaceDoubles
import Verif.Props.Stable
import Verif.Props.Texts
import Verif.Props.Triangle
import Verif.Props.Triangle64
import Verif.Props.TriangleDoubles
import Verif.Props.TriangleIneq
import Verif.Props.TriangleObject
import Verif.Props.TriangleReal
import Verif.Props.TriangleSizes64
import Verif.Props.TurningDoubles
import Verif.Props.Vectors
import Verif.Props.Vectors64
import Verif.Props.Walk
import Verif.Spec.Centroid
import Verif.Spec.ConvexRing
import Verif.Spec.Crossing
import Verif.Spec.Lex
import Verif.Spec.Lines
import Verif.Spec.Metric
import Verif.Spec.Nearest
import Verif.Spec.Order
import Verif.Spec.Plane
import Verif.Spec.SimpleRing
import Verif.Spec.Space
