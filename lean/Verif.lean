import Verif.Lemmas.Angle
import Verif.Lemmas.Float
import Verif.Lemmas.Polygon
import Verif.Lemmas.PyNum
import Verif.Lemmas.PyNumPoly
import Verif.Lemmas.PyNumShape
import Verif.Lemmas.PyNumVec
import Verif.Lemmas.Segment
import Verif.Lemmas.Signed
import Verif.Lemmas.SzAttr
import Verif.Lemmas.Vector
import Verif.Model.Angle
import Verif.Model.AugAssign
import Verif.Model.Checked
import Verif.Model.Circle
import Verif.Model.ConvexHull
import Verif.Model.Dict
import Verif.Model.Float
import Verif.Model.Heap
import Verif.Model.HeapProg
import Verif.Model.HeapRect
import Verif.Model.HullChecked
import Verif.Model.Ieee
import Verif.Model.InfStart
import Verif.Model.Line
import Verif.Model.Matrix
import Verif.Model.Mutators
import Verif.Model.Polygon
import Verif.Model.PyEq
import Verif.Model.PyNum
import Verif.Model.PyVal
import Verif.Model.Ray
import Verif.Model.Rect
import Verif.Model.Sector
import Verif.Model.Segment
import Verif.Model.Signed
import Verif.Model.SoccerMath
import Verif.Model.Text
import Verif.Model.Vector
import Verif.Model.Wrappers
import Verif.Num
import Verif.Props.Affine
import Verif.Props.Agree
import Verif.Props.Angle
import Verif.Props.Area
import Verif.Props.AugAssign
import Verif.Props.Centers
import Verif.Props.Checked
import Verif.Props.CheckedDist
import Verif.Props.CheckedIeee
import Verif.Props.Circle
import Verif.Props.ClipArea
import Verif.Props.Constructors
import Verif.Props.Constructors2
import Verif.Props.ConvexHull
import Verif.Props.Copies
import Verif.Props.Dict
import Verif.Props.Equality
import Verif.Props.Float
import Verif.Props.FloatAngle
import Verif.Props.FloatApart
import Verif.Props.FloatArea
import Verif.Props.FloatCenters
import Verif.Props.FloatCircle
import Verif.Props.FloatCircleRay
import Verif.Props.FloatCircleSeg
import Verif.Props.FloatCircles
import Verif.Props.FloatClip
import Verif.Props.FloatClipPoly
import Verif.Props.FloatDist
import Verif.Props.FloatGeom
import Verif.Props.FloatGrid
import Verif.Props.FloatHull
import Verif.Props.FloatHullSort
import Verif.Props.FloatIncenter
import Verif.Props.FloatInertia
import Verif.Props.FloatLine
import Verif.Props.FloatMatrix
import Verif.Props.FloatMono
import Verif.Props.FloatPoly
import Verif.Props.FloatQuant
import Verif.Props.FloatRange
import Verif.Props.FloatRates
import Verif.Props.FloatRays
import Verif.Props.FloatRect
import Verif.Props.FloatRectLine
import Verif.Props.FloatRobust
import Verif.Props.FloatRobustHull
import Verif.Props.FloatRobustPoly
import Verif.Props.FloatRobustSort
import Verif.Props.FloatSector
import Verif.Props.FloatSegDist
import Verif.Props.FloatTriLine
import Verif.Props.FloatTrig
import Verif.Props.FloatTwoSeg
import Verif.Props.FloatVec
import Verif.Props.Graham
import Verif.Props.Heap
import Verif.Props.HeapCalls
import Verif.Props.HeapNew
import Verif.Props.HeapOps
import Verif.Props.HeapProg
import Verif.Props.HeapRect
import Verif.Props.History
import Verif.Props.HullArea
import Verif.Props.HullChecked
import Verif.Props.HullDirect
import Verif.Props.HullInput
import Verif.Props.HullUnique
import Verif.Props.Ieee
import Verif.Props.InfStart
import Verif.Props.Line
import Verif.Props.Matrix
import Verif.Props.Mirror
import Verif.Props.MirrorContains
import Verif.Props.Mutators
import Verif.Props.Operators
import Verif.Props.Polygon
import Verif.Props.PolygonClip
import Verif.Props.PolygonParity
import Verif.Props.PyEq
import Verif.Props.PyNum
import Verif.Props.PyNumExact
import Verif.Props.PyNumQuant
import Verif.Props.QuantDist
import Verif.Props.Rect
import Verif.Props.Scale
import Verif.Props.ScaleLimits
import Verif.Props.Sector
import Verif.Props.Segment
import Verif.Props.Sides
import Verif.Props.Signed
import Verif.Props.Size
import Verif.Props.SoccerMath
import Verif.Props.SortKey
import Verif.Props.Swap
import Verif.Props.Text
import Verif.Props.Threshold
import Verif.Props.Triangle
import Verif.Props.Vector
import Verif.Props.Winding
import Verif.Spec
import Verif.Tests
