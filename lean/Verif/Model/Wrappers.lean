import Verif.Model.ConvexHull
import Verif.Model.Circle
import Verif.Model.Matrix

/-!
# Methods that only forward to modelled code

Each definition is the body of the Python method; the work is done by the definitions of the other model files.
-/

namespace PyrusGeom

variable {K : Type} [Add K] [Sub K] [Mul K] [Div K] [Neg K] [NatCast K] [LT K] [LE K]
  [DecidableLT K] [DecidableLE K] [BEq K] [PyMath K]

namespace Tri

/-- `assign(a, b, c)`, triangle_2d.py:66-91,99: the new value of the receiver, which is returned. -/
def assign3 (_t : Tri K) (a b c : Vec K) : Tri K := ⟨Vec.ofVec a, Vec.ofVec b, Vec.ofVec c⟩

/-- `assign(segment, c)`, triangle_2d.py:92-95,99 -/
def assignSeg (_t : Tri K) (s : Seg K) (c : Vec K) : Tri K :=
  ⟨Vec.ofVec s.origin, Vec.ofVec s.terminal, Vec.ofVec c⟩

/-- `a()` (110-116) and `a_()` (134-140), triangle_2d.py: as values they only differ in the validity flag, which the
copying constructor sets. -/
def getA (t : Tri K) : Vec K := Vec.ofVec t.a

/-- `b()`, `b_()`, triangle_2d.py:118-124,142-148 -/
def getB (t : Tri K) : Vec K := Vec.ofVec t.b

/-- `c()`, `c_()`, triangle_2d.py:126-132,150-156 -/
def getC (t : Tri K) : Vec K := Vec.ofVec t.c

/-- `signed_area()`, triangle_2d.py:166-178 -/
def methodSignedArea (t : Tri K) : K := signedArea t.a t.b t.c

/-- `double_signed_area()`, triangle_2d.py:180-192 -/
def methodDsa (t : Tri K) : K := dsa t.a t.b t.c

/-- `ccw()`, triangle_2d.py:194-200 -/
def methodCcw (t : Tri K) : Bool := ccw t.a t.b t.c

/-- `centroid()`, triangle_2d.py:225-231 -/
def centroid (t : Tri K) : Except PyErr (Vec K) := triCentroid t.a t.b t.c

/-- `incenter()`, triangle_2d.py:233-239 -/
def incenter (t : Tri K) : Vec K := triIncenter t.a t.b t.c

/-- `circumcenter()`, triangle_2d.py:241-247 -/
def circumcenter (t : Tri K) : Vec K := triCircumcenter t.a t.b t.c

/-- `orthocenter()`, triangle_2d.py:249-255 -/
def orthocenter (t : Tri K) : Vec K := triOrthocenter t.a t.b t.c

end Tri

namespace Poly

/-- `bounding_box_center`, polygon_2d.py:283-289 -/
def boundingBoxCenter (p : Poly K) : Except PyErr (Vec K) := do
  let r ← p.boundingBox
  return r.center

/-- The call operator of `XLessEqual(thr)`, polygon_2d.py:16-39 -/
def xLessEqual (thr : K) (v : Vec K) : Bool := decide (v.x ≤ thr)

/-- The call operator of `XMoreEqual(thr)`, polygon_2d.py:42-65 -/
def xMoreEqual (thr : K) (v : Vec K) : Bool := decide (thr ≤ v.x)

/-- The call operator of `YLessEqual(thr)`, polygon_2d.py:68-91 -/
def yLessEqual (thr : K) (v : Vec K) : Bool := decide (v.y ≤ thr)

/-- The call operator of `YMoreEqual(thr)`, polygon_2d.py:94-117 -/
def yMoreEqual (thr : K) (v : Vec K) : Bool := decide (thr ≤ v.y)

end Poly

namespace Mat

/-- `assign`, matrix_2d.py:67-83 -/
def assign (_m : Mat K) (a b c d x y : K) : Mat K := ⟨a, b, c, d, x, y⟩

end Mat

namespace Line

/-- `copy`, line_2d.py:156-162 -/
def copy (l : Line K) : Line K := ⟨l.a, l.b, l.c⟩

end Line

namespace Ray

/-- `copy`, ray_2d.py:81-87 -/
def copy (r : Ray K) : Ray K := Ray.ofAngle (Vec.ofVec r.origin) (AngleDeg.ofAngle r.dir)

end Ray

namespace Vec

/-- `set_x_y`, vector_2d.py:153-161 -/
def setXY (v : Vec K) (x y : K) : Vec K := { v with x := x, y := y }

/-- `inner_product_static`, vector_2d.py:625-636 -/
def innerProductStatic (v w : Vec K) : K := v.innerProduct w

/-- `outer_product_static`, vector_2d.py:638-649 -/
def outerProductStatic (v w : Vec K) : K := v.outerProduct w

end Vec

namespace Circle

/-- `intersection_with_line`, circle_2d.py:195-204 -/
def intersectionWithLine (c : Circle K) (l : Line K) : Except PyErr (List (Vec K)) := c.intersectionLine l

/-- `intersection_with_ray`, circle_2d.py:206-215 -/
def intersectionWithRay (c : Circle K) (r : Ray K) : Except PyErr (List (Vec K)) := c.intersectionRay r

/-- `intersection_with_segment`, circle_2d.py:217-226 -/
def intersectionWithSegment (c : Circle K) (s : Seg K) : Except PyErr (List (Vec K)) := c.intersectionSeg s

/-- `intersection_with_circle`, circle_2d.py:228-237 -/
def intersectionWithCircle (c o : Circle K) : Except PyErr (List (Vec K)) := c.intersectionCircle o

end Circle

namespace Hull

/-- `AngleSortPredicate` object, convex_hull.py:49-56. -/
structure SortKey (K : Type) where
  obj : Vec K
  base : Vec K

/-- `__lt__`, convex_hull.py:58-59 -/
def SortKey.lt (s o : SortKey K) : Bool := decide (angleSortPredicate s.obj o.obj s.base < 0)

/-- `__gt__`, convex_hull.py:61-62 -/
def SortKey.gt (s o : SortKey K) : Bool := decide (angleSortPredicate s.obj o.obj s.base > 0)

/-- `__eq__`, convex_hull.py:64-65 -/
def SortKey.eq (s o : SortKey K) : Bool := decide (angleSortPredicate s.obj o.obj s.base = 0)

/-- `__le__`, convex_hull.py:67-68 -/
def SortKey.le (s o : SortKey K) : Bool := decide (angleSortPredicate s.obj o.obj s.base ≤ 0)

/-- `__ge__`, convex_hull.py:70-71 -/
def SortKey.ge (s o : SortKey K) : Bool := decide (angleSortPredicate s.obj o.obj s.base ≥ 0)

/-- `__ne__`, convex_hull.py:73-74 -/
def SortKey.ne (s o : SortKey K) : Bool := decide (angleSortPredicate s.obj o.obj s.base ≠ 0)

end Hull

end PyrusGeom
