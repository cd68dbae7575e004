import Verif.Model.Vector

/-!
# Model of `/repo/src/pyrusgeom/line_2d.py`

`Line K` holds `_a`, `_b`, `_c` of the equation `aX + bY + c = 0`.
-/

namespace PyrusGeom

variable {K : Type} [Add K] [Sub K] [Mul K] [Div K] [Neg K] [NatCast K] [LT K] [LE K]
  [DecidableLT K] [DecidableLE K] [BEq K] [PyMath K]

/-- `Line2D` object, line_2d.py:13-18. `a`, `b` and `c`, line_2d.py:106-128, read the fields. The attribute `_is_valid` is always true after construction. -/
@[ext] structure Line (K : Type) where
  a : K
  b : K
  c : K

namespace Line

/-- `Line2D(a, b, c)`, line_2d.py:52-59 (and `copy` 156-162, `Line2D(line)` 73-78) -/
def ofABC (a b c : K) : Line K := ⟨a, b, c⟩

/-- `Line2D(p, angle)`, line_2d.py:61-67 -/
def ofAngle (p : Vec K) (dir : AngleDeg K) : Line K :=
  let a := -dir.sin
  let b := dir.cos
  ⟨a, b, -a * p.x - b * p.y⟩

/-- `Line2D(p1, p2)`, line_2d.py:68-72 -/
def ofPoints (p q : Vec K) : Line K :=
  let a := -(q.y - p.y)
  let b := q.x - p.x
  ⟨a, b, -a * p.x - b * p.y⟩

/-- `get_x`, line_2d.py:130-141 -/
def getX (l : Line K) (y : K) : K :=
  if fabs l.a < EPSILON then ERROR_VALUE else -(l.b * y + l.c) / l.a

/-- `get_y`, line_2d.py:143-154 -/
def getY (l : Line K) (x : K) : K :=
  if fabs l.b < EPSILON then ERROR_VALUE else -(l.a * x + l.c) / l.b

/-- `dist`, line_2d.py:164-175 -/
def dist (l : Line K) (p : Vec K) : Except PyErr K := do
  let q ← pyDiv (l.a * p.x + l.b * p.y + l.c) (PyMath.sqrt (l.a * l.a + l.b * l.b))
  return fabs q

/-- `dist2`, line_2d.py:177-187 -/
def dist2 (l : Line K) (p : Vec K) : Except PyErr K :=
  let delta := l.a * p.x + l.b * p.y + l.c
  pyDiv (delta * delta) (l.a * l.a + l.b * l.b)

/-- `is_parallel`, line_2d.py:189-198 -/
def isParallel (l o : Line K) : Bool := decide (fabs (l.a * o.b - o.a * l.b) < EPSILON)

/-- `line_intersection` / `intersection`, line_2d.py:200-210,234-250 -/
def intersection (l1 l2 : Line K) : Vec K :=
  let tmp := l1.a * l2.b - l1.b * l2.a
  if fabs tmp < EPSILON then Vec.invalid
  else Vec.ofXY ((l1.b * l2.c - l2.b * l1.c) / tmp) ((l2.a * l1.c - l1.a * l2.c) / tmp)

/-- `perpendicular`, line_2d.py:212-221 -/
def perpendicular (l : Line K) (p : Vec K) : Line K := ⟨l.b, -l.a, l.a * p.y - l.b * p.x⟩

/-- `projection`, line_2d.py:223-232 -/
def projection (l : Line K) (p : Vec K) : Vec K := l.intersection (l.perpendicular p)

/-- `angle_bisector`, line_2d.py:252-264 -/
def angleBisector (origin : Vec K) (left right : AngleDeg K) : Line K :=
  ofAngle origin (AngleDeg.bisect left.degree right.degree)

/-- `perpendicular_bisector`, line_2d.py:266-284 (the `print` is omitted; `* -0.5` is `* -(1/2)`) -/
def perpendicularBisector (p1 p2 : Vec K) : Line K :=
  if fabs (p2.x - p1.x) < EPSILON ∧ fabs (p2.y - p1.y) < EPSILON then
    ofPoints p1 (Vec.ofXY (p1.x + num 1) p2.y)
  else
    let tmp := (p2.x * p2.x - p1.x * p1.x + p2.y * p2.y - p1.y * p1.y) * -(num 1 / num 2)
    ⟨p2.x - p1.x, p2.y - p1.y, tmp⟩

/-- `__eq__`, line_2d.py:286-295 -/
def eq (l o : Line K) : Bool := decide (fabs (l.a * o.b - o.a * l.b) < EPSILON) && l.c == o.c

end Line

end PyrusGeom
