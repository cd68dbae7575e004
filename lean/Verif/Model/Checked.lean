import Verif.Model.Ieee
import Verif.Model.Wrappers
import Verif.Model.Sector
import Verif.Model.SoccerMath

/-!
# The numeric code with the exceptions of `math` and of `/`

The other model files treat `math.sqrt`, `math.cos`, `math.fmod`, `math.pow`, a division after a test of the divisor, …, as
total functions. Here the functions that contain such a call are written a second time, with every such call replaced by a
version that raises as CPython does, in the order in which the code evaluates them. `fooE` is the version of `foo`.

`Verif/Props/Checked.lean` proves that `fooE` returns what `foo` says if it returns, and determines when it raises: never, in
exact arithmetic, where the other model files say that it cannot; and exactly when, in IEEE arithmetic.

Numbers are `float`s. An `int` behaves differently in `x ** 2` (which is then exact).
-/

namespace PyrusGeom

/-- The partial functions of `math`, `%` and `int()`, with their exceptions. -/
class PyMathE (K : Type) where
  sqrtE : K → Except PyErr K
  sinE : K → Except PyErr K
  cosE : K → Except PyErr K
  tanE : K → Except PyErr K
  acosE : K → Except PyErr K
  asinE : K → Except PyErr K
  expE : K → Except PyErr K
  logE : K → Except PyErr K
  powE : K → ℤ → Except PyErr K
  fmodE : K → K → Except PyErr K
  pmodE : K → K → Except PyErr K
  truncE : K → Except PyErr ℤ

open Classical in
/-- Exact arithmetic: only the domains of the functions matter. -/
noncomputable instance instPyMathEReal : PyMathE ℝ where
  sqrtE x := if x < 0 then .error .valueError else .ok (PyMath.sqrt x)
  sinE x := .ok (PyMath.sin x)
  cosE x := .ok (PyMath.cos x)
  tanE x := .ok (PyMath.tan x)
  acosE x := if x < -1 ∨ 1 < x then .error .valueError else .ok (PyMath.acos x)
  asinE x := if x < -1 ∨ 1 < x then .error .valueError else .ok (PyMath.asin x)
  expE x := .ok (PyMath.exp x)
  logE x := if 0 < x then .ok (PyMath.log x) else .error .valueError
  powE x n := if x = 0 ∧ n < 0 then .error .valueError else .ok (PyMath.powi x n)
  fmodE x y := if y = 0 then .error .valueError else .ok (PyMath.fmod x y)
  pmodE x y := if y = 0 then .error .zeroDivision else .ok (PyMath.pmod x y)
  truncE x := .ok (PyMath.trunc x)

namespace Ieee

/-- An infinite result of finite arguments is an `OverflowError`. -/
def noInf : Ieee → Except PyErr Ieee
  | inf _ => .error .overflow
  | x => .ok x

/-- `math.sin` and others: an infinite argument is a `ValueError`. -/
def finArg (f : Ieee → Ieee) : Ieee → Except PyErr Ieee
  | inf _ => .error .valueError
  | x => .ok (f x)

open Classical in
/-- `math.acos`, `math.asin`: `ValueError` outside `[-1, 1]`. -/
noncomputable def unitArg (f : Ieee → Ieee) : Ieee → Except PyErr Ieee
  | nan => .ok nan
  | inf _ => .error .valueError
  | fin x => if x < -1 ∨ 1 < x then .error .valueError else .ok (f (fin x))

/-- An `int` in arithmetic with a `float`. -/
noncomputable instance : IntCast Ieee := ⟨fun n => ofReal n⟩

open Classical in
/-- As CPython's `Modules/mathmodule.c` and `Objects/floatobject.c`: NaN arguments never raise. -/
noncomputable instance : PyMathE Ieee where
  sqrtE
    | inf true => .error .valueError
    | fin x => if x < 0 then .error .valueError else .ok (PyMath.sqrt (fin x))
    | x => .ok x
  sinE := finArg PyMath.sin
  cosE := finArg PyMath.cos
  tanE := finArg PyMath.tan
  acosE := unitArg PyMath.acos
  asinE := unitArg PyMath.asin
  expE
    | fin x => noInf (PyMath.exp (fin x))
    | x => .ok (PyMath.exp x)
  logE
    | nan => .ok nan
    | inf s => if s then .error .valueError else .ok (inf false)
    | fin x => if 0 < x then .ok (PyMath.log (fin x)) else .error .valueError
  powE
    | fin x, n => if x = 0 ∧ n < 0 then .error .valueError else noInf (PyMath.powi (fin x) n)
    | x, n => .ok (PyMath.powi x n)
  fmodE
    | nan, _ => .ok nan
    | inf _, nan => .ok nan
    | inf _, _ => .error .valueError
    | fin x, fin y => if y = 0 then .error .valueError else .ok (PyMath.fmod (fin x) (fin y))
    | x, y => .ok (PyMath.fmod x y)
  pmodE
    | x, fin y => if y = 0 then .error .zeroDivision else .ok (PyMath.pmod x (fin y))
    | x, y => .ok (PyMath.pmod x y)
  truncE
    | nan => .error .valueError
    | inf _ => .error .overflow
    | fin x => .ok (PyMath.trunc (fin x))

end Ieee

open PyMathE

variable {K : Type} [Add K] [Sub K] [Mul K] [Div K] [Neg K] [NatCast K] [LT K] [LE K]
  [DecidableLT K] [DecidableLE K] [BEq K] [PyMath K] [PyMathE K]

/-! ## angle_deg.py -/

namespace AngleDeg

/-- `normal`, angle_deg.py:78-93 -/
def normalDegE (d : K) : Except PyErr K := do
  let d ← if d < -(num 360) ∨ num 360 < d then fmodE d (num 360) else .ok d
  let d := if d < -(num 180) then d + num 360 else d
  return if num 180 < d then d - num 360 else d

/-- `AngleDeg(d)` for a number, angle_deg.py:33-37,42; also `set_degree`, angle_deg.py:61-68 -/
def ofNumE (d : K) : Except PyErr (AngleDeg K) := do
  let d ← normalDegE d
  return ⟨d⟩

/-- `degree()`, angle_deg.py:44-51 -/
def degreeE (a : AngleDeg K) : Except PyErr K := normalDegE a.deg

/-- `AngleDeg(a)` for an `AngleDeg`, angle_deg.py:34-35,42 -/
def ofAngleE (a : AngleDeg K) : Except PyErr (AngleDeg K) := do
  let d ← a.degreeE
  ofNumE d

/-- `set_angle`, angle_deg.py:70-76 -/
def setAngleE (_a b : AngleDeg K) : Except PyErr (AngleDeg K) := do
  let d ← b.degreeE
  return ⟨d⟩

/-- `abs`, angle_deg.py:118-124 -/
def absE (a : AngleDeg K) : Except PyErr K := do
  let d ← a.degreeE
  return fabs d

/-- `radian`, angle_deg.py:126-132 -/
def radianE (a : AngleDeg K) : Except PyErr K := do
  let d ← a.degreeE
  return d * DEG2RAD

/-- `copy`, angle_deg.py:134-140 -/
def copyE (a : AngleDeg K) : Except PyErr (AngleDeg K) := ofNumE a.deg

/-- `reverse_angle`, angle_deg.py:150-158 -/
def reverseAngleE (a : AngleDeg K) : Except PyErr (AngleDeg K) := do
  let d ← a.degreeE
  let b ← ofNumE d
  return b.reverse

/-- `get_normalized`, angle_deg.py:160-166 -/
def getNormalizedE (a : AngleDeg K) : Except PyErr K := do
  let d ← a.degreeE
  pyDiv (d + num 180) (num 360)

/-- `is_left_of`, angle_deg.py:168-180 -/
def isLeftOfE (a b : AngleDeg K) : Except PyErr Bool := do
  let y ← b.degreeE
  let x ← a.degreeE
  let diff := y - x
  return (decide (num 0 < diff) && decide (diff < num 180)) || decide (diff < -(num 180))

/-- `is_right_of`, angle_deg.py:182-194 -/
def isRightOfE (a b : AngleDeg K) : Except PyErr Bool := do
  let x ← a.degreeE
  let y ← b.degreeE
  let diff := x - y
  return (decide (num 0 < diff) && decide (diff < num 180)) || decide (diff < -(num 180))

/-- `is_left_equal_of`, angle_deg.py:196-208 -/
def isLeftEqualOfE (a b : AngleDeg K) : Except PyErr Bool := do
  let y ← b.degreeE
  let diff := y - a.deg
  return (decide (num 0 ≤ diff) && decide (diff < num 180)) || decide (diff < -(num 180))

/-- `is_right_equal_of`, angle_deg.py:210-222 -/
def isRightEqualOfE (a b : AngleDeg K) : Except PyErr Bool := do
  let x ← a.degreeE
  let y ← b.degreeE
  let diff := x - y
  return (decide (num 0 ≤ diff) && decide (diff < num 180)) || decide (diff < -(num 180))

/-- `is_within`, angle_deg.py:95-116 -/
def isWithinE (a left right : AngleDeg K) : Except PyErr Bool := do
  if ← left.isLeftEqualOfE right then
    if ← left.isLeftEqualOfE a then a.isLeftEqualOfE right else return false
  else
    if ← a.isLeftEqualOfE right then return true else left.isLeftEqualOfE a

/-- `__iadd__` and `__add__` with a number, angle_deg.py:224-237,280-294 -/
def addNumE (a : AngleDeg K) (d : K) : Except PyErr (AngleDeg K) := ofNumE (a.deg + d)

/-- `__iadd__` and `__add__` with an `AngleDeg`, angle_deg.py:224-237,280-294 -/
def addE (a b : AngleDeg K) : Except PyErr (AngleDeg K) := do
  let d ← b.degreeE
  a.addNumE d

/-- `__isub__` and `__sub__` with a number, angle_deg.py:239-252,296-308 -/
def subNumE (a : AngleDeg K) (d : K) : Except PyErr (AngleDeg K) := ofNumE (a.deg - d)

/-- `__isub__` with an `AngleDeg`, angle_deg.py:239-252 -/
def isubE (a b : AngleDeg K) : Except PyErr (AngleDeg K) := do
  let d ← b.degreeE
  a.subNumE d

/-- `__sub__` with an `AngleDeg`, angle_deg.py:296-308 -/
def subE (a b : AngleDeg K) : Except PyErr (AngleDeg K) := ofNumE (a.deg - b.deg)

/-- `__imul__` and `__mul__`, angle_deg.py:254-265,310-321 -/
def mulE (a : AngleDeg K) (s : K) : Except PyErr (AngleDeg K) := ofNumE (a.deg * s)

/-- `__idiv__` and `__floordiv__`, angle_deg.py:267-278,323-334 -/
def divE (a : AngleDeg K) (s : K) : Except PyErr (AngleDeg K) := do
  let d ← pyDiv a.deg s
  ofNumE d

/-- `__neg__`, angle_deg.py:352-359 -/
def negE (a : AngleDeg K) : Except PyErr (AngleDeg K) := ofNumE (-a.deg)

/-- `__eq__` with an `AngleDeg`, angle_deg.py:361-371 -/
def eqE (a b : AngleDeg K) : Except PyErr Bool := do
  let d ← b.degreeE
  return a.eqNum d

/-- `cos`, angle_deg.py:373-379 -/
def cosE (a : AngleDeg K) : Except PyErr K := PyMathE.cosE (a.deg * DEG2RAD)

/-- `sin`, angle_deg.py:381-387 -/
def sinE (a : AngleDeg K) : Except PyErr K := PyMathE.sinE (a.deg * DEG2RAD)

/-- `tan`, angle_deg.py:389-395 -/
def tanE (a : AngleDeg K) : Except PyErr K := PyMathE.tanE (a.deg * DEG2RAD)

/-- `cos_deg`, angle_deg.py:421-431 -/
def cosDegE (deg : K) : Except PyErr K := PyMathE.cosE (deg2rad deg)

/-- `sin_deg`, angle_deg.py:433-443 -/
def sinDegE (deg : K) : Except PyErr K := PyMathE.sinE (deg2rad deg)

/-- `tan_deg`, angle_deg.py:445-455 -/
def tanDegE (deg : K) : Except PyErr K := PyMathE.tanE (deg2rad deg)

/-- `acos_deg`, angle_deg.py:457-472 -/
def acosDegE (cosine : K) : Except PyErr K :=
  if num 1 ≤ cosine then .ok (num 0)
  else if cosine ≤ -(num 1) then .ok (num 180)
  else do
    let r ← acosE cosine
    return rad2deg r

/-- `asin_deg`, angle_deg.py:474-489 -/
def asinDegE (sine : K) : Except PyErr K :=
  if num 1 ≤ sine then .ok (num 90)
  else if sine ≤ -(num 1) then .ok (-(num 90))
  else do
    let r ← asinE sine
    return rad2deg r

/-- `bisect` with two numbers, angle_deg.py:519-539 -/
def bisectE (left right : K) : Except PyErr (AngleDeg K) := do
  let result ← ofNumE left
  let rt ← ofNumE right
  let rel ← rt.subE result
  let rel ← rel.ofAngleE
  let x ← result.degreeE
  let rt ← ofNumE right
  let y ← rt.degreeE
  let diff := x - y
  let h ← rel.degreeE
  let halfDeg := h * (num 1 / num 2)
  let result ← result.addNumE halfDeg
  if (num 0 < diff ∧ diff < num 180) ∨ diff < -(num 180) then return result
  else result.addNumE (num 180)

/-- `normalize_angle`, angle_deg.py:541-549 -/
def normalizeAngleE (d : K) : Except PyErr K := do
  let d ← if d < -(num 360) ∨ num 360 < d then pmodE d (num 360) else .ok d
  let d := if d < -(num 180) then d + num 360 else d
  return if num 180 < d then d - num 360 else d

end AngleDeg

/-! ## vector_2d.py -/

namespace Vec

/-- `set_polar`, vector_2d.py:173-183, with an `AngleDeg` -/
def setPolarE (v : Vec K) (radius : K) (angle : AngleDeg K) : Except PyErr (Vec K) := do
  let c ← angle.cosE
  let s ← angle.sinE
  return { v with x := radius * c, y := radius * s }

/-- `r` / `length`, vector_2d.py:214-230 -/
def rE (v : Vec K) : Except PyErr K := sqrtE v.r2

/-- `th` / `dir`, vector_2d.py:242-258 -/
def thE (v : Vec K) : Except PyErr (AngleDeg K) := AngleDeg.ofNumE (AngleDeg.atan2Deg v.y v.x)

/-- `dist2`, vector_2d.py:373-382 -/
def dist2E (v o : Vec K) : Except PyErr K := do
  let a ← powE (v.x - o.x) 2
  let b ← powE (v.y - o.y) 2
  return a + b

/-- `dist`, vector_2d.py:384-393 -/
def distE (v o : Vec K) : Except PyErr K := do
  let d ← v.dist2E o
  sqrtE d

/-- `set_length`, vector_2d.py:413-421; also `normalize`, 436-441 -/
def setLengthE (v : Vec K) (length : K) : Except PyErr (Vec K) := do
  let mag ← v.rE
  if EPSILON < mag then do
    let q ← pyDiv length mag
    return v.scale q
  else return v

/-- `rotate` with a number, vector_2d.py:504-518 -/
def rotateE (v : Vec K) (deg : K) : Except PyErr (Vec K) := do
  let c ← cosE (deg * DEG2RAD)
  let s ← sinE (deg * DEG2RAD)
  return v.assign (v.x * c - v.y * s) (v.x * s + v.y * c)

/-- `set_dir`, vector_2d.py:531-541 -/
def setDirE (v : Vec K) (direction : AngleDeg K) : Except PyErr (Vec K) := do
  let radius ← v.rE
  let c ← direction.cosE
  let s ← direction.sinE
  return { v with x := radius * c, y := radius * s }

/-- `from_polar` / `polar2vector`, vector_2d.py:597-623 -/
def fromPolarE (mag : K) (theta : AngleDeg K) : Except PyErr (Vec K) := do
  let c ← theta.cosE
  let s ← theta.sinE
  return ofXY (mag * c) (mag * s)

end Vec

/-! ## line_2d.py -/

namespace Line

/-- `Line2D(p, angle)`, line_2d.py:61-67 -/
def ofAngleE (p : Vec K) (dir : AngleDeg K) : Except PyErr (Line K) := do
  let s ← dir.sinE
  let b ← dir.cosE
  let a := -s
  return ⟨a, b, -a * p.x - b * p.y⟩

/-- `get_x`, line_2d.py:130-141 -/
def getXE (l : Line K) (y : K) : Except PyErr K :=
  if fabs l.a < EPSILON then .ok ERROR_VALUE else pyDiv (-(l.b * y + l.c)) l.a

/-- `get_y`, line_2d.py:143-154 -/
def getYE (l : Line K) (x : K) : Except PyErr K :=
  if fabs l.b < EPSILON then .ok ERROR_VALUE else pyDiv (-(l.a * x + l.c)) l.b

/-- `dist`, line_2d.py:164-175 -/
def distE (l : Line K) (p : Vec K) : Except PyErr K := do
  let r ← sqrtE (l.a * l.a + l.b * l.b)
  let q ← pyDiv (l.a * p.x + l.b * p.y + l.c) r
  return fabs q

/-- `line_intersection` / `intersection`, line_2d.py:200-210,234-250 -/
def intersectionE (l1 l2 : Line K) : Except PyErr (Vec K) :=
  let tmp := l1.a * l2.b - l1.b * l2.a
  if fabs tmp < EPSILON then .ok Vec.invalid
  else do
    let x ← pyDiv (l1.b * l2.c - l2.b * l1.c) tmp
    let y ← pyDiv (l2.a * l1.c - l1.a * l2.c) tmp
    return Vec.ofXY x y

/-- `projection`, line_2d.py:223-232 -/
def projectionE (l : Line K) (p : Vec K) : Except PyErr (Vec K) := l.intersectionE (l.perpendicular p)

/-- `angle_bisector`, line_2d.py:252-264 -/
def angleBisectorE (origin : Vec K) (left right : AngleDeg K) : Except PyErr (Line K) := do
  let x ← left.degreeE
  let y ← right.degreeE
  let d ← AngleDeg.bisectE x y
  ofAngleE origin d

end Line

/-! ## ray_2d.py -/

namespace Ray

/-- `Ray2D(origin, angle)`, ray_2d.py:36,42-44 -/
def ofAngleE (origin : Vec K) (a : AngleDeg K) : Except PyErr (Ray K) := do
  let d ← a.ofAngleE
  return ⟨Vec.ofVec origin, d⟩

/-- `Ray2D(origin, point)`, ray_2d.py:36,39-41 -/
def ofPointE (origin p : Vec K) : Except PyErr (Ray K) := do
  let d ← (p.sub origin).thE
  return ⟨Vec.ofVec origin, d⟩

/-- `line`, ray_2d.py:89-95 -/
def lineE (r : Ray K) : Except PyErr (Line K) := Line.ofAngleE r.origin r.dir

/-- `in_right_dir`, ray_2d.py:97-107 -/
def inRightDirE (r : Ray K) (p : Vec K) (thr : K) : Except PyErr Bool := do
  let t ← (p.sub r.origin).thE
  let d ← t.subE r.dir
  let x ← d.absE
  return decide (x < thr)

/-- `intersection(Line2D)`, ray_2d.py:130-138 -/
def intersectionLineE (r : Ray K) (l : Line K) : Except PyErr (Vec K) := do
  let m ← r.lineE
  let sol ← m.intersectionE l
  if !sol.valid then return Vec.invalid
  else if !(← r.inRightDirE sol (num 10)) then return Vec.invalid
  else return sol

/-- `intersection(Ray2D)`, ray_2d.py:121-129 -/
def intersectionRayE (r o : Ray K) : Except PyErr (Vec K) := do
  let m ← r.lineE
  let l ← o.lineE
  let sol ← m.intersectionE l
  if !sol.valid then return Vec.invalid
  else if !(← r.inRightDirE sol (num 10)) then return Vec.invalid
  else if !(← o.inRightDirE sol (num 10)) then return Vec.invalid
  else return sol

/-- `__eq__`, ray_2d.py:142-151 -/
def eqE (r o : Ray K) : Except PyErr Bool := do
  let d ← r.dir.subE o.dir
  let x ← d.degreeE
  return decide (fabs x < EPSILON) && r.origin.eq o.origin

end Ray

/-! ## segment_2d.py -/

namespace Seg

/-- `Segment2D(p, length, angle)`, segment_2d.py:61-63 -/
def ofPolarE (p : Vec K) (length : K) (a : AngleDeg K) : Except PyErr (Seg K) := do
  let v ← Vec.fromPolarE length a
  return ⟨Vec.ofVec p, p.add v⟩

/-- `length`, segment_2d.py:175-181 -/
def lengthE (s : Seg K) : Except PyErr K := s.origin.distE s.terminal

/-- `direction`, segment_2d.py:183-189 -/
def directionE (s : Seg K) : Except PyErr (AngleDeg K) := (s.terminal.sub s.origin).thE

/-- `projection`, segment_2d.py:272-298 -/
def projectionE (s : Seg K) (p : Vec K) : Except PyErr (Vec K) := do
  let direction := s.terminal.sub s.origin
  let length ← direction.rE
  if length < EPSILON then return s.origin
  else
    let x ← pyDiv direction.x length
    let y ← pyDiv direction.y length
    let direction := Vec.ofXY x y
    let ip := direction.innerProduct (p.sub s.origin)
    if -EPSILON < ip ∧ ip < length + EPSILON then
      return (Vec.ofVec s.origin).iadd (direction.imul ip)
    else return Vec.invalid

/-- `intersection(Line2D)`, segment_2d.py:315-320 -/
def intersectionLineE (s : Seg K) (l : Line K) : Except PyErr (Vec K) := do
  let sol ← s.line.intersectionE l
  return if !sol.valid || !s.contains sol then Vec.invalid else sol

/-- `intersection(Segment2D, allow_end_point)`, segment_2d.py:322-331 -/
def intersectionSegE (s o : Seg K) (allowEndPoint : Bool) : Except PyErr (Vec K) := do
  let sol ← s.line.intersectionE o.line
  return if !sol.valid || !s.contains sol || !o.contains sol then Vec.invalid
    else if !allowEndPoint && !s.existIntersectionExceptEndpoint o then Vec.invalid
    else sol

/-- `nearest_point`, segment_2d.py:438-463 -/
def nearestPointE (s : Seg K) (p : Vec K) : Except PyErr (Vec K) :=
  let v := s.terminal.sub s.origin
  let len2 := v.r2
  if len2 == num 0 then .ok s.origin
  else
    let ip := v.innerProduct (p.sub s.origin)
    if ip ≤ num 0 then .ok s.origin
    else if len2 ≤ ip then .ok s.terminal
    else do
      let w ← (v.mul ip).truediv len2
      return s.origin.add w

/-- `dist(Vector2D)`, segment_2d.py:478-490 -/
def distPointE (s : Seg K) (p : Vec K) : Except PyErr K := do
  let length ← s.lengthE
  if length == num 0 then s.origin.distE p
  else
    let v := s.terminal.sub s.origin
    let prod := v.innerProduct (p.sub s.origin)
    if num 0 ≤ prod ∧ prod ≤ length * length then
      let q ← pyDiv (Tri.dsa s.origin s.terminal p) length
      return fabs q
    else
      let a ← s.origin.dist2E p
      let b ← s.terminal.dist2E p
      sqrtE (pyMin a b)

/-- `dist(Segment2D)`, segment_2d.py:492-498 -/
def distSegE (s o : Seg K) : Except PyErr K :=
  if s.existIntersection o then .ok (num 0)
  else do
    let a ← s.distPointE o.origin
    let b ← s.distPointE o.terminal
    let c ← o.distPointE s.origin
    let d ← o.distPointE s.terminal
    return pyMin (pyMin (pyMin a b) c) d

/-- `farthest_dist`, segment_2d.py:502-511 -/
def farthestDistE (s : Seg K) (p : Vec K) : Except PyErr K := do
  let a ← s.origin.dist2E p
  let b ← s.terminal.dist2E p
  sqrtE (pyMax a b)

/-- `on_segment_weakly`, segment_2d.py:525-535 -/
def onSegmentWeaklyE (s : Seg K) (p : Vec K) : Except PyErr Bool := do
  let q ← s.projectionE p
  return q.valid && p.equalsWeakly q

end Seg

/-! ## triangle_2d.py -/

namespace Tri

/-- `tri_incenter`, triangle_2d.py:389-409. `Line2D.angle_bisector` gets the two `AngleDeg`s. -/
def triIncenterE (a b c : Vec K) : Except PyErr (Vec K) := do
  let tab ← (b.sub a).thE
  let tac ← (c.sub a).thE
  let bisectA ← Line.angleBisectorE a tab tac
  let tba ← (a.sub b).thE
  let tbc ← (c.sub b).thE
  let bisectB ← Line.angleBisectorE b tba tbc
  bisectA.intersectionE bisectB

/-- Lines 434-452 of `tri_circumcenter`, triangle_2d.py -/
def circumFormulaE (a b c : Vec K) : Except PyErr (Vec K) :=
  let ab := b.sub a
  let ca := c.sub a
  let tmp := ab.outerProduct ca
  if fabs tmp < num 1 / num 10000000000 then .ok Vec.invalid
  else do
    let inv ← pyDiv (num 1 / num 2) tmp
    let abLen2 := ab.r2
    let caLen2 := ca.r2
    let xcc := inv * (abLen2 * ca.y - caLen2 * ab.y)
    let ycc := inv * (ab.x * caLen2 - ca.x * abLen2)
    return Vec.ofXY (a.x + xcc) (a.y + ycc)

/-- `tri_circumcenter`, triangle_2d.py:411-452 -/
def triCircumcenterE (a b c : Vec K) : Except PyErr (Vec K) := do
  let pab := Line.perpendicularBisector a b
  let pbc := Line.perpendicularBisector b c
  let sol ← pab.intersectionE pbc
  if !sol.valid then
    let pca := Line.perpendicularBisector c a
    let sol ← pab.intersectionE pca
    if sol.valid then return sol
    else
      let sol ← pbc.intersectionE pca
      if sol.valid then return sol else circumFormulaE a b c
  else circumFormulaE a b c

/-- `tri_orthocenter`, triangle_2d.py:454-470 -/
def triOrthocenterE (a b c : Vec K) : Except PyErr (Vec K) :=
  let pa := (Line.ofPoints b c).perpendicular a
  let pb := (Line.ofPoints c a).perpendicular b
  pa.intersectionE pb

end Tri

/-! ## circle_2d.py -/

/-- `quadratic_f`, circle_2d.py:311-336 -/
def quadraticFE (a b c : K) : Except PyErr (List K) :=
  let delta := b * b - num 4 * a * c
  if a == num 0 then .error .exception
  else if fabs delta < EPSILON then do
    let s ← pyDiv (-b) (num 2 * a)
    return [s, s]
  else if delta < num 0 then .ok []
  else do
    let d ← sqrtE delta
    let s ← pyDiv (-b + d) (num 2 * a)
    let t ← pyDiv (-b - d) (num 2 * a)
    return [s, t]

namespace Circle

/-- `contains`, circle_2d.py:65-74 -/
def containsE (c : Circle K) (p : Vec K) : Except PyErr Bool := do
  let d ← c.center.dist2E p
  return decide (d < c.radius * c.radius)

/-- Lines 123-133 and 144-154 of circle_2d.py: turn the roots into points. -/
def solPointsE (mk : K → Except PyErr (Vec K)) (sol : List K) : Except PyErr (List (Vec K)) :=
  match sol with
  | s1 :: s2 :: _ => do
    let p ← mk s1
    let q ← mk s2
    return if p.equalsWeakly q then [p] else [p, q]
  | _ => .ok []

/-- `intersection(Line2D)`, circle_2d.py:111-154 -/
def intersectionLineE (c : Circle K) (l : Line K) : Except PyErr (List (Vec K)) :=
  if fabs l.a < EPSILON then
    if fabs l.b < EPSILON then .ok []
    else do
      let p ← powE c.center.x 2
      let e ← pyDiv l.c l.b
      let q ← powE (e + c.center.y) 2
      let r ← powE c.radius 2
      let sol ← quadraticFE (num 1) (-(num 2) * c.center.x) (p + q - r)
      solPointsE (fun s => do let y ← pyDiv (-l.c) l.b; return Vec.ofXY s y) sol
  else do
    let ba ← pyDiv l.b l.a
    let ca ← pyDiv l.c l.a
    let lineA := num 1 + ba * ba
    let lineB := num 2 * (-c.center.y + (ca + c.center.x) * ba)
    let p ← powE (ca + c.center.x) 2
    let q ← powE c.center.y 2
    let r ← powE c.radius 2
    let sol ← quadraticFE lineA lineB (p + q - r)
    solPointsE (fun s => do let x ← l.getXE s; return Vec.ofXY x s) sol

/-- Lines 158-164 / 169-175 of circle_2d.py -/
def dropRejectedE (ok : Vec K → Except PyErr Bool) (sol : List (Vec K)) : Except PyErr (List (Vec K)) := do
  let sol ← (match sol with
    | a :: b :: rest => (ok b).map fun t => if !t then a :: rest else a :: b :: rest
    | s => .ok s)
  match sol with
    | a :: rest => (ok a).map fun t => if !t then rest else a :: rest
    | [] => .ok []

/-- `intersection(Ray2D)`, circle_2d.py:155-164 -/
def intersectionRayE (c : Circle K) (r : Ray K) : Except PyErr (List (Vec K)) := do
  let d ← r.dir.ofAngleE
  let l ← Line.ofAngleE (Vec.ofVec r.origin) d
  let sol ← c.intersectionLineE l
  dropRejectedE (fun p => r.inRightDirE p (num 1)) sol

/-- `intersection(Segment2D)`, circle_2d.py:166-175 -/
def intersectionSegE (c : Circle K) (s : Seg K) : Except PyErr (List (Vec K)) := do
  let sol ← c.intersectionLineE s.line
  return dropRejected s.contains sol

/-- `intersection(Circle2D)`, circle_2d.py:177-190 -/
def intersectionCircleE (c o : Circle K) : Except PyErr (List (Vec K)) := do
  let relX := o.center.x - c.center.x
  let relY := o.center.y - c.center.y
  let centerDist2 := relX * relX + relY * relY
  let centerDist ← sqrtE centerDist2
  if centerDist < fabs (c.radius - o.radius) ∨ c.radius + o.radius < centerDist then return []
  else
    c.intersectionLineE ⟨-(num 2) * relX, -(num 2) * relY,
      o.center.r2 - o.radius * o.radius - c.center.r2 + c.radius * c.radius⟩

/-- `circum_circle`, circle_2d.py:239-257 -/
def circumCircleE (p0 p1 p2 : Vec K) : Except PyErr (Circle K) := do
  let center ← Tri.triCircumcenterE p0 p1 p2
  if !center.valid then return default
  else
    let r ← center.distE p0
    return ofCR center r

/-- `circum_circle_contains`, circle_2d.py:259-291 -/
def circumCircleContainsE (q p0 p1 p2 : Vec K) : Except PyErr Bool :=
  let p10x := p1.x - p0.x
  let p10y := p1.y - p0.y
  let p20x := p2.x - p0.x
  let p20y := p2.y - p0.y
  let p10avg := p10x * (p0.x + p1.x) + p10y * (p0.y + p1.y)
  let p20avg := p20x * (p0.x + p2.x) + p20y * (p0.y + p2.y)
  let area := num 2 * (p10x * (p2.y - p1.y) - p10y * (p2.x - p1.x))
  if fabs area < num 1 / num 10000000000 then .ok false
  else do
    let x ← pyDiv (p20y * p10avg - p10y * p20avg) area
    let y ← pyDiv (p10x * p20avg - p20x * p10avg) area
    let center := Vec.ofXY x y
    let d ← center.dist2E q
    let e ← center.dist2E p0
    return decide (d < e - EPSILON * EPSILON)

end Circle

/-! ## matrix_2d.py -/

namespace Mat

/-- `inverted`, matrix_2d.py:157-173 -/
def invertedE (m : Mat K) : Except PyErr (Mat K) :=
  let d := m.det
  if d == num 0 then .ok identity
  else do
    let dinv ← pyDiv (num 1) d
    return ⟨m.m22 * dinv, -m.m12 * dinv, -m.m21 * dinv, m.m11 * dinv,
      (m.m12 * m.dy - m.dx * m.m22) * dinv, (m.dx * m.m21 - m.m11 * m.dy) * dinv⟩

/-- `rotate`, matrix_2d.py:205-228 -/
def rotateE (m : Mat K) (angle : AngleDeg K) : Except PyErr (Mat K) := do
  let s ← angle.sinE
  let c ← angle.cosE
  return ⟨m.m11 * c - m.m21 * s, m.m12 * c - m.m22 * s, m.m11 * s + m.m21 * c, m.m12 * s + m.m22 * c,
    m.dx * c - m.dy * s, m.dx * s + m.dy * c⟩

/-- `make_rotation`, matrix_2d.py:297-309 -/
def makeRotationE (angle : AngleDeg K) : Except PyErr (Mat K) := do
  let c ← angle.cosE
  let s ← angle.sinE
  return ⟨c, -s, s, c, num 0, num 0⟩

end Mat

/-! ## sector_2d.py -/

namespace Sector

/-- `Sector2D(center, min_r, max_r, start, end)` / `assign`, sector_2d.py:31-68 -/
def ofArgsE (center : Vec K) (minR maxR : K) (start stop : AngleDeg K) : Except PyErr (Sector K) := do
  let a ← start.ofAngleE
  let b ← stop.ofAngleE
  return ⟨Vec.ofVec center, pyMin (num 0) minR, pyMax minR maxR, a, b⟩

/-- sector_2d.py:141-143,166-168,177-179 -/
def arcDegE (s : Sector K) : Except PyErr K := do
  let d ← s.stop.subE s.start
  let div := d.degree_
  return if div < num 0 then div + num 360 else div

/-- `area`, sector_2d.py:134-144 -/
def areaE (s : Sector K) : Except PyErr K := do
  let circleArea := s.maxR * s.maxR * PyMath.pi - s.minR * s.minR * PyMath.pi
  let div ← s.arcDegE
  pyDiv (circleArea * div) (num 360)

/-- `contains`, sector_2d.py:146-158 -/
def containsE (s : Sector K) (p : Vec K) : Except PyErr Bool := do
  let rel := p.sub s.center
  let delta := rel.r2
  if s.minR * s.minR ≤ delta ∧ delta ≤ s.maxR * s.maxR then
    let t ← rel.thE
    t.isWithinE s.start s.stop
  else return false

/-- `get_circumference_min`, sector_2d.py:160-169 -/
def circumferenceMinE (s : Sector K) : Except PyErr K := do
  let div ← s.arcDegE
  let q ← pyDiv div (num 360)
  return (num 2 * s.minR * PyMath.pi) * q

/-- `get_circumference_max`, sector_2d.py:171-180 -/
def circumferenceMaxE (s : Sector K) : Except PyErr K := do
  let div ← s.arcDegE
  let q ← pyDiv div (num 360)
  return (num 2 * s.maxR * PyMath.pi) * q

end Sector

/-! ## size_2d.py, rect_2d.py, polygon_2d.py -/

namespace Size

/-- `diagonal`, size_2d.py:73-79 -/
def diagonalE (s : Size K) : Except PyErr K := sqrtE (s.length * s.length + s.width * s.width)

end Size

namespace Rect

/-- `intersection(Line2D)`, rect_2d.py:715-745 -/
def intersectionLineE (r : Rect K) (l : Line K) : Except PyErr (List (Vec K)) := do
  let inY (v : Vec K) : Bool := decide (r.top ≤ v.y) && decide (v.y ≤ r.bottom)
  let inX (v : Vec K) : Bool := decide (r.left ≤ v.x) && decide (v.x ≤ r.right)
  let v ← r.leftEdge.intersectionE l
  let acc := interStep [] v (inY v)
  let v ← r.rightEdge.intersectionE l
  let acc := interStep acc v (inY v)
  let v ← r.topEdge.intersectionE l
  let acc := interStep acc v (inX v)
  let v ← r.bottomEdge.intersectionE l
  let acc := interStep acc v (inX v)
  return dropNear acc

/-- `intersection(Ray2D)`, rect_2d.py:746-754 -/
def intersectionRayE (r : Rect K) (ray : Ray K) : Except PyErr (List (Vec K)) := do
  let l ← ray.lineE
  let sol ← r.intersectionLineE l
  Circle.dropRejectedE (fun p => ray.inRightDirE p (num 1)) sol

/-- `intersection(Segment2D)`, rect_2d.py:755-762 -/
def intersectionSegE (r : Rect K) (s : Seg K) : Except PyErr (List (Vec K)) := do
  let sol ← r.intersectionLineE s.line
  return Circle.dropRejected s.contains sol

end Rect

namespace Poly

/-- The virtual half line of polygon_2d.py:245-247. -/
def halfLineE (bb : Rect K) (v0 p : Vec K) : Except PyErr (Seg K) := do
  let d ← (v0.sub p).rE
  return Seg.ofPoints p (Vec.ofXY (p.x + ((bb.right - bb.left + bb.bottom - bb.top) + d) * num 3) p.y)

/-- `contains`, polygon_2d.py:223-281 -/
def containsE (poly : Poly K) (p : Vec K) (allow : Bool) : Except PyErr Bool :=
  match poly.vertices with
  | [] => .ok false
  | [v] => .ok (allow && v.eq p)
  | v0 :: v1 :: vs => do
    let bb ← poly.boundingBox
    if !bb.contains p then return false
    else
      let l ← halfLineE bb v0 p
      return containsLoop p allow l (cyclicPairs (v0 :: v1 :: vs)) false

/-- Loop body of polygon_2d.py:311-319. -/
def distStepE (p : Vec K) (m : Option K) (e : Vec K × Vec K) : Except PyErr (Option K) := do
  let d ← (Seg.ofPoints e.1 e.2).distPointE p
  return updMin m d

/-- `dist`, polygon_2d.py:291-329 -/
def distE (poly : Poly K) (p : Vec K) (checkAsPlane : Bool) : Except PyErr (Option K) :=
  match poly.vertices with
  | [v] => do
    let d ← (v.sub p).rE
    return some d
  | vs => do
    let inside ← if checkAsPlane then poly.containsE p true else .ok false
    if inside then return some (num 0)
    else
      let m ← (chainPairs vs).foldlM (distStepE p) none
      match vs with
      | v0 :: _ :: v2 :: rest => distStepE p m ((v2 :: rest).getLast (List.cons_ne_nil _ _), v0)
      | _ => return m

end Poly

/-! ## soccer_math.py -/

namespace SoccerMath

/-- `inertia_n_step_travel`, soccer_math.py:102-116 -/
def inertiaNStepTravelE (vel : Vec K) (n : ℤ) (decay : K) : Except PyErr (Vec K) := do
  let p ← powE decay n
  let q ← pyDiv (num 1 - p) (num 1 - decay)
  return (Vec.ofXY vel.x vel.y).mul q

/-- `inertia_n_step_distance`, soccer_math.py:138-151 -/
def inertiaNStepDistanceE (speed : K) (n : ℤ) (decay : K) : Except PyErr K := do
  let p ← powE decay n
  pyDiv (speed * (num 1 - p)) (num 1 - decay)

/-- `calc_length_geom_series`, soccer_math.py:218-236 -/
def calcLengthGeomSeriesE (first sum ratio : K) : Except PyErr K :=
  if first ≤ SERVER_EPS ∨ sum < num 0 ∨ ratio ≤ SERVER_EPS then .ok (-(num 1))
  else if sum ≤ SERVER_EPS then .ok (num 0)
  else do
    let q ← pyDiv (sum * (ratio - num 1)) first
    let tmp := num 1 + q
    if tmp ≤ SERVER_EPS then return -(num 1)
    else
      let a ← logE tmp
      let b ← logE ratio
      pyDiv a b

/-- `calc_first_term_geom_series`, soccer_math.py:238-249 -/
def calcFirstTermGeomSeriesE (sums ratio : K) (length : ℤ) : Except PyErr K := do
  let p ← powE ratio length
  pyDiv (sums * (num 1 - ratio)) (num 1 - p)

variable [IntCast K]

/-- `r_int`, soccer_math.py:193-215 -/
def rIntE (x : K) : Except PyErr ℤ := do
  let og ← truncE x
  let diff := fabs ((og : K) - x)
  let left := og - 1
  let leftDiff := fabs ((left : K) - x)
  let right := og + 1
  let rightDiff := fabs ((right : K) - x)
  return if diff < leftDiff ∧ diff < rightDiff then og
    else if leftDiff < rightDiff then left
    else right

/-- `quantize`, soccer_math.py:316-327 -/
def quantizeE (v q : K) : Except PyErr K := do
  let d ← pyDiv v q
  let n ← rIntE d
  return (n : K) * q

/-- `quantize_dist`, soccer_math.py:330-340 -/
def quantizeDistE (d q : K) : Except PyErr K := do
  let l ← logE (d + SERVER_EPS)
  let e ← quantizeE l q
  let x ← expE e
  quantizeE x (num 1 / num 10)

/-- `unquantize_min`, soccer_math.py:343-353 -/
def unquantizeMinE (d q : K) : Except PyErr K := do
  let r ← pyDiv d q
  let n ← rIntE r
  return ((n : K) - num 1 / num 2) * q

/-- `unquantize_max`, soccer_math.py:356-366 -/
def unquantizeMaxE (d q : K) : Except PyErr K := do
  let r ← pyDiv d q
  let n ← rIntE r
  return ((n : K) + num 1 / num 2) * q

/-- `unquantize_error`, soccer_math.py:400-414 -/
def unquantizeErrorE (see q : K) : Except PyErr K := do
  let lo ← unquantizeMinE see (num 1 / num 10)
  let lo ← logE lo
  let lo ← unquantizeMinE lo q
  let lo ← expE lo
  let minDist := lo - SERVER_EPS
  let hi ← unquantizeMaxE see (num 1 / num 10)
  let hi ← logE hi
  let hi ← unquantizeMaxE hi q
  let hi ← expE hi
  let maxDist := hi - SERVER_EPS
  return fabs (maxDist - minDist)

end SoccerMath

end PyrusGeom
