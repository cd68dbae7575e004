import Verif.Num

/-!
# Model of `/repo/src/pyrusgeom/angle_deg.py`

`AngleDeg K` holds the attribute `_degree`.  Arguments of type `Union[AngleDeg, float, int]` are passed as
`AngleDeg`; passing a number `d` is the same as passing `AngleDeg.ofNum d` where the code converts
(lines 106-109, 177, 191, 205, 219), and separate `…Num` versions exist where it does not.
-/

namespace PyrusGeom

variable {K : Type} [Add K] [Sub K] [Mul K] [Div K] [Neg K] [NatCast K] [LT K] [LE K]
  [DecidableLT K] [DecidableLE K] [BEq K] [PyMath K]

/-- `AngleDeg` object (`_degree`), angle_deg.py:10-42. -/
@[ext] structure AngleDeg (K : Type) where
  deg : K

namespace AngleDeg

/-- `normal`, angle_deg.py:78-93. The three `if`s run one after the other on the same attribute. -/
def normalDeg (d : K) : K :=
  let d := if d < -(num 360) ∨ num 360 < d then PyMath.fmod d (num 360) else d
  let d := if d < -(num 180) then d + num 360 else d
  if num 180 < d then d - num 360 else d

/-- `AngleDeg(d)` for a number, angle_deg.py:33-37,42. -/
def ofNum (d : K) : AngleDeg K := ⟨normalDeg d⟩

/-- `AngleDeg()`, angle_deg.py:31-32,42 -/
def default : AngleDeg K := ofNum (num 0)

/-- `degree()`, angle_deg.py:44-51: builds a fresh `AngleDeg` from `_degree` and reads its degree. -/
def degree (a : AngleDeg K) : K := (ofNum a.deg).deg

/-- `degree_()`, angle_deg.py:53-59 -/
def degree_ (a : AngleDeg K) : K := a.deg

/-- `AngleDeg(a)` for an `AngleDeg`, angle_deg.py:34-35,42 -/
def ofAngle (a : AngleDeg K) : AngleDeg K := ofNum a.degree

/-- `set_degree`, angle_deg.py:61-68 -/
def setDegree (_a : AngleDeg K) (d : K) : AngleDeg K := ⟨normalDeg d⟩

/-- `set_angle`, angle_deg.py:70-76 (no renormalisation) -/
def setAngle (_a : AngleDeg K) (b : AngleDeg K) : AngleDeg K := ⟨b.degree⟩

/-- `abs`, angle_deg.py:118-124 -/
def abs (a : AngleDeg K) : K := fabs a.degree

/-- `radian`, angle_deg.py:126-132 -/
def radian (a : AngleDeg K) : K := a.degree * DEG2RAD

/-- `copy`, angle_deg.py:134-140 -/
def copy (a : AngleDeg K) : AngleDeg K := ofNum a.deg

/-- `reverse`, angle_deg.py:142-148 (mutates; no renormalisation) -/
def reverse (a : AngleDeg K) : AngleDeg K :=
  if num 0 ≤ a.deg then ⟨-(num 180 - a.deg)⟩ else ⟨num 180 + a.deg⟩

/-- `reverse_angle`, angle_deg.py:150-158 -/
def reverseAngle (a : AngleDeg K) : AngleDeg K := (ofNum a.degree).reverse

/-- `get_normalized`, angle_deg.py:160-166 -/
def getNormalized (a : AngleDeg K) : K := (a.degree + num 180) / num 360

/-- `is_left_of`, angle_deg.py:168-180 -/
def isLeftOf (a b : AngleDeg K) : Bool :=
  let diff := b.degree - a.degree
  (decide (num 0 < diff) && decide (diff < num 180)) || decide (diff < -(num 180))

/-- `is_right_of`, angle_deg.py:182-194 -/
def isRightOf (a b : AngleDeg K) : Bool :=
  let diff := a.degree - b.degree
  (decide (num 0 < diff) && decide (diff < num 180)) || decide (diff < -(num 180))

/-- `is_left_equal_of`, angle_deg.py:196-208 (reads `self._degree` directly) -/
def isLeftEqualOf (a b : AngleDeg K) : Bool :=
  let diff := b.degree - a.deg
  (decide (num 0 ≤ diff) && decide (diff < num 180)) || decide (diff < -(num 180))

/-- `is_right_equal_of`, angle_deg.py:210-222 -/
def isRightEqualOf (a b : AngleDeg K) : Bool :=
  let diff := a.degree - b.degree
  (decide (num 0 ≤ diff) && decide (diff < num 180)) || decide (diff < -(num 180))

/-- `is_within`, angle_deg.py:95-116 -/
def isWithin (a left right : AngleDeg K) : Bool :=
  if left.isLeftEqualOf right then
    left.isLeftEqualOf a && a.isLeftEqualOf right
  else
    a.isLeftEqualOf right || left.isLeftEqualOf a

/-- `__iadd__` with a number, angle_deg.py:224-237 -/
def iaddNum (a : AngleDeg K) (d : K) : AngleDeg K := ⟨normalDeg (a.deg + d)⟩

/-- `__iadd__` with an `AngleDeg`, angle_deg.py:224-237 -/
def iadd (a b : AngleDeg K) : AngleDeg K := a.iaddNum b.degree

/-- `__isub__` with a number, angle_deg.py:239-252 -/
def isubNum (a : AngleDeg K) (d : K) : AngleDeg K := ⟨normalDeg (a.deg - d)⟩

/-- `__isub__` with an `AngleDeg`, angle_deg.py:239-252 -/
def isub (a b : AngleDeg K) : AngleDeg K := a.isubNum b.degree

/-- `__imul__`, angle_deg.py:254-265 -/
def imul (a : AngleDeg K) (s : K) : AngleDeg K := ⟨normalDeg (a.deg * s)⟩

/-- `__idiv__`, angle_deg.py:267-278. Python 3 never calls it for `/=`; it can be called by name. -/
def idiv (a : AngleDeg K) (s : K) : Except PyErr (AngleDeg K) := do
  let d ← pyDiv a.deg s
  return ⟨normalDeg d⟩

/-- `__add__` with an `AngleDeg`, angle_deg.py:280-294 -/
def add (a b : AngleDeg K) : AngleDeg K := ofNum (a.deg + b.degree)

/-- `__add__` with a number, angle_deg.py:280-294 -/
def addNum (a : AngleDeg K) (d : K) : AngleDeg K := ofNum (a.deg + d)

/-- `__sub__` with an `AngleDeg`, angle_deg.py:296-308 -/
def sub (a b : AngleDeg K) : AngleDeg K := ofNum (a.deg - b.deg)

/-- `__sub__` with a number, angle_deg.py:296-308 -/
def subNum (a : AngleDeg K) (d : K) : AngleDeg K := ofNum (a.deg - d)

/-- `__mul__`, angle_deg.py:310-321 -/
def mul (a : AngleDeg K) (s : K) : AngleDeg K := ofNum (a.deg * s)

/-- `__floordiv__`, angle_deg.py:323-334: a true division, despite its name. -/
def floordiv (a : AngleDeg K) (s : K) : Except PyErr (AngleDeg K) := do
  let d ← pyDiv a.deg s
  return ofNum d

/-- `__neg__`, angle_deg.py:352-359 -/
def neg (a : AngleDeg K) : AngleDeg K := ofNum (-a.deg)

/-- `__eq__` with a number, angle_deg.py:361-371 -/
def eqNum (a : AngleDeg K) (d : K) : Bool := decide (fabs (a.deg - d) < EPSILON)

/-- `__eq__` with an `AngleDeg`, angle_deg.py:361-371 -/
def eq (a b : AngleDeg K) : Bool := a.eqNum b.degree

/-- `cos`, angle_deg.py:373-379 -/
def cos (a : AngleDeg K) : K := PyMath.cos (a.deg * DEG2RAD)

/-- `sin`, angle_deg.py:381-387 -/
def sin (a : AngleDeg K) : K := PyMath.sin (a.deg * DEG2RAD)

/-- `tan`, angle_deg.py:389-395 -/
def tan (a : AngleDeg K) : K := PyMath.tan (a.deg * DEG2RAD)

/-- `rad2deg`, angle_deg.py:397-407 -/
def rad2deg (rad : K) : K := rad * RAD2DEG

/-- `deg2rad`, angle_deg.py:409-419 -/
def deg2rad (deg : K) : K := deg * DEG2RAD

/-- `cos_deg`, angle_deg.py:421-431 -/
def cosDeg (deg : K) : K := PyMath.cos (deg2rad deg)

/-- `sin_deg`, angle_deg.py:433-443 -/
def sinDeg (deg : K) : K := PyMath.sin (deg2rad deg)

/-- `tan_deg`, angle_deg.py:445-455 -/
def tanDeg (deg : K) : K := PyMath.tan (deg2rad deg)

/-- `math.acos`, which raises `ValueError` outside `[-1, 1]`. -/
def mathAcos (x : K) : Except PyErr K :=
  if num 1 < x ∨ x < -(num 1) then .error .valueError else .ok (PyMath.acos x)

/-- `math.asin`, which raises `ValueError` outside `[-1, 1]`. -/
def mathAsin (x : K) : Except PyErr K :=
  if num 1 < x ∨ x < -(num 1) then .error .valueError else .ok (PyMath.asin x)

/-- `acos_deg`, angle_deg.py:457-472 -/
def acosDeg (cosine : K) : Except PyErr K :=
  if num 1 ≤ cosine then .ok (num 0)
  else if cosine ≤ -(num 1) then .ok (num 180)
  else do
    let r ← mathAcos cosine
    return rad2deg r

/-- `asin_deg`, angle_deg.py:474-489 -/
def asinDeg (sine : K) : Except PyErr K :=
  if num 1 ≤ sine then .ok (num 90)
  else if sine ≤ -(num 1) then .ok (-(num 90))
  else do
    let r ← mathAsin sine
    return rad2deg r

/-- `atan_deg`, angle_deg.py:491-501 -/
def atanDeg (tangent : K) : K := rad2deg (PyMath.atan tangent)

/-- `atan2_deg`, angle_deg.py:503-517 -/
def atan2Deg (y x : K) : K :=
  if fabs x < EPSILON ∧ fabs y < EPSILON then num 0 else rad2deg (PyMath.atan2 y x)

/-- `bisect`, angle_deg.py:519-539. Numeric arguments are converted by `AngleDeg(left)`, so the model takes the
raw numbers (an `AngleDeg` argument `a` corresponds to `a.degree`). `* 0.5` is written `* (1/2)`. -/
def bisect (left right : K) : AngleDeg K :=
  let result := ofNum left
  let rel := ofAngle ((ofNum right).sub result)
  let diff := result.degree - (ofNum right).degree
  let halfDeg := rel.degree * (num 1 / num 2)
  let result := result.iaddNum halfDeg
  if (num 0 < diff ∧ diff < num 180) ∨ diff < -(num 180) then result
  else result.addNum (num 180)

/-- `normalize_angle`, angle_deg.py:541-549 (Python `%`) -/
def normalizeAngle (d : K) : K :=
  let d := if d < -(num 360) ∨ num 360 < d then PyMath.pmod d (num 360) else d
  let d := if d < -(num 180) then d + num 360 else d
  if num 180 < d then d - num 360 else d

end AngleDeg

end PyrusGeom
