import Verif.Model.Angle

/-!
# Model of `/repo/src/pyrusgeom/vector_2d.py`

`Vec K` holds `_x`, `_y`, `_is_valid`. Constructor dispatch on argument shapes is in `Verif/Model/PyVal.lean`.
A mutating method returns the new value of `self`.
-/

namespace PyrusGeom

variable {K : Type} [Add K] [Sub K] [Mul K] [Div K] [Neg K] [NatCast K] [LT K] [LE K]
  [DecidableLT K] [DecidableLE K] [BEq K] [PyMath K]

/-- `Vector2D` object, vector_2d.py:13-19. `get_x` and `get_y`, vector_2d.py:91-105, read the fields. `__idiv__`, vector_2d.py:578-581, is never
called by Python 3 (`/=` falls back to `__truediv__`). -/
@[ext] structure Vec (K : Type) where
  x : K
  y : K
  valid : Bool := true

namespace Vec

/-- `Vector2D(x, y)`, vector_2d.py:49-54 -/
def ofXY (x y : K) : Vec K := ⟨x, y, true⟩

/-- `Vector2D()`, vector_2d.py:49,58-60 -/
def zero : Vec K := ⟨num 0, num 0, true⟩

/-- `Vector2D(v)`, vector_2d.py:49,55-57: the flag of the argument is not read. -/
def ofVec (v : Vec K) : Vec K := ⟨v.x, v.y, true⟩

/-- `copy` / `get_copy`, vector_2d.py:107-121 -/
def copy (v : Vec K) : Vec K := ofXY v.x v.y

/-- `assign`, vector_2d.py:123-135 (also `set_x_y`, 153-161) -/
def assign (v : Vec K) (x y : K) : Vec K := { v with x := x, y := y }

/-- `set_x`, vector_2d.py:137-143 -/
def setX (v : Vec K) (x : K) : Vec K := { v with x := x }

/-- `set_y`, vector_2d.py:145-151 -/
def setY (v : Vec K) (y : K) : Vec K := { v with y := y }

/-- `set_vector`, vector_2d.py:163-171 -/
def setVector (_v : Vec K) (o : Vec K) : Vec K := ⟨o.x, o.y, o.valid⟩

/-- `set_polar`, vector_2d.py:173-183, with an `AngleDeg` -/
def setPolar (v : Vec K) (radius : K) (angle : AngleDeg K) : Vec K :=
  { v with x := radius * angle.cos, y := radius * angle.sin }

/-- `validate`, vector_2d.py:185-190 -/
def validate (v : Vec K) : Vec K := { v with valid := true }

/-- `invalidate`, vector_2d.py:192-197 -/
def invalidate (v : Vec K) : Vec K := { v with valid := false }

/-- `is_valid`, vector_2d.py:199-205 -/
def isValid (v : Vec K) : Bool := v.valid

/-- `r2` / `length2`, vector_2d.py:207-212,232-240 -/
def r2 (v : Vec K) : K := v.x * v.x + v.y * v.y

/-- `r` / `length`, vector_2d.py:214-230 -/
def r (v : Vec K) : K := PyMath.sqrt v.r2

/-- `th` / `dir`, vector_2d.py:242-258 -/
def th (v : Vec K) : AngleDeg K := AngleDeg.ofNum (AngleDeg.atan2Deg v.y v.x)

/-- `abs`, vector_2d.py:260-266 -/
def abs (v : Vec K) : Vec K := ofXY (fabs v.x) (fabs v.y)

/-- `abs_x`, vector_2d.py:268-274 -/
def absX (v : Vec K) : K := fabs v.x

/-- `abs_y`, vector_2d.py:276-282 -/
def absY (v : Vec K) : K := fabs v.y

/-- `add(v)` one-argument form, effect on `self`, vector_2d.py:284-301 (the method itself returns `None`) -/
def addIn (v o : Vec K) : Vec K := { v with x := v.x + o.x, y := v.y + o.y }

/-- `add(x, y)`, vector_2d.py:302-304 -/
def addXY (v : Vec K) (x y : K) : Vec K := { v with x := v.x + x, y := v.y + y }

/-- `add_x`, vector_2d.py:308-314 -/
def addX (v : Vec K) (x : K) : Vec K := { v with x := v.x + x }

/-- `add_y`, vector_2d.py:316-322 -/
def addY (v : Vec K) (y : K) : Vec K := { v with y := v.y + y }

/-- `sub(v)`, vector_2d.py:324-341 -/
def subIn (v o : Vec K) : Vec K := { v with x := v.x - o.x, y := v.y - o.y }

/-- `sub(x, y)`, vector_2d.py:342-344 -/
def subXY (v : Vec K) (x y : K) : Vec K := { v with x := v.x - x, y := v.y - y }

/-- `sub_x`, vector_2d.py:348-354 -/
def subX (v : Vec K) (x : K) : Vec K := { v with x := v.x - x }

/-- `sub_y`, vector_2d.py:356-362 -/
def subY (v : Vec K) (y : K) : Vec K := { v with y := v.y - y }

/-- `scale`, vector_2d.py:364-371 -/
def scale (v : Vec K) (s : K) : Vec K := { v with x := v.x * s, y := v.y * s }

/-- `dist2`, vector_2d.py:373-382 -/
def dist2 (v o : Vec K) : K := sq (v.x - o.x) + sq (v.y - o.y)

/-- `dist`, vector_2d.py:384-393 -/
def dist (v o : Vec K) : K := PyMath.sqrt (v.dist2 o)

/-- `reverse`, vector_2d.py:395-403 -/
def reverse (v : Vec K) : Vec K := { v with x := v.x * -(num 1), y := v.y * -(num 1) }

/-- `reverse_vector`, vector_2d.py:405-411 -/
def reverseVector (v : Vec K) : Vec K := (ofXY v.x v.y).reverse

/-- `set_length`, vector_2d.py:413-421 -/
def setLength (v : Vec K) (length : K) : Vec K :=
  let mag := v.r
  if EPSILON < mag then v.scale (length / mag) else v

/-- `set_length_vector`, vector_2d.py:423-434 -/
def setLengthVector (v : Vec K) (length : K) : Vec K := (ofXY v.x v.y).setLength length

/-- `normalize`, vector_2d.py:436-441 -/
def normalize (v : Vec K) : Vec K := v.setLength (num 1)

/-- `normalize_vector`, vector_2d.py:443-450 -/
def normalizeVector (v : Vec K) : Vec K := (ofXY v.x v.y).setLength (num 1)

/-- `inner_product`, vector_2d.py:452-463 -/
def innerProduct (v p : Vec K) : K := v.x * p.x + v.y * p.y

/-- `outer_product`, vector_2d.py:465-480 -/
def outerProduct (v p : Vec K) : K := v.x * p.y - v.y * p.x

/-- `equals`, vector_2d.py:482-491 -/
def equals (v o : Vec K) : Bool := v.x == o.x && v.y == o.y

/-- `equals_weakly`, vector_2d.py:493-502 -/
def equalsWeakly (v o : Vec K) : Bool :=
  decide (fabs (v.x - o.x) < EPSILON) && decide (fabs (v.y - o.y) < EPSILON)

/-- `rotate` with a number, vector_2d.py:504-518; an `AngleDeg` argument `a` is used as `a.degree`. -/
def rotate (v : Vec K) (deg : K) : Vec K :=
  let c := PyMath.cos (deg * DEG2RAD)
  let s := PyMath.sin (deg * DEG2RAD)
  v.assign (v.x * c - v.y * s) (v.x * s + v.y * c)

/-- `rotated_vector`, vector_2d.py:520-529 -/
def rotatedVector (v : Vec K) (deg : K) : Vec K := (ofXY v.x v.y).rotate deg

/-- `set_dir`, vector_2d.py:531-541 -/
def setDir (v : Vec K) (direction : AngleDeg K) : Vec K :=
  let radius := v.r
  { v with x := radius * direction.cos, y := radius * direction.sin }

/-- `__eq__`, vector_2d.py:548-549 (argument a `Vector2D`) -/
def eq (v o : Vec K) : Bool := v.x == o.x && v.y == o.y

/-- `__add__`, vector_2d.py:551-552 -/
def add (v o : Vec K) : Vec K := ofXY (v.x + o.x) (v.y + o.y)

/-- `__sub__`, vector_2d.py:554-555 -/
def sub (v o : Vec K) : Vec K := ofXY (v.x - o.x) (v.y - o.y)

/-- `__truediv__`, vector_2d.py:557-558 (also what `/=` does, as `__idiv__` is never called in Python 3) -/
def truediv (v : Vec K) (s : K) : Except PyErr (Vec K) := do
  let x ← pyDiv v.x s
  let y ← pyDiv v.y s
  return ofXY x y

/-- `__mul__`, vector_2d.py:560-561 -/
def mul (v : Vec K) (s : K) : Vec K := ofXY (v.x * s) (v.y * s)

/-- `__iadd__`, vector_2d.py:563-566 -/
def iadd (v o : Vec K) : Vec K := { v with x := v.x + o.x, y := v.y + o.y }

/-- `__isub__`, vector_2d.py:568-571 -/
def isub (v o : Vec K) : Vec K := { v with x := v.x - o.x, y := v.y - o.y }

/-- `__imul__`, vector_2d.py:573-576 -/
def imul (v : Vec K) (s : K) : Vec K := { v with x := v.x * s, y := v.y * s }

/-- `__hash__`, vector_2d.py:545-546: Python's tuple hash of the two numbers, for an arbitrary hash function `h`. -/
def hash (h : K × K → Int) (v : Vec K) : Int := h (v.x, v.y)

/-- `Vector2D.invalid()`, vector_2d.py:586-595 -/
def invalid : Vec K := (zero : Vec K).invalidate

/-- `from_polar` / `polar2vector`, vector_2d.py:597-623, with an `AngleDeg`; a number `d` is `AngleDeg.ofNum d`. -/
def fromPolar (mag : K) (theta : AngleDeg K) : Vec K := ofXY (mag * theta.cos) (mag * theta.sin)

/-- `Vector2D(r=…, a=…)`, vector_2d.py:67-68 (starts from a valid object without coordinates) -/
def ofRA (radius : K) (angle : AngleDeg K) : Vec K := (zero : Vec K).setPolar radius angle

end Vec

end PyrusGeom
