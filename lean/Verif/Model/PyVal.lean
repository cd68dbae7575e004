import Verif.Model.Sector
import Verif.Model.Polygon

/-!
# Model of the constructors on arbitrary Python values

The other model files give each constructor one Lean function per accepted argument shape.  Here the constructors are
modelled once more with their `isinstance` dispatch, on arbitrary argument lists and keyword lists of dynamically typed
values:

* `/repo/src/pyrusgeom/vector_2d.py:20-71`, `173-183`, `551-561`, `597-610`
* `/repo/src/pyrusgeom/angle_deg.py:15-42`, `78-88`, `280-360`
* `/repo/src/pyrusgeom/line_2d.py:20-104`
* `/repo/src/pyrusgeom/segment_2d.py:26-72`
* `/repo/src/pyrusgeom/ray_2d.py:23-47`
* `/repo/src/pyrusgeom/size_2d.py:17-29`, `/repo/src/pyrusgeom/rect_2d.py:36-107`
* `/repo/src/pyrusgeom/circle_2d.py:27-42`, `/repo/src/pyrusgeom/triangle_2d.py:33-64`

Simplifications:
* `num` stands for `int`, `float` and `bool` (all three pass `isinstance(_, (int, float))`).
* `other` stands for every value without arithmetic, ordering against numbers and the accessor methods used here:
  `None`, strings, containers, functions, and instances of unrelated classes.  Foreign numeric types (`Fraction`,
  `Decimal`, `complex`, NumPy scalars, `timedelta`) and subclasses of the modelled classes are left out.
* Attributes of objects may hold any value, because some constructors store their arguments unchecked.
* Keyword arguments are a list of distinct names with values.
-/

namespace PyrusGeom

variable {K : Type} [Add K] [Sub K] [Mul K] [Div K] [Neg K] [NatCast K] [LT K] [LE K]
  [DecidableLT K] [DecidableLE K] [BEq K] [PyMath K]

/-- A Python value. -/
inductive PyVal (K : Type) where
  /-- `int`, `float`, `bool` -/
  | num (x : K)
  /-- `AngleDeg`; `normal()` compares `_degree` with numbers in every constructor, so `_degree` is a number -/
  | angle (a : AngleDeg K)
  /-- `Vector2D` with attributes `_x`, `_y`, `_is_valid` -/
  | vec (x y : PyVal K) (valid : Bool)
  /-- `Line2D` with attributes `_a`, `_b`, `_c` -/
  | line (a b c : PyVal K)
  /-- `Size2D`; `math.fabs` makes both attributes floats -/
  | size (s : Size K)
  /-- `Segment2D` with attributes `_origin`, `_terminal` -/
  | seg (o t : PyVal K)
  /-- `Ray2D` with attributes `_origin`, `_direction` -/
  | ray (o : PyVal K) (dir : AngleDeg K)
  /-- `Rect2D` with attributes `_top_left`, `_size` -/
  | rect (tl size : PyVal K)
  /-- `Circle2D` with attributes `_center`, `_radius` -/
  | circle (c : PyVal K) (r : K)
  /-- `Triangle2D` with attributes `_a`, `_b`, `_c` -/
  | tri (a b c : PyVal K)
  /-- anything else -/
  | other (n : ℕ)

namespace PyVal

/-- `Vector2D(x, y)` with two positional arguments, vector_2d.py:50-53,61 -/
def vec2 : PyVal K → PyVal K → Except PyErr (PyVal K)
  | .num x, .num y => .ok (.vec (.num x) (.num y) true)
  | _, _ => .error .exception

/-- Python `a - b`: numbers; `AngleDeg.__sub__` angle_deg.py:296-308; `Vector2D.__sub__` vector_2d.py:554-555. -/
def sub : PyVal K → PyVal K → Except PyErr (PyVal K)
  | .num x, .num y => .ok (.num (x - y))
  | .angle a, .num y => .ok (.angle (a.subNum y))
  | .angle a, .angle b => .ok (.angle (a.sub b))
  | .vec x y _, .vec x' y' _ => do
    let u ← sub x x'
    let v ← sub y y'
    vec2 u v
  | .vec _ _ _, _ => .error .attributeError
  | _, _ => .error .typeError

/-- Python `a + b`: numbers; `AngleDeg.__add__` angle_deg.py:280-294; `Vector2D.__add__` vector_2d.py:551-552. -/
def add : PyVal K → PyVal K → Except PyErr (PyVal K)
  | .num x, .num y => .ok (.num (x + y))
  | .angle a, .num y => .ok (.angle (a.addNum y))
  | .angle a, .angle b => .ok (.angle (a.add b))
  | .vec x y _, .vec x' y' _ => do
    let u ← add x x'
    let v ← add y y'
    vec2 u v
  | .vec _ _ _, _ => .error .attributeError
  | _, _ => .error .typeError

/-- Python `a * b`: numbers; `AngleDeg.__mul__` angle_deg.py:310-321; `Vector2D.__mul__` vector_2d.py:560-561. -/
def mul : PyVal K → PyVal K → Except PyErr (PyVal K)
  | .num x, .num y => .ok (.num (x * y))
  | .angle a, .num y => .ok (.angle (a.mul y))
  | .vec x y _, w => do
    let u ← mul x w
    let v ← mul y w
    vec2 u v
  | _, _ => .error .typeError

/-- Python unary minus: numbers; `AngleDeg.__neg__` angle_deg.py:352-359. -/
def neg : PyVal K → Except PyErr (PyVal K)
  | .num x => .ok (.num (-x))
  | .angle a => .ok (.angle a.neg)
  | _ => .error .typeError

/-- `math.fabs(v)`: numbers, and `AngleDeg` through `__float__` angle_deg.py:344-350. -/
def fabsOf : PyVal K → Except PyErr K
  | .num x => .ok (fabs x)
  | .angle a => .ok (fabs a.degree)
  | _ => .error .typeError

/-- `v < 0.0` (no modelled class defines `__lt__`). -/
def ltZero : PyVal K → Except PyErr Bool
  | .num x => .ok (decide (x < PyrusGeom.num 0))
  | _ => .error .typeError

/-- `v.x()`, vector_2d.py:75-81 (only `Vector2D` has this method) -/
def getX : PyVal K → Except PyErr (PyVal K)
  | .vec x _ _ => .ok x
  | _ => .error .attributeError

/-- `v.y()`, vector_2d.py:83-89 -/
def getY : PyVal K → Except PyErr (PyVal K)
  | .vec _ y _ => .ok y
  | _ => .error .attributeError

/-- `AngleDeg(*args, **kwargs)`, angle_deg.py:31-42 -/
def newAngle (args : List (PyVal K)) (kw : List (String × PyVal K)) : Except PyErr (AngleDeg K) :=
  match args, kw with
  | [], [] => .ok AngleDeg.default
  | [.angle a], _ => .ok (AngleDeg.ofAngle a)
  | [.num x], _ => .ok (AngleDeg.ofNum x)
  | [_], _ => .error .typeError
  | _, kw =>
    match kw.lookup "af" with
    | some (.num x) => .ok (AngleDeg.ofNum x)
    | some _ => .error .typeError
    | none => .error .exception

/-- `t if isinstance(t, AngleDeg) else AngleDeg(t)`, vector_2d.py:180-181, 607-608, line_2d.py:62-63, 91-92 -/
def toAngle : PyVal K → Except PyErr (AngleDeg K)
  | .angle a => .ok a
  | v => newAngle [v] []

/-- `Vector2D(*args, **kwargs)`, vector_2d.py:48-71; the second keyword form calls `set_polar`, 173-183. -/
def newVector (args : List (PyVal K)) (kw : List (String × PyVal K)) : Except PyErr (PyVal K) :=
  if kw.length = 0 then
    match args with
    | [u, v] => vec2 u v
    | [.vec x y _] => .ok (.vec x y true)
    | [] => .ok (.vec (.num (PyrusGeom.num 0)) (.num (PyrusGeom.num 0)) true)
    | _ => .error .exception
  else if kw.length = 2 then
    match kw.lookup "x", kw.lookup "y" with
    | some x, some y => .ok (.vec x y true)
    | _, _ =>
      match kw.lookup "r", kw.lookup "a" with
      | some r, some t => do
        let t ← toAngle t
        let x ← mul r (.num t.cos)
        let y ← mul r (.num t.sin)
        .ok (.vec x y true)
      | _, _ => .error .exception
  else .error .exception

/-- `Vector2D.from_polar(mag, theta)`, vector_2d.py:597-610 -/
def fromPolar (mag theta : PyVal K) : Except PyErr (PyVal K) := do
  let t ← toAngle theta
  let x ← mul mag (.num t.cos)
  let y ← mul mag (.num t.sin)
  vec2 x y

/-- The body of `Line2D(point, direction)`, line_2d.py:62-66, 91-95 -/
def lineOfDir (p t : PyVal K) : Except PyErr (PyVal K) := do
  let t ← toAngle t
  let a := -t.sin
  let b := t.cos
  let x ← getX p
  let u ← mul (.num (-a)) x
  let y ← getY p
  let v ← mul (.num b) y
  let c ← sub u v
  .ok (.line (.num a) (.num b) c)

/-- The body of `Line2D(point, point)`, line_2d.py:69-71, 86-88 -/
def lineOfPoints (p q : PyVal K) : Except PyErr (PyVal K) := do
  let qy ← getY q
  let py ← getY p
  let dy ← sub qy py
  let a ← neg dy
  let qx ← getX q
  let px ← getX p
  let b ← sub qx px
  let na ← neg a
  let u ← mul na px
  let v ← mul b py
  let c ← sub u v
  .ok (.line a b c)

/-- `Line2D(l=v)`, line_2d.py:98-100; `Triangle2D` too has methods `a`, `b`, `c` (returning vectors). -/
def lineOfLine : PyVal K → Except PyErr (PyVal K)
  | .line a b c => .ok (.line a b c)
  | .tri a b c => do
    let a ← newVector [a] []
    let b ← newVector [b] []
    let c ← newVector [c] []
    .ok (.line a b c)
  | _ => .error .attributeError

/-- `Line2D(*args, **kwargs)`, line_2d.py:47-104 -/
def newLine (args : List (PyVal K)) (kw : List (String × PyVal K)) : Except PyErr (PyVal K) :=
  if kw.length = 0 then
    match args with
    | [.num a, .num b, .num c] => .ok (.line (.num a) (.num b) (.num c))
    | [.vec x y v, .angle t] => lineOfDir (.vec x y v) (.angle t)
    | [.vec x y v, .num t] => lineOfDir (.vec x y v) (.num t)
    | [.vec x y v, .vec x' y' v'] => lineOfPoints (.vec x y v) (.vec x' y' v')
    | [.line a b c] => .ok (.line a b c)
    | _ => .error .exception
  else
    match kw.lookup "a", kw.lookup "b", kw.lookup "c" with
    | some a, some b, some c => .ok (.line a b c)
    | oa, _, _ =>
      match kw.lookup "p1", kw.lookup "p2" with
      | some p, some q => lineOfPoints p q
      | _, _ =>
        match kw.lookup "p", oa with
        | some p, some t => lineOfDir p t
        | _, _ =>
          match kw.lookup "l" with
          | some l => lineOfLine l
          | none => .error .exception

/-- `Segment2D(*args)`, segment_2d.py:55-72 -/
def newSegment (args : List (PyVal K)) : Except PyErr (PyVal K) :=
  match args with
  | [p, q] => do
    let o ← newVector [p] []
    let t ← newVector [q] []
    .ok (.seg o t)
  | [p, m, d] => do
    let o ← newVector [p] []
    let v ← fromPolar m d
    let t ← add p v
    .ok (.seg o t)
  | [a, b, c, d] => do
    let o ← newVector [a, b] []
    let t ← newVector [c, d] []
    .ok (.seg o t)
  | [] => do
    let o ← newVector [.num (PyrusGeom.num 0), .num (PyrusGeom.num 0)] []
    .ok (.seg o o)
  | _ => .error .exception

/-- `v.th()` for the vector returned by `direction - origin`, vector_2d.py:242-248: `AngleDeg(atan2_deg(y, x))`.
Vectors built by `Vector2D.__sub__` have numeric coordinates, the other cases do not occur there. -/
def thOf : PyVal K → Except PyErr (AngleDeg K)
  | .vec (.num x) (.num y) _ => .ok (AngleDeg.ofNum (AngleDeg.atan2Deg y x))
  | _ => .error .typeError

/-- `Ray2D(origin, direction)`, ray_2d.py:36-47; any other number of arguments is a `TypeError` of the call. -/
def newRay (args : List (PyVal K)) : Except PyErr (PyVal K) :=
  match args with
  | [p, d] => do
    let o ← newVector [p] []
    match d with
    | .vec x y v => do
      let w ← sub (.vec x y v) p
      let t ← thOf w
      .ok (.ray o t)
    | .angle t => .ok (.ray o (AngleDeg.ofAngle t))
    | .num t => .ok (.ray o (AngleDeg.ofNum t))
    | _ => .error .exception
  | _ => .error .typeError

/-- `Size2D(length, width)`, size_2d.py:28-29 -/
def newSize (l w : PyVal K) : Except PyErr (Size K) := do
  let l ← fabsOf l
  let w ← fabsOf w
  .ok ⟨l, w⟩

/-- `rect.size()`, rect_2d.py:605-611: `Size2D(self._size.length(), self._size.width())`.  `Segment2D` has a method
`length` but none named `width`, so every non-`Size2D` raises. -/
def sizeCopy : PyVal K → Except PyErr (Size K)
  | .size s => .ok (Size.ofLW s.length s.width)
  | _ => .error .attributeError

/-- `Rect2D(*args)`, rect_2d.py:71-107 -/
def newRect (args : List (PyVal K)) : Except PyErr (PyVal K) :=
  match args with
  | [a, b, c, d] => do
    let tl ← newVector [a, b] []
    let s ← newSize c d
    .ok (.rect tl (.size s))
  | [p, l, w] => do
    let tl ← newVector [p] []
    let s ← newSize l w
    .ok (.rect tl (.size s))
  | [p, .vec x' y' _] => do
    let tl ← newVector [p] []
    let x ← getX tl
    let y ← getY tl
    let dx ← sub x' x
    let dy ← sub y' y
    let _ ← newSize dx dy
    let bx ← ltZero dx
    let x := if bx then x' else x
    let bY ← ltZero dy
    let zero : Size K := Size.ofLW (PyrusGeom.num 0) (PyrusGeom.num 0)
    if bY then .ok (.rect (.vec x y' true) (.size zero))
    else .ok (.rect (.vec (.num (PyrusGeom.num 0)) (.num (PyrusGeom.num 0)) true) (.size zero))
  | [p, s] => do
    let tl ← newVector [p] []
    .ok (.rect tl s)
  | [.rect p s] => do
    let tl ← newVector [p] []
    let s ← sizeCopy s
    .ok (.rect tl (.size s))
  | _ => .error .exception

/-- `Circle2D(center, radius)`, circle_2d.py:27-42 (two positional arguments) -/
def newCircle (c r : PyVal K) : Except PyErr (PyVal K) := do
  let c ← newVector [c] []
  match r with
  | .num r => .ok (.circle c (if r < PyrusGeom.num 0 then PyrusGeom.num 0 else r))
  | _ => .error .typeError

/-- `v.origin_()`, segment_2d.py:142-148, ray_2d.py:65-71 -/
def origin_ : PyVal K → Except PyErr (PyVal K)
  | .seg o _ => .ok o
  | .ray o _ => .ok o
  | _ => .error .attributeError

/-- `v.terminal_()`, segment_2d.py:159-165 -/
def terminal_ : PyVal K → Except PyErr (PyVal K)
  | .seg _ t => .ok t
  | _ => .error .attributeError

/-- `Triangle2D(*args)`, triangle_2d.py:53-64 -/
def newTriangle (args : List (PyVal K)) : Except PyErr (PyVal K) :=
  match args with
  | [a, b, c] => do
    let a ← newVector [a] []
    let b ← newVector [b] []
    let c ← newVector [c] []
    .ok (.tri a b c)
  | [s, p] => do
    let o ← origin_ s
    let a ← newVector [o] []
    let t ← terminal_ s
    let b ← newVector [t] []
    let c ← newVector [p] []
    .ok (.tri a b c)
  | _ => .error .exception

end PyVal

end PyrusGeom
