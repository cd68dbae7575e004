import Verif.Model.PyVal
import Verif.Model.Matrix

/-!
# Model of the in-place methods on arbitrary Python values

The other model files give an in-place method as a function from the old to the new value.  Here a method works on the
attributes of `self` statement by statement, and an exception leaves the assignments made before it:

* `/repo/src/pyrusgeom/vector_2d.py:123-183`, `284-371`, `384-395`, `413-421`, `436-441`, `504-518`, `531-541`, `563-576`
* `/repo/src/pyrusgeom/angle_deg.py:61-98`, `224-265`
* `/repo/src/pyrusgeom/size_2d.py:31-55`, `/repo/src/pyrusgeom/segment_2d.py:74-121`, `196-206`
* `/repo/src/pyrusgeom/circle_2d.py:44-54`, `/repo/src/pyrusgeom/sector_2d.py:53-68`, `/repo/src/pyrusgeom/triangle_2d.py:66-99`
* `/repo/src/pyrusgeom/rect_2d.py:111-500`, `/repo/src/pyrusgeom/matrix_2d.py:60-83`, `175-230`, `311-331`

Simplifications, besides those of `Model/PyVal.lean`:
* The attributes of `self` are values: the model does not say with which other objects `self` shares a part (Model/Heap
  does).  The arguments are evaluated before the call, so they do not change during it.
* The receiver of a method that computes with an attribute holds numbers there; so `self._x += v` is `self._x = self._x + v`.
* An `int` times a sequence counts as an error.
* `_is_valid` of circles is always true and left out.
-/

namespace PyrusGeom

variable {K : Type} [Add K] [Sub K] [Mul K] [Div K] [Neg K] [NatCast K] [LT K] [LE K]
  [DecidableLT K] [DecidableLE K] [BEq K] [PyMath K]

/-- A method body: from the attributes before to the attributes after, with the exception if there is one. -/
def Body (σ α : Type) : Type := σ → σ × Except PyErr α

namespace Body

instance {σ : Type} : Monad (Body σ) where
  pure a := fun s => (s, .ok a)
  bind m f := fun s =>
    match m s with
    | (t, .ok a) => f a t
    | (t, .error e) => (t, .error e)

/-- Evaluate an expression: it may raise but assigns nothing. -/
def eval {σ α : Type} (e : Except PyErr α) : Body σ α := fun s => (s, e)

/-- `raise` -/
def throw {σ α : Type} (e : PyErr) : Body σ α := fun s => (s, .error e)

/-- Read the attributes. -/
def self {σ : Type} : Body σ σ := fun s => (s, .ok s)

/-- Assign attributes. -/
def put {σ : Type} (f : σ → σ) : Body σ Unit := fun s => (f s, .ok ())

end Body

open Body

namespace PyVal

/-- A value used where a C function wants a float: numbers, and `AngleDeg` through `__float__` angle_deg.py:344-350. -/
def asNum : PyVal K → Except PyErr K
  | .num x => .ok x
  | .angle a => .ok a.degree
  | _ => .error .typeError

/-- Python `v / m` for a number `m`: numbers; `Vector2D.__truediv__` vector_2d.py:557-558; `AngleDeg` has none. -/
def divNum : PyVal K → K → Except PyErr (PyVal K)
  | .num x, m => do
    let q ← pyDiv x m
    .ok (.num q)
  | .vec x y _, m => do
    let u ← divNum x m
    let v ← divNum y m
    vec2 u v
  | _, _ => .error .typeError

/-- `v.degree() if isinstance(v, AngleDeg) else v`, angle_deg.py:233-234, 248-249, vector_2d.py:513-514 -/
def operand : PyVal K → PyVal K
  | .angle a => .num a.degree
  | v => v

/-- `a < b` (no modelled class defines an ordering). -/
def less : PyVal K → PyVal K → Except PyErr Bool
  | .num x, .num y => .ok (decide (x < y))
  | _, _ => .error .typeError

/-- `min(a, b)` -/
def minOf (a b : PyVal K) : Except PyErr (PyVal K) := do
  let t ← less b a
  .ok (if t then b else a)

/-- `max(a, b)` -/
def maxOf (a b : PyVal K) : Except PyErr (PyVal K) := do
  let t ← less a b
  .ok (if t then b else a)

end PyVal

open PyVal

/-- Attributes `_x`, `_y`, `_is_valid` of a `Vector2D`. -/
structure DVec (K : Type) where
  x : PyVal K
  y : PyVal K
  valid : Bool

namespace DVec

/-- `assign(p_x, p_y)` and `set_x_y(p_x, p_y)`, vector_2d.py:133-135, 160-161 -/
def assign (a b : PyVal K) : Body (DVec K) Unit := do
  put fun s => { s with x := a }
  put fun s => { s with y := b }

/-- `set_x(p_x)`, vector_2d.py:143 -/
def setX (a : PyVal K) : Body (DVec K) Unit := put fun s => { s with x := a }

/-- `set_y(p_y)`, vector_2d.py:151 -/
def setY (b : PyVal K) : Body (DVec K) Unit := put fun s => { s with y := b }

/-- `set_vector(other)`, vector_2d.py:169-171 -/
def setVector (o : PyVal K) : Body (DVec K) Unit := do
  let a ← eval (getX o)
  put fun s => { s with x := a }
  let b ← eval (getY o)
  put fun s => { s with y := b }
  match o with
  | .vec _ _ v => put fun s => { s with valid := v }
  | _ => throw .attributeError

/-- `set_polar(radius, angle)`, vector_2d.py:180-183 -/
def setPolar (r t : PyVal K) : Body (DVec K) Unit := do
  let t ← eval (toAngle t)
  let a ← eval (mul r (.num t.cos))
  put fun s => { s with x := a }
  let b ← eval (mul r (.num t.sin))
  put fun s => { s with y := b }

/-- `self._x += a`, vector_2d.py:314 -/
def addX (a : PyVal K) : Body (DVec K) Unit := do
  let s ← self
  let u ← eval (PyVal.add s.x a)
  put fun s => { s with x := u }

/-- `self._y += b`, vector_2d.py:322 -/
def addY (b : PyVal K) : Body (DVec K) Unit := do
  let s ← self
  let u ← eval (PyVal.add s.y b)
  put fun s => { s with y := u }

/-- `self._x -= a`, vector_2d.py:354 -/
def subX (a : PyVal K) : Body (DVec K) Unit := do
  let s ← self
  let u ← eval (PyVal.sub s.x a)
  put fun s => { s with x := u }

/-- `self._y -= b`, vector_2d.py:362 -/
def subY (b : PyVal K) : Body (DVec K) Unit := do
  let s ← self
  let u ← eval (PyVal.sub s.y b)
  put fun s => { s with y := u }

/-- `v += other`, vector_2d.py:563-566 -/
def iadd (o : PyVal K) : Body (DVec K) Unit := do
  let a ← eval (getX o)
  addX a
  let b ← eval (getY o)
  addY b

/-- `v -= other`, vector_2d.py:568-571 -/
def isub (o : PyVal K) : Body (DVec K) Unit := do
  let a ← eval (getX o)
  subX a
  let b ← eval (getY o)
  subY b

/-- `add(*args)`, vector_2d.py:299-306 -/
def add (args : List (PyVal K)) : Body (DVec K) Unit :=
  match args with
  | [.vec x y v] => iadd (.vec x y v)
  | [a, b] => do
    addX a
    addY b
  | _ => throw .exception

/-- `sub(*args)`, vector_2d.py:339-346 -/
def sub (args : List (PyVal K)) : Body (DVec K) Unit :=
  match args with
  | [o] => isub o
  | [a, b] => do
    subX a
    subY b
  | _ => throw .exception

/-- `scale(scalar)` and `v *= scalar`, vector_2d.py:370-371, 573-576 -/
def scale (c : PyVal K) : Body (DVec K) Unit := do
  let s ← self
  let a ← eval (mul s.x c)
  put fun s => { s with x := a }
  let s ← self
  let b ← eval (mul s.y c)
  put fun s => { s with y := b }

/-- `reverse()`, vector_2d.py:393-395 -/
def reverse : Body (DVec K) Unit := scale (.num (-num 1))

/-- `self.r()`, vector_2d.py:207-220 -/
def r (s : DVec K) : Except PyErr K := do
  let a ← mul s.x s.x
  let b ← mul s.y s.y
  let q ← PyVal.add a b
  let q ← asNum q
  .ok (PyMath.sqrt q)

/-- `set_length(length)`, vector_2d.py:419-421; `normalize()` is `set_length(1)`, 436-441 -/
def setLength (l : PyVal K) : Body (DVec K) Unit := do
  let s ← self
  let mag ← eval s.r
  if EPSILON < mag then
    let c ← eval (divNum l mag)
    scale c
  else pure ()

/-- `rotate(deg)`, vector_2d.py:513-518 -/
def rotate (t : PyVal K) : Body (DVec K) Unit := do
  let w ← eval (mul (operand t) (.num DEG2RAD))
  let w ← eval (asNum w)
  let c := PyVal.num (PyMath.cos w)
  let n := PyVal.num (PyMath.sin w)
  let s ← self
  let u ← eval (mul s.x c)
  let v ← eval (mul s.y n)
  let a ← eval (PyVal.sub u v)
  let u ← eval (mul s.x n)
  let v ← eval (mul s.y c)
  let b ← eval (PyVal.add u v)
  assign a b

/-- `set_dir(direction)`, vector_2d.py:537-541 -/
def setDir (t : PyVal K) : Body (DVec K) Unit := do
  let t ← eval (toAngle t)
  let s ← self
  let r ← eval s.r
  put fun s => { s with x := .num (r * t.cos) }
  put fun s => { s with y := .num (r * t.sin) }

end DVec

/-- Attribute `_degree` of an `AngleDeg`. -/
structure DAngle (K : Type) where
  deg : PyVal K

namespace DAngle

/-- `normal()`, angle_deg.py:86-98: the first comparison raises if `_degree` is not a number. -/
def normal : Body (DAngle K) Unit := do
  let s ← self
  match s.deg with
  | .num x => put fun _ => ⟨.num (AngleDeg.normalDeg x)⟩
  | _ => throw .typeError

/-- `set_degree(degree)`, angle_deg.py:67-68 -/
def setDegree (d : PyVal K) : Body (DAngle K) Unit := do
  put fun _ => ⟨d⟩
  normal

/-- `set_angle(angle)`, angle_deg.py:76 -/
def setAngle (a : PyVal K) : Body (DAngle K) Unit :=
  match a with
  | .angle a => put fun _ => ⟨.num a.degree⟩
  | _ => throw .attributeError

/-- `a += other`, angle_deg.py:233-237 -/
def iadd (o : PyVal K) : Body (DAngle K) Unit := do
  let s ← self
  let d ← eval (PyVal.add s.deg (operand o))
  put fun _ => ⟨d⟩
  normal

/-- `a -= other`, angle_deg.py:248-252 -/
def isub (o : PyVal K) : Body (DAngle K) Unit := do
  let s ← self
  let d ← eval (PyVal.sub s.deg (operand o))
  put fun _ => ⟨d⟩
  normal

/-- `a *= other`, angle_deg.py:263-265 -/
def imul (o : PyVal K) : Body (DAngle K) Unit := do
  let s ← self
  let d ← eval (mul s.deg o)
  put fun _ => ⟨d⟩
  normal

end DAngle

namespace DSize

/-- `set_length(length)`, size_2d.py:47 -/
def setLength (l : PyVal K) : Body (Size K) Unit := do
  let a ← eval (fabsOf l)
  put fun s => { s with length := a }

/-- `set_width(width)`, size_2d.py:55 -/
def setWidth (w : PyVal K) : Body (Size K) Unit := do
  let a ← eval (fabsOf w)
  put fun s => { s with width := a }

/-- `assign(length, width)`, size_2d.py:38-39 -/
def assign (l w : PyVal K) : Body (Size K) Unit := do
  setLength l
  setWidth w

end DSize

/-- Attributes `_origin`, `_terminal` of a `Segment2D`. -/
structure DSeg (K : Type) where
  origin : PyVal K
  terminal : PyVal K

namespace DSeg

/-- `Vector2D(0, 0)` -/
def zero : PyVal K := .vec (.num (num 0)) (.num (num 0)) true

/-- `assign(*args)`, segment_2d.py:104-121 -/
def assign (args : List (PyVal K)) : Body (DSeg K) Unit := do
  put fun s => { s with origin := zero }
  put fun s => { s with terminal := zero }
  match args with
  | [p, q] => do
    let o ← eval (newVector [p] [])
    put fun s => { s with origin := o }
    let t ← eval (newVector [q] [])
    put fun s => { s with terminal := t }
  | [p, m, d] => do
    let o ← eval (newVector [p] [])
    put fun s => { s with origin := o }
    let v ← eval (fromPolar m d)
    let t ← eval (PyVal.add p v)
    put fun s => { s with terminal := t }
  | [a, b, c, d] => do
    let o ← eval (newVector [a, b] [])
    put fun s => { s with origin := o }
    let t ← eval (newVector [c, d] [])
    put fun s => { s with terminal := t }
  | [] => do
    put fun s => { s with origin := zero }
    put fun s => { s with terminal := zero }
  | _ => throw .exception

/-- `swap()` and `reverse()`, segment_2d.py:203-206, 216-223 -/
def swap : Body (DSeg K) Unit := put fun s => ⟨s.terminal, s.origin⟩

end DSeg

/-- Attributes `_center`, `_radius` of a `Circle2D`. -/
structure DCircle (K : Type) where
  center : PyVal K
  radius : PyVal K

/-- `Circle2D.assign(center, radius)`, circle_2d.py:51-54 -/
def DCircle.assign (c r : PyVal K) : Body (DCircle K) Unit := do
  let c ← eval (newVector [c] [])
  put fun s => { s with center := c }
  put fun s => { s with radius := r }
  let neg ← eval (ltZero r)
  if neg then put fun s => { s with radius := .num (num 0) } else pure ()

/-- Attributes `_center`, `_min_r`, `_max_r`, `_start`, `_end` of a `Sector2D`; the radii are numbers because `min` and `max`
compare them. -/
structure DSector (K : Type) where
  center : PyVal K
  minR : K
  maxR : K
  start : AngleDeg K
  stop : AngleDeg K

/-- `Sector2D.assign(center, min_r, max_r, start, end)`, sector_2d.py:64-68 -/
def DSector.assign (c lo hi a b : PyVal K) : Body (DSector K) Unit := do
  let c ← eval (newVector [c] [])
  put fun s => { s with center := c }
  let m ← eval (minOf (.num (num 0)) lo)
  let m ← eval (asNum m)
  put fun s => { s with minR := m }
  let m ← eval (maxOf lo hi)
  let m ← eval (asNum m)
  put fun s => { s with maxR := m }
  let t ← eval (newAngle [a] [])
  put fun s => { s with start := t }
  let t ← eval (newAngle [b] [])
  put fun s => { s with stop := t }

/-- Attributes `_a`, `_b`, `_c` of a `Triangle2D`. -/
structure DTri (K : Type) where
  a : PyVal K
  b : PyVal K
  c : PyVal K

/-- `Triangle2D.assign(*args)`, triangle_2d.py:87-99 -/
def DTri.assign (args : List (PyVal K)) : Body (DTri K) Unit :=
  match args with
  | [a, b, c] => do
    let a ← eval (newVector [a] [])
    put fun s => { s with a := a }
    let b ← eval (newVector [b] [])
    put fun s => { s with b := b }
    let c ← eval (newVector [c] [])
    put fun s => { s with c := c }
  | [g, p] => do
    let o ← eval (origin_ g)
    let a ← eval (newVector [o] [])
    put fun s => { s with a := a }
    let t ← eval (terminal_ g)
    let b ← eval (newVector [t] [])
    put fun s => { s with b := b }
    let c ← eval (newVector [p] [])
    put fun s => { s with c := c }
  | _ => throw .exception

/-- Attributes `_top_left` and `_size` of a `Rect2D`, the former with its own attributes. -/
structure DRect (K : Type) where
  tl : DVec K
  size : PyVal K

namespace DRect

/-- A method of `self._top_left`. -/
def onTL (m : Body (DVec K) Unit) : Body (DRect K) Unit := fun s =>
  match m s.tl with
  | (t, r) => ({ s with tl := t }, r)

/-- A method of `self._size`, if that is a `Size2D`. -/
def onSize (m : Body (Size K) Unit) : Body (DRect K) Unit := fun s =>
  match s.size with
  | .size z => match m z with
    | (z, r) => ({ s with size := .size z }, r)
  | _ => (s, .error .attributeError)

/-- `self._top_left = Vector2D(p)` -/
def setTL (p : PyVal K) : Body (DRect K) Unit := do
  let v ← eval (newVector [p] [])
  match v with
  | .vec x y b => put fun s => { s with tl := ⟨x, y, b⟩ }
  | _ => throw .typeError

/-- `self._size.length()` -/
def len (s : DRect K) : Except PyErr K :=
  match s.size with
  | .size z => .ok z.length
  | _ => .error .attributeError

/-- `self._size.width()` -/
def wid (s : DRect K) : Except PyErr K :=
  match s.size with
  | .size z => .ok z.width
  | _ => .error .attributeError

/-- `assign(*args)`, rect_2d.py:143-174 -/
def assign (args : List (PyVal K)) : Body (DRect K) Unit :=
  match args with
  | [a, b, _, d] => do
    onTL (DVec.assign a b)
    onSize (DSize.assign a d)
  | [p, l, w] => do
    setTL p
    onSize (DSize.assign l w)
  | [p, .vec x' y' _] => do
    setTL p
    let tl ← eval (newVector [p] [])
    let x ← eval (getX tl)
    let y ← eval (getY tl)
    let dx ← eval (PyVal.sub x' x)
    let dy ← eval (PyVal.sub y' y)
    let z ← eval (newSize dx dy)
    put fun s => { s with size := .size z }
    let bx ← eval (ltZero dx)
    if bx then onTL (DVec.setX x') else pure ()
    let bY ← eval (ltZero dy)
    if bY then do
      onTL (DVec.setY y')
      put fun s => { s with size := .size (Size.ofLW (num 0) (num 0)) }
    else do
      put fun s => { s with tl := ⟨.num (num 0), .num (num 0), true⟩ }
      put fun s => { s with size := .size (Size.ofLW (num 0) (num 0)) }
  | [p, z] => do
    setTL p
    put fun s => { s with size := z }
  | [.rect p z] => do
    setTL p
    let z ← eval (sizeCopy z)
    put fun s => { s with size := .size z }
  | _ => throw .exception

/-- `move_center(point)`, rect_2d.py:185-186 -/
def moveCenter (p : PyVal K) : Body (DRect K) Unit := do
  let px ← eval (getX p)
  let s ← self
  let l ← eval s.len
  let x ← eval (PyVal.sub px (.num (l * (num 1 / num 2))))
  let py ← eval (getY p)
  let w ← eval s.wid
  let y ← eval (PyVal.sub py (.num (w * (num 1 / num 2))))
  onTL (DVec.assign x y)

/-- `move_top_left(point)`, rect_2d.py:197 -/
def moveTopLeft (p : PyVal K) : Body (DRect K) Unit := setTL p

/-- `move_bottom_right(point)`, rect_2d.py:208-209 -/
def moveBottomRight (p : PyVal K) : Body (DRect K) Unit := do
  let px ← eval (getX p)
  let s ← self
  let l ← eval s.len
  let x ← eval (PyVal.sub px (.num l))
  let py ← eval (getY p)
  let w ← eval s.wid
  let y ← eval (PyVal.sub py (.num w))
  onTL (DVec.assign x y)

/-- `move_left(left_x)` and `move_min_x`, rect_2d.py:220, 232 -/
def moveLeft (v : PyVal K) : Body (DRect K) Unit := onTL (DVec.setX v)

/-- `move_right(right_x)` and `move_max_x`, rect_2d.py:243, 255 -/
def moveRight (v : PyVal K) : Body (DRect K) Unit := do
  let s ← self
  let l ← eval s.len
  let x ← eval (PyVal.sub v (.num l))
  onTL (DVec.setX x)

/-- `move_top(top_y)` and `move_min_y`, rect_2d.py:266, 278 -/
def moveTop (v : PyVal K) : Body (DRect K) Unit := onTL (DVec.setY v)

/-- `move_bottom(bottom_y)` and `move_max_y`, rect_2d.py:289, 301 -/
def moveBottom (v : PyVal K) : Body (DRect K) Unit := do
  let s ← self
  let w ← eval s.wid
  let y ← eval (PyVal.sub v (.num w))
  onTL (DVec.setY y)

/-- `right()`, rect_2d.py:548-554 -/
def right (s : DRect K) : Except PyErr (PyVal K) := do
  let l ← s.len
  PyVal.add s.tl.x (.num l)

/-- `bottom()`, rect_2d.py:564-570 -/
def bottom (s : DRect K) : Except PyErr (PyVal K) := do
  let w ← s.wid
  PyVal.add s.tl.y (.num w)

/-- The point named by the arguments of `set_top_left` and `set_bottom_right`, rect_2d.py:318-325, 348-355 -/
def pointArgs (args : List (PyVal K)) : Except PyErr (PyVal K × PyVal K) :=
  match args with
  | [p] => do
    let x ← getX p
    let y ← getY p
    .ok (x, y)
  | [a, b] => .ok (a, b)
  | _ => .ok (.num (num 0), .num (num 0))

/-- The rest of `set_top_left` and `set_bottom_right`, rect_2d.py:327-331, 357-361 -/
def span (x0 y0 : PyVal K) (q : PyVal K × PyVal K) : Body (DRect K) Unit := do
  let l ← eval (minOf x0 q.1)
  let r ← eval (maxOf x0 q.1)
  let t ← eval (minOf y0 q.2)
  let b ← eval (maxOf y0 q.2)
  let w ← eval (PyVal.sub r l)
  let h ← eval (PyVal.sub b t)
  assign [l, t, w, h]

/-- `set_top_left(*args)`, rect_2d.py:303-331 -/
def setTopLeft (args : List (PyVal K)) : Body (DRect K) Unit := do
  let q ← eval (pointArgs args)
  let s ← self
  let x0 ← eval s.right
  let y0 ← eval s.bottom
  span x0 y0 q

/-- `set_bottom_right(*args)`, rect_2d.py:333-361 -/
def setBottomRight (args : List (PyVal K)) : Body (DRect K) Unit := do
  let q ← eval (pointArgs args)
  let s ← self
  span s.tl.x s.tl.y q

/-- `set_left(left_x)` and `set_min_x`, rect_2d.py:371-374, 385 -/
def setLeft (v : PyVal K) : Body (DRect K) Unit := do
  let s ← self
  let x0 ← eval s.right
  let l ← eval (minOf x0 v)
  let r ← eval (maxOf x0 v)
  onTL (DVec.setX l)
  let w ← eval (PyVal.sub r l)
  onSize (DSize.setLength w)

/-- `set_right(right_x)` and `set_max_x`, rect_2d.py:395-399, 410 -/
def setRight (v : PyVal K) : Body (DRect K) Unit := do
  let s ← self
  let l ← eval (minOf s.tl.x v)
  let r ← eval (maxOf s.tl.x v)
  onTL (DVec.setX l)
  let w ← eval (PyVal.sub r l)
  onSize (DSize.setLength w)

/-- `set_top(top_y)` and `set_min_y`, rect_2d.py:420-424, 435 -/
def setTop (v : PyVal K) : Body (DRect K) Unit := do
  let s ← self
  let y0 ← eval s.bottom
  let t ← eval (minOf y0 v)
  let b ← eval (maxOf y0 v)
  onTL (DVec.setY t)
  let h ← eval (PyVal.sub b t)
  onSize (DSize.setWidth h)

/-- `set_bottom(bottom_y)` and `set_max_y`, rect_2d.py:445-449, 460 -/
def setBottom (v : PyVal K) : Body (DRect K) Unit := do
  let s ← self
  let t ← eval (minOf s.tl.y v)
  let b ← eval (maxOf s.tl.y v)
  onTL (DVec.setY t)
  let h ← eval (PyVal.sub b t)
  onSize (DSize.setWidth h)

/-- `set_length(length)`, rect_2d.py:468 -/
def setLength (v : PyVal K) : Body (DRect K) Unit := onSize (DSize.setLength v)

/-- `set_width(width)`, rect_2d.py:476 -/
def setWidth (v : PyVal K) : Body (DRect K) Unit := onSize (DSize.setWidth v)

/-- `set_size(*args)`, rect_2d.py:493-498 -/
def setSize (args : List (PyVal K)) : Body (DRect K) Unit :=
  match args with
  | [l, w] => onSize (DSize.assign l w)
  | [.size z] => put fun s => { s with size := .size (Size.ofLW z.length z.width) }
  | _ => throw .exception

end DRect

/-- Attributes of a `Matrix2D`. -/
structure DMat (K : Type) where
  m11 : PyVal K
  m12 : PyVal K
  m21 : PyVal K
  m22 : PyVal K
  dx : PyVal K
  dy : PyVal K

namespace DMat

/-- `assign(...)`, matrix_2d.py:78-83 -/
def assign (a b c d x y : PyVal K) : Body (DMat K) Unit := put fun _ => ⟨a, b, c, d, x, y⟩

/-- `translate(dxtf, dytf)`, matrix_2d.py:185-186 -/
def translate (x y : PyVal K) : Body (DMat K) Unit := do
  let s ← self
  let a ← eval (PyVal.add s.dx x)
  put fun s => { s with dx := a }
  let s ← self
  let b ← eval (PyVal.add s.dy y)
  put fun s => { s with dy := b }

/-- `scale(scale_x, scale_y)`, matrix_2d.py:198-203 -/
def scale (x y : PyVal K) : Body (DMat K) Unit := do
  let s ← self
  let v ← eval (mul s.m11 x)
  put fun s => { s with m11 := v }
  let v ← eval (mul s.m12 x)
  put fun s => { s with m12 := v }
  let v ← eval (mul s.dx x)
  put fun s => { s with dx := v }
  let v ← eval (mul s.m21 y)
  put fun s => { s with m21 := v }
  let v ← eval (mul s.m22 y)
  put fun s => { s with m22 := v }
  let v ← eval (mul s.dy y)
  put fun s => { s with dy := v }

/-- The attributes as numbers: `rotate` and `*=` compute six numbers before they assign, matrix_2d.py:214-221, 317-322. -/
def mat (s : DMat K) : Except PyErr (Mat K) := do
  let a ← asNum s.m11
  let b ← asNum s.m12
  let c ← asNum s.m21
  let d ← asNum s.m22
  let x ← asNum s.dx
  let y ← asNum s.dy
  .ok ⟨a, b, c, d, x, y⟩

/-- A matrix with numbers as attributes. -/
def ofMat (m : Mat K) : DMat K := ⟨.num m.m11, .num m.m12, .num m.m21, .num m.m22, .num m.dx, .num m.dy⟩

/-- `rotate(angle)`, matrix_2d.py:214-228 -/
def rotate (t : PyVal K) : Body (DMat K) Unit :=
  match t with
  | .angle t => do
    let s ← self
    let m ← eval s.mat
    put fun _ => ofMat (m.rotate t)
  | _ => throw .attributeError

end DMat

end PyrusGeom
