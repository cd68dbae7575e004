import Verif.Model.Circle

/-!
# Model of `/repo/src/pyrusgeom/size_2d.py` and `/repo/src/pyrusgeom/rect_2d.py`

The attribute `_is_valid` of `Rect2D` is overwritten by every call of `is_valid()` and read nowhere else, so it is not
part of the model.  Value-level model: methods return the new value of `self`; object sharing is modelled in
`Verif/Model/Heap.lean`.
-/

namespace PyrusGeom

variable {K : Type} [Add K] [Sub K] [Mul K] [Div K] [Neg K] [NatCast K] [LT K] [LE K]
  [DecidableLT K] [DecidableLE K] [BEq K] [PyMath K]

/-- `Size2D` object, size_2d.py:11-16. `length` and `width`, size_2d.py:57-71, read the fields. -/
@[ext] structure Size (K : Type) where
  length : K
  width : K

namespace Size

/-- `Size2D(length, width)` / `assign`, size_2d.py:17-39 -/
def ofLW (l w : K) : Size K := ⟨fabs l, fabs w⟩

/-- `set_length`, size_2d.py:41-47 -/
def setLength (s : Size K) (l : K) : Size K := { s with length := fabs l }

/-- `set_width`, size_2d.py:49-55 -/
def setWidth (s : Size K) (w : K) : Size K := { s with width := fabs w }

/-- `diagonal`, size_2d.py:73-79 -/
def diagonal (s : Size K) : K := PyMath.sqrt (s.length * s.length + s.width * s.width)

/-- `is_valid`, size_2d.py:81-87 -/
def isValid (s : Size K) : Bool := decide (num 0 < s.length) && decide (num 0 < s.width)

/-- `__eq__`, size_2d.py:89-99 -/
def eq (s o : Size K) : Bool :=
  decide (fabs (s.length - o.length) < EPSILON) && decide (fabs (s.width - o.width) < EPSILON)

end Size

/-- `Rect2D` object, rect_2d.py:28-34. `size_`, rect_2d.py:613-619, and `top_left_`, rect_2d.py:638-644, read the fields. -/
@[ext] structure Rect (K : Type) where
  topLeft : Vec K
  size : Size K

namespace Rect

/-- `Rect2D(left, top, length, width)`, rect_2d.py:74-77 -/
def ofLTLW (l t len wid : K) : Rect K := ⟨Vec.ofXY l t, Size.ofLW len wid⟩

/-- `Rect2D(point, length, width)`, rect_2d.py:78-81 -/
def ofPointLW (p : Vec K) (len wid : K) : Rect K := ⟨Vec.ofVec p, Size.ofLW len wid⟩

/-- `Rect2D(point, point)`, rect_2d.py:82-98 (also `assign(point, point)`, 150-164) -/
def ofCorners (p q : Vec K) : Rect K :=
  let tl := Vec.ofVec p
  let tl := if q.x - p.x < num 0 then tl.setX q.x else tl
  if q.y - p.y < num 0 then ⟨tl.setY q.y, Size.ofLW (num 0) (num 0)⟩
  else ⟨Vec.zero, Size.ofLW (num 0) (num 0)⟩

/-- `Rect2D(point, size)`, rect_2d.py:99-102 (the `Size2D` object is shared, see Heap) -/
def ofPointSize (p : Vec K) (s : Size K) : Rect K := ⟨Vec.ofVec p, s⟩

/-- `Rect2D(rect)`, rect_2d.py:103-106: copies of corner and size (605-611, 630-636) -/
def ofRect (r : Rect K) : Rect K := ⟨Vec.ofVec r.topLeft, Size.ofLW r.size.length r.size.width⟩

/-- `Rect2D()`: no branch of rect_2d.py:74-109 applies, raises. -/
def ofNothing : Except PyErr (Rect K) := .error .exception

/-- `assign(left, top, length, width)`, rect_2d.py:144-146: the size is assigned from `args[0]` and `args[3]`. -/
def assign4 (r : Rect K) (l t _len wid : K) : Rect K := ⟨r.topLeft.assign l t, Size.ofLW l wid⟩

/-- `assign(point, length, width)`, rect_2d.py:147-149 -/
def assign3 (_r : Rect K) (p : Vec K) (len wid : K) : Rect K := ⟨Vec.ofVec p, Size.ofLW len wid⟩

/-- `left` / `min_x`, rect_2d.py:541-547,573-579 -/
def left (r : Rect K) : K := r.topLeft.x

/-- `right` / `max_x`, rect_2d.py:549-555,581-587 -/
def right (r : Rect K) : K := r.left + r.size.length

/-- `top` / `min_y`, rect_2d.py:557-563,589-595 -/
def top (r : Rect K) : K := r.topLeft.y

/-- `bottom` / `max_y`, rect_2d.py:565-571,597-603 -/
def bottom (r : Rect K) : K := r.top + r.size.width

/-- `move_center`, rect_2d.py:176-186 -/
def moveCenter (r : Rect K) (p : Vec K) : Rect K :=
  { r with topLeft := r.topLeft.assign (p.x - r.size.length * (num 1 / num 2)) (p.y - r.size.width * (num 1 / num 2)) }

/-- `move_top_left`, rect_2d.py:188-197 -/
def moveTopLeft (r : Rect K) (p : Vec K) : Rect K := { r with topLeft := Vec.ofVec p }

/-- `move_bottom_right`, rect_2d.py:199-209 -/
def moveBottomRight (r : Rect K) (p : Vec K) : Rect K :=
  { r with topLeft := r.topLeft.assign (p.x - r.size.length) (p.y - r.size.width) }

/-- `move_left` / `move_min_x`, rect_2d.py:211-232 -/
def moveLeft (r : Rect K) (x : K) : Rect K := { r with topLeft := r.topLeft.setX x }

/-- `move_right` / `move_max_x`, rect_2d.py:234-255 -/
def moveRight (r : Rect K) (x : K) : Rect K := { r with topLeft := r.topLeft.setX (x - r.size.length) }

/-- `move_top` / `move_min_y`, rect_2d.py:257-278 -/
def moveTop (r : Rect K) (y : K) : Rect K := { r with topLeft := r.topLeft.setY y }

/-- `move_bottom` / `move_max_y`, rect_2d.py:280-301 -/
def moveBottom (r : Rect K) (y : K) : Rect K := { r with topLeft := r.topLeft.setY (y - r.size.width) }

/-- `set_top_left(x, y)`, rect_2d.py:303-331 -/
def setTopLeft (r : Rect K) (x y : K) : Rect K :=
  let newLeft := pyMin r.right x
  let newRight := pyMax r.right x
  let newTop := pyMin r.bottom y
  let newBottom := pyMax r.bottom y
  r.assign4 newLeft newTop (newRight - newLeft) (newBottom - newTop)

/-- `set_bottom_right(x, y)`, rect_2d.py:333-361 -/
def setBottomRight (r : Rect K) (x y : K) : Rect K :=
  let newLeft := pyMin r.left x
  let newRight := pyMax r.left x
  let newTop := pyMin r.top y
  let newBottom := pyMax r.top y
  r.assign4 newLeft newTop (newRight - newLeft) (newBottom - newTop)

/-- `set_left` / `set_min_x`, rect_2d.py:363-385 -/
def setLeft (r : Rect K) (x : K) : Rect K :=
  let newLeft := pyMin r.right x
  let newRight := pyMax r.right x
  ⟨r.topLeft.setX newLeft, r.size.setLength (newRight - newLeft)⟩

/-- `set_right` / `set_max_x`, rect_2d.py:387-410 -/
def setRight (r : Rect K) (x : K) : Rect K :=
  let newLeft := pyMin r.left x
  let newRight := pyMax r.left x
  ⟨r.topLeft.setX newLeft, r.size.setLength (newRight - newLeft)⟩

/-- `set_top` / `set_min_y`, rect_2d.py:412-435 -/
def setTop (r : Rect K) (y : K) : Rect K :=
  let newTop := pyMin r.bottom y
  let newBottom := pyMax r.bottom y
  ⟨r.topLeft.setY newTop, r.size.setWidth (newBottom - newTop)⟩

/-- `set_bottom` / `set_max_y`, rect_2d.py:437-460 -/
def setBottom (r : Rect K) (y : K) : Rect K :=
  let newTop := pyMin r.top y
  let newBottom := pyMax r.top y
  ⟨r.topLeft.setY newTop, r.size.setWidth (newBottom - newTop)⟩

/-- `set_length`, rect_2d.py:462-468 -/
def setLength (r : Rect K) (l : K) : Rect K := { r with size := r.size.setLength l }

/-- `set_width`, rect_2d.py:470-476 -/
def setWidth (r : Rect K) (w : K) : Rect K := { r with size := r.size.setWidth w }

/-- `set_size(length, width)` and `set_size(size)`, rect_2d.py:478-498 -/
def setSize (r : Rect K) (l w : K) : Rect K := { r with size := Size.ofLW l w }

/-- `is_valid`, rect_2d.py:500-507 -/
def isValid (r : Rect K) : Bool := r.size.isValid

/-- `area`, rect_2d.py:509-515 -/
def area (r : Rect K) : K := r.size.length * r.size.width

/-- `contains`, rect_2d.py:517-526 -/
def contains (r : Rect K) (p : Vec K) : Bool :=
  decide (r.left ≤ p.x) && decide (p.x ≤ r.right) && decide (r.top ≤ p.y) && decide (p.y ≤ r.bottom)

/-- `contains_almost`, rect_2d.py:528-539: compares a number with the bound method `point.x` (not called), which raises
`TypeError` in the first comparison. -/
def containsAlmost (_r : Rect K) (_p : Vec K) (_thr : K) : Except PyErr Bool := .error .typeError

/-- `center`, rect_2d.py:621-628 -/
def center (r : Rect K) : Vec K :=
  Vec.ofXY ((r.left + r.right) * (num 1 / num 2)) ((r.top + r.bottom) * (num 1 / num 2))

/-- `top_left`, rect_2d.py:630-636 -/
def getTopLeft (r : Rect K) : Vec K := Vec.ofVec r.topLeft

/-- `top_right`, rect_2d.py:646-652 -/
def topRight (r : Rect K) : Vec K := Vec.ofXY r.right r.top

/-- `bottom_left`, rect_2d.py:654-660 -/
def bottomLeft (r : Rect K) : Vec K := Vec.ofXY r.left r.bottom

/-- `bottom_right`, rect_2d.py:662-668 -/
def bottomRight (r : Rect K) : Vec K := Vec.ofXY r.right r.bottom

/-- `left_edge`, rect_2d.py:670-676 -/
def leftEdge (r : Rect K) : Line K := Line.ofPoints r.getTopLeft r.bottomLeft

/-- `right_edge`, rect_2d.py:678-684 -/
def rightEdge (r : Rect K) : Line K := Line.ofPoints r.topRight r.bottomRight

/-- `top_edge`, rect_2d.py:686-692 -/
def topEdge (r : Rect K) : Line K := Line.ofPoints r.getTopLeft r.topRight

/-- `bottom_edge`, rect_2d.py:694-700 -/
def bottomEdge (r : Rect K) : Line K := Line.ofPoints r.bottomLeft r.bottomRight

/-- One step of the accumulation in rect_2d.py:722-735.  The pair `(n_sol, t_sol)` is represented by the list of the
`n_sol` accepted points in order; the slot `t_sol[n_sol]` written but not accepted is overwritten or ignored later.
A step with two accepted points only compares (line 726 tests `n_sol < 2` first; lines 728, 732 skip). -/
def interStep (acc : List (Vec K)) (v : Vec K) (ok : Bool) : List (Vec K) :=
  if acc.length < 2 && v.valid && ok then acc ++ [v] else acc

/-- The removal of a second solution within `EPSILON` of the first, end of `intersection(Line2D)`, rect_2d.py:736-745 -/
def dropNear : List (Vec K) → List (Vec K)
  | [p, q] => if fabs (p.x - q.x) < EPSILON ∧ fabs (p.y - q.y) < EPSILON then [p] else [p, q]
  | acc => acc

/-- `intersection(Line2D)`, rect_2d.py:715-745 -/
def intersectionLine (r : Rect K) (l : Line K) : List (Vec K) :=
  let inY (v : Vec K) : Bool := decide (r.top ≤ v.y) && decide (v.y ≤ r.bottom)
  let inX (v : Vec K) : Bool := decide (r.left ≤ v.x) && decide (v.x ≤ r.right)
  let v := r.leftEdge.intersection l
  let acc := interStep [] v (inY v)
  let v := r.rightEdge.intersection l
  let acc := interStep acc v (inY v)
  let v := r.topEdge.intersection l
  let acc := interStep acc v (inX v)
  let v := r.bottomEdge.intersection l
  let acc := interStep acc v (inX v)
  dropNear acc

/-- `intersection(Ray2D)`, rect_2d.py:746-754 -/
def intersectionRay (r : Rect K) (ray : Ray K) : List (Vec K) :=
  Circle.dropRejected (fun p => ray.inRightDir p (num 1)) (r.intersectionLine ray.line)

/-- `intersection(Segment2D)`, rect_2d.py:755-762 -/
def intersectionSeg (r : Rect K) (s : Seg K) : List (Vec K) :=
  Circle.dropRejected s.contains (r.intersectionLine s.line)

/-- `intersected`, rect_2d.py:765-792, for `other` a different object than `self`. `not self.is_valid` is the negation
of a bound method, hence always `False`. The result is the mutated `self`. -/
def intersected (r o : Rect K) : Rect K :=
  let r := if !o.isValid then ⟨r.topLeft.assign (num 0) (num 0), Size.ofLW (num 0) (num 0)⟩ else r
  let left := pyMax r.left o.left
  let top := pyMax r.top o.top
  let width := pyMin r.right o.right - left
  let length := pyMin r.bottom o.bottom - top
  let r := if width ≤ num 0 ∨ length ≤ num 0 then
      ⟨r.topLeft.assign (num 0) (num 0), Size.ofLW (num 0) (num 0)⟩ else r
  ⟨r.topLeft.assign left top, Size.ofLW width length⟩

/-- `united`, rect_2d.py:794-819, for `other` a different object than `self`. Line 805 is outside the `if`. -/
def united (r o : Rect K) : Rect K :=
  let r := if !o.isValid then { r with topLeft := r.topLeft.assign (num 0) (num 0) } else r
  let r := { r with size := Size.ofLW (num 0) (num 0) }
  let left := pyMax r.left o.left
  let top := pyMax r.top o.top
  let width := pyMin r.right o.right - left
  let length := pyMin r.bottom o.bottom - top
  let r := if width ≤ num 0 ∨ length ≤ num 0 then
      ⟨r.topLeft.assign (num 0) (num 0), Size.ofLW (num 0) (num 0)⟩ else r
  ⟨r.topLeft.assign left top, Size.ofLW width length⟩

/-- `from_center(x, y, length, width)`, rect_2d.py:844-845 -/
def fromCenter4 (x y l w : K) : Rect K :=
  ofLTLW (x - l * (num 1 / num 2)) (y - w * (num 1 / num 2)) l w

/-- `from_center(point, length, width)`, rect_2d.py:846-847: evaluates `Vector2D - float`, and `Vector2D.__sub__`
(vector_2d.py:555) reads `other._x` of a float. -/
def fromCenter3 (_p : Vec K) (_l _w : K) : Except PyErr (Rect K) := .error .attributeError

end Rect

end PyrusGeom
