import Verif.Model.Heap

/-!
# `Rect2D` objects on the heap

The mutators of `/repo/src/pyrusgeom/rect_2d.py` as the object operations they are: a rectangle refers to a corner object
(`_top_left`) and a size object (`_size`); some methods write into these objects, others replace the reference.  Objects
made and dropped inside one call are not modelled, nor is the attribute `_is_valid`, which `is_valid()` overwrites before
it is read.
-/

namespace PyrusGeom

variable {K : Type} [Add K] [Sub K] [Mul K] [Div K] [Neg K] [NatCast K] [LT K] [LE K]
  [DecidableLT K] [DecidableLE K] [BEq K] [PyMath K]

namespace Heap

/-- `v.set_x(x)`, vector_2d.py:137-143 -/
def vecSetX (h : Heap K) (p : Addr) (x : K) : Except PyErr (Heap K) := do
  let v ← h.vec p
  .ok (h.write p (.vec (v.setX x)))

/-- `v.set_y(y)`, vector_2d.py:145-151 -/
def vecSetY (h : Heap K) (p : Addr) (y : K) : Except PyErr (Heap K) := do
  let v ← h.vec p
  .ok (h.write p (.vec (v.setY y)))

/-- `s.set_length(l)`, size_2d.py:41-47 -/
def sizeSetLength (h : Heap K) (p : Addr) (l : K) : Except PyErr (Heap K) := do
  let s ← h.size p
  .ok (h.write p (.size (s.setLength l)))

/-- `s.set_width(w)`, size_2d.py:49-55 -/
def sizeSetWidth (h : Heap K) (p : Addr) (w : K) : Except PyErr (Heap K) := do
  let s ← h.size p
  .ok (h.write p (.size (s.setWidth w)))

/-- `move_center(point)`, rect_2d.py:176-186: writes the corner object -/
def rectMoveCenter (h : Heap K) (r q : Addr) : Except PyErr (Heap K) := do
  let (p, s) ← h.rect r
  let sv ← h.size s
  let qv ← h.vec q
  let (_, h) ← h.vecAssign p (qv.x - sv.length * (num 1 / num 2)) (qv.y - sv.width * (num 1 / num 2))
  .ok h

/-- `move_top_left(point)`, rect_2d.py:188-197: a new corner object -/
def rectMoveTopLeft (h : Heap K) (r q : Addr) : Except PyErr (Heap K) := do
  let (_, s) ← h.rect r
  let (tl, h) ← h.newVecCopy q
  .ok (h.write r (.rect tl s))

/-- `move_bottom_right(point)`, rect_2d.py:199-209: writes the corner object -/
def rectMoveBottomRight (h : Heap K) (r q : Addr) : Except PyErr (Heap K) := do
  let (p, s) ← h.rect r
  let sv ← h.size s
  let qv ← h.vec q
  let (_, h) ← h.vecAssign p (qv.x - sv.length) (qv.y - sv.width)
  .ok h

/-- `move_left(x)` / `move_min_x`, rect_2d.py:211-232 -/
def rectMoveLeft (h : Heap K) (r : Addr) (x : K) : Except PyErr (Heap K) := do
  let (p, _) ← h.rect r
  h.vecSetX p x

/-- `move_right(x)` / `move_max_x`, rect_2d.py:234-255 -/
def rectMoveRight (h : Heap K) (r : Addr) (x : K) : Except PyErr (Heap K) := do
  let (p, s) ← h.rect r
  let sv ← h.size s
  h.vecSetX p (x - sv.length)

/-- `move_top(y)` / `move_min_y`, rect_2d.py:257-278 -/
def rectMoveTop (h : Heap K) (r : Addr) (y : K) : Except PyErr (Heap K) := do
  let (p, _) ← h.rect r
  h.vecSetY p y

/-- `move_bottom(y)` / `move_max_y`, rect_2d.py:280-301 -/
def rectMoveBottom (h : Heap K) (r : Addr) (y : K) : Except PyErr (Heap K) := do
  let (p, s) ← h.rect r
  let sv ← h.size s
  h.vecSetY p (y - sv.width)

/-- `assign(left, top, length, width)`, rect_2d.py:144-146: writes both parts, the size from `args[0]` and `args[3]` -/
def rectAssign4 (h : Heap K) (r : Addr) (l t _len wid : K) : Except PyErr (Heap K) := do
  let (p, s) ← h.rect r
  let (_, h) ← h.vecAssign p l t
  let (_, h) ← h.sizeAssign s l wid
  .ok h

/-- `assign(point, length, width)`, rect_2d.py:147-149: a new corner object, the size object is written -/
def rectAssign3 (h : Heap K) (r q : Addr) (len wid : K) : Except PyErr (Heap K) := do
  let (_, s) ← h.rect r
  let (tl, h) ← h.newVecCopy q
  let h := h.write r (.rect tl s)
  let (_, h) ← h.sizeAssign s len wid
  .ok h

/-- `assign(point, point)`, rect_2d.py:150-164: two new parts -/
def rectAssignCorners (h : Heap K) (r q q' : Addr) : Except PyErr (Heap K) := do
  let _ ← h.rect r
  let qv ← h.vec q
  let qv' ← h.vec q'
  let v := Rect.ofCorners qv qv'
  let (tl, h) := h.alloc (.vec v.topLeft)
  let (s, h) := h.alloc (.size v.size)
  .ok (h.write r (.rect tl s))

/-- `assign(point, size)`, rect_2d.py:165-167: the size object itself is stored -/
def rectAssignSize (h : Heap K) (r q s : Addr) : Except PyErr (Heap K) := do
  let _ ← h.rect r
  let (tl, h) ← h.newVecCopy q
  .ok (h.write r (.rect tl s))

/-- `assign(rect)`, rect_2d.py:168-170: copies of the parts of the argument -/
def rectAssignRect (h : Heap K) (r o : Addr) : Except PyErr (Heap K) := do
  let _ ← h.rect r
  let (p, s) ← h.rect o
  let (tl, h) ← h.newVecCopy p
  let (sz, h) ← h.newSizeCopy s
  .ok (h.write r (.rect tl sz))

/-- `set_top_left(x, y)`, rect_2d.py:303-331 -/
def rectSetTopLeft (h : Heap K) (r : Addr) (x y : K) : Except PyErr (Heap K) := do
  let v ← h.rectVal r
  let newLeft := pyMin v.right x
  let newRight := pyMax v.right x
  let newTop := pyMin v.bottom y
  let newBottom := pyMax v.bottom y
  h.rectAssign4 r newLeft newTop (newRight - newLeft) (newBottom - newTop)

/-- `set_bottom_right(x, y)`, rect_2d.py:333-361 -/
def rectSetBottomRight (h : Heap K) (r : Addr) (x y : K) : Except PyErr (Heap K) := do
  let v ← h.rectVal r
  let newLeft := pyMin v.left x
  let newRight := pyMax v.left x
  let newTop := pyMin v.top y
  let newBottom := pyMax v.top y
  h.rectAssign4 r newLeft newTop (newRight - newLeft) (newBottom - newTop)

/-- `set_left(x)` / `set_min_x`, rect_2d.py:363-385 -/
def rectSetLeft (h : Heap K) (r : Addr) (x : K) : Except PyErr (Heap K) := do
  let (p, s) ← h.rect r
  let v ← h.rectVal r
  let newLeft := pyMin v.right x
  let newRight := pyMax v.right x
  let h ← h.vecSetX p newLeft
  h.sizeSetLength s (newRight - newLeft)

/-- `set_right(x)` / `set_max_x`, rect_2d.py:387-410 -/
def rectSetRight (h : Heap K) (r : Addr) (x : K) : Except PyErr (Heap K) := do
  let (p, s) ← h.rect r
  let v ← h.rectVal r
  let newLeft := pyMin v.left x
  let newRight := pyMax v.left x
  let h ← h.vecSetX p newLeft
  h.sizeSetLength s (newRight - newLeft)

/-- `set_top(y)` / `set_min_y`, rect_2d.py:412-435 -/
def rectSetTop (h : Heap K) (r : Addr) (y : K) : Except PyErr (Heap K) := do
  let (p, s) ← h.rect r
  let v ← h.rectVal r
  let newTop := pyMin v.bottom y
  let newBottom := pyMax v.bottom y
  let h ← h.vecSetY p newTop
  h.sizeSetWidth s (newBottom - newTop)

/-- `set_bottom(y)` / `set_max_y`, rect_2d.py:437-460 -/
def rectSetBottom (h : Heap K) (r : Addr) (y : K) : Except PyErr (Heap K) := do
  let (p, s) ← h.rect r
  let v ← h.rectVal r
  let newTop := pyMin v.top y
  let newBottom := pyMax v.top y
  let h ← h.vecSetY p newTop
  h.sizeSetWidth s (newBottom - newTop)

/-- `set_width(w)`, rect_2d.py:470-476: writes the size object (`set_length` is `rectSetLength`) -/
def rectSetWidth (h : Heap K) (r : Addr) (w : K) : Except PyErr (Heap K) := do
  let (_, s) ← h.rect r
  h.sizeSetWidth s w

/-- `set_size(length, width)`, rect_2d.py:493-494: writes the size object -/
def rectSetSize2 (h : Heap K) (r : Addr) (l w : K) : Except PyErr (Heap K) := do
  let (_, s) ← h.rect r
  let (_, h) ← h.sizeAssign s l w
  .ok h

/-- `set_size(size)`, rect_2d.py:495-496: a new size object -/
def rectSetSizeObj (h : Heap K) (r z : Addr) : Except PyErr (Heap K) := do
  let (p, _) ← h.rect r
  let (s, h) ← h.newSizeCopy z
  .ok (h.write r (.rect p s))

/-- `united(other)`, rect_2d.py:794-819: writes both parts of `self`, returns `self`.  Line 805 is outside the `if`. -/
def rectUnited (h : Heap K) (r o : Addr) : Except PyErr (Addr × Heap K) := do
  let (p, s) ← h.rect r
  let ov ← h.rectVal o
  let pv ← h.vec p
  let h := if !ov.isValid then h.write p (.vec (pv.assign (num 0) (num 0))) else h
  let (_, h) ← h.sizeAssign s (num 0) (num 0)
  let rv ← h.rectVal r
  let ov ← h.rectVal o
  let left := pyMax rv.left ov.left
  let top := pyMax rv.top ov.top
  let width := pyMin rv.right ov.right - left
  let length := pyMin rv.bottom ov.bottom - top
  let (_, h) ← h.vecAssign p left top
  let (_, h) ← h.sizeAssign s width length
  .ok (r, h)

end Heap

end PyrusGeom
