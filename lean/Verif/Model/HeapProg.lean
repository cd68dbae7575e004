import Verif.Model.HeapRect
import Verif.Model.Circle
import Verif.Model.Wrappers

/-!
# The remaining constructors and mutators on the heap

`assign` and the constructors of `Segment2D`, `Ray2D`, `Circle2D`, `Sector2D`, `Triangle2D` and `Rect2D`, and the in-place
methods of the classes without parts.  Simplifications as in `Model/Heap.lean`: objects made and dropped inside one call are
not modelled.
-/

namespace PyrusGeom

variable {K : Type} [Add K] [Sub K] [Mul K] [Div K] [Neg K] [NatCast K] [LT K] [LE K]
  [DecidableLT K] [DecidableLE K] [BEq K] [PyMath K]

/-- In-place methods of `Vector2D` with number arguments. -/
inductive VecCall (K : Type) where
  | assign (x y : K) | setX (x : K) | setY (y : K) | setXY (x y : K) | setPolar (r t : K) | validate | invalidate
  | add (x y : K) | addX (x : K) | addY (y : K) | sub (x y : K) | subX (x : K) | subY (y : K)
  | scale (c : K) | reverse | setLength (l : K) | normalize | rotate (d : K) | setDir (d : K) | imul (c : K)

/-- The value the method leaves in the object: `assign` vector_2d.py:123-135, `set_x` 137-143, `set_y` 145-151, `set_x_y`
153-161, `set_polar` 173-183, `validate` 185-190, `invalidate` 192-197, `add` 284-306, `add_x` 308-314, `add_y` 316-322,
`sub` 324-346, `sub_x` 348-354, `sub_y` 356-362, `scale` 364-371, `reverse` 395-403, `set_length` 413-421, `normalize`
436-441, `rotate` 504-518, `set_dir` 531-541, `__imul__` 573-576. -/
def VecCall.value (v : Vec K) : VecCall K → Vec K
  | .assign x y => v.assign x y
  | .setX x => v.setX x
  | .setY y => v.setY y
  | .setXY x y => v.setXY x y
  | .setPolar r t => v.setPolar r (AngleDeg.ofNum t)
  | .validate => v.validate
  | .invalidate => v.invalidate
  | .add x y => v.addXY x y
  | .addX x => v.addX x
  | .addY y => v.addY y
  | .sub x y => v.subXY x y
  | .subX x => v.subX x
  | .subY y => v.subY y
  | .scale c => v.scale c
  | .reverse => v.reverse
  | .setLength l => v.setLength l
  | .normalize => v.normalize
  | .rotate d => v.rotate d
  | .setDir d => v.setDir (AngleDeg.ofNum d)
  | .imul c => v.imul c

/-- In-place methods of `Vector2D` with a vector argument. -/
inductive VecCall2 where
  | setVector | add | sub | iadd | isub

/-- `set_vector` vector_2d.py:163-171, `add` 299-301, `sub` 339-341, `__iadd__` 563-566, `__isub__` 568-571.  With the
receiver as argument the two coordinates do not interfere, so reading first and writing last is the same. -/
def VecCall2.value (v w : Vec K) : VecCall2 → Vec K
  | .setVector => v.setVector w
  | .add => v.addIn w
  | .sub => v.subIn w
  | .iadd => v.iadd w
  | .isub => v.isub w

/-- In-place methods of `Vector2D` with an `AngleDeg` argument. -/
inductive VecCallA (K : Type) where
  | setPolar (r : K) | rotate | setDir

/-- `set_polar` vector_2d.py:173-183, `rotate` 504-518, `set_dir` 531-541 -/
def VecCallA.value (v : Vec K) (t : AngleDeg K) : VecCallA K → Vec K
  | .setPolar r => v.setPolar r t
  | .rotate => v.rotate t.degree
  | .setDir => v.setDir t

/-- Methods and operators of `Vector2D` that return a new vector. -/
inductive VecFn (K : Type) where
  | copy | construct | abs | reverseVector | setLengthVector (l : K) | normalizeVector | rotatedVector (d : K)
  | mul (c : K) | truediv (c : K)

/-- `copy` vector_2d.py:107-113, `Vector2D(v)` 55-57, `abs` 260-266, `reverse_vector` 405-411, `set_length_vector` 423-434,
`normalize_vector` 443-450, `rotated_vector` 520-529, `__mul__` 560-561, `__truediv__` 557-558 (also what `v /= c` calls:
`__idiv__`, 578-581, is not an operator of Python 3). -/
def VecFn.value (v : Vec K) : VecFn K → Except PyErr (Vec K)
  | .copy => .ok v.copy
  | .construct => .ok (Vec.ofVec v)
  | .abs => .ok v.abs
  | .reverseVector => .ok v.reverseVector
  | .setLengthVector l => .ok (v.setLengthVector l)
  | .normalizeVector => .ok v.normalizeVector
  | .rotatedVector d => .ok (v.rotatedVector d)
  | .mul c => .ok (v.mul c)
  | .truediv c => v.truediv c

/-- In-place methods of `AngleDeg` with number arguments. -/
inductive AngCall (K : Type) where
  | setDegree (d : K) | reverse | iadd (d : K) | isub (d : K) | imul (c : K)

/-- `set_degree` angle_deg.py:61-68, `reverse` 142-148, `__iadd__` 224-237, `__isub__` 239-252, `__imul__` 254-265 -/
def AngCall.value (a : AngleDeg K) : AngCall K → AngleDeg K
  | .setDegree d => a.setDegree d
  | .reverse => a.reverse
  | .iadd d => a.iaddNum d
  | .isub d => a.isubNum d
  | .imul c => a.imul c

/-- In-place methods of `AngleDeg` with an angle argument. -/
inductive AngCall2 where
  | setAngle | iadd | isub

/-- `set_angle` angle_deg.py:70-76, `__iadd__` 224-237, `__isub__` 239-252 -/
def AngCall2.value (a b : AngleDeg K) : AngCall2 → AngleDeg K
  | .setAngle => a.setAngle b
  | .iadd => a.iadd b
  | .isub => a.isub b

/-- Methods and operators of `AngleDeg` that return a new angle. -/
inductive AngFn (K : Type) where
  | construct | copy | reverseAngle | add (d : K) | sub (d : K) | mul (c : K) | floordiv (c : K) | neg

/-- `AngleDeg(a)` angle_deg.py:34-35, `copy` 134-140, `reverse_angle` 150-158, `__add__` 280-294, `__sub__` 296-308,
`__mul__` 310-321, `__floordiv__` 323-334 (also what `a //= c` calls), `__neg__` 352-359 -/
def AngFn.value (a : AngleDeg K) : AngFn K → Except PyErr (AngleDeg K)
  | .construct => .ok (AngleDeg.ofAngle a)
  | .copy => .ok a.copy
  | .reverseAngle => .ok a.reverseAngle
  | .add d => .ok (a.addNum d)
  | .sub d => .ok (a.subNum d)
  | .mul c => .ok (a.mul c)
  | .floordiv c => a.floordiv c
  | .neg => .ok a.neg

/-- In-place methods of `Size2D`. -/
inductive SizeCall (K : Type) where
  | assign (l w : K) | setLength (l : K) | setWidth (w : K)

/-- `assign` size_2d.py:31-39, `set_length` 41-47, `set_width` 49-55 -/
def SizeCall.value (s : Size K) : SizeCall K → Size K
  | .assign l w => Size.ofLW l w
  | .setLength l => s.setLength l
  | .setWidth w => s.setWidth w

/-- In-place methods of `Matrix2D` with number arguments. -/
inductive MatCall (K : Type) where
  | assign (a b c d x y : K) | translate (x y : K) | scale (x y : K)

/-- `assign` matrix_2d.py:67-83, `translate` 175-186, `scale` 188-203 -/
def MatCall.value (m : Mat K) : MatCall K → Mat K
  | .assign a b c d x y => m.assign a b c d x y
  | .translate x y => m.translate x y
  | .scale x y => m.scale x y

namespace Heap

/-! ## Objects without parts -/

/-- Run an in-place method: read the attributes, write them. -/
def vecOp (h : Heap K) (p : Addr) (op : VecCall K) : Except PyErr (Heap K) := do
  let v ← h.vec p
  .ok (h.write p (.vec (op.value v)))

def vecOp2 (h : Heap K) (p q : Addr) (op : VecCall2) : Except PyErr (Heap K) := do
  let v ← h.vec p
  let w ← h.vec q
  .ok (h.write p (.vec (op.value v w)))

def vecOpA (h : Heap K) (p t : Addr) (op : VecCallA K) : Except PyErr (Heap K) := do
  let v ← h.vec p
  let a ← h.angle t
  .ok (h.write p (.vec (op.value v a)))

/-- Run a method that returns a new object. -/
def vecFn (h : Heap K) (p : Addr) (f : VecFn K) : Except PyErr (Addr × Heap K) := do
  let v ← h.vec p
  let w ← f.value v
  .ok (h.alloc (.vec w))

/-- `v + w`, vector_2d.py:551-552 -/
def vecAdd (h : Heap K) (p q : Addr) : Except PyErr (Addr × Heap K) := do
  let v ← h.vec p
  let w ← h.vec q
  .ok (h.alloc (.vec (v.add w)))

/-- `v - w`, vector_2d.py:554-555 -/
def vecSub (h : Heap K) (p q : Addr) : Except PyErr (Addr × Heap K) := do
  let v ← h.vec p
  let w ← h.vec q
  .ok (h.alloc (.vec (v.sub w)))

/-- `v.th()`, vector_2d.py:242-248 -/
def vecTh (h : Heap K) (p : Addr) : Except PyErr (Addr × Heap K) := do
  let v ← h.vec p
  .ok (h.alloc (.angle v.th))

/-- `Vector2D.from_polar(r, a)`, vector_2d.py:597-610 -/
def fromPolar (h : Heap K) (r : K) (t : Addr) : Except PyErr (Addr × Heap K) := do
  let a ← h.angle t
  .ok (h.alloc (.vec (Vec.fromPolar r a)))

def angOp (h : Heap K) (p : Addr) (op : AngCall K) : Except PyErr (Heap K) := do
  let a ← h.angle p
  .ok (h.write p (.angle (op.value a)))

def angOp2 (h : Heap K) (p q : Addr) (op : AngCall2) : Except PyErr (Heap K) := do
  let a ← h.angle p
  let b ← h.angle q
  .ok (h.write p (.angle (op.value a b)))

def angFn (h : Heap K) (p : Addr) (f : AngFn K) : Except PyErr (Addr × Heap K) := do
  let a ← h.angle p
  let b ← f.value a
  .ok (h.alloc (.angle b))

/-- `a + b`, angle_deg.py:280-294 -/
def angAdd (h : Heap K) (p q : Addr) : Except PyErr (Addr × Heap K) := do
  let a ← h.angle p
  let b ← h.angle q
  .ok (h.alloc (.angle (a.add b)))

/-- `a - b`, angle_deg.py:296-308 -/
def angSub (h : Heap K) (p q : Addr) : Except PyErr (Addr × Heap K) := do
  let a ← h.angle p
  let b ← h.angle q
  .ok (h.alloc (.angle (a.sub b)))

def sizeOp (h : Heap K) (p : Addr) (op : SizeCall K) : Except PyErr (Heap K) := do
  let s ← h.size p
  .ok (h.write p (.size (op.value s)))

def matOp (h : Heap K) (p : Addr) (op : MatCall K) : Except PyErr (Heap K) := do
  let m ← h.mat p
  .ok (h.write p (.mat (op.value m)))

/-- `m.rotate(a)`, matrix_2d.py:205-226 -/
def matRotate (h : Heap K) (p t : Addr) : Except PyErr (Heap K) := do
  let m ← h.mat p
  let a ← h.angle t
  .ok (h.write p (.mat (m.rotate a)))

/-! ## `Segment2D` -/

/-- `Segment2D(p, length, a)`, segment_2d.py:61-63 -/
def newSegPolar (h : Heap K) (p : Addr) (len : K) (t : Addr) : Except PyErr (Addr × Heap K) := do
  let (o, h) ← h.newVecCopy p
  let v ← h.vec p
  let a ← h.angle t
  let (q, h) := h.alloc (.vec (v.add (Vec.fromPolar len a)))
  .ok (h.alloc (.seg o q))

/-- `Segment2D(x0, y0, x1, y1)`, segment_2d.py:64-66; `Segment2D()` 67-69 is the case of four zeros -/
def newSegXY (h : Heap K) (x0 y0 x1 y1 : K) : Addr × Heap K :=
  let (o, h) := h.alloc (.vec (Vec.ofXY x0 y0))
  let (t, h) := h.alloc (.vec (Vec.ofXY x1 y1))
  h.alloc (.seg o t)

/-- `s.assign(p, q)`, segment_2d.py:105-109: two new parts -/
def segAssign (h : Heap K) (s p q : Addr) : Except PyErr (Heap K) := do
  let _ ← h.seg s
  let (o, h) ← h.newVecCopy p
  let (t, h) ← h.newVecCopy q
  .ok (h.write s (.seg o t))

/-- `s.assign(p, length, a)`, segment_2d.py:105-112 -/
def segAssignPolar (h : Heap K) (s p : Addr) (len : K) (t : Addr) : Except PyErr (Heap K) := do
  let _ ← h.seg s
  let (o, h) ← h.newVecCopy p
  let v ← h.vec p
  let a ← h.angle t
  let (q, h) := h.alloc (.vec (v.add (Vec.fromPolar len a)))
  .ok (h.write s (.seg o q))

/-- `s.assign(x0, y0, x1, y1)`, segment_2d.py:105-106, 113-115; `s.assign()` 116-118 is the case of four zeros -/
def segAssignXY (h : Heap K) (s : Addr) (x0 y0 x1 y1 : K) : Except PyErr (Heap K) := do
  let _ ← h.seg s
  let (o, h) := h.alloc (.vec (Vec.ofXY x0 y0))
  let (t, h) := h.alloc (.vec (Vec.ofXY x1 y1))
  .ok (h.write s (.seg o t))

/-! ## `Ray2D`, `Circle2D`, `Sector2D`, `Triangle2D` -/

/-- `Ray2D(p, d)` with a number, ray_2d.py:36, 42-44 -/
def newRayNum (h : Heap K) (p : Addr) (d : K) : Except PyErr (Addr × Heap K) := do
  let (o, h) ← h.newVecCopy p
  let (t, h) := h.alloc (.angle (AngleDeg.ofNum d))
  .ok (h.alloc (.ray o t))

/-- `Ray2D(p, q)` with two points, ray_2d.py:36, 39-41 -/
def newRayPoint (h : Heap K) (p q : Addr) : Except PyErr (Addr × Heap K) := do
  let (o, h) ← h.newVecCopy p
  let v ← h.vec p
  let w ← h.vec q
  let (t, h) := h.alloc (.angle (w.sub v).th)
  .ok (h.alloc (.ray o t))

/-- `copy()`, ray_2d.py:81-87 -/
def rayCopy (h : Heap K) (r : Addr) : Except PyErr (Addr × Heap K) := do
  let (o, h) ← h.rayOrigin r
  let (d, h) ← h.rayDir r
  h.newRay o d

/-- `c.assign(p, r)`, circle_2d.py:44-55: a new center object -/
def circleAssign (h : Heap K) (c p : Addr) (r : K) : Except PyErr (Heap K) := do
  let _ ← h.circle c
  let (q, h) ← h.newVecCopy p
  .ok (h.write c (.circle q (if r < num 0 then num 0 else r)))

/-- `Sector2D(center, min_r, max_r, start, end)` with angle objects, sector_2d.py:46-50 -/
def newSector (h : Heap K) (p : Addr) (minR maxR : K) (s e : Addr) : Except PyErr (Addr × Heap K) := do
  let (c, h) ← h.newVecCopy p
  let (a, h) ← h.newAngleCopy s
  let (b, h) ← h.newAngleCopy e
  .ok (h.alloc (.sector c (pyMin (num 0) minR) (pyMax minR maxR) a b))

/-- `s.assign(center, min_r, max_r, start, end)`, sector_2d.py:64-68: three new parts -/
def sectorAssign (h : Heap K) (x p : Addr) (minR maxR : K) (s e : Addr) : Except PyErr (Heap K) := do
  let _ ← h.sector x
  let (c, h) ← h.newVecCopy p
  let (a, h) ← h.newAngleCopy s
  let (b, h) ← h.newAngleCopy e
  .ok (h.write x (.sector c (pyMin (num 0) minR) (pyMax minR maxR) a b))

/-- `Triangle2D(a, b, c)`, triangle_2d.py:54-57 -/
def newTri (h : Heap K) (a b c : Addr) : Except PyErr (Addr × Heap K) := do
  let (p, h) ← h.newVecCopy a
  let (q, h) ← h.newVecCopy b
  let (r, h) ← h.newVecCopy c
  .ok (h.alloc (.tri p q r))

/-- `Triangle2D(segment, c)`, triangle_2d.py:58-61 -/
def newTriSeg (h : Heap K) (s c : Addr) : Except PyErr (Addr × Heap K) := do
  let (a, b) ← h.seg s
  let (p, h) ← h.newVecCopy a
  let (q, h) ← h.newVecCopy b
  let (r, h) ← h.newVecCopy c
  .ok (h.alloc (.tri p q r))

/-- `t.assign(a, b, c)`, triangle_2d.py:88-91: three new parts -/
def triAssign (h : Heap K) (t a b c : Addr) : Except PyErr (Heap K) := do
  let _ ← h.tri t
  let (p, h) ← h.newVecCopy a
  let (q, h) ← h.newVecCopy b
  let (r, h) ← h.newVecCopy c
  .ok (h.write t (.tri p q r))

/-- `t.assign(segment, c)`, triangle_2d.py:92-95: three new parts -/
def triAssignSeg (h : Heap K) (t s c : Addr) : Except PyErr (Heap K) := do
  let _ ← h.tri t
  let (a, b) ← h.seg s
  let (p, h) ← h.newVecCopy a
  let (q, h) ← h.newVecCopy b
  let (r, h) ← h.newVecCopy c
  .ok (h.write t (.tri p q r))

/-! ## `Rect2D` -/

/-- `Rect2D(left, top, length, width)`, rect_2d.py:75-77 -/
def newRectXY (h : Heap K) (l t len wid : K) : Addr × Heap K :=
  let (p, h) := h.alloc (.vec (Vec.ofXY l t))
  let (s, h) := h.alloc (.size (Size.ofLW len wid))
  h.alloc (.rect p s)

/-- `Rect2D(p, q)` with two corners, rect_2d.py:82-98 -/
def newRectCorners (h : Heap K) (p q : Addr) : Except PyErr (Addr × Heap K) := do
  let v ← h.vec p
  let w ← h.vec q
  let r := Rect.ofCorners v w
  let (tl, h) := h.alloc (.vec r.topLeft)
  let (s, h) := h.alloc (.size r.size)
  .ok (h.alloc (.rect tl s))

end Heap

end PyrusGeom
