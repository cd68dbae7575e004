import Verif.Model.Matrix
import Verif.Model.Sector
import Verif.Model.Polygon

/-!
# Model of object identity

The other model files are value models.  Here Python objects live in a heap and attributes that hold objects hold
addresses, so that sharing is visible.  Modelled are the constructors, accessors and query methods that hand out or
store references, and the in-place operations, of

* `/repo/src/pyrusgeom/vector_2d.py`, `/repo/src/pyrusgeom/angle_deg.py`, `/repo/src/pyrusgeom/size_2d.py`
* `/repo/src/pyrusgeom/segment_2d.py`, `/repo/src/pyrusgeom/ray_2d.py`, `/repo/src/pyrusgeom/circle_2d.py`
* `/repo/src/pyrusgeom/sector_2d.py`, `/repo/src/pyrusgeom/rect_2d.py`, `/repo/src/pyrusgeom/triangle_2d.py`
* `/repo/src/pyrusgeom/polygon_2d.py`, `/repo/src/pyrusgeom/convex_hull.py`, `/repo/src/pyrusgeom/matrix_2d.py`

Simplifications: numbers are immutable and stored by value; temporaries that become unreachable before a method returns
are not allocated; an address of the wrong class raises `AttributeError`.
-/

namespace PyrusGeom

variable {K : Type} [Add K] [Sub K] [Mul K] [Div K] [Neg K] [NatCast K] [LT K] [LE K]
  [DecidableLT K] [DecidableLE K] [BEq K] [PyMath K]

/-- An object reference. -/
abbrev Addr := ℕ

/-- A heap cell: an object with its attributes. -/
inductive Obj (K : Type) where
  | vec (v : Vec K)
  | angle (a : AngleDeg K)
  | size (s : Size K)
  | line (l : Line K)
  | mat (m : Mat K)
  /-- `_origin`, `_terminal` -/
  | seg (o t : Addr)
  /-- `_origin`, `_direction` -/
  | ray (o d : Addr)
  /-- `_center`, `_radius` -/
  | circle (c : Addr) (r : K)
  /-- `_center`, `_min_r`, `_max_r`, `_start`, `_end` -/
  | sector (c : Addr) (minR maxR : K) (s e : Addr)
  /-- `_top_left`, `_size` -/
  | rect (tl size : Addr)
  /-- `_a`, `_b`, `_c` -/
  | tri (a b c : Addr)
  /-- a Python list of objects -/
  | list (l : List Addr)
  /-- `_vertices` (a list object) -/
  | poly (vs : Addr)
  /-- `_input_points`, `_vertices`, `_edges` (list objects) -/
  | hull (inp vs es : Addr)

/-- The references held by an object. -/
def Obj.refs : Obj K → List Addr
  | .seg o t => [o, t]
  | .ray o d => [o, d]
  | .circle c _ => [c]
  | .sector c _ _ s e => [c, s, e]
  | .rect tl s => [tl, s]
  | .tri a b c => [a, b, c]
  | .list l => l
  | .poly vs => [vs]
  | .hull i v e => [i, v, e]
  | _ => []

/-- The heap: the object at address `a` is the `a`-th element. -/
abbrev Heap (K : Type) := List (Obj K)

namespace Heap

/-- Create an object. -/
def alloc (h : Heap K) (o : Obj K) : Addr × Heap K := (h.length, h ++ [o])

/-- Overwrite the attributes of an object. -/
def write (h : Heap K) (a : Addr) (o : Obj K) : Heap K := h.set a o

def vec (h : Heap K) (a : Addr) : Except PyErr (Vec K) :=
  match h[a]? with
  | some (.vec v) => .ok v
  | _ => .error .attributeError

def angle (h : Heap K) (a : Addr) : Except PyErr (AngleDeg K) :=
  match h[a]? with
  | some (.angle v) => .ok v
  | _ => .error .attributeError

def size (h : Heap K) (a : Addr) : Except PyErr (Size K) :=
  match h[a]? with
  | some (.size v) => .ok v
  | _ => .error .attributeError

def mat (h : Heap K) (a : Addr) : Except PyErr (Mat K) :=
  match h[a]? with
  | some (.mat v) => .ok v
  | _ => .error .attributeError

def list (h : Heap K) (a : Addr) : Except PyErr (List Addr) :=
  match h[a]? with
  | some (.list v) => .ok v
  | _ => .error .attributeError

def seg (h : Heap K) (a : Addr) : Except PyErr (Addr × Addr) :=
  match h[a]? with
  | some (.seg o t) => .ok (o, t)
  | _ => .error .attributeError

def ray (h : Heap K) (a : Addr) : Except PyErr (Addr × Addr) :=
  match h[a]? with
  | some (.ray o t) => .ok (o, t)
  | _ => .error .attributeError

def circle (h : Heap K) (a : Addr) : Except PyErr (Addr × K) :=
  match h[a]? with
  | some (.circle c r) => .ok (c, r)
  | _ => .error .attributeError

def sector (h : Heap K) (a : Addr) : Except PyErr (Addr × Addr × Addr) :=
  match h[a]? with
  | some (.sector c _ _ s e) => .ok (c, s, e)
  | _ => .error .attributeError

def rect (h : Heap K) (a : Addr) : Except PyErr (Addr × Addr) :=
  match h[a]? with
  | some (.rect p s) => .ok (p, s)
  | _ => .error .attributeError

def tri (h : Heap K) (a : Addr) : Except PyErr (Addr × Addr × Addr) :=
  match h[a]? with
  | some (.tri a b c) => .ok (a, b, c)
  | _ => .error .attributeError

def poly (h : Heap K) (a : Addr) : Except PyErr Addr :=
  match h[a]? with
  | some (.poly vs) => .ok vs
  | _ => .error .attributeError

def hull (h : Heap K) (a : Addr) : Except PyErr (Addr × Addr × Addr) :=
  match h[a]? with
  | some (.hull i v e) => .ok (i, v, e)
  | _ => .error .attributeError

/-! ## `Vector2D`, `AngleDeg`, `Size2D` -/

/-- `Vector2D(p)`, vector_2d.py:55-57 -/
def newVecCopy (h : Heap K) (p : Addr) : Except PyErr (Addr × Heap K) := do
  let v ← h.vec p
  .ok (h.alloc (.vec (Vec.ofVec v)))

/-- `v.assign(x, y)`, vector_2d.py:124-135: in place, returns `self` -/
def vecAssign (h : Heap K) (p : Addr) (x y : K) : Except PyErr (Addr × Heap K) := do
  let v ← h.vec p
  .ok (p, h.write p (.vec (v.assign x y)))

/-- `v += w`, vector_2d.py:563-566 -/
def vecIadd (h : Heap K) (p q : Addr) : Except PyErr (Addr × Heap K) := do
  let v ← h.vec p
  let w ← h.vec q
  .ok (p, h.write p (.vec (v.iadd w)))

/-- `v.rotate(deg)` with a number, vector_2d.py:504-518: in place, returns `self` -/
def vecRotate (h : Heap K) (p : Addr) (deg : K) : Except PyErr (Addr × Heap K) := do
  let v ← h.vec p
  let c := PyMath.cos (deg * DEG2RAD)
  let s := PyMath.sin (deg * DEG2RAD)
  h.vecAssign p (v.x * c - v.y * s) (v.x * s + v.y * c)

/-- `v.rotated_vector(deg)`, vector_2d.py:520-529 -/
def vecRotated (h : Heap K) (p : Addr) (deg : K) : Except PyErr (Addr × Heap K) := do
  let v ← h.vec p
  let (q, h) := h.alloc (.vec (Vec.ofXY v.x v.y))
  h.vecRotate q deg

/-- `AngleDeg(a)`, angle_deg.py:34-35,42 -/
def newAngleCopy (h : Heap K) (p : Addr) : Except PyErr (Addr × Heap K) := do
  let v ← h.angle p
  .ok (h.alloc (.angle (AngleDeg.ofAngle v)))

/-- `a += d` with a number, angle_deg.py:224-237 -/
def angleIadd (h : Heap K) (p : Addr) (d : K) : Except PyErr (Addr × Heap K) := do
  let v ← h.angle p
  .ok (p, h.write p (.angle (v.iaddNum d)))

/-- `Size2D(s.length(), s.width())`, rect_2d.py:611, 495 -/
def newSizeCopy (h : Heap K) (p : Addr) : Except PyErr (Addr × Heap K) := do
  let s ← h.size p
  .ok (h.alloc (.size (Size.ofLW s.length s.width)))

/-- `s.assign(l, w)`, size_2d.py:31-39 -/
def sizeAssign (h : Heap K) (p : Addr) (l w : K) : Except PyErr (Addr × Heap K) := do
  let _ ← h.size p
  .ok (p, h.write p (.size (Size.ofLW l w)))

/-! ## `Matrix2D` -/

/-- `A.__imul__(B)`, matrix_2d.py:311-331: writes `self`, returns `self` -/
def matImul (h : Heap K) (a b : Addr) : Except PyErr (Addr × Heap K) := do
  let m ← h.mat a
  let o ← h.mat b
  .ok (a, h.write a (.mat (m.mul o)))

/-- `A * B` for two matrices, matrix_2d.py:345-347: `mat_tmp = self; return mat_tmp.__imul__(other)` -/
def matMul (h : Heap K) (a b : Addr) : Except PyErr (Addr × Heap K) := h.matImul a b

/-- `A * v` for a vector, matrix_2d.py:343-344, 246-249 -/
def matMulVec (h : Heap K) (a v : Addr) : Except PyErr (Addr × Heap K) := do
  let m ← h.mat a
  let v ← h.vec v
  .ok (h.alloc (.vec (m.transform v)))

/-- `A.transform_vec(v)`, matrix_2d.py:257-269: writes `v`, returns `v` -/
def matTransformVec (h : Heap K) (a v : Addr) : Except PyErr (Addr × Heap K) := do
  let m ← h.mat a
  let w ← h.vec v
  .ok (v, h.write v (.vec (m.transformVec w)))

/-- `A.inverted()`, matrix_2d.py:157-173 -/
def matInverted (h : Heap K) (a : Addr) : Except PyErr (Addr × Heap K) := do
  let m ← h.mat a
  .ok (h.alloc (.mat m.inverted))

/-! ## `Segment2D` -/

/-- `Segment2D(p, q)`, segment_2d.py:57-59 -/
def newSeg (h : Heap K) (p q : Addr) : Except PyErr (Addr × Heap K) := do
  let (o, h) ← h.newVecCopy p
  let (t, h) ← h.newVecCopy q
  .ok (h.alloc (.seg o t))

/-- `origin()`, segment_2d.py:133-140 -/
def segOrigin (h : Heap K) (s : Addr) : Except PyErr (Addr × Heap K) := do
  let (o, _) ← h.seg s
  h.newVecCopy o

/-- `terminal()`, segment_2d.py:150-157 -/
def segTerminal (h : Heap K) (s : Addr) : Except PyErr (Addr × Heap K) := do
  let (_, t) ← h.seg s
  h.newVecCopy t

/-- `origin_()`, segment_2d.py:142-148 -/
def segOriginRef (h : Heap K) (s : Addr) : Except PyErr (Addr × Heap K) := do
  let (o, _) ← h.seg s
  .ok (o, h)

/-- `swap()` / `reverse()`, segment_2d.py:191-219: in place, returns `self` -/
def segSwap (h : Heap K) (s : Addr) : Except PyErr (Addr × Heap K) := do
  let (o, t) ← h.seg s
  .ok (s, h.write s (.seg t o))

/-- `copy()`, segment_2d.py:203-209 -/
def segCopy (h : Heap K) (s : Addr) : Except PyErr (Addr × Heap K) := do
  let (o, h) ← h.segOrigin s
  let (t, h) ← h.segTerminal s
  h.newSeg o t

/-- `reversed_segment()`, segment_2d.py:221-227 -/
def segReversed (h : Heap K) (s : Addr) : Except PyErr (Addr × Heap K) := do
  let (o, t) ← h.seg s
  let (r, h) ← h.newSeg o t
  h.segSwap r

/-- `nearest_point(point)`, segment_2d.py:438-463: the end points are returned by reference -/
def segNearest (h : Heap K) (s p : Addr) : Except PyErr (Addr × Heap K) := do
  let (o, t) ← h.seg s
  let ov ← h.vec o
  let tv ← h.vec t
  let v := tv.sub ov
  let len2 := v.r2
  if len2 == num 0 then .ok (o, h)
  else do
    let pv ← h.vec p
    let ip := v.innerProduct (pv.sub ov)
    if ip ≤ num 0 then .ok (o, h)
    else if len2 ≤ ip then .ok (t, h)
    else
      let w := v.mul ip
      .ok (h.alloc (.vec (ov.add (Vec.ofXY (w.x / len2) (w.y / len2)))))

/-- `projection(point)`, segment_2d.py:272-298: the origin of a short segment is returned by reference -/
def segProjection (h : Heap K) (s p : Addr) : Except PyErr (Addr × Heap K) := do
  let (o, t) ← h.seg s
  let ov ← h.vec o
  let tv ← h.vec t
  if (tv.sub ov).r < EPSILON then .ok (o, h)
  else do
    let pv ← h.vec p
    .ok (h.alloc (.vec (Seg.projection ⟨ov, tv⟩ pv)))

/-! ## `Ray2D`, `Circle2D`, `Sector2D`, `Triangle2D` -/

/-- `Ray2D(p, a)` with an `AngleDeg`, ray_2d.py:36-46 -/
def newRay (h : Heap K) (p a : Addr) : Except PyErr (Addr × Heap K) := do
  let (o, h) ← h.newVecCopy p
  let (d, h) ← h.newAngleCopy a
  .ok (h.alloc (.ray o d))

/-- `origin()`, ray_2d.py:49-55 -/
def rayOrigin (h : Heap K) (r : Addr) : Except PyErr (Addr × Heap K) := do
  let (o, _) ← h.ray r
  h.newVecCopy o

/-- `dir()`, ray_2d.py:57-63 -/
def rayDir (h : Heap K) (r : Addr) : Except PyErr (Addr × Heap K) := do
  let (_, d) ← h.ray r
  h.newAngleCopy d

/-- `Circle2D(p, r)`, circle_2d.py:38-41 -/
def newCircle (h : Heap K) (p : Addr) (r : K) : Except PyErr (Addr × Heap K) := do
  let (c, h) ← h.newVecCopy p
  .ok (h.alloc (.circle c (if r < num 0 then num 0 else r)))

/-- `center()`, circle_2d.py:76-82 -/
def circleCenter (h : Heap K) (c : Addr) : Except PyErr (Addr × Heap K) := do
  let (p, _) ← h.circle c
  h.newVecCopy p

/-- `center()`, sector_2d.py:70-76 -/
def sectorCenter (h : Heap K) (s : Addr) : Except PyErr (Addr × Heap K) := do
  let (c, _, _) ← h.sector s
  h.newVecCopy c

/-- `angle_left_start()`, sector_2d.py:102-108 -/
def sectorStart (h : Heap K) (s : Addr) : Except PyErr (Addr × Heap K) := do
  let (_, a, _) ← h.sector s
  h.newAngleCopy a

/-- `angle_right_end()`, sector_2d.py:118-124 -/
def sectorEnd (h : Heap K) (s : Addr) : Except PyErr (Addr × Heap K) := do
  let (_, _, e) ← h.sector s
  h.newAngleCopy e

/-- `a()`, triangle_2d.py:110-116 -/
def triA (h : Heap K) (t : Addr) : Except PyErr (Addr × Heap K) := do
  let (a, _, _) ← h.tri t
  h.newVecCopy a

/-- `b()`, triangle_2d.py:118-124 -/
def triB (h : Heap K) (t : Addr) : Except PyErr (Addr × Heap K) := do
  let (_, b, _) ← h.tri t
  h.newVecCopy b

/-- `c()`, triangle_2d.py:126-132 -/
def triC (h : Heap K) (t : Addr) : Except PyErr (Addr × Heap K) := do
  let (_, _, c) ← h.tri t
  h.newVecCopy c

/-! ## `Rect2D` -/

/-- `Rect2D(p, s)` with a `Size2D`, rect_2d.py:99-102: the size object itself is stored -/
def newRectSize (h : Heap K) (p s : Addr) : Except PyErr (Addr × Heap K) := do
  let (tl, h) ← h.newVecCopy p
  .ok (h.alloc (.rect tl s))

/-- `Rect2D(p, l, w)`, rect_2d.py:78-81 -/
def newRectLW (h : Heap K) (p : Addr) (l w : K) : Except PyErr (Addr × Heap K) := do
  let (tl, h) ← h.newVecCopy p
  let (s, h) := h.alloc (.size (Size.ofLW l w))
  .ok (h.alloc (.rect tl s))

/-- `Rect2D(r)`, rect_2d.py:103-106 -/
def newRectCopy (h : Heap K) (r : Addr) : Except PyErr (Addr × Heap K) := do
  let (p, s) ← h.rect r
  let (tl, h) ← h.newVecCopy p
  let (s, h) ← h.newSizeCopy s
  .ok (h.alloc (.rect tl s))

/-- `size()`, rect_2d.py:605-611 -/
def rectSize (h : Heap K) (r : Addr) : Except PyErr (Addr × Heap K) := do
  let (_, s) ← h.rect r
  h.newSizeCopy s

/-- `top_left()`, rect_2d.py:630-636 -/
def rectTopLeft (h : Heap K) (r : Addr) : Except PyErr (Addr × Heap K) := do
  let (p, _) ← h.rect r
  h.newVecCopy p

/-- The value of a rectangle object. -/
def rectVal (h : Heap K) (r : Addr) : Except PyErr (Rect K) := do
  let (p, s) ← h.rect r
  let p ← h.vec p
  let s ← h.size s
  .ok ⟨p, s⟩

/-- `center()`, rect_2d.py:621-628 -/
def rectCenter (h : Heap K) (r : Addr) : Except PyErr (Addr × Heap K) := do
  let v ← h.rectVal r
  .ok (h.alloc (.vec v.center))

/-- `set_length(l)`, rect_2d.py:462-468: writes the size object -/
def rectSetLength (h : Heap K) (r : Addr) (l : K) : Except PyErr (Heap K) := do
  let (_, s) ← h.rect r
  let sv ← h.size s
  .ok (h.write s (.size (sv.setLength l)))

/-- `intersected(other)`, rect_2d.py:765-792: writes the corner and size objects of `self`, returns `self`. -/
def rectIntersected (h : Heap K) (r o : Addr) : Except PyErr (Addr × Heap K) := do
  let (p, s) ← h.rect r
  let ov ← h.rectVal o
  let pv ← h.vec p
  let h := if !ov.isValid then
      (h.write p (.vec (pv.assign (num 0) (num 0)))).write s (.size (Size.ofLW (num 0) (num 0)))
    else h
  let rv ← h.rectVal r
  let ov ← h.rectVal o
  let left := pyMax rv.left ov.left
  let top := pyMax rv.top ov.top
  let width := pyMin rv.right ov.right - left
  let length := pyMin rv.bottom ov.bottom - top
  let pv ← h.vec p
  .ok (r, (h.write p (.vec (pv.assign left top))).write s (.size (Size.ofLW width length)))

/-! ## `Polygon2D`, `ConvexHull` -/

/-- `list.copy()` -/
def listCopy (h : Heap K) (l : Addr) : Except PyErr (Addr × Heap K) := do
  let v ← h.list l
  .ok (h.alloc (.list v))

/-- `list.append(x)` -/
def listAppend (h : Heap K) (l x : Addr) : Except PyErr (Heap K) := do
  let v ← h.list l
  .ok (h.write l (.list (v ++ [x])))

/-- `list.clear()` -/
def listClear (h : Heap K) (l : Addr) : Except PyErr (Heap K) := do
  let _ ← h.list l
  .ok (h.write l (.list []))

/-- `Polygon2D(list)`, polygon_2d.py:149-150: the list is copied, the points are not -/
def newPoly (h : Heap K) (l : Addr) : Except PyErr (Addr × Heap K) := do
  let (vs, h) ← h.listCopy l
  .ok (h.alloc (.poly vs))

/-- `vertices()`, polygon_2d.py:180-187 -/
def polyVertices (h : Heap K) (p : Addr) : Except PyErr (Addr × Heap K) := do
  let vs ← h.poly p
  h.listCopy vs

/-- `add_vertex(v)`, polygon_2d.py:172-178 -/
def polyAddVertex (h : Heap K) (p v : Addr) : Except PyErr (Heap K) := do
  let vs ← h.poly p
  h.listAppend vs v

/-- The values of a list of points. -/
def vecs (h : Heap K) : List Addr → Except PyErr (List (Vec K))
  | [] => .ok []
  | a :: t => do
    let v ← h.vec a
    let vs ← vecs h t
    .ok (v :: vs)

/-- The value of a polygon object. -/
def polyVal (h : Heap K) (p : Addr) : Except PyErr (Poly K) := do
  let vs ← h.poly p
  let l ← h.list vs
  let vs ← h.vecs l
  .ok ⟨vs⟩

/-- `ConvexHull(list)`, convex_hull.py:129-142: the list object itself is stored -/
def newHull (h : Heap K) (l : Addr) : Except PyErr (Addr × Heap K) := do
  let (vs, h) := h.alloc (.list [])
  let (es, h) := h.alloc (.list [])
  .ok (h.alloc (.hull l vs es))

/-- `input_points()`, convex_hull.py:189-196 -/
def hullInput (h : Heap K) (c : Addr) : Except PyErr (Addr × Heap K) := do
  let (i, _, _) ← h.hull c
  h.listCopy i

/-- `vertices()`, convex_hull.py:206-213 -/
def hullVertices (h : Heap K) (c : Addr) : Except PyErr (Addr × Heap K) := do
  let (_, v, _) ← h.hull c
  h.listCopy v

/-- `edges()`, convex_hull.py:223-230 -/
def hullEdges (h : Heap K) (c : Addr) : Except PyErr (Addr × Heap K) := do
  let (_, _, e) ← h.hull c
  h.listCopy e

/-- `add_point(p)`, convex_hull.py:156-162 -/
def hullAddPoint (h : Heap K) (c p : Addr) : Except PyErr (Heap K) := do
  let (i, _, _) ← h.hull c
  h.listAppend i p

/-- The loop of `add_points(points)`, convex_hull.py:164-171, from the `k`-th element of the list object `l` on.  A Python
`for` over a list looks the list up anew in every round.  `none`: the loop is still running after `fuel` rounds. -/
def hullAddPointsLoop (i l : Addr) : ℕ → ℕ → Heap K → Except PyErr (Option (Heap K))
  | fuel, k, h => do
    let pts ← h.list l
    match pts[k]? with
    | none => .ok (some h)
    | some p =>
      match fuel with
      | 0 => .ok none
      | fuel + 1 => do
        let h ← h.listAppend i p
        hullAddPointsLoop i l fuel (k + 1) h

/-- `add_points(points)`, convex_hull.py:164-171, given time for `fuel` rounds of its loop -/
def hullAddPoints (h : Heap K) (c l : Addr) (fuel : ℕ) : Except PyErr (Option (Heap K)) := do
  let (i, _, _) ← h.hull c
  hullAddPointsLoop i l fuel 0 h

/-- `to_polygon()`, convex_hull.py:436-442 -/
def hullToPolygon (h : Heap K) (c : Addr) : Except PyErr (Addr × Heap K) := do
  let (_, v, _) ← h.hull c
  h.newPoly v

/-- `clear()`, convex_hull.py:144-154: empties the result lists and the input list in place -/
def hullClear (h : Heap K) (c : Addr) : Except PyErr (Heap K) := do
  let (i, v, e) ← h.hull c
  let h ← h.listClear v
  let h ← h.listClear e
  h.listClear i

end Heap

end PyrusGeom
