import Verif.Model.Rect

/-!
# Model of `/repo/src/pyrusgeom/polygon_2d.py`

A polygon is the list of its vertices.  `float("inf")` as initial minimum/maximum is modelled by `none`.
-/

namespace PyrusGeom

variable {K : Type} [Add K] [Sub K] [Mul K] [Div K] [Neg K] [NatCast K] [LT K] [LE K]
  [DecidableLT K] [DecidableLE K] [BEq K] [PyMath K]

/-- Pairs `(v[i], v[(i+1) mod n])` in order of `i`: the edges visited by the loops of polygon_2d.py:252-259, 356-359,
435-442. -/
def cyclicPairs {α : Type} (v : List α) : List (α × α) :=
  match v with
  | [] => []
  | a :: t => (a :: t).zip (t ++ [a])

/-- Pairs `(v[i], v[i+1])` for `i` in `range(len(v) - 1)`, polygon_2d.py:311-314. -/
def chainPairs {α : Type} (v : List α) : List (α × α) := v.zip v.tail

/-- `Polygon2D` object, polygon_2d.py:120-128. `vertices_`, polygon_2d.py:189-195, reads the field. -/
structure Poly (K : Type) where
  vertices : List (Vec K)

namespace Poly

/-- `Polygon2D()` and `clear()`, polygon_2d.py:147-148,156-159: one vertex at the origin. -/
def default : Poly K := ⟨[Vec.zero]⟩

/-- `Polygon2D(list)`, polygon_2d.py:149-150 -/
def ofList (l : List (Vec K)) : Poly K := ⟨l⟩

/-- `Polygon2D(v, w, …)` with at least one vector, polygon_2d.py:151-154 -/
def ofVecs (l : List (Vec K)) : Poly K := ⟨l.map Vec.copy⟩

/-- `assign`, polygon_2d.py:161-170: an empty list is ignored. -/
def assign (p : Poly K) (l : List (Vec K)) : Poly K := if l.length > 0 then ⟨l⟩ else p

/-- `add_vertex`, polygon_2d.py:172-178 -/
def addVertex (p : Poly K) (v : Vec K) : Poly K := ⟨p.vertices ++ [v]⟩

/-- Running bounds `x_min, x_max, y_min, y_max` of polygon_2d.py:205-208; `none` is the initial infinity. -/
structure Bounds (K : Type) where
  xMin : Option K := none
  xMax : Option K := none
  yMin : Option K := none
  yMax : Option K := none

/-- `if v > m: m = v` with `m` initially `-inf`. -/
def updMax (m : Option K) (v : K) : Option K :=
  match m with
  | none => some v
  | some m => if m < v then some v else some m

/-- `if v < m: m = v` with `m` initially `inf`. -/
def updMin (m : Option K) (v : K) : Option K :=
  match m with
  | none => some v
  | some m => if v < m then some v else some m

/-- Loop body of polygon_2d.py:209-220. -/
def boundsStep (b : Bounds K) (p : Vec K) : Bounds K :=
  ⟨updMin b.xMin p.x, updMax b.xMax p.x, updMin b.yMin p.y, updMax b.yMax p.y⟩

/-- `get_bounding_box`, polygon_2d.py:197-221. `Rect2D()` on line 204 raises. -/
def boundingBox (p : Poly K) : Except PyErr (Rect K) :=
  match p.vertices with
  | [] => Rect.ofNothing
  | vs =>
    let b := vs.foldl boundsStep {}
    match b.xMin, b.xMax, b.yMin, b.yMax with
    | some x0, some x1, some y0, some y1 =>
      .ok (Rect.ofPointSize (Vec.ofXY x0 y0) (Size.ofLW (x1 - x0) (y1 - y0)))
    | _, _, _, _ => .error .exception  -- unreachable: `vs` is not empty

/-- The virtual half line of polygon_2d.py:245-247. -/
def halfLine (bb : Rect K) (v0 p : Vec K) : Seg K :=
  Seg.ofPoints p (Vec.ofXY
    (p.x + ((bb.right - bb.left + bb.bottom - bb.top) + (v0.sub p).r) * num 3) p.y)

/-- The loop of polygon_2d.py:252-281 over the remaining edges; `inside` is the flag so far.  `min_line_x` is dead
code (never read) and omitted. -/
def containsLoop (p : Vec K) (allow : Bool) (line : Seg K) : List (Vec K × Vec K) → Bool → Bool
  | [], inside => inside
  | (p0, p1) :: rest, inside =>
    if !allow && (Seg.ofPoints p0 p1).onSegment p then false
    else if allow && p.eq p0 then true
    else if line.existIntersection (Seg.ofPoints p0 p1) then
      if (p0.y == p.y || p1.y == p.y) && (p0.y == p1.y || decide (p0.y < p.y) || decide (p1.y < p.y)) then
        containsLoop p allow line rest inside
      else containsLoop p allow line rest (!inside)
    else containsLoop p allow line rest inside

/-- `contains`, polygon_2d.py:223-281. It cannot raise: the bounding box is only taken of a non-empty polygon. -/
def contains (poly : Poly K) (p : Vec K) (allow : Bool) : Bool :=
  match poly.vertices with
  | [] => false
  | [v] => allow && v.eq p
  | v0 :: v1 :: vs =>
    match poly.boundingBox with
    | .error _ => false  -- unreachable
    | .ok bb =>
      if !bb.contains p then false
      else containsLoop p allow (halfLine bb v0 p) (cyclicPairs (v0 :: v1 :: vs)) false

/-- Loop body of polygon_2d.py:311-319. -/
def distStep (p : Vec K) (m : Option K) (e : Vec K × Vec K) : Option K :=
  updMin m ((Seg.ofPoints e.1 e.2).distPoint p)

/-- `dist`, polygon_2d.py:291-329; `none` stands for `inf`. -/
def dist (poly : Poly K) (p : Vec K) (checkAsPlane : Bool) : Option K :=
  match poly.vertices with
  | [v] => some (v.sub p).r
  | vs =>
    if checkAsPlane && poly.contains p true then some (num 0)
    else
      let m := (chainPairs vs).foldl (distStep p) none
      match vs with
      | v0 :: _ :: v2 :: rest => distStep p m ((v2 :: rest).getLast (List.cons_ne_nil _ _), v0)
      | _ => m

/-- `double_signed_area`, polygon_2d.py:340-363 -/
def doubleSignedArea (poly : Poly K) : K :=
  if poly.vertices.length < 3 then num 0
  else (cyclicPairs poly.vertices).foldl (fun acc e => acc + (e.1.x * e.2.y - e.2.x * e.1.y)) (num 0)

/-- `area`, polygon_2d.py:332-338 -/
def area (poly : Poly K) : K := fabs (poly.doubleSignedArea * (num 1 / num 2))

/-- `is_counter_clockwise`, polygon_2d.py:365-371 -/
def isCounterClockwise (poly : Poly K) : Bool := decide (num 0 < poly.doubleSignedArea)

/-- `is_clockwise`, polygon_2d.py:373-379 -/
def isClockwise (poly : Poly K) : Bool := decide (poly.doubleSignedArea < num 0)

/-- The loop of polygon_2d.py:435-462 over the remaining edges, `acc` being `new_points`. -/
def clipLoop (inRegion : Vec K → Bool) (line : Line K) :
    List (Vec K × Vec K) → List (Vec K) → List (Vec K)
  | [], acc => acc
  | (p0, p1) :: rest, acc =>
    if inRegion p0 then
      if inRegion p1 then clipLoop inRegion line rest (acc ++ [p1])
      else
        let cut := line.intersection (Line.ofPoints p0 p1)
        if !cut.valid then acc else clipLoop inRegion line rest (acc ++ [cut])
    else
      if inRegion p1 then
        let cut := line.intersection (Line.ofPoints p0 p1)
        if !cut.valid then acc else clipLoop inRegion line rest (acc ++ [cut, p1])
      else clipLoop inRegion line rest acc

/-- `get_line_clipped_polygon`, polygon_2d.py:419-462 -/
def lineClipped (inRegion : Vec K → Bool) (points : List (Vec K)) (line : Line K) : List (Vec K) :=
  clipLoop inRegion line (cyclicPairs points) []

/-- `get_rectangle_clipped_polygon`, polygon_2d.py:381-417. The second step uses `rect.top()` for the line. -/
def rectClipped (poly : Poly K) (r : Rect K) : Poly K :=
  match poly.vertices with
  | [] => default
  | points =>
    let c1 := lineClipped (fun v => decide (v.x ≤ r.right)) points
      (Line.ofAngle (Vec.ofXY r.right (num 0)) (AngleDeg.ofNum (num 90)))
    let c2 := lineClipped (fun v => decide (v.y ≤ r.bottom)) c1
      (Line.ofAngle (Vec.ofXY (num 0) r.top) (AngleDeg.ofNum (num 0)))
    let c3 := lineClipped (fun v => decide (r.left ≤ v.x)) c2
      (Line.ofAngle (Vec.ofXY r.left (num 0)) (AngleDeg.ofNum (num 90)))
    let c4 := lineClipped (fun v => decide (r.top ≤ v.y)) c3
      (Line.ofAngle (Vec.ofXY (num 0) r.top) (AngleDeg.ofNum (num 0)))
    ofList c4

end Poly

end PyrusGeom
