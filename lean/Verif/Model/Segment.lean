import Verif.Model.Ray

/-!
# Model of `/repo/src/pyrusgeom/segment_2d.py` and `/repo/src/pyrusgeom/triangle_2d.py`

The two files import each other's functionality, so they share a module.
-/

namespace PyrusGeom

variable {K : Type} [Add K] [Sub K] [Mul K] [Div K] [Neg K] [NatCast K] [LT K] [LE K]
  [DecidableLT K] [DecidableLE K] [BEq K] [PyMath K]

/-! ## triangle_2d.py, static functions used by segments -/

namespace Tri

/-- `double_signed_area_st`, triangle_2d.py:322-339 -/
def dsa (a b c : Vec K) : K := (a.x - c.x) * (b.y - c.y) + (b.x - c.x) * (c.y - a.y)

/-- `signed_area_st`, triangle_2d.py:341-357 -/
def signedArea (a b c : Vec K) : K := dsa a b c * (num 1 / num 2)

/-- `tri_ccw`, triangle_2d.py:359-371 -/
def ccw (a b c : Vec K) : Bool := decide (num 0 < dsa a b c)

end Tri

/-! ## segment_2d.py -/

/-- `Segment2D` object, segment_2d.py:18-24. -/
@[ext] structure Seg (K : Type) where
  origin : Vec K
  terminal : Vec K

namespace Seg

/-- `Segment2D(p, q)`, segment_2d.py:58-60 (and `copy` 203-209) -/
def ofPoints (p q : Vec K) : Seg K := ⟨Vec.ofVec p, Vec.ofVec q⟩

/-- `Segment2D(p, length, angle)`, segment_2d.py:61-63 -/
def ofPolar (p : Vec K) (length : K) (a : AngleDeg K) : Seg K :=
  ⟨Vec.ofVec p, p.add (Vec.fromPolar length a)⟩

/-- `Segment2D(x0, y0, x1, y1)`, segment_2d.py:64-66 -/
def ofXYXY (x0 y0 x1 y1 : K) : Seg K := ⟨Vec.ofXY x0 y0, Vec.ofXY x1 y1⟩

/-- `is_valid`, segment_2d.py:123-131 -/
def isValid (s : Seg K) : Bool := !s.origin.equalsWeakly s.terminal

/-- `line`, segment_2d.py:167-173 -/
def line (s : Seg K) : Line K := Line.ofPoints s.origin s.terminal

/-- `length`, segment_2d.py:175-181 -/
def length (s : Seg K) : K := s.origin.dist s.terminal

/-- `direction`, segment_2d.py:183-189 -/
def direction (s : Seg K) : AngleDeg K := (s.terminal.sub s.origin).th

/-- `swap` / `reverse`, segment_2d.py:191-219 -/
def swap (s : Seg K) : Seg K := ⟨s.terminal, s.origin⟩

/-- `reversed_segment`, segment_2d.py:221-227 -/
def reversedSegment (s : Seg K) : Seg K := (ofPoints s.origin s.terminal).swap

/-- `perpendicular_bisector`, segment_2d.py:229-235 -/
def perpendicularBisector (s : Seg K) : Line K := Line.perpendicularBisector s.origin s.terminal

/-- `contains`, segment_2d.py:237-247 -/
def contains (s : Seg K) (p : Vec K) : Bool :=
  decide ((p.x - s.origin.x) * (p.x - s.terminal.x) ≤ CALC_ERROR) &&
  decide ((p.y - s.origin.y) * (p.y - s.terminal.y) ≤ CALC_ERROR)

/-- `__eq__`, segment_2d.py:249-258 -/
def eq (s o : Seg K) : Bool := s.origin.eq o.origin && s.terminal.eq o.terminal

/-- `equals_weakly`, segment_2d.py:260-270 -/
def equalsWeakly (s o : Seg K) : Bool :=
  s.origin.equalsWeakly o.origin && s.terminal.equalsWeakly o.terminal

/-- `projection`, segment_2d.py:272-298. `direction /= length` cannot raise because `length ≥ EPSILON` there. -/
def projection (s : Seg K) (p : Vec K) : Vec K :=
  let direction := s.terminal.sub s.origin
  let length := direction.r
  if length < EPSILON then s.origin
  else
    let direction := Vec.ofXY (direction.x / length) (direction.y / length)
    let ip := direction.innerProduct (p.sub s.origin)
    if -EPSILON < ip ∧ ip < length + EPSILON then
      (Vec.ofVec s.origin).iadd (direction.imul ip)
    else Vec.invalid

/-- `check_intersects_on_line`, segment_2d.py:380-393 -/
def checkIntersectsOnLine (s : Seg K) (p : Vec K) : Bool :=
  if s.origin.x == s.terminal.x then
    (decide (s.origin.y ≤ p.y) && decide (p.y ≤ s.terminal.y)) ||
    (decide (s.terminal.y ≤ p.y) && decide (p.y ≤ s.origin.y))
  else
    (decide (s.origin.x ≤ p.x) && decide (p.x ≤ s.terminal.x)) ||
    (decide (s.terminal.x ≤ p.x) && decide (p.x ≤ s.origin.x))

/-- `exist_intersection(Segment2D)`, segment_2d.py:346-373 -/
def existIntersection (s o : Seg K) : Bool :=
  let a0 := Tri.dsa s.origin s.terminal o.origin
  let a1 := Tri.dsa s.origin s.terminal o.terminal
  let b0 := Tri.dsa o.origin o.terminal s.origin
  let b1 := Tri.dsa o.origin o.terminal s.terminal
  if a0 * a1 < num 0 ∧ b0 * b1 < num 0 then true
  else if s.origin.eq s.terminal then
    if o.origin.eq o.terminal then s.origin.eq o.origin
    else b0 == num 0 && o.checkIntersectsOnLine s.origin
  else if o.origin.eq o.terminal then
    a0 == num 0 && s.checkIntersectsOnLine o.origin
  else
    (a0 == num 0 && s.checkIntersectsOnLine o.origin) ||
    (a1 == num 0 && s.checkIntersectsOnLine o.terminal) ||
    (b0 == num 0 && o.checkIntersectsOnLine s.origin) ||
    (b1 == num 0 && o.checkIntersectsOnLine s.terminal)

/-- `exist_intersection(Line2D)`, segment_2d.py:374-378 -/
def existIntersectionLine (s : Seg K) (l : Line K) : Bool :=
  let a0 := l.a * s.origin.x + l.b * s.origin.y + l.c
  let a1 := l.a * s.terminal.x + l.b * s.terminal.y + l.c
  decide (a0 * a1 ≤ num 0)

/-- `exist_intersection_except_endpoint` / `intersects_except_endpoint`, segment_2d.py:395-436 -/
def existIntersectionExceptEndpoint (s o : Seg K) : Bool :=
  decide (Tri.dsa s.origin s.terminal o.origin * Tri.dsa s.origin s.terminal o.terminal < num 0) &&
  decide (Tri.dsa o.origin o.terminal s.origin * Tri.dsa o.origin o.terminal s.terminal < num 0)

/-- `intersection(Line2D)`, segment_2d.py:315-320 -/
def intersectionLine (s : Seg K) (l : Line K) : Vec K :=
  let sol := s.line.intersection l
  if !sol.valid || !s.contains sol then Vec.invalid else sol

/-- `intersection(Segment2D, allow_end_point)`, segment_2d.py:322-331 (the flag defaults to `False`) -/
def intersectionSeg (s o : Seg K) (allowEndPoint : Bool) : Vec K :=
  let sol := s.line.intersection o.line
  if !sol.valid || !s.contains sol || !o.contains sol then Vec.invalid
  else if !allowEndPoint && !s.existIntersectionExceptEndpoint o then Vec.invalid
  else sol

/-- `nearest_point`, segment_2d.py:438-463. The final division cannot raise (`len_square ≠ 0` there). -/
def nearestPoint (s : Seg K) (p : Vec K) : Vec K :=
  let v := s.terminal.sub s.origin
  let len2 := v.r2
  if len2 == num 0 then s.origin
  else
    let ip := v.innerProduct (p.sub s.origin)
    if ip ≤ num 0 then s.origin
    else if len2 ≤ ip then s.terminal
    else
      let w := v.mul ip
      s.origin.add (Vec.ofXY (w.x / len2) (w.y / len2))

/-- `dist(Vector2D)`, segment_2d.py:478-490. The division cannot raise (`length ≠ 0` there). -/
def distPoint (s : Seg K) (p : Vec K) : K :=
  let length := s.length
  if length == num 0 then s.origin.dist p
  else
    let v := s.terminal.sub s.origin
    let prod := v.innerProduct (p.sub s.origin)
    if num 0 ≤ prod ∧ prod ≤ length * length then
      fabs (Tri.dsa s.origin s.terminal p / length)
    else PyMath.sqrt (pyMin (s.origin.dist2 p) (s.terminal.dist2 p))

/-- `dist(Segment2D)`, segment_2d.py:492-498 -/
def distSeg (s o : Seg K) : K :=
  if s.existIntersection o then num 0
  else pyMin (pyMin (pyMin (s.distPoint o.origin) (s.distPoint o.terminal))
    (o.distPoint s.origin)) (o.distPoint s.terminal)

/-- `farthest_dist`, segment_2d.py:502-511 -/
def farthestDist (s : Seg K) (p : Vec K) : K :=
  PyMath.sqrt (pyMax (s.origin.dist2 p) (s.terminal.dist2 p))

/-- `on_segment`, segment_2d.py:513-523 -/
def onSegment (s : Seg K) (p : Vec K) : Bool :=
  Tri.dsa s.origin s.terminal p == num 0 && s.checkIntersectsOnLine p

/-- `on_segment_weakly`, segment_2d.py:525-535 -/
def onSegmentWeakly (s : Seg K) (p : Vec K) : Bool :=
  let q := s.projection p
  q.valid && p.equalsWeakly q

end Seg

/-! ## triangle_2d.py -/

/-- `Triangle2D` object, triangle_2d.py:21-31. `a_`, `b_` and `c_`, triangle_2d.py:134-156, read the fields. -/
@[ext] structure Tri (K : Type) where
  a : Vec K
  b : Vec K
  c : Vec K

namespace Tri

/-- `Triangle2D(a, b, c)`, triangle_2d.py:54-57 (and `assign` 88-91) -/
def ofPoints (a b c : Vec K) : Tri K := ⟨Vec.ofVec a, Vec.ofVec b, Vec.ofVec c⟩

/-- `Triangle2D(segment, c)`, triangle_2d.py:58-61 -/
def ofSeg (s : Seg K) (c : Vec K) : Tri K := ⟨Vec.ofVec s.origin, Vec.ofVec s.terminal, Vec.ofVec c⟩

/-- `is_valid`, triangle_2d.py:101-108. `!=` on vectors is the negation of `__eq__`; the last conjunct compares
`_a` with itself. -/
def isValid (t : Tri K) : Bool :=
  t.a.valid && t.b.valid && t.c.valid && !t.a.eq t.b && !t.b.eq t.c && !t.a.eq t.a

/-- `area`, triangle_2d.py:158-164 -/
def area (t : Tri K) : K := fabs ((t.b.sub t.a).outerProduct (t.c.sub t.a)) * (num 1 / num 2)

/-- `tri_contains`, triangle_2d.py:472-497 -/
def triContains (a b c p : Vec K) : Bool :=
  let rel1 := Vec.ofVec (a.sub p)
  let rel2 := Vec.ofVec (b.sub p)
  let rel3 := Vec.ofVec (c.sub p)
  let outer1 := rel1.outerProduct rel2
  let outer2 := rel2.outerProduct rel3
  let outer3 := rel3.outerProduct rel1
  (decide (num 0 ≤ outer1) && decide (num 0 ≤ outer2) && decide (num 0 ≤ outer3)) ||
  (decide (outer1 ≤ num 0) && decide (outer2 ≤ num 0) && decide (outer3 ≤ num 0))

/-- `contains`, triangle_2d.py:202-223 (same code as `tri_contains`) -/
def contains (t : Tri K) (p : Vec K) : Bool := triContains t.a t.b t.c p

/-- Result of `Vector2D.add(v)` as an expression: the method returns `None` (vector_2d.py:284-306). -/
def addReturns (_v _o : Vec K) : Option (Vec K) := none

/-- `tri_centroid`, triangle_2d.py:373-387: `Vector2D(v_a).add(v_b)` is `None`, so `.add(v_c)` is an attribute
access on `None`. -/
def triCentroid (a b c : Vec K) : Except PyErr (Vec K) :=
  match addReturns (Vec.ofVec a) b with
  | none => .error .attributeError
  | some v => match addReturns v c with
    | none => .error .typeError
    | some w => w.truediv (num 3)

/-- `tri_incenter`, triangle_2d.py:389-409 -/
def triIncenter (a b c : Vec K) : Vec K :=
  let ab := b.sub a
  let ac := c.sub a
  let bisectA := Line.ofAngle a (AngleDeg.bisect ab.th.degree ac.th.degree)
  let ba := a.sub b
  let bc := c.sub b
  let bisectB := Line.ofAngle b (AngleDeg.bisect ba.th.degree bc.th.degree)
  bisectA.intersection bisectB

/-- `tri_circumcenter`, triangle_2d.py:411-452. When the first intersection is valid, the code falls through to the
closed formula below (lines 439-452), so the intersection only matters when the first one is invalid.
`0.5 / tmp` cannot raise (`|tmp| ≥ 1e-10` there). -/
def triCircumcenter (a b c : Vec K) : Vec K :=
  let pab := Line.perpendicularBisector a b
  let pbc := Line.perpendicularBisector b c
  let sol := pab.intersection pbc
  let formula : Vec K :=
    let ab := b.sub a
    let ca := c.sub a
    let tmp := ab.outerProduct ca
    if fabs tmp < num 1 / num 10000000000 then Vec.invalid
    else
      let inv := (num 1 / num 2) / tmp
      let abLen2 := ab.r2
      let caLen2 := ca.r2
      let xcc := inv * (abLen2 * ca.y - caLen2 * ab.y)
      let ycc := inv * (ab.x * caLen2 - ca.x * abLen2)
      Vec.ofXY (a.x + xcc) (a.y + ycc)
  if !sol.valid then
    let pca := Line.perpendicularBisector c a
    let sol := pab.intersection pca
    if sol.valid then sol
    else
      let sol := pbc.intersection pca
      if sol.valid then sol else formula
  else formula

/-- `tri_orthocenter`, triangle_2d.py:454-470 -/
def triOrthocenter (a b c : Vec K) : Vec K :=
  let pa := (Line.ofPoints b c).perpendicular a
  let pb := (Line.ofPoints c a).perpendicular b
  pa.intersection pb

/-- Result `[n_sol, sol1, sol2]` of `Triangle2D.intersection`. -/
structure InterRes (K : Type) where
  n : ℕ
  s0 : Vec K
  s1 : Vec K

/-- Assignment `t_sol[i] = v` to the two-element list of triangle_2d.py:275. -/
def setSol (t : Vec K × Vec K) (i : ℕ) (v : Vec K) : Except PyErr (Vec K × Vec K) :=
  match i with
  | 0 => .ok (v, t.2)
  | 1 => .ok (t.1, v)
  | _ => .error .indexError

/-- `intersection(Line2D)`, triangle_2d.py:273-294 -/
def intersectionLine (t : Tri K) (l : Line K) : Except PyErr (InterRes K) := do
  let sol : Vec K × Vec K := (Vec.zero, Vec.zero)
  let v := (Seg.ofPoints t.a t.b).intersectionLine l
  let sol ← setSol sol 0 v
  let n := if v.valid then 1 else 0
  let v := (Seg.ofPoints t.b t.c).intersectionLine l
  let sol ← setSol sol n v
  let n := if n < 2 && v.valid then n + 1 else n
  let v := (Seg.ofPoints t.c t.a).intersectionLine l
  let sol ← setSol sol n v
  let n := if n < 2 && v.valid then n + 1 else n
  let n := if n = 2 ∧ fabs (sol.1.x - sol.2.x) < EPSILON ∧ fabs (sol.1.y - sol.2.y) < EPSILON then 1 else n
  return ⟨n, sol.1, sol.2⟩

/-- `intersection(Ray2D)`, triangle_2d.py:295-305 (index 1 is tested twice) -/
def intersectionRay (t : Tri K) (r : Ray K) : Except PyErr (InterRes K) := do
  let s ← t.intersectionLine r.line
  let s := if 1 < s.n ∧ !r.inRightDir s.s0 (num 1) then { s with n := s.n - 1 } else s
  let s := if 0 < s.n ∧ !r.inRightDir s.s0 (num 1) then { s with s0 := s.s1, n := s.n - 1 } else s
  return s

/-- `intersection(Segment2D)`, triangle_2d.py:307: `Segment2D` is a local name of the function because of the import
on line 276, which this branch has not executed, so evaluating it raises `UnboundLocalError`. The same happens for
every other argument type. -/
def intersectionSeg (_t : Tri K) (_s : Seg K) : Except PyErr (InterRes K) := .error .unboundLocal

end Tri

end PyrusGeom
