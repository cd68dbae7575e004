import Verif.Model.Segment

/-! # Model of `/repo/src/pyrusgeom/circle_2d.py` -/

namespace PyrusGeom

variable {K : Type} [Add K] [Sub K] [Mul K] [Div K] [Neg K] [NatCast K] [LT K] [LE K]
  [DecidableLT K] [DecidableLE K] [BEq K] [PyMath K]

/-- `quadratic_f`, circle_2d.py:311-336 -/
def quadraticF (a b c : K) : Except PyErr (List K) :=
  let delta := b * b - num 4 * a * c
  if a == num 0 then .error .exception
  else if fabs delta < EPSILON then
    let s := -b / (num 2 * a)
    .ok [s, s]
  else if delta < num 0 then .ok []
  else
    let d := PyMath.sqrt delta
    .ok [(-b + d) / (num 2 * a), (-b - d) / (num 2 * a)]

/-- `Circle2D` object, circle_2d.py:19-25. `center_` and `radius`, circle_2d.py:84-98, read the fields. -/
@[ext] structure Circle (K : Type) where
  center : Vec K
  radius : K

namespace Circle

/-- `Circle2D(center, radius)` / `assign`, circle_2d.py:27-55 -/
def ofCR (center : Vec K) (radius : K) : Circle K :=
  ⟨Vec.ofVec center, if radius < num 0 then num 0 else radius⟩

/-- `Circle2D()`, circle_2d.py:27 -/
def default : Circle K := ofCR Vec.zero (num 0)

/-- `area`, circle_2d.py:57-63 -/
def area (c : Circle K) : K := PyMath.pi * c.radius * c.radius

/-- `contains`, circle_2d.py:65-74 -/
def contains (c : Circle K) (p : Vec K) : Bool := decide (c.center.dist2 p < c.radius * c.radius)

/-- The tail shared by lines 123-133 and 144-154: turn the roots into points, dropping the second point when it is
weakly equal to the first. -/
def solPoints (mk : K → Vec K) (sol : List K) : List (Vec K) :=
  match sol with
  | s1 :: s2 :: _ => if (mk s1).equalsWeakly (mk s2) then [mk s1] else [mk s1, mk s2]
  | _ => []

/-- `intersection(Line2D)`, circle_2d.py:111-154. The divisions cannot raise: the divisor's absolute value is at
least `EPSILON` where they are evaluated. -/
def intersectionLine (c : Circle K) (l : Line K) : Except PyErr (List (Vec K)) :=
  if fabs l.a < EPSILON then
    if fabs l.b < EPSILON then .ok []
    else do
      let sol ← quadraticF (num 1) (-(num 2) * c.center.x)
        (sq c.center.x + sq (l.c / l.b + c.center.y) - sq c.radius)
      return solPoints (fun s => Vec.ofXY s (-l.c / l.b)) sol
  else do
    let ba := l.b / l.a
    let ca := l.c / l.a
    let lineA := num 1 + ba * ba
    let lineB := num 2 * (-c.center.y + (ca + c.center.x) * ba)
    let lineC := sq (ca + c.center.x) + sq c.center.y - sq c.radius
    let sol ← quadraticF lineA lineB lineC
    return solPoints (fun s => Vec.ofXY (l.getX s) s) sol

/-- Lines 158-164 / 169-175: delete the second, then the first element when the test rejects it. -/
def dropRejected (ok : Vec K → Bool) (sol : List (Vec K)) : List (Vec K) :=
  let sol := match sol with
    | a :: b :: rest => if !ok b then a :: rest else a :: b :: rest
    | s => s
  match sol with
    | a :: rest => if !ok a then rest else a :: rest
    | [] => []

/-- `intersection(Ray2D)`, circle_2d.py:155-164 -/
def intersectionRay (c : Circle K) (r : Ray K) : Except PyErr (List (Vec K)) := do
  let sol ← c.intersectionLine (Line.ofAngle (Vec.ofVec r.origin) (AngleDeg.ofAngle r.dir))
  return dropRejected (fun p => r.inRightDir p (num 1)) sol

/-- `intersection(Segment2D)`, circle_2d.py:166-175 -/
def intersectionSeg (c : Circle K) (s : Seg K) : Except PyErr (List (Vec K)) := do
  let sol ← c.intersectionLine s.line
  return dropRejected s.contains sol

/-- `intersection(Circle2D)`, circle_2d.py:177-190 -/
def intersectionCircle (c o : Circle K) : Except PyErr (List (Vec K)) :=
  let relX := o.center.x - c.center.x
  let relY := o.center.y - c.center.y
  let centerDist2 := relX * relX + relY * relY
  let centerDist := PyMath.sqrt centerDist2
  if centerDist < fabs (c.radius - o.radius) ∨ c.radius + o.radius < centerDist then .ok []
  else
    c.intersectionLine ⟨-(num 2) * relX, -(num 2) * relY,
      o.center.r2 - o.radius * o.radius - c.center.r2 + c.radius * c.radius⟩

/-- `circum_circle`, circle_2d.py:239-257 -/
def circumCircle (p0 p1 p2 : Vec K) : Circle K :=
  let center := Tri.triCircumcenter p0 p1 p2
  if !center.valid then default else ofCR center (center.dist p0)

/-- `circum_circle_contains`, circle_2d.py:259-291. The divisions cannot raise. -/
def circumCircleContains (q p0 p1 p2 : Vec K) : Bool :=
  let p10x := p1.x - p0.x
  let p10y := p1.y - p0.y
  let p20x := p2.x - p0.x
  let p20y := p2.y - p0.y
  let p10avg := p10x * (p0.x + p1.x) + p10y * (p0.y + p1.y)
  let p20avg := p20x * (p0.x + p2.x) + p20y * (p0.y + p2.y)
  let area := num 2 * (p10x * (p2.y - p1.y) - p10y * (p2.x - p1.x))
  if fabs area < num 1 / num 10000000000 then false
  else
    let center := Vec.ofXY ((p20y * p10avg - p10y * p20avg) / area) ((p10x * p20avg - p20x * p10avg) / area)
    decide (center.dist2 q < center.dist2 p0 - EPSILON * EPSILON)

end Circle

end PyrusGeom
