import Verif.Model.ConvexHull
import Verif.Model.Matrix
import Verif.Model.Sector
import Verif.Model.SoccerMath

/-!
# Replay of the repository's unit tests on the model at `Float`

Not part of any proof: the `#guard`s evaluate the same model definitions the theorems are about, at `K = Float`,
on the inputs and expected outputs of `/repo/tests/*.py`.
-/

namespace PyrusGeom.Tests

instance : NatCast Float := ⟨Float.ofNat⟩
instance : IntCast Float := ⟨Float.ofInt⟩

def ftrunc (x : Float) : ℤ :=
  if x < 0 then -((-x).floor.toUInt64.toNat : ℤ) else (x.floor.toUInt64.toNat : ℤ)

instance : PyMath Float where
  sqrt := Float.sqrt
  sin := Float.sin
  cos := Float.cos
  tan := Float.tan
  acos := Float.acos
  asin := Float.asin
  atan := Float.atan
  exp := Float.exp
  log := Float.log
  atan2 := Float.atan2
  powi x n := x.pow (Float.ofInt n)
  fmod x y := x - y * Float.ofInt (ftrunc (x / y))
  pmod x y := x - y * (x / y).floor
  trunc := ftrunc
  pi := 3.14159265358979323846

abbrev F := Float
def V (x y : F) : Vec F := Vec.ofXY x y
def A (d : F) : AngleDeg F := AngleDeg.ofNum d
def near (a b : F) (tol : F := 1e-7) : Bool := (a - b).abs < tol
def at? (v : Vec F) (x y : F) : Bool := v.x == x && v.y == y
def okList {α} : Except PyErr (List α) → List α
  | .ok l => l
  | .error _ => []
def okB {α} (p : α → Bool) : Except PyErr α → Bool
  | .ok a => p a
  | .error _ => false

/-! ## tests/test_angle_deg.py -/

#guard (AngleDeg.default : AngleDeg F).degree == 0
#guard (A 10).degree == 10
#guard (A (-90)).degree == -90
#guard (A 360).degree == 0
#guard (A (-360)).degree == 0
#guard (AngleDeg.ofAngle (A 10)).degree == 10
#guard ((A 20).setDegree 30).degree == 30
#guard ((A 20).setAngle (A 30)).degree == 30
#guard (A 40).isWithin (A 30) (A 50)
#guard !(A 40).isWithin (A 50) (A 30)
#guard (A (-20)).abs == 20
#guard near (A 30).radian 0.523599 1e-6
#guard (A (-20)).reverse.degree == 160
#guard (A (-20)).reverseAngle.degree == 160
#guard !(A 30).isLeftOf (A 30) && (A 30).isLeftOf (A 45) && !(A 30).isLeftOf (A 20)
#guard !(A 30).isRightOf (A 30) && !(A 30).isRightOf (A 45) && (A 30).isRightOf (A 20)
#guard (A 30).isLeftEqualOf (A 30) && (A 30).isLeftEqualOf (A 45) && !(A 30).isLeftEqualOf (A 20)
#guard (A 30).isRightEqualOf (A 30) && !(A 30).isRightEqualOf (A 45) && (A 30).isRightEqualOf (A 20)
#guard (A 90).getNormalized == 0.75
#guard near (A (-30)).cos 0.8660254038 && near (A 30).cos 0.8660254038
#guard near (A (-30)).sin (-0.5) && near (A 30).sin 0.5
#guard near (A (-30)).tan (-0.5773502692) && near (A 30).tan 0.5773502692
#guard near (AngleDeg.rad2deg (0.52359877 : F)) 30 1e-5
#guard near (AngleDeg.deg2rad (30 : F)) 0.523599 1e-6
#guard near (AngleDeg.cosDeg (30 : F)) 0.8660254038
#guard near (AngleDeg.sinDeg (30 : F)) 0.5
#guard near (AngleDeg.tanDeg (30 : F)) 0.5773502692
#guard okB (near · 30) (AngleDeg.acosDeg (0.8660254038 : F))
#guard okB (near · 30) (AngleDeg.asinDeg (0.5 : F))
#guard near (AngleDeg.atanDeg (0.5773502692 : F)) 30
#guard near (AngleDeg.atan2Deg (10 : F) 10) 45
#guard (AngleDeg.bisect (30 : F) 0).eq (A 15)

/-! ## tests/test_vector_2d.py -/

#guard at? ((V 1.1 2.1).assign 1 2) 1 2
#guard at? (((V 0 0).setX 1).setY 2) 1 2
#guard let b := (V 0 0).setPolar 10 (A 45); 7 ≤ b.x && b.x ≤ 7.1 && 7 ≤ b.y && b.y ≤ 7.1
#guard let b := (V 0 0).setPolar 10 (A (-45)); 7 ≤ b.x && b.x ≤ 7.1 && -7.1 ≤ b.y && b.y ≤ -7
#guard let b := (V 0 0).setPolar 10 (A (-135)); -7.1 ≤ b.x && b.x ≤ -7 && -7.1 ≤ b.y && b.y ≤ -7
#guard let b := (V 0 0).setPolar 10 (A 225); -7.1 ≤ b.x && b.x ≤ -7 && -7.1 ≤ b.y && b.y ≤ -7
#guard let b := (V 0 0).setPolar 10 (A 360); 9.9 ≤ b.x && b.x ≤ 10.1 && -0.1 ≤ b.y && b.y ≤ 0.1
#guard let a := (V 4 4).setDir (A 0); a.th.degree == 0 && 5.6 < a.x && a.x < 5.7
#guard let c := (V 10 10).th.degree; 44 ≤ c && c ≤ 46
#guard at? ((V 0 0).addIn (V 2 4)) 2 4
#guard at? ((((V 0 0).addIn (V 2 4)).addX 1).addY 2) 3 6
#guard at? ((V 2 3).scale 2) 4 6
#guard (V 10 0).dist (V 20 0) == 10
#guard at? ((V 2 0).setLength 8) 8 0
#guard at? ((V 2 0).setLength 8).normalize 1 0
#guard let a := (V 10 0).rotate 90; a.y == 10 && -0.01 < a.x && a.x < 0.01
#guard at? ((V 1 1).add (V 4 4)) 5 5
#guard at? ((V 4 4).sub (V 1 1)) 3 3
#guard okB (at? · 2 2) ((V 4 4).truediv 2)
#guard at? ((V 4 4).mul 2) 8 8
#guard at? ((V 4 4).imul 2) 8 8
#guard at? ((V 4 4).iadd (V 1 1)) 5 5
#guard at? ((V 4 4).isub (V 1 1)) 3 3
#guard at? (Vec.fromPolar 3 (A 0)) 3 0
#guard let a : Vec F := Vec.ofRA 3 (A 0); at? a 3 0 && a.th.eqNum 0 && a.r == 3
#guard let a : Vec F := Vec.ofRA 10 (A 45); a.th.eqNum 45 && a.r == 10

/-! ## tests/test_line_2d.py -/

def lineEq (l : Line F) (a b c : F) : Bool := l.a == a && l.b == b && l.c == c

#guard lineEq (Line.ofPoints (V 0 0) (V 0 10)) (-10) 0 0
#guard let l := Line.ofAngle (V 0 0) (A 90); l.a == -1 && l.b.abs < 0.01 && l.c == 0
#guard (Line.ofPoints (V 0 0) (V 10 10)).getX 5 == 5
#guard (Line.ofPoints (V 0 0) (V 10 10)).getY 5 == 5
#guard okB (· == 0) ((Line.ofPoints (V 0 0) (V 0 10)).dist (V 0 (-1)))
#guard okB (· == 2) ((Line.ofPoints (V 0 0) (V 0 10)).dist (V 2 2))
#guard okB (· == 0) ((Line.ofPoints (V 0 0) (V 0 10)).dist2 (V 0 (-1)))
#guard okB (· == 4) ((Line.ofPoints (V 0 0) (V 0 10)).dist2 (V 2 2))
#guard (Line.ofPoints (V 0 0) (V 0 10)).isParallel (Line.ofPoints (V 1 0) (V 1 (-10)))
#guard !((Line.ofPoints (V 0 0) (V 0 10)).intersection (Line.ofPoints (V 1 0) (V 1 (-10)))).valid
#guard at? ((Line.ofPoints (V 0 0) (V 0 10)).intersection (Line.ofPoints (V 1 1) (V (-1) 1))) 0 1
#guard ((Line.ofPoints (V 0 0) (V 0 10)).perpendicular (V 5 5)).getY 2 == 5
#guard at? ((Line.ofPoints (V 0 0) (V 0 10)).projection (V 5 5)) 0 5
#guard ((Line.angleBisector (V 1 1) (A 0) (A 90)).getX 5 - 5).abs < 0.01
#guard (Line.perpendicularBisector (V (-5) 0) (V 5 0)).getX 5 == 0

/-! ## tests/test_ray_2d.py -/

#guard let r := Ray.ofPoint (V 0 0) (V 10 0); r.origin.x == 0 && r.dir.degree == 0
#guard let r := Ray.ofPoint (V 10 0) (V 0 0); r.origin.x == 10 && r.dir.degree == 180
#guard let l := (Ray.ofPoint (V 0 0) (V 10 10)).line; (l.b + l.a).abs < 0.1 && l.c == 0
#guard let r := Ray.ofPoint (V 0 0) (V 10 10)
  r.inRightDir (V 10 10) 10 && !r.inRightDir (V 1 10) 10 && r.inRightDir (V 15 13) 10 && !r.inRightDir (V 15 13) 2
#guard let i := (Ray.ofPoint (V (-10) 0) (V 0 0)).intersectionRay (Ray.ofPoint (V 1 10) (V 1 5))
  (i.x - 1).abs < 0.001 && i.y.abs < 0.001

/-! ## tests/test_segment_2d.py -/

def S (x0 y0 x1 y1 : F) : Seg F := Seg.ofXYXY x0 y0 x1 y1
def s0 : Seg F := S 0 0 0 10

#guard let s := Seg.ofPolar (V 0 1) 10 (A 0); at? s.origin 0 1 && at? s.terminal 10 1
#guard !(S 0 1 0 1).isValid
#guard let l := (S 0 0 10 10).line; (l.a + l.b).abs == 0
#guard (S 0 1 0 10).length == 9
#guard (S 0 1 0 10).direction.degree == 90
#guard (S 0 1 0 (-10)).direction.degree == -90
#guard (S 0 1 0 10).swap.direction.degree == -90 && (S 0 1 0 10).swap.origin.y == 10
#guard (S 0 1 0 10).reversedSegment.direction.degree == -90
#guard s0.perpendicularBisector.getY 0 == 5
#guard s0.contains (V 0 5) && !s0.contains (V (-1) 5) && !s0.contains (V 0 11)
#guard s0.eq s0 && !s0.eq (S 0 1 0 10)
#guard s0.equalsWeakly (S 0.000000001 0 0 10)
#guard at? (s0.projection (V 1 5)) 0 5
#guard !(s0.projection (V 0 11)).valid
#guard at? ((S 0 0 0 0).projection (V 1 5)) 0 0
#guard at? (s0.intersectionSeg (S 10 1 (-10) 1) false) 0 1
#guard at? (s0.intersectionLine (S 0 10 0 0).line) 0 0
#guard !(s0.intersectionSeg (S 10 12 (-10) 12) false).valid
#guard !(s0.intersectionLine s0.line).valid
#guard s0.existIntersection (S 10 1 (-10) 1) && s0.existIntersection s0 && !s0.existIntersection (S 10 12 (-10) 12)
#guard s0.checkIntersectsOnLine (V 10 1) && s0.checkIntersectsOnLine (V 4 5)
#guard (S 10 1 (-10) 1).checkIntersectsOnLine (V (-10) 1) && !(S 10 1 (-10) 1).checkIntersectsOnLine (V 20 13)
#guard s0.existIntersectionExceptEndpoint (S 10 1 (-10) 1) && !s0.existIntersectionExceptEndpoint (S 10 10 (-10) 10)
#guard at? (s0.nearestPoint (V 5 12)) 0 10 && at? (s0.nearestPoint (V (-5) (-5))) 0 0 && at? (s0.nearestPoint (V 3 3)) 0 3
#guard s0.distSeg (S 10 1 (-10) 1) == 0 && s0.distSeg (S 10 (-1) (-10) (-1)) == 1 && s0.distSeg (S 1 0 1 10) == 1
#guard s0.distPoint (V 0 5) == 0 && s0.distPoint (V 0 11) == 1 && s0.distPoint (V 1 5) == 1
#guard s0.farthestDist (V 0 (-1)) == 11
#guard s0.onSegment (V 0 0) && s0.onSegment (V 0 5) && !s0.onSegment (V 1 5) && !s0.onSegment (V 10 1)
#guard s0.onSegmentWeakly (V 0 0) && s0.onSegmentWeakly (V 0.0000001 5.0000001) && !s0.onSegmentWeakly (V 0.000001 5.000001)
#guard !s0.onSegmentWeakly (V 10 1) && !s0.onSegmentWeakly (V (-10) 1)

/-! ## tests/test_circle_2d.py -/

def c0 : Circle F := Circle.ofCR (V 0 0) 2

def pts? (l : Except PyErr (List (Vec F))) (e : List (F × F)) : Bool :=
  match l with
  | .ok l => l.map (fun v => (v.x, v.y)) == e
  | .error _ => false

#guard 12.56 < c0.area && c0.area < 12.57
#guard c0.contains (V 1 1) && !c0.contains (V 10 10)
#guard pts? (c0.intersectionLine (Line.ofAngle (V 0 0) (A 0))) [(2, 0), (-2, 0)]
#guard pts? (c0.intersectionLine (Line.ofAngle (V 0 2) (A 0))) [(0, 2)]
#guard pts? (c0.intersectionLine (Line.ofAngle (V 0 3) (A 0))) []
#guard pts? (c0.intersectionRay (Ray.ofPoint (V 0 0) (V 3 0))) [(2, 0)]
#guard pts? (c0.intersectionRay (Ray.ofPoint (V 3 3) (V 5 3))) []
#guard pts? (c0.intersectionRay (Ray.ofPoint (V (-3) 0) (V 3 0))) [(2, 0), (-2, 0)]
#guard pts? (c0.intersectionRay (Ray.ofPoint (V (-2) 2) (V 2 2))) [(0, 2)]
#guard pts? (c0.intersectionSeg (S 0 0 3 0)) [(2, 0)]
#guard pts? (c0.intersectionSeg (S 5 5 8 8)) []
#guard pts? (c0.intersectionSeg (S (-3) 0 3 0)) [(2, 0), (-2, 0)]
#guard pts? (c0.intersectionSeg (S (-2) 2 2 2)) [(0, 2)]
#guard pts? (c0.intersectionCircle (Circle.ofCR (V 4 0) 2)) [(2, 0)]
#guard pts? (c0.intersectionCircle (Circle.ofCR (V 4 0) 10)) []
#guard match c0.intersectionCircle (Circle.ofCR (V 4 0) 3) with
  | .ok [p, _] => p.x == 1.375 && (p.y - 1.45).abs < 0.1
  | _ => false
#guard let c := Circle.circumCircle (V 0 0) (V 1 0) (V 0 1); at? c.center 0.5 0.5 && near c.radius 0.70710678
#guard Circle.circumCircleContains (V 0.5 0.5) (V 0 0) (V 1 0) (V 0 1)
#guard !Circle.circumCircleContains (V 2 2) (V 0 0) (V 1 0) (V 0 1)

/-! ## tests/test_matrix_2d.py -/

def m1 : Mat F := ⟨2, 0, 2, 2, 2, 1⟩
def m2 : Mat F := ⟨5, 4, 5, 4, 0, 0⟩

#guard (Mat.identity : Mat F).eq ⟨1, 0, 0, 1, 0, 0⟩ && !(Mat.identity : Mat F).eq ⟨1, 1, 1, 1, 1, 1⟩
#guard (Mat.identity : Mat F).det == 1 && m1.det == 4 && m2.det == 0
#guard (Mat.identity : Mat F).invertible && m1.invertible && !m2.invertible
#guard (Mat.identity : Mat F).inverted.eq Mat.identity && m2.inverted.eq ⟨1, 0, 0, 1, 0, 0⟩
#guard ((Mat.identity : Mat F).transform (V 10 10)).eq (V 10 10) && (m1.transform (V 10 10)).eq (V 22 41)
#guard ((Mat.identity : Mat F).mul Mat.identity).eq Mat.identity

/-! ## tests/test_polygon_2d.py -/

def pts0 : List (Vec F) := [V 7 7, V 7 (-7), V (-7) (-7), V (-7) 7, V 9 0, V (-9) 0, V 0 9, V 0 (-9)]
def pg1 : Poly F := ⟨[V 0 0, V 0 3, V 4 0]⟩
def pg2 : Poly F := ⟨[V 10 10, V 0 15, V (-10) 10, V (-10) (-10), V 10 (-10)]⟩
def pg3 : Poly F := ⟨[V 10 10, V (-10) 10, V (-10) (-10), V 10 (-10)]⟩
def rectAns : Rect F := Rect.ofPointLW (V (-9) (-9)) 18 18
def same (l m : List (Vec F)) : Bool := l.length == m.length && (l.zip m).all fun e => e.1.eq e.2

#guard same (Poly.default : Poly F).vertices [V 0 0]
#guard okB (fun r : Rect F => r.topRight.eq rectAns.topRight && r.bottomLeft.eq rectAns.bottomLeft) (Poly.boundingBox ⟨pts0⟩)
#guard okB (fun r : Rect F => r.center.eq rectAns.center) (Poly.boundingBox ⟨pts0⟩)
#guard !pg2.contains (V 14 (-11)) true && pg2.contains (V 0 0) true && !pg2.contains (V 5 14) true
#guard pg2.contains (V (-10) 10) true && !pg2.contains (V (-10) 10) false
#guard pg2.dist (V 0 (-15)) true == some 5 && pg2.dist (V 0 0) true == some 0 && pg2.dist (V 0 0) false == some 10
#guard pg2.dist (V (-11) 11) true == some (Float.sqrt 2) && pg2.dist (V 10 15) true == some (50 / Float.sqrt 125)
#guard (Poly.default : Poly F).doubleSignedArea == 0 && (Poly.doubleSignedArea ⟨pts0⟩ : F) == -375
#guard pg1.doubleSignedArea == -12 && pg2.doubleSignedArea == 900 && pg3.doubleSignedArea == 800
#guard same (pg2.rectClipped (Rect.ofPointLW (V (-10) (-20)) 20 20)).vertices
  [V 10 (-10), V 10 (-20), V (-10) (-20), V (-10) (-10)]

/-! ## tests/test_convex_hull.py -/

/-- CPython's `list.sort` for fewer than 64 elements: the initial run (`count_run`), then binary insertion. -/
def countRun {α} (lt : α → α → Bool) : List α → Nat × Bool
  | a :: b :: t => if lt b a then (go true b t 2, true) else (go false b t 2, false)
  | l => (l.length, false)
where
  go (desc : Bool) (p : α) : List α → Nat → Nat
    | [], n => n
    | q :: t, n => if lt q p == desc then go desc q t (n + 1) else n

def bisectPos {α} [Inhabited α] (lt : α → α → Bool) (a : Array α) (p : α) : Nat → Nat → Nat → Nat
  | 0, l, _ => l
  | f + 1, l, r => if l < r then
      let m := (l + r) / 2
      if lt p a[m]! then bisectPos lt a p f l m else bisectPos lt a p f (m + 1) r
    else l

def pySort {α} [Inhabited α] (lt : α → α → Bool) (l : List α) : List α :=
  let (n, desc) := countRun lt l
  let run := if desc then (l.take n).reverse else l.take n
  (l.drop n).foldl (fun acc p => acc.insertIdx (bisectPos lt acc.toArray p 64 0 acc.length) p) run

instance : Inhabited (Vec F) := ⟨V 0 0⟩

def srt : (Vec F → Vec F → Bool) → List (Vec F) → List (Vec F) := pySort

def pts1 : List (Vec F) := pts0 ++ [V 1 2, V (-2) 1, V (-1) (-1), V 3 4, V 4 3, V (-5) 4, V 6 5]
def pts2 : List (Vec F) := [V 0.02402358131857918 (-0.2356728797179394), V 0.3215348546593775 0.03629583077160248,
  V 0.04590851212470659 (-0.4156409924995536), V 0.3218384001607433 0.1379850698988746,
  V 0.11506479756447 (-0.1059521474930943), V 0.2622539999543261 (-0.29702873322836),
  V (-0.161920957418085) (-0.405533971642641), V 0.1905378631228002 0.3698601009043493,
  V 0.2387090918968516 (-0.01629827079949742), V 0.07495888748668034 (-0.1659825110491202),
  V 0.3319341836794598 (-0.1821814101954749), V 0.07703635755650362 (-0.2499430638271785),
  V 0.2069242999022122 (-0.2232970760420869), V 0.04604079532068295 (-0.1923573186549892),
  V 0.05054295812784038 0.4754929463150845, V (-0.3900589168910486) 0.2797829520700341,
  V 0.3120693385713448 (-0.0506329867529059), V 0.01138812723698857 0.4002504701728471,
  V 0.009645149586391732 0.1060251100976254, V (-0.03597933197019559) 0.2953639456959105,
  V 0.1818290866742182 0.001454397571696298, V 0.444056063372694 0.2502497166863175,
  V (-0.05301752458607545) (-0.06553921621808712), V 0.4823896228171788 (-0.4776170002088109),
  V (-0.3089226845734964) (-0.06356112199235814), V (-0.271780741188471) 0.1810810595574612,
  V 0.4293626522918815 0.2980897964891882, V (-0.004796652127799228) 0.382663812844701,
  V 0.430695573269106 (-0.2995073500084759), V 0.1799668387323309 (-0.2973467472915973),
  V 0.4932166845474547 0.4928094162538735, V (-0.3521487911717489) 0.4352656197131292,
  V (-0.4907368011686362) 0.1865826865533206, V (-0.1047924716070224) (-0.247073392148198),
  V 0.4374961861758457 (-0.001606279519951237), V 0.003256207800708899 (-0.2729194320486108),
  V 0.04310378203457577 0.4452604050238248, V 0.4916198379282093 (-0.345391701297268),
  V 0.001675087028811806 0.1531837672490476, V (-0.4404289572876217) (-0.2894855991839297)]
def hull01 : List (Vec F) := [V (-9) 0, V (-7) (-7), V 0 (-9), V 7 (-7), V 9 0, V 7 7, V 0 9, V (-7) 7]
def hull2 : List (Vec F) := [V (-0.161920957418085) (-0.405533971642641), V 0.05054295812784038 0.4754929463150845,
  V 0.4823896228171788 (-0.4776170002088109), V 0.4932166845474547 0.4928094162538735,
  V (-0.3521487911717489) 0.4352656197131292, V (-0.4907368011686362) 0.1865826865533206,
  V 0.4916198379282093 (-0.345391701297268), V (-0.4404289572876217) (-0.2894855991839297)]
def sameSet (l m : List (Vec F)) : Bool :=
  l.length == m.length && l.all (fun p => m.any p.eq) && m.all (fun p => l.any p.eq)

#guard Hull.list2set (fun a b : F => a == b) [-1.5, 1, 2, 0, 0, 0, 2] == [-1.5, 1, 2, 0]
#guard Hull.angleSortPredicate (V 20 10) (V (-10) 20) (V 0 0) == 1
#guard Hull.angleSortPredicate (V 20 10) (V (-10) 20) (V 20 20) == -1
#guard !Hull.isClockwise (V 0 0) (V 20 10) (V (-10) 20) && Hull.isClockwise (V 20 10) (V (-10) 20) (V 20 20)
#guard same (Hull.wrapping (.ofList pts0)).vertices hull01
#guard sameSet (Hull.wrapping (.ofList pts1)).vertices hull01
#guard sameSet (Hull.wrapping (.ofList pts2)).vertices hull2
#guard okB (fun h : Hull.Obj F => sameSet h.vertices hull01) (Hull.graham srt (.ofList pts0))
#guard okB (fun h : Hull.Obj F => sameSet h.vertices hull01) (Hull.graham srt (.ofList pts1))

end PyrusGeom.Tests
