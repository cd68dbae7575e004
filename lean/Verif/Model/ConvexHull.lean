import Verif.Model.Polygon

/-!
# Model of `/repo/src/pyrusgeom/convex_hull.py`

A `ConvexHull` object keeps the caller's list (line 140), and `compute_graham_scan` makes `_vertices` the same list
object as `_input_points` (line 376); the flag `aliased` records that.  The list points themselves are `Vector2D`
objects that no method of the class mutates, so they are values here.

`list.sort(key=cmp_to_key(cmp))` is a parameter `srt`, given the relation `cmp(a, b) < 0`.
-/

namespace PyrusGeom

variable {K : Type} [Add K] [Sub K] [Mul K] [Div K] [Neg K] [NatCast K] [LT K] [LE K]
  [DecidableLT K] [DecidableLE K] [BEq K] [PyMath K]

namespace Hull

/-- `list2set`, convex_hull.py:29-43; `eq` is the `==` used by `item not in sub`. -/
def list2set {α : Type} (eq : α → α → Bool) (l : List α) : List α :=
  l.foldl (fun sub item => if sub.any (fun s => eq s item) then sub else sub ++ [item]) []

/-- `angle_sort_predicate`, convex_hull.py:77-101 -/
def angleSortPredicate (lhs rhs base : Vec K) : ℤ :=
  let area := Tri.dsa base lhs rhs
  if area < num 0 then -1
  else if area < EPSILON then
    if base.y < lhs.y then
      if base.dist2 rhs < base.dist2 lhs then -1 else 1
    else
      if base.dist2 lhs < base.dist2 rhs then -1 else 1
  else 1

/-- `is_clockwise`, convex_hull.py:104-118 -/
def isClockwise (p0 p1 p2 : Vec K) : Bool :=
  let area := Tri.dsa p0 p1 p2
  decide (area < num 0) || (decide (area < EPSILON) && decide (p0.dist2 p2 < p0.dist2 p1))

/-- `ConvexHull` object, convex_hull.py:121-142. `input` is the caller's list. If `aliased`, the attribute `_vertices`
is the list `input`, otherwise it is `verts`. -/
structure Obj (K : Type) where
  input : List (Vec K)
  verts : List (Vec K) := []
  edges : List (Seg K) := []
  aliased : Bool := false

namespace Obj

/-- `ConvexHull(points)`, convex_hull.py:129-142 -/
def ofList (pts : List (Vec K)) : Obj K := { input := pts }

/-- `input_points()` and `input_points_()`, convex_hull.py:189-204 -/
def inputPoints (h : Obj K) : List (Vec K) := h.input

/-- `vertices()` and `vertices_()`, convex_hull.py:206-221 -/
def vertices (h : Obj K) : List (Vec K) := if h.aliased then h.input else h.verts

/-- `edges()`, convex_hull.py:223-238 -/
def getEdges (h : Obj K) : List (Seg K) := h.edges

/-- `clear_results`, convex_hull.py:150-154: clears the list object `_vertices`, which may be the input list. -/
def clearResults (h : Obj K) : Obj K :=
  if h.aliased then { h with input := [], edges := [] } else { h with verts := [], edges := [] }

/-- `clear`, convex_hull.py:144-148 -/
def clear (h : Obj K) : Obj K := { h.clearResults with input := [] }

/-- `add_point`, convex_hull.py:156-162 -/
def addPoint (h : Obj K) (p : Vec K) : Obj K := { h with input := h.input ++ [p] }

/-- `add_points`, convex_hull.py:164-171 -/
def addPoints (h : Obj K) (ps : List (Vec K)) : Obj K := ps.foldl addPoint h

/-- `to_polygon`, convex_hull.py:436-442 -/
def toPolygon (h : Obj K) : Poly K := Poly.ofList h.vertices

end Obj

/-- List access used where the index is always in range. -/
def at' (pts : List (Vec K)) (i : ℕ) : Vec K := pts.getD i Vec.zero

/-- Loop body of `get_min_point_index`, convex_hull.py:413-419; state is `(min_index, min_point)`. -/
def minStep (pts : List (Vec K)) (s : ℕ × Vec K) (i : ℕ) : ℕ × Vec K :=
  let p := at' pts i
  if decide (p.x < s.2.x) || (s.2.x == p.x && decide (p.y < s.2.y)) then (i, p) else s

/-- `get_min_point_index`, convex_hull.py:399-421 -/
def minPointIndex (pts : List (Vec K)) : ℤ :=
  if pts.length = 0 then -1
  else (((List.range pts.length).foldl (minStep pts) (0, at' pts 0)).1 : ℕ)

/-- First candidate, convex_hull.py:326-332 -/
def firstCandidate (n cur : ℕ) (used : List ℕ) : ℕ :=
  ((List.range n).find? (fun i => !(i == cur || used.contains i))).getD 0

/-- Loop body of convex_hull.py:333-348 -/
def candStep (pts : List (Vec K)) (cur : ℕ) (curP : Vec K) (used : List ℕ) (cand i : ℕ) : ℕ :=
  if i == cur || used.contains i then cand
  else
    let p1 := at' pts cand
    let p2 := at' pts i
    let area := Tri.dsa curP p1 p2
    if area < num 0 then i
    else if decide (area < EPSILON) && decide (curP.dist2 p2 < curP.dist2 p1) then i
    else cand

/-- The candidate chosen by one round of convex_hull.py:326-348. -/
def nextIndex (pts : List (Vec K)) (cur : ℕ) (used : List ℕ) : ℕ :=
  let c := firstCandidate pts.length cur used
  (List.range' (c + 1) (pts.length - (c + 1))).foldl (candStep pts cur (at' pts cur) used) c

/-- The loop of convex_hull.py:325-355 with the number of rounds left; returns `_vertices`. -/
def wrapLoop (pts : List (Vec K)) (minI : ℕ) : ℕ → ℕ → List ℕ → List (Vec K) → List (Vec K)
  | 0, _, _, vs => vs
  | fuel + 1, cur, used, vs =>
    let c := nextIndex pts cur used
    let vs := vs ++ [at' pts c]
    if c == minI then vs else wrapLoop pts minI fuel c (used ++ [c]) vs

/-- The edge loop convex_hull.py:356-359 and 393-396; `v[i + 1]` exists because the last index is skipped. -/
def hullEdges (vs : List (Vec K)) : List (Seg K) :=
  (List.range vs.length).filterMap fun i =>
    if !((at' vs i).eq (at' vs (vs.length - 1))) then some (Seg.ofPoints (at' vs i) (at' vs (i + 1))) else none

/-- `compute_wrapping_method`, convex_hull.py:308-361 -/
def wrapping (h : Obj K) : Obj K :=
  let h := h.clearResults
  let pts := h.input
  let n := pts.length
  let m := minPointIndex pts
  if n < 3 || m == -1 then h
  else
    let m := m.toNat
    let vs := wrapLoop pts m (n + 1) m [] [at' pts m]
    { h with verts := vs.dropLast, edges := hullEdges vs, aliased := false }

/-- Python list access with a possibly negative index. -/
def pyGet {α : Type} (l : List α) (i : ℤ) : Except PyErr α :=
  let j := if i < 0 then i + l.length else i
  if j < 0 then .error .indexError
  else match l[j.toNat]? with
    | some a => .ok a
    | none => .error .indexError

/-- Python list item assignment with a possibly negative index. -/
def pySet {α : Type} (l : List α) (i : ℤ) (a : α) : Except PyErr (List α) :=
  let j := if i < 0 then i + l.length else i
  if j < 0 ∨ (l.length : ℤ) ≤ j then .error .indexError
  else .ok (l.set j.toNat a)

/-- The inner loop of convex_hull.py:380-382. Every round decreases `top`, so an `IndexError` comes after at most
`top + len` rounds; `fuel` is an upper bound of the rounds. -/
def grahamWhile (vs : List (Vec K)) (p : Vec K) : ℕ → ℤ → Except PyErr ℤ
  | 0, _ => .error .indexError
  | fuel + 1, top => do
    let a ← pyGet vs (top - 1)
    let b ← pyGet vs top
    if isClockwise a b p then return top else grahamWhile vs p fuel (top - 1)

/-- The loop of convex_hull.py:379-387 over the remaining values of `i`; `_vertices` and `_input_points` are the same
list `vs`. -/
def grahamFor : List ℕ → List (Vec K) → ℤ → Except PyErr (List (Vec K) × ℤ)
  | [], vs, top => .ok (vs, top)
  | i :: is, vs, top => do
    let p ← pyGet vs i
    let top ← grahamWhile vs p (2 * vs.length + 2) top
    let top := top + 1
    let tmp ← pyGet vs top
    let vi ← pyGet vs i
    let vs ← pySet vs top vi
    let vs ← pySet vs i tmp
    grahamFor is vs top

/-- `del l[top:len(l)]`, convex_hull.py:391. -/
def pyDelFrom {α : Type} (l : List α) (top : ℤ) : List α :=
  l.take (if top < 0 then top + l.length else top).toNat

/-- The sort of convex_hull.py:423-434 with base (0,0). -/
def sortFrom (srt : (Vec K → Vec K → Bool) → List (Vec K) → List (Vec K)) (pts : List (Vec K)) (idx : ℕ) :
    List (Vec K) :=
  if pts.length ≤ idx then pts
  else
    let swapped := (pts.set 0 (at' pts idx)).set idx (at' pts 0)
    srt (fun a b => decide (angleSortPredicate a b Vec.zero < 0)) swapped

/-- `compute_graham_scan`, convex_hull.py:363-397 -/
def graham (srt : (Vec K → Vec K → Bool) → List (Vec K) → List (Vec K)) (h : Obj K) :
    Except PyErr (Obj K) := do
  let h := h.clearResults
  let n := h.input.length
  let m := minPointIndex h.input
  if n < 3 || m == -1 then return h
  let vs := sortFrom srt h.input m.toNat
  let (vs, top) ← grahamFor (List.range' 2 (n - 2)) vs 1
  let vs := pyDelFrom vs (top + 1)
  let v0 ← pyGet vs 0
  let vl ← pyGet vs (-1)
  return { input := vs, verts := [], edges := hullEdges vs ++ [Seg.ofPoints v0 vl], aliased := true }

/-- The loop over `k` of convex_hull.py:260-279: `none` if left by `break` with `valid = False`, else `last_value`. -/
def directK (pts : List (Vec K)) (i j : ℕ) (rel p1 : Vec K) : List ℕ → K → Option K
  | [], last => some last
  | k :: ks, last =>
    if k == i || k == j then directK pts i j rel p1 ks last
    else
      let d := (at' pts k).sub p1
      let op := rel.outerProduct d
      if fabs op < EPSILON ∧ d.r2 < rel.r2 then none
      else if op * last < num 0 then none
      else directK pts i j rel p1 ks op

/-- Index pairs `(i, j)` in the order of convex_hull.py:251-253. -/
def directPairs (n : ℕ) : List (ℕ × ℕ) :=
  (List.range (n - 1)).flatMap fun i => (List.range' (i + 1) (n - (i + 1))).map fun j => (i, j)

/-- Loop body of convex_hull.py:254-291; state is `(_vertices, _edges)`. -/
def directStep (pts : List (Vec K)) (s : List (Vec K) × List (Seg K)) (ij : ℕ × ℕ) :
    List (Vec K) × List (Seg K) :=
  let p1 := at' pts ij.1
  let p2 := at' pts ij.2
  match directK pts ij.1 ij.2 (p2.sub p1) p1 (List.range pts.length) (num 0) with
  | none => s
  | some last =>
    (s.1 ++ [p1, p2], s.2 ++ [if last < num 0 then Seg.ofPoints p1 p2 else Seg.ofPoints p2 p1])

/-- `compute_direct_method`, convex_hull.py:240-306 -/
def direct (srt : (Vec K → Vec K → Bool) → List (Vec K) → List (Vec K)) (h : Obj K) : Obj K :=
  let h := h.clearResults
  if h.input.length < 3 then h
  else
    let s := (directPairs h.input.length).foldl (directStep h.input) ([], [])
    let vs := if s.1.length > 0 then
        list2set Vec.eq (srt (fun a b => decide (angleSortPredicate a b Vec.zero < 0)) s.1)
      else s.1
    { h with verts := vs, edges := s.2, aliased := false }

/-- `MethodType`, convex_hull.py:16-26 -/
inductive Method where
  | direct | wrapping | graham
  deriving DecidableEq

/-- `compute`, convex_hull.py:173-187 -/
def compute (srt : (Vec K → Vec K → Bool) → List (Vec K) → List (Vec K)) (h : Obj K) : Method → Except PyErr (Obj K)
  | .direct => .ok (Hull.direct srt h)
  | .wrapping => .ok (Hull.wrapping h)
  | .graham => Hull.graham srt h

end Hull

end PyrusGeom
