import Verif.Model.ConvexHull

/-!
# The hull methods with the exceptions of list accesses

`Model/ConvexHull.lean` reads lists with `at'` where the index should be in range, and runs the `while` loop of the Graham scan with
a bound on the number of rounds.  Here the methods of `/repo/src/pyrusgeom/convex_hull.py` are written a second time with every
list access checked as Python does it, and the `while` loop is the relation its execution defines.
`Verif/Props/HullChecked.lean` compares the two.
-/

namespace PyrusGeom

variable {K : Type} [Add K] [Sub K] [Mul K] [Div K] [Neg K] [NatCast K] [LT K] [LE K]
  [DecidableLT K] [DecidableLE K] [BEq K] [PyMath K]

namespace Hull

/-- `pts[i]` with an index that is not negative. -/
def atE (pts : List (Vec K)) (i : ℕ) : Except PyErr (Vec K) := pyGet pts i

/-- Loop body of `get_min_point_index`, convex_hull.py:413-419 -/
def minStepE (pts : List (Vec K)) (s : ℕ × Vec K) (i : ℕ) : Except PyErr (ℕ × Vec K) := do
  let p ← atE pts i
  return if decide (p.x < s.2.x) || (s.2.x == p.x && decide (p.y < s.2.y)) then (i, p) else s

/-- `get_min_point_index`, convex_hull.py:399-421 -/
def minPointIndexE (pts : List (Vec K)) : Except PyErr ℤ := do
  if pts.length = 0 then return -1
  else
    let p ← atE pts 0
    let s ← (List.range pts.length).foldlM (minStepE pts) (0, p)
    return (s.1 : ℤ)

/-- Loop body of convex_hull.py:333-348 -/
def candStepE (pts : List (Vec K)) (cur : ℕ) (curP : Vec K) (used : List ℕ) (cand i : ℕ) : Except PyErr ℕ := do
  if i == cur || used.contains i then return cand
  else
    let p1 ← atE pts cand
    let p2 ← atE pts i
    let area := Tri.dsa curP p1 p2
    return if area < num 0 then i
    else if decide (area < EPSILON) && decide (curP.dist2 p2 < curP.dist2 p1) then i
    else cand

/-- The loop of convex_hull.py:325-355; `curP` is `current_point`. -/
def wrapLoopE (pts : List (Vec K)) (minI : ℕ) : ℕ → ℕ → Vec K → List ℕ → List (Vec K) → Except PyErr (List (Vec K))
  | 0, _, _, _, vs => .ok vs
  | rounds + 1, cur, curP, used, vs => do
    let c := firstCandidate pts.length cur used
    let c ← (List.range' (c + 1) (pts.length - (c + 1))).foldlM (candStepE pts cur curP used) c
    let p ← atE pts c
    if c == minI then return vs ++ [p] else wrapLoopE pts minI rounds c p (used ++ [c]) (vs ++ [p])

/-- Loop body of convex_hull.py:356-359 and 393-396 -/
def edgeStepE (vs : List (Vec K)) (es : List (Seg K)) (i : ℕ) : Except PyErr (List (Seg K)) := do
  let a ← atE vs i
  let z ← pyGet vs (-1)
  if !(a.eq z) then
    let b ← atE vs (i + 1)
    return es ++ [Seg.ofPoints a b]
  else return es

/-- The edge loop convex_hull.py:356-359 and 393-396 -/
def hullEdgesE (vs : List (Vec K)) : Except PyErr (List (Seg K)) :=
  (List.range vs.length).foldlM (edgeStepE vs) []

/-- `list.pop()` -/
def pyPop {α : Type} (l : List α) : Except PyErr (List α) := if l.isEmpty then .error .indexError else .ok l.dropLast

/-- `compute_wrapping_method`, convex_hull.py:308-361 -/
def wrappingE (h : Obj K) : Except PyErr (Obj K) := do
  let h := h.clearResults
  let m ← minPointIndexE h.input
  if h.input.length < 3 || m == -1 then return h
  else
    let p ← pyGet h.input m
    let vs ← wrapLoopE h.input m.toNat (h.input.length + 1) m.toNat p [] [p]
    let es ← hullEdgesE vs
    let vs ← pyPop vs
    return { h with verts := vs, edges := es, aliased := false }

/-- What the `while` loop of convex_hull.py:380-382 does when started with `top`: it ends with a new `top`, or raises. -/
inductive WhileTop (vs : List (Vec K)) (p : Vec K) : ℤ → Except PyErr ℤ → Prop where
  | stop {top a b} : pyGet vs (top - 1) = .ok a → pyGet vs top = .ok b → isClockwise a b p = true → WhileTop vs p top (.ok top)
  | round {top a b r} : pyGet vs (top - 1) = .ok a → pyGet vs top = .ok b → isClockwise a b p = false →
      WhileTop vs p (top - 1) r → WhileTop vs p top r
  | raise₁ {top e} : pyGet vs (top - 1) = .error e → WhileTop vs p top (.error e)
  | raise₂ {top a e} : pyGet vs (top - 1) = .ok a → pyGet vs top = .error e → WhileTop vs p top (.error e)

/-- The loop of convex_hull.py:379-387 over the remaining values of `i`. -/
inductive ForTop : List ℕ → List (Vec K) → ℤ → Except PyErr (List (Vec K) × ℤ) → Prop where
  | done {vs top} : ForTop [] vs top (.ok (vs, top))
  | raise₁ {i is vs top e} : pyGet vs (i : ℕ) = .error e → ForTop (i :: is) vs top (.error e)
  | raise₂ {i is vs top p e} : pyGet vs (i : ℕ) = .ok p → WhileTop vs p top (.error e) → ForTop (i :: is) vs top (.error e)
  | raise₃ {i is vs top p top' e} : pyGet vs (i : ℕ) = .ok p → WhileTop vs p top (.ok top') → pyGet vs (top' + 1) = .error e →
      ForTop (i :: is) vs top (.error e)
  | round {i is vs top p top' q vs₁ vs₂ r} : pyGet vs (i : ℕ) = .ok p → WhileTop vs p top (.ok top') →
      pyGet vs (top' + 1) = .ok q → pySet vs (top' + 1) p = .ok vs₁ → pySet vs₁ (i : ℕ) q = .ok vs₂ →
      ForTop is vs₂ (top' + 1) r → ForTop (i :: is) vs top r

/-- `compute_graham_scan`, convex_hull.py:363-397: what a call returns or raises. -/
inductive RunGraham (srt : (Vec K → Vec K → Bool) → List (Vec K) → List (Vec K)) (h : Obj K) : Except PyErr (Obj K) → Prop where
  | raise₁ {e} : minPointIndexE h.clearResults.input = .error e → RunGraham srt h (.error e)
  | few {m} : minPointIndexE h.clearResults.input = .ok m → (h.clearResults.input.length < 3 ∨ m = -1) →
      RunGraham srt h (.ok h.clearResults)
  | raise₂ {m e} : minPointIndexE h.clearResults.input = .ok m → ¬ (h.clearResults.input.length < 3 ∨ m = -1) →
      ForTop (List.range' 2 (h.clearResults.input.length - 2)) (sortFrom srt h.clearResults.input m.toNat) 1 (.error e) →
      RunGraham srt h (.error e)
  | rest {m vs top} : minPointIndexE h.clearResults.input = .ok m → ¬ (h.clearResults.input.length < 3 ∨ m = -1) →
      ForTop (List.range' 2 (h.clearResults.input.length - 2)) (sortFrom srt h.clearResults.input m.toNat) 1 (.ok (vs, top)) →
      RunGraham srt h (do
        let vs := pyDelFrom vs (top + 1)
        let es ← hullEdgesE vs
        let v0 ← pyGet vs 0
        let vl ← pyGet vs (-1)
        return { input := vs, verts := [], edges := es ++ [Seg.ofPoints v0 vl], aliased := true })

/-- The loop over `k` of convex_hull.py:260-279 -/
def directKE (pts : List (Vec K)) (i j : ℕ) (rel p1 : Vec K) : List ℕ → K → Except PyErr (Option K)
  | [], last => .ok (some last)
  | k :: ks, last =>
    if k == i || k == j then directKE pts i j rel p1 ks last
    else do
      let p3 ← atE pts k
      let d := p3.sub p1
      let op := rel.outerProduct d
      if fabs op < EPSILON ∧ d.r2 < rel.r2 then return none
      else if op * last < num 0 then return none
      else directKE pts i j rel p1 ks op

/-- Loop body of convex_hull.py:254-291 -/
def directStepE (pts : List (Vec K)) (s : List (Vec K) × List (Seg K)) (ij : ℕ × ℕ) :
    Except PyErr (List (Vec K) × List (Seg K)) := do
  let p1 ← atE pts ij.1
  let p2 ← atE pts ij.2
  let r ← directKE pts ij.1 ij.2 (p2.sub p1) p1 (List.range pts.length) (num 0)
  return match r with
    | none => s
    | some last => (s.1 ++ [p1, p2], s.2 ++ [if last < num 0 then Seg.ofPoints p1 p2 else Seg.ofPoints p2 p1])

/-- `compute_direct_method`, convex_hull.py:240-306 -/
def directE (srt : (Vec K → Vec K → Bool) → List (Vec K) → List (Vec K)) (h : Obj K) : Except PyErr (Obj K) := do
  let h := h.clearResults
  if h.input.length < 3 then return h
  else
    let s ← (directPairs h.input.length).foldlM (directStepE h.input) ([], [])
    let vs := if s.1.length > 0 then
        list2set Vec.eq (srt (fun a b => decide (angleSortPredicate a b Vec.zero < 0)) s.1)
      else s.1
    return { h with verts := vs, edges := s.2, aliased := false }

end Hull

end PyrusGeom
