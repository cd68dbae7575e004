import Verif.Model.Ieee
import Verif.Model.Polygon

/-!
# Loops that start with `float("inf")`

`Poly.boundingBox` and `Poly.dist` represent the initial infinity of the running minimum by `none`, so that they make sense for
every number type. At `Ieee` infinity is a number, and the loops can be written as they are in the source. The two differ when
the first number is NaN: a comparison with NaN is false, so Python keeps the infinity, whereas `none` is replaced.
-/

namespace PyrusGeom
namespace Poly
open Ieee

/-- `if v > m: m = v`, polygon_2d.py:210-211,216-217 -/
noncomputable def maxUpd (m v : Ieee) : Ieee := if m < v then v else m

/-- `if v < m: m = v`, polygon_2d.py:213-214,219-220,318-319,326-327 -/
noncomputable def minUpd (m v : Ieee) : Ieee := if v < m then v else m

/-- `x_min, x_max, y_min, y_max` with the initial values of polygon_2d.py:205-208. -/
structure InfBounds where
  xMin : Ieee := inf false
  xMax : Ieee := -(inf false)
  yMin : Ieee := inf false
  yMax : Ieee := -(inf false)

/-- Loop body of polygon_2d.py:209-220. -/
noncomputable def infStep (b : InfBounds) (p : Vec Ieee) : InfBounds :=
  ⟨minUpd b.xMin p.x, maxUpd b.xMax p.x, minUpd b.yMin p.y, maxUpd b.yMax p.y⟩

/-- `get_bounding_box`, polygon_2d.py:197-221 -/
noncomputable def boundingBoxI (p : Poly Ieee) : Except PyErr (Rect Ieee) :=
  if p.vertices.length = 0 then Rect.ofNothing
  else
    let b := p.vertices.foldl infStep {}
    .ok (Rect.ofPointSize (Vec.ofXY b.xMin b.yMin) (Size.ofLW (b.xMax - b.xMin) (b.yMax - b.yMin)))

/-- `contains`, polygon_2d.py:223-281 -/
noncomputable def containsI (poly : Poly Ieee) (p : Vec Ieee) (allow : Bool) : Bool :=
  match poly.vertices with
  | [] => false
  | [v] => allow && v.eq p
  | v0 :: v1 :: vs =>
    match poly.boundingBoxI with
    | .error _ => false  -- unreachable
    | .ok bb =>
      if !bb.contains p then false
      else containsLoop p allow (halfLine bb v0 p) (cyclicPairs (v0 :: v1 :: vs)) false

/-- Loop body of polygon_2d.py:311-319. -/
noncomputable def distStepI (p : Vec Ieee) (m : Ieee) (e : Vec Ieee × Vec Ieee) : Ieee :=
  minUpd m ((Seg.ofPoints e.1 e.2).distPoint p)

/-- `dist`, polygon_2d.py:291-329 -/
noncomputable def distI (poly : Poly Ieee) (p : Vec Ieee) (checkAsPlane : Bool) : Ieee :=
  match poly.vertices with
  | [v] => (v.sub p).r
  | vs =>
    if checkAsPlane && poly.containsI p true then num 0
    else
      let m := (chainPairs vs).foldl (distStepI p) (inf false)
      match vs with
      | v0 :: _ :: v2 :: rest => distStepI p m ((v2 :: rest).getLast (List.cons_ne_nil _ _), v0)
      | _ => m

end Poly
end PyrusGeom
