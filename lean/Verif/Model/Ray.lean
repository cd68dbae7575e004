import Verif.Model.Line

/-! # Model of `/repo/src/pyrusgeom/ray_2d.py` -/

namespace PyrusGeom

variable {K : Type} [Add K] [Sub K] [Mul K] [Div K] [Neg K] [NatCast K] [LT K] [LE K]
  [DecidableLT K] [DecidableLE K] [BEq K] [PyMath K]

/-- `Ray2D` object, ray_2d.py:15-21; `origin_` and `dir_`, ray_2d.py:65-79, read the fields (`_is_valid` is always true after construction). -/
@[ext] structure Ray (K : Type) where
  origin : Vec K
  dir : AngleDeg K

namespace Ray

/-- `Ray2D(origin, angle)`, ray_2d.py:36,42-44 -/
def ofAngle (origin : Vec K) (a : AngleDeg K) : Ray K := ⟨Vec.ofVec origin, AngleDeg.ofAngle a⟩

/-- `Ray2D(origin, point)`, ray_2d.py:36,39-41 -/
def ofPoint (origin p : Vec K) : Ray K := ⟨Vec.ofVec origin, (p.sub origin).th⟩

/-- `line`, ray_2d.py:89-95 -/
def line (r : Ray K) : Line K := Line.ofAngle r.origin r.dir

/-- `in_right_dir`, ray_2d.py:97-107 -/
def inRightDir (r : Ray K) (p : Vec K) (thr : K) : Bool :=
  decide ((((p.sub r.origin).th).sub r.dir).abs < thr)

/-- `intersection(Line2D)`, ray_2d.py:130-138 (default threshold 10.0) -/
def intersectionLine (r : Ray K) (l : Line K) : Vec K :=
  let sol := r.line.intersection l
  if !sol.valid then Vec.invalid
  else if !r.inRightDir sol (num 10) then Vec.invalid
  else sol

/-- `intersection(Ray2D)`, ray_2d.py:121-129 -/
def intersectionRay (r o : Ray K) : Vec K :=
  let sol := r.line.intersection o.line
  if !sol.valid then Vec.invalid
  else if !r.inRightDir sol (num 10) || !o.inRightDir sol (num 10) then Vec.invalid
  else sol

/-- `__eq__`, ray_2d.py:142-151: `math.fabs` converts the `AngleDeg` through `__float__`. -/
def eq (r o : Ray K) : Bool :=
  decide (fabs (r.dir.sub o.dir).degree < EPSILON) && r.origin.eq o.origin

end Ray

end PyrusGeom
