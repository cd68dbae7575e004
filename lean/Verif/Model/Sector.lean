import Verif.Model.Vector

/-! # Model of `/repo/src/pyrusgeom/sector_2d.py` -/

namespace PyrusGeom

variable {K : Type} [Add K] [Sub K] [Mul K] [Div K] [Neg K] [NatCast K] [LT K] [LE K]
  [DecidableLT K] [DecidableLE K] [BEq K] [PyMath K]

/-- `Sector2D` object, sector_2d.py:16-29. `center_`, sector_2d.py:78-84, `angle_left_start_`, sector_2d.py:110-116, and
`angle_right_end_`, sector_2d.py:126-132, read the fields. -/
@[ext] structure Sector (K : Type) where
  center : Vec K
  minR : K
  maxR : K
  start : AngleDeg K
  stop : AngleDeg K

namespace Sector

/-- `Sector2D(center, min_r, max_r, start, end)` / `assign`, sector_2d.py:31-68 -/
def ofArgs (center : Vec K) (minR maxR : K) (start stop : AngleDeg K) : Sector K :=
  ⟨Vec.ofVec center, pyMin (num 0) minR, pyMax minR maxR, AngleDeg.ofAngle start, AngleDeg.ofAngle stop⟩

/-- `radius_min`, sector_2d.py:86-92 -/
def radiusMin (s : Sector K) : K := s.minR

/-- `radius_max`, sector_2d.py:94-100 (returns `_min_r`) -/
def radiusMax (s : Sector K) : K := s.minR

/-- `(self._end - self._start).degree_()` made non-negative, sector_2d.py:141-143,166-168,177-179 -/
def arcDeg (s : Sector K) : K :=
  let div := (s.stop.sub s.start).degree_
  if div < num 0 then div + num 360 else div

/-- `area`, sector_2d.py:134-144 -/
def area (s : Sector K) : K :=
  let circleArea := s.maxR * s.maxR * PyMath.pi - s.minR * s.minR * PyMath.pi
  circleArea * s.arcDeg / num 360

/-- `contains`, sector_2d.py:146-158 -/
def contains (s : Sector K) (p : Vec K) : Bool :=
  let rel := p.sub s.center
  let delta := rel.r2
  decide (s.minR * s.minR ≤ delta) && decide (delta ≤ s.maxR * s.maxR) && rel.th.isWithin s.start s.stop

/-- `get_circumference_min`, sector_2d.py:160-169 -/
def circumferenceMin (s : Sector K) : K := (num 2 * s.minR * PyMath.pi) * (s.arcDeg / num 360)

/-- `get_circumference_max`, sector_2d.py:171-180 -/
def circumferenceMax (s : Sector K) : K := (num 2 * s.maxR * PyMath.pi) * (s.arcDeg / num 360)

/-- `__eq__`, sector_2d.py:182-194 -/
def eq (s o : Sector K) : Bool :=
  s.center.equalsWeakly o.center && s.start.eq o.start && s.stop.eq o.stop &&
  decide (fabs (s.minR - o.radiusMin) < EPSILON) && decide (fabs (s.maxR - o.radiusMax) < EPSILON)

end Sector

end PyrusGeom
