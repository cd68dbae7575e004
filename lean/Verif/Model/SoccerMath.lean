import Verif.Model.Vector

/-!
# Model of `/repo/src/pyrusgeom/soccer_math.py`

`math.pow` with an `int` exponent is `PyMath.powi`.  The exceptions of `math.exp`/`math.pow` are in `Verif/Model/Checked.lean`.
-/

namespace PyrusGeom

variable {K : Type} [Add K] [Sub K] [Mul K] [Div K] [Neg K] [NatCast K] [LT K] [LE K]
  [DecidableLT K] [DecidableLE K] [BEq K] [PyMath K]

namespace SoccerMath

/-- `SERVER_EPS = 1.0e-10`, soccer_math.py:12 -/
def SERVER_EPS : K := num 1 / num 10000000000

/-- `kick_rate`, soccer_math.py:15-31 -/
def kickRate (dist dirDiff power ballSize playerSize margin : K) : Except PyErr K := do
  let q ← pyDiv ((num 1 / num 4) * (dist - ballSize - playerSize)) margin
  return power * (num 1 - (num 1 / num 4) * fabs dirDiff / num 180 - q)

/-- `dir_rate`, soccer_math.py:34-48 -/
def dirRate (dir back side : K) : K :=
  if num 90 < fabs dir then
    back - ((back - side) * (num 1 - (fabs dir - num 90) / num 90))
  else side + ((num 1 - side) * (num 1 - fabs dir / num 90))

/-- `effective_turn`, soccer_math.py:51-64 -/
def effectiveTurn (moment speed inertia : K) : Except PyErr K :=
  pyDiv moment (num 1 + inertia * speed)

/-- `final_speed`, soccer_math.py:67-82 -/
def finalSpeed (power rate effort decay : K) : Except PyErr K :=
  pyDiv (fabs power * rate * effort) (num 1 - decay)

/-- `can_over_speed_max`, soccer_math.py:85-99 -/
def canOverSpeedMax (power rate effort decay speedMax : K) : Bool :=
  decide (speedMax * (num 1 - decay) < fabs power * rate * effort)

/-- `math.pow(x, n)` for an integer `n`: `ValueError` for a zero base and a negative exponent. -/
def mathPow (x : K) (n : ℤ) : Except PyErr K :=
  if x == num 0 && decide (n < 0) then .error .valueError else .ok (PyMath.powi x n)

/-- `math.log(x)`: `ValueError` unless `x > 0`. -/
def mathLog (x : K) : Except PyErr K :=
  if num 0 < x then .ok (PyMath.log x) else .error .valueError

/-- `inertia_n_step_travel`, soccer_math.py:102-116 -/
def inertiaNStepTravel (vel : Vec K) (n : ℤ) (decay : K) : Except PyErr (Vec K) := do
  let p ← mathPow decay n
  let q ← pyDiv (num 1 - p) (num 1 - decay)
  return (Vec.ofXY vel.x vel.y).mul q

/-- `inertia_n_step_point`, soccer_math.py:119-135 -/
def inertiaNStepPoint (pos vel : Vec K) (n : ℤ) (decay : K) : Except PyErr (Vec K) := do
  let t ← inertiaNStepTravel vel n decay
  return (Vec.ofXY pos.x pos.y).add t

/-- `inertia_n_step_distance`, soccer_math.py:138-151 -/
def inertiaNStepDistance (speed : K) (n : ℤ) (decay : K) : Except PyErr K := do
  let p ← mathPow decay n
  pyDiv (speed * (num 1 - p)) (num 1 - decay)

/-- `inertia_final_travel`, soccer_math.py:153-163 -/
def inertiaFinalTravel (vel : Vec K) (decay : K) : Except PyErr (Vec K) :=
  (Vec.ofXY vel.x vel.y).truediv (num 1 - decay)

/-- `inertia_final_point`, soccer_math.py:166-177 -/
def inertiaFinalPoint (pos vel : Vec K) (decay : K) : Except PyErr (Vec K) := do
  let t ← inertiaFinalTravel vel decay
  return (Vec.ofXY pos.x pos.y).add t

/-- `inertia_final_distance`, soccer_math.py:180-190 -/
def inertiaFinalDistance (speed decay : K) : Except PyErr K :=
  pyDiv speed (num 1 - decay)

variable [IntCast K]

/-- `r_int`, soccer_math.py:193-215 -/
def rInt (x : K) : ℤ :=
  let og := PyMath.trunc x
  let diff := fabs ((og : K) - x)
  let left := og - 1
  let leftDiff := fabs ((left : K) - x)
  let right := og + 1
  let rightDiff := fabs ((right : K) - x)
  if diff < leftDiff ∧ diff < rightDiff then og
  else if leftDiff < rightDiff then left
  else right

omit [IntCast K] in
/-- `calc_length_geom_series`, soccer_math.py:218-236 -/
def calcLengthGeomSeries (first sum ratio : K) : Except PyErr K :=
  if first ≤ SERVER_EPS ∨ sum < num 0 ∨ ratio ≤ SERVER_EPS then .ok (-(num 1))
  else if sum ≤ SERVER_EPS then .ok (num 0)
  else
    let tmp := num 1 + sum * (ratio - num 1) / first
    if tmp ≤ SERVER_EPS then .ok (-(num 1))
    else pyDiv (PyMath.log tmp) (PyMath.log ratio)

omit [IntCast K] in
/-- `calc_first_term_geom_series`, soccer_math.py:238-249 -/
def calcFirstTermGeomSeries (sums ratio : K) (length : ℤ) : Except PyErr K := do
  let p ← mathPow ratio length
  pyDiv (sums * (num 1 - ratio)) (num 1 - p)

omit [IntCast K] in
/-- `bound`, soccer_math.py:252-263 -/
def bound (a b c : K) : K := pyMin (pyMax a b) c

omit [IntCast K] in
/-- `min_max`, soccer_math.py:265-276 -/
def minMax (low x high : K) : K := pyMin (pyMax low x) high

omit [IntCast K] in
/-- The `n`-th number yielded by the generator loop of `f_range`, soccer_math.py:306-312, `none` if it has ended. -/
def fRangeLoop (stop step : K) : ℕ → K → Option K
  | n, start =>
    if num 0 < step ∧ stop ≤ start then none
    else if step < num 0 ∧ start ≤ stop then none
    else match n with
      | 0 => some start
      | n + 1 => fRangeLoop stop step n (start + step)

omit [IntCast K] in
/-- The `n`-th number yielded by `f_range(start, stop, step)`, soccer_math.py:279-312. -/
def fRange (start : K) (stop step : Option K) (n : ℕ) : Option K :=
  let step := step.getD (num 1)
  match stop with
  | none => fRangeLoop (start + num 0) step n (num 0)
  | some stop => fRangeLoop stop step n start

/-- `quantize`, soccer_math.py:316-327 -/
def quantize (v q : K) : Except PyErr K := do
  let d ← pyDiv v q
  return (rInt d : K) * q

/-- `quantize_dist`, soccer_math.py:330-340 -/
def quantizeDist (d q : K) : Except PyErr K := do
  let l ← mathLog (d + SERVER_EPS)
  let e ← quantize l q
  quantize (PyMath.exp e) (num 1 / num 10)

/-- `unquantize_min`, soccer_math.py:343-353 -/
def unquantizeMin (d q : K) : Except PyErr K := do
  let r ← pyDiv d q
  return ((rInt r : K) - num 1 / num 2) * q

/-- `unquantize_max`, soccer_math.py:356-366 -/
def unquantizeMax (d q : K) : Except PyErr K := do
  let r ← pyDiv d q
  return ((rInt r : K) + num 1 / num 2) * q

omit [IntCast K] in
/-- `wind_effect`, soccer_math.py:369-397, `wind_error` a `Vector2D` (an object without `__bool__`/`__len__`, hence
truthy).  `polar2vector` (vector_2d.py:612-624) is static: the vector it returns is discarded on line 388 and
`wind_vec` stays `Vector2D()`.  Returns the result and the new value of `wind_error`. -/
def windEffect (speed weight _force _dir windWeight rand : K) (err : Vec K) : Except PyErr (Vec K × Vec K) := do
  let w : Vec K := Vec.zero
  let ex ← pyDiv (speed * w.x * rand) (weight * windWeight)
  let ey ← pyDiv (speed * w.y * rand) (weight * windWeight)
  let x ← pyDiv (speed * w.x) (weight * windWeight)
  let y ← pyDiv (speed * w.y) (weight * windWeight)
  return (Vec.ofXY x y, err.assign ex ey)

/-- `unquantize_error`, soccer_math.py:400-414 -/
def unquantizeError (see q : K) : Except PyErr K := do
  let lo ← unquantizeMin see (num 1 / num 10)
  let lo ← mathLog lo
  let lo ← unquantizeMin lo q
  let minDist := PyMath.exp lo - SERVER_EPS
  let hi ← unquantizeMax see (num 1 / num 10)
  let hi ← mathLog hi
  let hi ← unquantizeMax hi q
  let maxDist := PyMath.exp hi - SERVER_EPS
  return fabs (maxDist - minDist)

end SoccerMath

end PyrusGeom
