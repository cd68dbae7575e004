import Verif.Model.Vector

/-! # Model of `/repo/src/pyrusgeom/matrix_2d.py` -/

namespace PyrusGeom

variable {K : Type} [Add K] [Sub K] [Mul K] [Div K] [Neg K] [NatCast K] [LT K] [LE K]
  [DecidableLT K] [DecidableLE K] [BEq K] [PyMath K]

/-- `Matrix2D` object, matrix_2d.py:14-35. The accessors of the coefficients, matrix_2d.py:85-131, read the fields. -/
@[ext] structure Mat (K : Type) where
  m11 : K
  m12 : K
  m21 : K
  m22 : K
  dx : K
  dy : K

namespace Mat

/-- `Matrix2D()` / `reset`, matrix_2d.py:38-65 -/
def identity : Mat K := ⟨num 1, num 0, num 0, num 1, num 0, num 0⟩

/-- `det`, matrix_2d.py:141-147 -/
def det (m : Mat K) : K := m.m11 * m.m22 - m.m12 * m.m21

/-- `invertible`, matrix_2d.py:149-155 -/
def invertible (m : Mat K) : Bool := decide (EPSILON < fabs m.det)

/-- `inverted`, matrix_2d.py:157-173. The division cannot raise (`determinant ≠ 0` there). -/
def inverted (m : Mat K) : Mat K :=
  let d := m.det
  if d == num 0 then identity
  else
    let dinv := num 1 / d
    ⟨m.m22 * dinv, -m.m12 * dinv, -m.m21 * dinv, m.m11 * dinv,
      (m.m12 * m.dy - m.dx * m.m22) * dinv, (m.dx * m.m21 - m.m11 * m.dy) * dinv⟩

/-- `translate`, matrix_2d.py:175-186 -/
def translate (m : Mat K) (x y : K) : Mat K := { m with dx := m.dx + x, dy := m.dy + y }

/-- `scale`, matrix_2d.py:188-203 -/
def scale (m : Mat K) (sx sy : K) : Mat K :=
  ⟨m.m11 * sx, m.m12 * sx, m.m21 * sy, m.m22 * sy, m.dx * sx, m.dy * sy⟩

/-- `rotate`, matrix_2d.py:205-228 -/
def rotate (m : Mat K) (angle : AngleDeg K) : Mat K :=
  let s := angle.sin
  let c := angle.cos
  ⟨m.m11 * c - m.m21 * s, m.m12 * c - m.m22 * s, m.m11 * s + m.m21 * c, m.m12 * s + m.m22 * c,
    m.dx * c - m.dy * s, m.dx * s + m.dy * c⟩

/-- `transform(x, y)`, matrix_2d.py:250-252 -/
def transformXY (m : Mat K) (x y : K) : Vec K :=
  Vec.ofXY (m.m11 * x + m.m12 * y + m.dx) (m.m21 * x + m.m22 * y + m.dy)

/-- `transform(vector)`, matrix_2d.py:246-249 -/
def transform (m : Mat K) (v : Vec K) : Vec K :=
  Vec.ofXY (m.m11 * v.x + m.m12 * v.y + m.dx) (m.m21 * v.x + m.m22 * v.y + m.dy)

/-- `transform_vec`, matrix_2d.py:257-269: new value of the argument, which is mutated and returned. -/
def transformVec (m : Mat K) (v : Vec K) : Vec K :=
  v.assign (m.m11 * v.x + m.m12 * v.y + m.dx) (m.m21 * v.x + m.m22 * v.y + m.dy)

/-- `make_translation`, matrix_2d.py:271-282 -/
def makeTranslation (x y : K) : Mat K := ⟨num 1, num 0, num 0, num 1, x, y⟩

/-- `make_scaling`, matrix_2d.py:284-295 -/
def makeScaling (sx sy : K) : Mat K := ⟨sx, num 0, num 0, sy, num 0, num 0⟩

/-- `make_rotation`, matrix_2d.py:297-309 -/
def makeRotation (angle : AngleDeg K) : Mat K :=
  ⟨angle.cos, -angle.sin, angle.sin, angle.cos, num 0, num 0⟩

/-- `__imul__`, matrix_2d.py:311-331; also the value returned by `__mul__` with a matrix (333-347). -/
def mul (m o : Mat K) : Mat K :=
  ⟨m.m11 * o.m11 + m.m12 * o.m21, m.m11 * o.m12 + m.m12 * o.m22,
   m.m21 * o.m11 + m.m22 * o.m21, m.m21 * o.m12 + m.m22 * o.m22,
   m.m11 * o.dx + m.m12 * o.dy + m.dx, m.m21 * o.dx + m.m22 * o.dy + m.dy⟩

/-- `__eq__`, matrix_2d.py:353-365: `_dx` is compared with `other.dytf()`. -/
def eq (m o : Mat K) : Bool :=
  m.m11 == o.m11 && m.m12 == o.m12 && m.m21 == o.m21 && m.m22 == o.m22 && m.dx == o.dy && m.dy == o.dy

end Mat

end PyrusGeom
