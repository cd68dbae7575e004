import Verif.Model.Checked

/-!
# IEEE 754 binary64 with the sign of zero

The last instance of the number type of the model: an `Ieee` value with a sign bit that matters if the value is zero. The value is
computed as in `Ieee`, except by `atan2`, the only operation the code uses that tells the zeros apart (a division by either raises).
Signs of zero results are those of IEEE 754-2019, 6.3 (round to nearest), of the C library functions (C17 Annex F.10) and, for `%`, of
`float_rem` of CPython (the sign of the divisor). `fabs` is the one of `Num`, which leaves `-0.0` as it is; its results are
nowhere passed to `atan2`.
-/

namespace PyrusGeom

/-- A double: `⟨fin 0, true⟩` is `-0.0`; `z` is ignored if the value is not zero. -/
structure SZ where
  v : Ieee
  z : Bool

namespace SZ
open Ieee

open Classical in
/-- The sign bit, `copysign(1.0, x) < 0`. -/
noncomputable def sgn (a : SZ) : Bool :=
  match a.v with
  | nan => false
  | inf s => s
  | fin x => if x = 0 then a.z else decide (x < 0)

/-- The two zeros. -/
def isZero (a : SZ) : Prop := a.v = fin 0

/-- The sign of a sum that is zero: negative only if both summands are negative zeros. -/
noncomputable def addSign (a b : SZ) : Bool := a.sgn && b.sgn

noncomputable instance : Neg SZ := ⟨fun a => ⟨-a.v, !a.z⟩⟩
noncomputable instance : Add SZ := ⟨fun a b => ⟨a.v + b.v, addSign a b⟩⟩
noncomputable instance : Sub SZ := ⟨fun a b => ⟨a.v - b.v, addSign a (-b)⟩⟩
noncomputable instance : Mul SZ := ⟨fun a b => ⟨a.v * b.v, a.sgn != b.sgn⟩⟩
noncomputable instance : Div SZ := ⟨fun a b => ⟨a.v / b.v, a.sgn != b.sgn⟩⟩
noncomputable instance : NatCast SZ := ⟨fun n => ⟨(n : Ieee), false⟩⟩
noncomputable instance : IntCast SZ := ⟨fun n => ⟨(n : Ieee), false⟩⟩
instance : LT SZ := ⟨fun a b => a.v < b.v⟩
instance : LE SZ := ⟨fun a b => a.v ≤ b.v⟩
noncomputable instance : DecidableLT SZ := fun a b => inferInstanceAs (Decidable (a.v < b.v))
noncomputable instance : DecidableLE SZ := fun a b => inferInstanceAs (Decidable (a.v ≤ b.v))
noncomputable instance : BEq SZ := ⟨fun a b => a.v == b.v⟩

/-- An odd function: the result has the sign of the argument. -/
noncomputable def odd (f : Ieee → Ieee) (a : SZ) : SZ := ⟨f a.v, a.sgn⟩

/-- A function whose zero results are positive. -/
def pos (f : Ieee → Ieee) (a : SZ) : SZ := ⟨f a.v, false⟩

open Classical in
noncomputable instance : PyMath SZ where
  sqrt := odd PyMath.sqrt
  sin := odd PyMath.sin
  cos := pos PyMath.cos
  tan := odd PyMath.tan
  acos := pos PyMath.acos
  asin := odd PyMath.asin
  atan := odd PyMath.atan
  exp := pos PyMath.exp
  log := pos PyMath.log
  /- For `y` a zero and `x` not NaN the result is a zero if the sign bit of `x` is clear, else `π`; it has the sign of `y`. -/
  atan2 y x :=
    ⟨if y.isZero ∧ x.v ≠ nan then (if x.sgn then ofReal (if y.z then -Real.pi else Real.pi) else fin 0) else PyMath.atan2 y.v x.v, y.sgn⟩
  powi a n := ⟨PyMath.powi a.v n, a.sgn && decide (Odd n)⟩
  fmod a b := ⟨PyMath.fmod a.v b.v, a.sgn⟩
  pmod a b := ⟨PyMath.pmod a.v b.v, b.sgn⟩
  trunc a := PyMath.trunc a.v
  pi := ⟨PyMath.pi, false⟩

end SZ
end PyrusGeom
