import Verif.Model.Float

/-!
# IEEE 754 binary64 with overflow, infinities and NaN

A fourth instance of the number type of the model. `fin 0` stands for both zeros: apart from `atan2` and the text of a
number no operation the code uses tells them apart (a division by either raises).

Where Python raises instead of returning a value (`math.sqrt(-1)`, `math.sin(inf)`, `math.fmod(inf, y)`, `int(nan)`,
`math.pow` on overflow) the instance returns a dummy. The functions of `Verif/Model/Checked.lean` raise there.
-/

namespace PyrusGeom

/-- A binary64 value. `inf true` is minus infinity. -/
inductive Ieee where
  | nan : Ieee
  | inf (neg : Bool) : Ieee
  | fin (x : ℝ) : Ieee

/-- The largest finite double. -/
noncomputable def maxDouble : ℝ := (2 ^ 53 - 1) * (2 : ℝ) ^ (971 : ℤ)

namespace Ieee

open Classical in
/-- Rounding to nearest even; infinity if the rounded value is beyond the largest double. -/
noncomputable def ofReal (x : ℝ) : Ieee := if |rne x| ≤ maxDouble then fin (rne x) else inf (decide (x < 0))

def neg : Ieee → Ieee
  | nan => nan
  | inf s => inf (!s)
  | fin x => fin (-x)

noncomputable def add : Ieee → Ieee → Ieee
  | nan, _ => nan
  | inf _, nan => nan
  | fin _, nan => nan
  | inf s, inf t => if s = t then inf s else nan
  | inf s, fin _ => inf s
  | fin _, inf t => inf t
  | fin x, fin y => ofReal (x + y)

open Classical in
noncomputable def mul : Ieee → Ieee → Ieee
  | nan, _ => nan
  | inf _, nan => nan
  | fin _, nan => nan
  | inf s, inf t => inf (s != t)
  | inf s, fin y => if y = 0 then nan else inf (s != decide (y < 0))
  | fin x, inf t => if x = 0 then nan else inf (decide (x < 0) != t)
  | fin x, fin y => ofReal (x * y)

open Classical in
/-- Division by a number that is not zero (the interpreter raises before dividing by zero). -/
noncomputable def div : Ieee → Ieee → Ieee
  | nan, _ => nan
  | inf _, nan => nan
  | fin _, nan => nan
  | inf _, inf _ => nan
  | inf s, fin y => inf (s != decide (y < 0))
  | fin _, inf _ => fin 0
  | fin x, fin y => ofReal (x / y)

def lt : Ieee → Ieee → Prop
  | inf s, inf t => s = true ∧ t = false
  | inf s, fin _ => s = true
  | fin _, inf t => t = false
  | fin x, fin y => x < y
  | _, _ => False

def le : Ieee → Ieee → Prop
  | inf s, inf t => s = true ∨ t = false
  | inf s, fin _ => s = true
  | fin _, inf t => t = false
  | fin x, fin y => x ≤ y
  | _, _ => False

/-- `==`: NaN differs from everything. -/
def same : Ieee → Ieee → Prop
  | inf s, inf t => s = t
  | fin x, fin y => x = y
  | _, _ => False

noncomputable instance : Add Ieee := ⟨add⟩
noncomputable instance : Neg Ieee := ⟨neg⟩
noncomputable instance : Sub Ieee := ⟨fun x y => add x (neg y)⟩
noncomputable instance : Mul Ieee := ⟨mul⟩
noncomputable instance : Div Ieee := ⟨div⟩
noncomputable instance : NatCast Ieee := ⟨fun n => ofReal n⟩
instance : LT Ieee := ⟨lt⟩
instance : LE Ieee := ⟨le⟩
noncomputable instance : DecidableLT Ieee := fun _ _ => Classical.propDecidable _
noncomputable instance : DecidableLE Ieee := fun _ _ => Classical.propDecidable _
open Classical in
noncomputable instance : BEq Ieee := ⟨fun x y => decide (same x y)⟩

/-- An elementary function on finite values. -/
noncomputable def lift (f : ℝ → ℝ) : Ieee → Ieee
  | fin x => ofReal (f x)
  | _ => nan

open Classical in
noncomputable instance : PyMath Ieee where
  sqrt
    | nan => nan
    | inf s => if s then nan else inf false
    | fin x => if 0 ≤ x then ofReal (Real.sqrt x) else nan
  sin := lift Real.sin
  cos := lift Real.cos
  tan := lift Real.tan
  acos := lift Real.arccos
  asin := lift Real.arcsin
  atan
    | nan => nan
    | inf s => ofReal (if s then -(Real.pi / 2) else Real.pi / 2)
    | fin x => ofReal (Real.arctan x)
  exp
    | nan => nan
    | inf s => if s then fin 0 else inf false
    | fin x => ofReal (Real.exp x)
  log
    | nan => nan
    | inf s => if s then nan else inf false
    | fin x => ofReal (Real.log x)
  atan2
    | nan, _ => nan
    | fin _, nan => nan
    | inf _, nan => nan
    | fin y, fin x => ofReal (Complex.arg ⟨x, y⟩)
    | fin y, inf s => if s then ofReal (if y < 0 then -Real.pi else Real.pi) else fin 0
    | inf s, fin _ => ofReal (if s then -(Real.pi / 2) else Real.pi / 2)
    | inf s, inf t => ofReal ((if s then -1 else 1) * (if t then 3 * (Real.pi / 4) else Real.pi / 4))
  powi
    | _, 0 => fin 1
    | nan, _ => nan
    | inf s, n => if n < 0 then fin 0 else inf (s && decide (Odd n))
    | fin x, n => ofReal (x ^ n)
  fmod
    | fin x, fin y => fin (PyMath.fmod x y)
    | fin x, inf _ => fin x
    | _, _ => nan
  pmod
    | fin x, fin y => ofReal (PyMath.pmod x y)
    | fin x, inf s => if x = 0 ∨ (x < 0 ↔ s = true) then fin x else inf s
    | _, _ => nan
  trunc
    | fin x => rtrunc x
    | _ => 0
  pi := ofReal Real.pi

end Ieee

end PyrusGeom
