import Verif.Lemmas.Float

/-!
# Python numbers: `int` and `float`

An instance of the number type of the model that keeps the two number types of Python apart. `int` is unbounded and exact under
`+`, `-`, `*`; an operation with a `float` converts the `int` to the nearest double first; `/` of two `int`s is the correctly rounded
quotient; comparisons between the types are exact; the functions of `math` convert their arguments and return a `float`
(`%` of two `int`s is an `int`). Not modelled: the `OverflowError` for an `int` beyond the range of doubles.

The literals of the source are written partly as `0`, `180`, partly as `0.0`, `180.0`; the parameter `lit` tells which of the two
spellings is used for the literals up to 1000 (the others, `1.0e-6`, `1e20`, ..., are floats). `math.fabs` makes a `float` of an `int`,
`fabs` of the model keeps the type; likewise `math.pow(d, 2)` in `dist2` is a `float`, the `d * d` of the model an `int`. Both have the
same value below `2 ^ 53`, which is what C187 uses; C188 leaves out the functions that call them.
-/

namespace PyrusGeom

/-- A Python number. -/
inductive PyNum (lit : Bool) where
  | int (n : ℤ)
  | flt (x : FP double)

namespace PyNum
variable {lit : Bool}

/-- The exact value. -/
def rv : PyNum lit → ℝ
  | int n => n
  | flt x => x.val

/-- `float(a)` -/
noncomputable def toF : PyNum lit → FP double
  | int n => ⟨rne n⟩
  | flt x => x

noncomputable instance : Add (PyNum lit) := ⟨fun a b => match a, b with
  | int n, int k => int (n + k)
  | a, b => flt (a.toF + b.toF)⟩
noncomputable instance : Sub (PyNum lit) := ⟨fun a b => match a, b with
  | int n, int k => int (n - k)
  | a, b => flt (a.toF - b.toF)⟩
noncomputable instance : Mul (PyNum lit) := ⟨fun a b => match a, b with
  | int n, int k => int (n * k)
  | a, b => flt (a.toF * b.toF)⟩
noncomputable instance : Div (PyNum lit) := ⟨fun a b => match a, b with
  | int n, int k => flt ⟨rne (n / k)⟩
  | a, b => flt (a.toF / b.toF)⟩
noncomputable instance : Neg (PyNum lit) := ⟨fun a => match a with
  | int n => int (-n)
  | flt x => flt (-x)⟩
noncomputable instance : NatCast (PyNum lit) := ⟨fun n => if lit = true ∧ n ≤ 1000 then int n else flt (n : FP double)⟩
instance : IntCast (PyNum lit) := ⟨int⟩
instance : LT (PyNum lit) := ⟨fun a b => a.rv < b.rv⟩
instance : LE (PyNum lit) := ⟨fun a b => a.rv ≤ b.rv⟩
noncomputable instance : DecidableLT (PyNum lit) := fun a b => inferInstanceAs (Decidable (a.rv < b.rv))
noncomputable instance : DecidableLE (PyNum lit) := fun a b => inferInstanceAs (Decidable (a.rv ≤ b.rv))
noncomputable instance : BEq (PyNum lit) := ⟨fun a b => decide (a.rv = b.rv)⟩

/-- The functions of `math`, from those on doubles. -/
noncomputable instance [m : PyMath (FP double)] : PyMath (PyNum lit) where
  sqrt a := flt (m.sqrt a.toF)
  sin a := flt (m.sin a.toF)
  cos a := flt (m.cos a.toF)
  tan a := flt (m.tan a.toF)
  acos a := flt (m.acos a.toF)
  asin a := flt (m.asin a.toF)
  atan a := flt (m.atan a.toF)
  exp a := flt (m.exp a.toF)
  log a := flt (m.log a.toF)
  atan2 a b := flt (m.atan2 a.toF b.toF)
  powi a n := flt (m.powi a.toF n)
  fmod a b := flt (m.fmod a.toF b.toF)
  pmod a b := match a, b with
    | int n, int k => int (n.fmod k)
    | a, b => flt (m.pmod a.toF b.toF)
  trunc a := match a with
    | int n => n
    | flt x => m.trunc x
  pi := flt m.pi

end PyNum
end PyrusGeom
