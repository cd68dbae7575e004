import Mathlib.Analysis.SpecialFunctions.Complex.Arg
import Mathlib.Analysis.SpecialFunctions.Trigonometric.Inverse
import Mathlib.Analysis.SpecialFunctions.Trigonometric.Arctan
import Mathlib.Analysis.SpecialFunctions.Pow.Real
import Mathlib.Analysis.SpecialFunctions.Log.Basic
import Mathlib.Algebra.Order.Archimedean.Real.Basic
import Mathlib.Tactic.Linarith
import Mathlib.Tactic.Ring
import Mathlib.Tactic.FieldSimp
import Mathlib.Tactic.NormNum
import Mathlib.Tactic.Positivity
import Mathlib.Tactic.LinearCombination

/-!
# Numbers

The model is generic in a number type `K` carrying exactly the operations the Python code uses.
Theorems use `K = ℝ`; `Verif/Tests.lean` replays unit tests of the repository at `K = Float`.
-/

namespace PyrusGeom

/-- The functions of Python's `math` module (and the `%` operator, `int()`), which the code uses.
* `powi` is `math.pow(x, n)` for an integer `n`.
* `fmod` is `math.fmod` (result has the sign of the first argument), `pmod` is Python's `%`
  (result has the sign of the second argument).
* `trunc` is `int(x)`.
* `atan2` takes `y` first, as in Python.
* `pi` is `PI` of `/repo/src/pyrusgeom/math_values.py:4`. -/
class PyMath (K : Type) where
  sqrt : K → K
  sin : K → K
  cos : K → K
  tan : K → K
  acos : K → K
  asin : K → K
  atan : K → K
  exp : K → K
  log : K → K
  atan2 : K → K → K
  powi : K → ℤ → K
  fmod : K → K → K
  pmod : K → K → K
  trunc : K → ℤ
  pi : K

/-- Truncation towards zero of a real number. -/
noncomputable def rtrunc (x : ℝ) : ℤ := if 0 ≤ x then ⌊x⌋ else ⌈x⌉

/-- Exact arithmetic. `PI` is idealised to `π`; `atan2 y x` is the argument of `x + iy`. -/
noncomputable instance instPyMathReal : PyMath ℝ where
  sqrt := Real.sqrt
  sin := Real.sin
  cos := Real.cos
  tan := Real.tan
  acos := Real.arccos
  asin := Real.arcsin
  atan := Real.arctan
  exp := Real.exp
  log := Real.log
  atan2 y x := Complex.arg ⟨x, y⟩
  powi x n := x ^ n
  fmod x y := x - y * (rtrunc (x / y) : ℝ)
  pmod x y := x - y * (⌊x / y⌋ : ℝ)
  trunc := rtrunc
  pi := Real.pi

/-- A numeric literal that is a natural number. -/
abbrev num {K : Type} [NatCast K] (n : ℕ) : K := (n : K)

section
variable {K : Type} [Add K] [Sub K] [Mul K] [Div K] [Neg K] [NatCast K] [LT K] [LE K]
  [DecidableLT K] [DecidableLE K] [BEq K] [PyMath K]

/-- `/repo/src/pyrusgeom/math_values.py:5` `EPSILON = 1.0e-6` -/
def EPSILON : K := num 1 / num 1000000

/-- `/repo/src/pyrusgeom/math_values.py:8` `CALC_ERROR = 1.0e-9` -/
def CALC_ERROR : K := num 1 / num 1000000000

/-- `/repo/src/pyrusgeom/math_values.py:9` `ERROR_VALUE = 1e20` -/
def ERROR_VALUE : K := num 100000000000000000000

/-- `/repo/src/pyrusgeom/math_values.py:6` `DEG2RAD = PI / 180.0` -/
def DEG2RAD : K := PyMath.pi / num 180

/-- `/repo/src/pyrusgeom/math_values.py:7` `RAD2DEG = 180.0 / PI` -/
def RAD2DEG : K := num 180 / PyMath.pi

/-- `math.fabs` (and the builtin `abs`) on numbers. -/
def fabs (x : K) : K := if x < num 0 then -x else x

/-- Python's builtin `min(a, b)`: keeps the first argument unless the second is strictly smaller. -/
def pyMin (a b : K) : K := if b < a then b else a

/-- Python's builtin `max(a, b)`: keeps the first argument unless the second is strictly larger. -/
def pyMax (a b : K) : K := if a < b then b else a

/-- `math.pow(x, 2)` / `x ** 2`, modelled as one multiplication. -/
def sq (x : K) : K := x * x

end

/-- Python exceptions the modelled code can raise. `exception` is an explicit `raise Exception(...)`. -/
inductive PyErr where
  | zeroDivision | valueError | typeError | attributeError | indexError | unboundLocal | keyError | exception | overflow
  deriving DecidableEq, Repr

/-- Python division: raises `ZeroDivisionError` on a zero divisor. -/
def pyDiv {K : Type} [Div K] [NatCast K] [BEq K] (x y : K) : Except PyErr K :=
  if y == num 0 then .error .zeroDivision else .ok (x / y)

/-! ## The operations at `ℝ` -/

section real

@[simp] theorem num_real (n : ℕ) : (num n : ℝ) = (n : ℝ) := rfl

theorem fabs_real (x : ℝ) : fabs x = |x| := by
  unfold fabs
  simp only [Nat.cast_zero]
  split
  · rw [abs_of_neg ‹_›]
  · rw [abs_of_nonneg (not_lt.mp ‹_›)]

theorem EPSILON_real : (EPSILON : ℝ) = 1 / 1000000 := by simp [EPSILON]

theorem CALC_ERROR_real : (CALC_ERROR : ℝ) = 1 / 1000000000 := by simp [CALC_ERROR]

theorem EPSILON_pos : (0 : ℝ) < EPSILON := by rw [EPSILON_real]; norm_num

theorem CALC_ERROR_pos : (0 : ℝ) < CALC_ERROR := by rw [CALC_ERROR_real]; norm_num

theorem DEG2RAD_real : (DEG2RAD : ℝ) = Real.pi / 180 := by simp [DEG2RAD, PyMath.pi]

theorem RAD2DEG_real : (RAD2DEG : ℝ) = 180 / Real.pi := by simp [RAD2DEG, PyMath.pi]

theorem pyMin_real (a b : ℝ) : pyMin a b = min a b := by
  unfold pyMin; split
  · rw [min_eq_right (le_of_lt ‹_›)]
  · rw [min_eq_left (not_lt.mp ‹_›)]

theorem pyMax_real (a b : ℝ) : pyMax a b = max a b := by
  unfold pyMax; split
  · rw [max_eq_right (le_of_lt ‹_›)]
  · rw [max_eq_left (not_lt.mp ‹_›)]

theorem sq_real (x : ℝ) : sq x = x ^ 2 := by unfold sq; ring

theorem pyDiv_real (x y : ℝ) :
    pyDiv x y = if y = 0 then .error .zeroDivision else .ok (x / y) := by
  simp [pyDiv]

end real

end PyrusGeom
