import Verif.Num
import Mathlib.Data.Int.Log

/-!
# Rounded numbers

A third instance of the number type of the model: real numbers with every arithmetic result rounded. The same definitions
(`AngleDeg.normalDeg`, `Poly.boundingBox`, …) that the theorems at `ℝ` are about are used at `FP ρ`.

Not modelled: overflow, infinities, NaN, the sign of zero. The elementary functions are modelled as correctly rounded;
no theorem depends on that: C179 and C180, which are about them, hold for every library with errors of at most one unit in the last place. `math.fmod` is exact, as IEEE 754 and C require of it (for `double` this is proved to be
consistent: `double_fmod`).
-/

namespace PyrusGeom

/-- A rounding function: monotone, odd, and exact on the integers up to 360 (the constants of `AngleDeg`). -/
structure Rounding where
  f : ℝ → ℝ
  mono : Monotone f
  odd : ∀ x, f (-x) = -f x
  int : ∀ n : ℕ, n ≤ 360 → f n = n

/-- Numbers with rounded arithmetic. -/
@[ext] structure FP (ρ : Rounding) where
  val : ℝ

namespace FP
variable {ρ : Rounding}

noncomputable instance : Add (FP ρ) := ⟨fun a b => ⟨ρ.f (a.val + b.val)⟩⟩
noncomputable instance : Sub (FP ρ) := ⟨fun a b => ⟨ρ.f (a.val - b.val)⟩⟩
noncomputable instance : Mul (FP ρ) := ⟨fun a b => ⟨ρ.f (a.val * b.val)⟩⟩
noncomputable instance : Div (FP ρ) := ⟨fun a b => ⟨ρ.f (a.val / b.val)⟩⟩
noncomputable instance : Neg (FP ρ) := ⟨fun a => ⟨-a.val⟩⟩
noncomputable instance : NatCast (FP ρ) := ⟨fun n => ⟨ρ.f n⟩⟩
instance : LT (FP ρ) := ⟨fun a b => a.val < b.val⟩
instance : LE (FP ρ) := ⟨fun a b => a.val ≤ b.val⟩
noncomputable instance : DecidableLT (FP ρ) := fun a b => inferInstanceAs (Decidable (a.val < b.val))
noncomputable instance : DecidableLE (FP ρ) := fun a b => inferInstanceAs (Decidable (a.val ≤ b.val))
noncomputable instance : BEq (FP ρ) := ⟨fun a b => decide (a.val = b.val)⟩
noncomputable instance : PyMath (FP ρ) where
  sqrt x := ⟨ρ.f (Real.sqrt x.val)⟩
  sin x := ⟨ρ.f (Real.sin x.val)⟩
  cos x := ⟨ρ.f (Real.cos x.val)⟩
  tan x := ⟨ρ.f (Real.tan x.val)⟩
  acos x := ⟨ρ.f (Real.arccos x.val)⟩
  asin x := ⟨ρ.f (Real.arcsin x.val)⟩
  atan x := ⟨ρ.f (Real.arctan x.val)⟩
  exp x := ⟨ρ.f (Real.exp x.val)⟩
  log x := ⟨ρ.f (Real.log x.val)⟩
  atan2 y x := ⟨ρ.f (Complex.arg ⟨x.val, y.val⟩)⟩
  powi x n := ⟨ρ.f (x.val ^ n)⟩
  fmod x y := ⟨PyMath.fmod x.val y.val⟩
  pmod x y := ⟨ρ.f (PyMath.pmod x.val y.val)⟩
  trunc x := rtrunc x.val
  pi := ⟨ρ.f Real.pi⟩

@[simp] theorem add_val (a b : FP ρ) : (a + b).val = ρ.f (a.val + b.val) := rfl
@[simp] theorem sub_val (a b : FP ρ) : (a - b).val = ρ.f (a.val - b.val) := rfl
@[simp] theorem mul_val (a b : FP ρ) : (a * b).val = ρ.f (a.val * b.val) := rfl
@[simp] theorem div_val (a b : FP ρ) : (a / b).val = ρ.f (a.val / b.val) := rfl
@[simp] theorem neg_val (a : FP ρ) : (-a).val = -a.val := rfl
@[simp] theorem cast_val (n : ℕ) : ((n : FP ρ)).val = ρ.f n := rfl
theorem lt_def (a b : FP ρ) : a < b ↔ a.val < b.val := Iff.rfl
theorem le_def (a b : FP ρ) : a ≤ b ↔ a.val ≤ b.val := Iff.rfl

end FP

/-! ## IEEE 754 binary64, round to nearest even -/

/-- The nearest integer, ties to even. -/
noncomputable def roundEven (x : ℝ) : ℤ :=
  if Int.fract x < 1 / 2 then ⌊x⌋ else if 1 / 2 < Int.fract x then ⌊x⌋ + 1 else if Even ⌊x⌋ then ⌊x⌋ else ⌊x⌋ + 1

/-- Distance of neighbouring doubles at `x` (52 bits after the leading one; subnormal numbers below `2 ^ (-1022)`). -/
noncomputable def ulp (x : ℝ) : ℝ := (2 : ℝ) ^ (max (Int.log 2 |x|) (-1022) - 52)

/-- Rounding of a real number to double precision, with unbounded largest exponent. -/
noncomputable def rne (x : ℝ) : ℝ := ulp x * roundEven (x / ulp x)

/-- The doubles (with unbounded largest exponent). -/
def IsDouble (x : ℝ) : Prop := ∃ m k : ℤ, |m| ≤ 2 ^ 53 ∧ -1074 ≤ k ∧ x = m * (2 : ℝ) ^ k

end PyrusGeom
