import Mathlib.Analysis.Convex.Segment
import Mathlib.Analysis.SpecialFunctions.Pow.Real

/-!
# Specification vocabulary

Plain mathematics on `ℝ` and `ℝ × ℝ`, independent of the model of the code.
-/

namespace PyrusGeom.Spec

/-! ## Angles (degrees) -/

/-- `a` and `b` are the same direction: they differ by a multiple of 360. -/
def AngleEq (a b : ℝ) : Prop := ∃ k : ℤ, a - b = 360 * k

/-- Turning clockwise (increasing degrees) from `a` by `t ∈ [0, 360)` reaches `b`. -/
def CwTurn (a b t : ℝ) : Prop := 0 ≤ t ∧ t < 360 ∧ AngleEq (a + t) b

/-- `x` is on the clockwise arc from `left` to `right`. -/
def InArc (left right x : ℝ) : Prop :=
  ∃ t u, CwTurn left x t ∧ CwTurn left right u ∧ t ≤ u

/-! ## Points -/

/-- A point of the plane. -/
abbrev Pt := ℝ × ℝ

/-- Euclidean distance. -/
noncomputable def d (p q : Pt) : ℝ := √((p.1 - q.1) ^ 2 + (p.2 - q.2) ^ 2)

/-- Euclidean length. -/
noncomputable def len (p : Pt) : ℝ := √(p.1 ^ 2 + p.2 ^ 2)

/-- Scalar product. -/
def dot (p q : Pt) : ℝ := p.1 * q.1 + p.2 * q.2

/-- `x`-`y` determinant of two plane vectors. -/
def cross (p q : Pt) : ℝ := p.1 * q.2 - p.2 * q.1

/-- Unit vector at `a` degrees. -/
noncomputable def unit (a : ℝ) : Pt := (Real.cos (a * (Real.pi / 180)), Real.sin (a * (Real.pi / 180)))

/-- Solutions of `a x + b y + c = 0`. -/
def lineSet (a b c : ℝ) : Set Pt := {p | a * p.1 + b * p.2 + c = 0}

/-- The line through `p` with direction `v`. -/
def lineThrough (p v : Pt) : Set Pt := {z | ∃ t : ℝ, z = p + t • v}

/-- The half line from `p` with direction `v`. -/
def rayFrom (p v : Pt) : Set Pt := {z | ∃ t : ℝ, 0 ≤ t ∧ z = p + t • v}

/-- `m` is the minimum of the distances from `p` to points of `S`. -/
def IsMinDist (S : Set Pt) (p : Pt) (m : ℝ) : Prop := (∃ q ∈ S, d p q = m) ∧ ∀ q ∈ S, m ≤ d p q

/-- `m` is the maximum of the distances from `p` to points of `S`. -/
def IsMaxDist (S : Set Pt) (p : Pt) (m : ℝ) : Prop := (∃ q ∈ S, d p q = m) ∧ ∀ q ∈ S, d p q ≤ m

end PyrusGeom.Spec
