import Verif.Lemmas.PyNumPoly
import Verif.Props.Segment
import Verif.Props.Triangle

/-!
# C188: `int` coordinates of any size are computed with exactly

On points with `int` coordinates, of whatever size, the predicates built from signed areas involve no rounding: they give the answer
of exact real arithmetic, and so decide their geometric question.
-/

namespace PyrusGeom

variable {lit : Bool} [m : PyMath (FP double)]

namespace Spec

/-- A point with integer coordinates. -/
structure IPt where
  x : ℤ
  y : ℤ
  valid : Bool := true

/-- As a Python object with `int` coordinates -/
def IPt.py (p : IPt) : Vec (PyNum lit) := ⟨.int p.x, .int p.y, p.valid⟩

/-- As a point of the plane -/
noncomputable def IPt.re (p : IPt) : Vec ℝ := ⟨p.x, p.y, p.valid⟩

/-- The signed area of three points, an integer -/
def iarea (a b c : IPt) : ℤ := (a.x - c.x) * (b.y - c.y) + (b.x - c.x) * (c.y - a.y)

end Spec

open Spec

theorem rv_num0 : (num 0 : PyNum lit).rv = 0 := by
  rw [PyNum.NumSim.rv (PyNum.sim_num0 (lit := lit))]
  exact (rne_of_isDouble (isDouble_nat (by norm_num))).trans Nat.cast_zero

omit m in
theorem dsa_py (a b c : IPt) : Tri.dsa (K := PyNum lit) a.py b.py c.py = .int (iarea a b c) := rfl

theorem dsa_re (a b c : IPt) : Tri.dsa a.re b.re c.re = (iarea a b c : ℝ) := by
  simp only [Tri.dsa, IPt.re, iarea]
  push_cast
  ring

theorem int_lt_num0 (n : ℤ) : (PyNum.int n : PyNum lit) < num 0 ↔ (n : ℝ) < num 0 := by
  change (n : ℝ) < (num 0 : PyNum lit).rv ↔ _
  rw [rv_num0, show (num 0 : ℝ) = 0 from Nat.cast_zero]

theorem num0_lt_int (n : ℤ) : (num 0 : PyNum lit) < PyNum.int n ↔ (num 0 : ℝ) < n := by
  change (num 0 : PyNum lit).rv < (n : ℝ) ↔ _
  rw [rv_num0, show (num 0 : ℝ) = 0 from Nat.cast_zero]

theorem int_le_num0 (n : ℤ) : (PyNum.int n : PyNum lit) ≤ num 0 ↔ (n : ℝ) ≤ num 0 := by
  change (n : ℝ) ≤ (num 0 : PyNum lit).rv ↔ _
  rw [rv_num0, show (num 0 : ℝ) = 0 from Nat.cast_zero]

theorem num0_le_int (n : ℤ) : (num 0 : PyNum lit) ≤ PyNum.int n ↔ (num 0 : ℝ) ≤ n := by
  change (num 0 : PyNum lit).rv ≤ (n : ℝ) ↔ _
  rw [rv_num0, show (num 0 : ℝ) = 0 from Nat.cast_zero]

theorem int_beq_num0 (n : ℤ) : ((PyNum.int n : PyNum lit) == num 0) = ((n : ℝ) == num 0) := by
  change decide ((n : ℝ) = (num 0 : PyNum lit).rv) = _
  rw [rv_num0, show (num 0 : ℝ) = 0 from Nat.cast_zero, Bool.eq_iff_iff, beq_iff_eq, decide_eq_true_iff]

omit m in
theorem int_le_int (n k : ℤ) : (PyNum.int n : PyNum lit) ≤ .int k ↔ (n : ℝ) ≤ k := Iff.rfl

omit m in
theorem int_beq_int (n k : ℤ) : ((PyNum.int n : PyNum lit) == .int k) = ((n : ℝ) == (k : ℝ)) := by
  change decide ((n : ℝ) = (k : ℝ)) = _
  rw [Bool.eq_iff_iff, beq_iff_eq, decide_eq_true_iff]

omit m in
theorem int_mul_int (n k : ℤ) : (PyNum.int n : PyNum lit) * .int k = .int (n * k) := rfl

omit m in
theorem eq_py (a b : IPt) : Vec.eq (K := PyNum lit) a.py b.py = a.re.eq b.re := by
  simp only [Vec.eq, IPt.py, IPt.re, int_beq_int]

theorem onLine_py (a b p : IPt) : (⟨a.py, b.py⟩ : Seg (PyNum lit)).checkIntersectsOnLine p.py = (⟨a.re, b.re⟩ : Seg ℝ).checkIntersectsOnLine p.re := by
  rw [Bool.eq_iff_iff]
  unfold Seg.checkIntersectsOnLine
  have hb : (a.py.x == (b.py (lit := lit)).x) = (a.re.x == b.re.x) := int_beq_int a.x b.x
  by_cases h : (a.re.x == b.re.x) = true
  · rw [if_pos h, if_pos (hb.trans h)]
    simp only [Bool.or_eq_true, Bool.and_eq_true, decide_eq_true_iff]
    exact Iff.rfl
  · rw [if_neg h, if_neg (by rw [hb]; exact h)]
    simp only [Bool.or_eq_true, Bool.and_eq_true, decide_eq_true_iff]
    exact Iff.rfl

/-- `exist_intersection` is the exact answer … -/
theorem existIntersection_py (a b c d : IPt) :
    (⟨a.py, b.py⟩ : Seg (PyNum lit)).existIntersection ⟨c.py, d.py⟩ = (⟨a.re, b.re⟩ : Seg ℝ).existIntersection ⟨c.re, d.re⟩ := by
  simp only [Seg.existIntersection, dsa_py, dsa_re, int_mul_int, int_lt_num0, Int.cast_mul, eq_py, int_beq_num0, onLine_py]

/-- … so it decides whether the two segments have a common point. -/
theorem C188_exist_intersection (a b c d : IPt) :
    (⟨a.py, b.py⟩ : Seg (PyNum lit)).existIntersection ⟨c.py, d.py⟩ = true ↔
      ((⟨a.re, b.re⟩ : Seg ℝ).pts ∩ (⟨c.re, d.re⟩ : Seg ℝ).pts).Nonempty := by
  rw [existIntersection_py, C30_exist_intersection]

/-- `exist_intersection_except_endpoint` is the exact answer. -/
theorem C188_except_endpoint (a b c d : IPt) :
    (⟨a.py, b.py⟩ : Seg (PyNum lit)).existIntersectionExceptEndpoint ⟨c.py, d.py⟩ =
      (⟨a.re, b.re⟩ : Seg ℝ).existIntersectionExceptEndpoint ⟨c.re, d.re⟩ := by
  simp only [Seg.existIntersectionExceptEndpoint, dsa_py, dsa_re, int_mul_int, int_lt_num0, Int.cast_mul]

/-- `on_segment` decides whether the point lies on a segment with two different endpoints. -/
theorem C188_on_segment (a b p : IPt) (h : a.re.pt ≠ b.re.pt) :
    (⟨a.py, b.py⟩ : Seg (PyNum lit)).onSegment p.py = true ↔ p.re.pt ∈ (⟨a.re, b.re⟩ : Seg ℝ).pts := by
  rw [← C29_on_segment_partial ⟨a.re, b.re⟩ p.re h]
  simp only [Seg.onSegment, dsa_py, dsa_re, int_beq_num0, onLine_py]

/-- The orientation of three points, from the sign of the exact integer `iarea` -/
theorem C188_ccw (a b c : IPt) : Tri.ccw (K := PyNum lit) a.py b.py c.py = true ↔ 0 < iarea a b c := by
  rw [Tri.ccw, decide_eq_true_iff, dsa_py, num0_lt_int, show (num 0 : ℝ) = 0 from Nat.cast_zero, Int.cast_pos]

/-- `tri_contains` decides whether the point is in a triangle that is not degenerate. -/
theorem C188_contains (a b c p : IPt) (h : iarea a b c ≠ 0) :
    Tri.triContains (K := PyNum lit) a.py b.py c.py p.py = true ↔ InTriangle a.re.pt b.re.pt c.re.pt p.re.pt := by
  rw [← (C40_contains_partial a.re b.re c.re p.re ?_).1]
  · have hs : ∀ u v : IPt, Vec.sub (K := PyNum lit) u.py v.py = (⟨u.x - v.x, u.y - v.y, true⟩ : IPt).py := fun _ _ => rfl
    have ho : ∀ u v : IPt, Vec.outerProduct (K := PyNum lit) u.py v.py = .int (u.x * v.y - u.y * v.x) := fun _ _ => rfl
    have hv : ∀ u : IPt, Vec.ofVec (K := PyNum lit) u.py = (⟨u.x, u.y, true⟩ : IPt).py := fun _ => rfl
    simp only [Tri.triContains, hs, hv, ho, num0_le_int, int_le_num0]
    simp only [Vec.ofVec, Vec.sub, Vec.ofXY, Vec.outerProduct, IPt.re]
    push_cast
    rfl
  · rw [← Tri.dsa_real, dsa_re]
    exact_mod_cast h

/-- Beyond the doubles: the segments from `(0, 0)` to `(2 ^ 60 + 1, 2 ^ 60)` and from `(1, 1)` to `(2 ^ 60, 2 ^ 60)` do not meet. -/
example : (⟨(⟨0, 0, true⟩ : IPt).py, (⟨2 ^ 60 + 1, 2 ^ 60, true⟩ : IPt).py⟩ : Seg (PyNum lit)).existIntersectionExceptEndpoint
    ⟨(⟨1, 1, true⟩ : IPt).py, (⟨2 ^ 60, 2 ^ 60, true⟩ : IPt).py⟩ = false := by
  rw [C188_except_endpoint]
  simp only [Seg.existIntersectionExceptEndpoint, dsa_re, iarea]
  norm_num [num]

end PyrusGeom
