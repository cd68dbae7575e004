import Verif.Model.Checked
import Verif.Props.Mutators
import Verif.Props.Polygon

/-! # C162: in exact arithmetic the functions modelled as total do not raise -/

namespace PyrusGeom
open Spec PyMathE

/-! ## The partial functions of `math` -/

theorem sqrtE_real {x : ℝ} (h : 0 ≤ x) : sqrtE x = .ok (PyMath.sqrt x) := if_neg (not_lt.mpr h)
@[simp] theorem sinE_real (x : ℝ) : PyMathE.sinE x = .ok (PyMath.sin x) := rfl
@[simp] theorem cosE_real (x : ℝ) : PyMathE.cosE x = .ok (PyMath.cos x) := rfl
@[simp] theorem tanE_real (x : ℝ) : PyMathE.tanE x = .ok (PyMath.tan x) := rfl
@[simp] theorem expE_real (x : ℝ) : expE x = .ok (PyMath.exp x) := rfl
@[simp] theorem truncE_real (x : ℝ) : truncE x = .ok (PyMath.trunc x) := rfl
theorem logE_real (x : ℝ) : logE x = SoccerMath.mathLog x := by simp [logE, SoccerMath.mathLog]
theorem powE_real (x : ℝ) (n : ℤ) : powE x n = SoccerMath.mathPow x n := by
  simp [powE, SoccerMath.mathPow]
@[simp] theorem powE_two_real (x : ℝ) : powE x 2 = .ok (PyrusGeom.sq x) := by
  have : ¬ (x = 0 ∧ (2 : ℤ) < 0) := by simp
  simp only [powE, if_neg this, PyrusGeom.sq, PyMath.powi]
  congr 1
  rw [show (2 : ℤ) = ((2 : ℕ) : ℤ) from rfl, zpow_natCast]; ring
@[simp] theorem fmodE_real (x : ℝ) : fmodE x 360 = .ok (PyMath.fmod x 360) := if_neg (by norm_num)
@[simp] theorem pmodE_real (x : ℝ) : pmodE x 360 = .ok (PyMath.pmod x 360) := if_neg (by norm_num)
theorem pyDiv_ok {x y : ℝ} (h : y ≠ 0) : pyDiv x y = .ok (x / y) := by simp [pyDiv, h]

theorem ne_zero_of_fabs {x e : ℝ} (he : 0 < e) (h : ¬ fabs x < e) : x ≠ 0 := by
  rintro rfl
  rw [fabs_real, abs_zero] at h
  exact h he

/-! ## Angles -/

namespace AngleDeg

@[simp] theorem normalDegE_real (d : ℝ) : normalDegE d = .ok (normalDeg d) := by
  unfold normalDegE normalDeg
  split_ifs <;> simp_all [pure, Except.pure]

@[simp] theorem ofNumE_real (d : ℝ) : ofNumE d = .ok (ofNum d) := by simp [ofNumE, ofNum, pure, Except.pure]
@[simp] theorem degreeE_real (a : AngleDeg ℝ) : a.degreeE = .ok a.degree := by simp [degreeE, degree, ofNum]
@[simp] theorem ofAngleE_real (a : AngleDeg ℝ) : a.ofAngleE = .ok (ofAngle a) := by simp [ofAngleE, ofAngle]
@[simp] theorem subE_real (a b : AngleDeg ℝ) : a.subE b = .ok (a.sub b) := by simp [subE, sub]
@[simp] theorem addNumE_real (a : AngleDeg ℝ) (d : ℝ) : a.addNumE d = .ok (a.addNum d) := by simp [addNumE, addNum]
@[simp] theorem absE_real (a : AngleDeg ℝ) : a.absE = .ok a.abs := by simp [absE, AngleDeg.abs, pure, Except.pure]
@[simp] theorem cosE_real (a : AngleDeg ℝ) : a.cosE = .ok a.cos := rfl
@[simp] theorem sinE_real (a : AngleDeg ℝ) : a.sinE = .ok a.sin := rfl
@[simp] theorem isLeftEqualOfE_real (a b : AngleDeg ℝ) : a.isLeftEqualOfE b = .ok (a.isLeftEqualOf b) := by
  simp [isLeftEqualOfE, isLeftEqualOf, pure, Except.pure]
@[simp] theorem isWithinE_real (a l r : AngleDeg ℝ) : a.isWithinE l r = .ok (a.isWithin l r) := by
  unfold isWithinE isWithin
  cases h1 : l.isLeftEqualOf r <;> cases h2 : l.isLeftEqualOf a <;> cases h3 : a.isLeftEqualOf r <;>
    simp [h1, h2, h3, pure, Except.pure]
@[simp] theorem bisectE_real (x y : ℝ) : bisectE x y = .ok (bisect x y) := by
  unfold bisectE bisect
  simp [pure, Except.pure, iaddNum, addNum, ofNum]
  split_ifs <;> rfl

/-- **C162** Nothing about angles raises, apart from a division by the number zero. -/
theorem C162_angle (a b c : AngleDeg ℝ) (d : ℝ) :
    ofNumE d = .ok (ofNum d) ∧ a.degreeE = .ok a.degree ∧ a.ofAngleE = .ok (ofAngle a) ∧ a.setAngleE b = .ok (a.setAngle b) ∧
    a.absE = .ok a.abs ∧ a.radianE = .ok a.radian ∧ a.copyE = .ok a.copy ∧ a.reverseAngleE = .ok a.reverseAngle ∧
    a.getNormalizedE = .ok a.getNormalized ∧ a.isLeftOfE b = .ok (a.isLeftOf b) ∧ a.isRightOfE b = .ok (a.isRightOf b) ∧
    a.isLeftEqualOfE b = .ok (a.isLeftEqualOf b) ∧ a.isRightEqualOfE b = .ok (a.isRightEqualOf b) ∧
    a.isWithinE b c = .ok (a.isWithin b c) ∧ a.addNumE d = .ok (a.addNum d) ∧ a.addE b = .ok (a.add b) ∧
    a.subNumE d = .ok (a.subNum d) ∧ a.isubE b = .ok (a.isub b) ∧ a.subE b = .ok (a.sub b) ∧ a.mulE d = .ok (a.mul d) ∧
    a.divE d = a.floordiv d ∧ a.negE = .ok a.neg ∧ a.eqE b = .ok (a.eq b) ∧ a.cosE = .ok a.cos ∧ a.sinE = .ok a.sin ∧
    a.tanE = .ok a.tan ∧ cosDegE d = .ok (cosDeg d) ∧ sinDegE d = .ok (sinDeg d) ∧ tanDegE d = .ok (tanDeg d) ∧
    acosDegE d = acosDeg d ∧ asinDegE d = asinDeg d ∧ (∃ x, acosDeg d = .ok x) ∧ (∃ x, asinDeg d = .ok x) ∧
    bisectE a.deg b.deg = .ok (bisect a.deg b.deg) ∧ normalizeAngleE d = .ok (normalizeAngle d) := by
  have hn : normalizeAngleE d = .ok (normalizeAngle d) := by
    unfold normalizeAngleE normalizeAngle
    split_ifs <;> simp_all [pure, Except.pure]
  refine ⟨by simp, by simp, by simp, by simp [setAngleE, setAngle, pure, Except.pure], by simp,
    by simp [radianE, radian, pure, Except.pure], by simp [copyE, copy],
    by simp [reverseAngleE, reverseAngle, pure, Except.pure], by simp [getNormalizedE, getNormalized, pyDiv],
    by simp [isLeftOfE, isLeftOf, pure, Except.pure], by simp [isRightOfE, isRightOf, pure, Except.pure], by simp,
    by simp [isRightEqualOfE, isRightEqualOf, pure, Except.pure], by simp, by simp, by simp [addE, add, addNum],
    by simp [subNumE, subNum], by simp [isubE, isub, subNumE, isubNum, ofNum], by simp, by simp [mulE, mul],
    ?_, by simp [negE, neg], by simp [eqE, AngleDeg.eq, pure, Except.pure], rfl, rfl, rfl, rfl, rfl, rfl,
    ?_, ?_, ?_, ?_, by simp, hn⟩
  · simp [divE, floordiv, pure, Except.pure]
  · unfold acosDegE acosDeg mathAcos acosE
    split_ifs with h1 h2 h3
    · rfl
    · rfl
    · exact absurd h3 (by push Not at h1 h2 ⊢; constructor <;> [exact h1.le; exact h2.le])
    · have h3' : ¬ (d < -1 ∨ 1 < d) := by simpa [or_comm] using h3
      simp only [instPyMathEReal, if_neg h3']
  · unfold asinDegE asinDeg mathAsin asinE
    split_ifs with h1 h2 h3
    · rfl
    · rfl
    · exact absurd h3 (by push Not at h1 h2 ⊢; constructor <;> [exact h1.le; exact h2.le])
    · have h3' : ¬ (d < -1 ∨ 1 < d) := by simpa [or_comm] using h3
      simp only [instPyMathEReal, if_neg h3']
  · unfold acosDeg mathAcos
    simp only [num_real, Nat.cast_one]
    split_ifs with h1 h2 h3
    · exact ⟨_, rfl⟩
    · exact ⟨_, rfl⟩
    · exfalso; push Not at h1 h2; rcases h3 with h | h <;> linarith
    · exact ⟨_, rfl⟩
  · unfold asinDeg mathAsin
    simp only [num_real, Nat.cast_one]
    split_ifs with h1 h2 h3
    · exact ⟨_, rfl⟩
    · exact ⟨_, rfl⟩
    · exfalso; push Not at h1 h2; rcases h3 with h | h <;> linarith
    · exact ⟨_, rfl⟩

end AngleDeg

/-! ## Vectors -/

namespace Vec

theorem r2_nonneg (v : Vec ℝ) : 0 ≤ v.r2 := by
  unfold r2; nlinarith [mul_self_nonneg v.x, mul_self_nonneg v.y]
theorem dist2_nonneg (v o : Vec ℝ) : 0 ≤ v.dist2 o := by
  unfold dist2 PyrusGeom.sq; nlinarith [mul_self_nonneg (v.x - o.x), mul_self_nonneg (v.y - o.y)]

@[simp] theorem rE_real (v : Vec ℝ) : v.rE = .ok v.r := sqrtE_real v.r2_nonneg
@[simp] theorem thE_real (v : Vec ℝ) : v.thE = .ok v.th := by simp [thE, th]
@[simp] theorem dist2E_real (v o : Vec ℝ) : v.dist2E o = .ok (v.dist2 o) := by simp [dist2E, dist2, pure, Except.pure]
@[simp] theorem distE_real (v o : Vec ℝ) : v.distE o = .ok (v.dist o) := by
  simp [distE, dist, sqrtE_real (dist2_nonneg v o)]
@[simp] theorem fromPolarE_real (m : ℝ) (a : AngleDeg ℝ) : fromPolarE m a = .ok (fromPolar m a) := by
  simp [fromPolarE, fromPolar, pure, Except.pure]

/-- **C162** Nothing about vectors raises, apart from `/` with the number zero. -/
theorem C162_vector (v o : Vec ℝ) (x : ℝ) (a : AngleDeg ℝ) :
    v.setPolarE x a = .ok (v.setPolar x a) ∧ v.rE = .ok v.r ∧ v.thE = .ok v.th ∧ v.dist2E o = .ok (v.dist2 o) ∧
    v.distE o = .ok (v.dist o) ∧ v.setLengthE x = .ok (v.setLength x) ∧ v.rotateE x = .ok (v.rotate x) ∧
    v.setDirE a = .ok (v.setDir a) ∧ fromPolarE x a = .ok (fromPolar x a) ∧
    (v.truediv x = .error .zeroDivision ↔ x = 0) ∧ (x ≠ 0 → v.truediv x = .ok (ofXY (v.x / x) (v.y / x))) := by
  refine ⟨by simp [setPolarE, setPolar, pure, Except.pure], by simp, by simp, by simp, by simp, ?_,
    by simp [rotateE, rotate, pure, Except.pure], by simp [setDirE, setDir, pure, Except.pure], by simp, ?_, ?_⟩
  · have e0 := EPSILON_pos
    by_cases h : EPSILON < v.r
    · have : v.r ≠ 0 := by intro h0; rw [h0] at h; exact absurd h (not_lt.mpr e0.le)
      simp [setLengthE, setLength, h, pyDiv_ok this, pure, Except.pure]
    · simp [setLengthE, setLength, h, pure, Except.pure]
  · by_cases h : x = 0 <;> simp [truediv, pyDiv, h, pure, Except.pure]
  · intro h; simp [truediv, pyDiv_ok h, pure, Except.pure]

end Vec

/-! ## Lines and rays -/

namespace Line

@[simp] theorem ofAngleE_real (p : Vec ℝ) (a : AngleDeg ℝ) : ofAngleE p a = .ok (ofAngle p a) := by
  simp [ofAngleE, ofAngle, pure, Except.pure]

@[simp] theorem intersectionE_real (l m : Line ℝ) : l.intersectionE m = .ok (l.intersection m) := by
  unfold intersectionE intersection
  by_cases h : fabs (l.a * m.b - l.b * m.a) < EPSILON
  · simp [h]
  · have := ne_zero_of_fabs EPSILON_pos h
    simp [h, pyDiv_ok this, pure, Except.pure]

@[simp] theorem getXE_real (l : Line ℝ) (y : ℝ) : l.getXE y = .ok (l.getX y) := by
  unfold getXE getX
  by_cases h : fabs l.a < EPSILON
  · simp [h]
  · simp [h, pyDiv_ok (ne_zero_of_fabs EPSILON_pos h)]

@[simp] theorem getYE_real (l : Line ℝ) (x : ℝ) : l.getYE x = .ok (l.getY x) := by
  unfold getYE getY
  by_cases h : fabs l.b < EPSILON
  · simp [h]
  · simp [h, pyDiv_ok (ne_zero_of_fabs EPSILON_pos h)]

@[simp] theorem angleBisectorE_real (p : Vec ℝ) (a b : AngleDeg ℝ) :
    angleBisectorE p a b = .ok (angleBisector p a b) := by simp [angleBisectorE, angleBisector]

/-- **C162** Nothing about lines raises, apart from `dist` and `dist2` of a line without direction. -/
theorem C162_line (l m : Line ℝ) (p : Vec ℝ) (a b : AngleDeg ℝ) (x : ℝ) :
    ofAngleE p a = .ok (ofAngle p a) ∧ l.getXE x = .ok (l.getX x) ∧ l.getYE x = .ok (l.getY x) ∧
    l.intersectionE m = .ok (l.intersection m) ∧ l.projectionE p = .ok (l.projection p) ∧
    angleBisectorE p a b = .ok (angleBisector p a b) ∧ l.distE p = l.dist p ∧
    (l.dist p = .error .zeroDivision ↔ l.a = 0 ∧ l.b = 0) ∧ (l.dist2 p = .error .zeroDivision ↔ l.a = 0 ∧ l.b = 0) ∧
    (¬ (l.a = 0 ∧ l.b = 0) → (∃ d, l.dist p = .ok d) ∧ ∃ d, l.dist2 p = .ok d) := by
  have hs : 0 ≤ l.a * l.a + l.b * l.b := add_nonneg (mul_self_nonneg _) (mul_self_nonneg _)
  have hz : l.a * l.a + l.b * l.b = 0 ↔ l.a = 0 ∧ l.b = 0 := by
    constructor
    · intro h
      constructor <;> nlinarith [mul_self_nonneg l.a, mul_self_nonneg l.b]
    · rintro ⟨h1, h2⟩; rw [h1, h2]; ring
  have hq : PyMath.sqrt (l.a * l.a + l.b * l.b) = 0 ↔ l.a = 0 ∧ l.b = 0 := by
    change Real.sqrt _ = 0 ↔ _
    rw [Real.sqrt_eq_zero hs, hz]
  have hd : l.dist p = .error .zeroDivision ↔ l.a = 0 ∧ l.b = 0 := by
    rw [← hq]
    by_cases h : PyMath.sqrt (l.a * l.a + l.b * l.b) = 0 <;> simp [dist, pyDiv, h, pure, Except.pure]
  have hd2 : l.dist2 p = .error .zeroDivision ↔ l.a = 0 ∧ l.b = 0 := by
    rw [← hz]
    by_cases h : l.a * l.a + l.b * l.b = 0 <;> simp [dist2, pyDiv, h]
  refine ⟨by simp, by simp, by simp, by simp, by simp [projectionE, projection], by simp, ?_, hd, hd2, ?_⟩
  · simp [distE, dist, sqrtE_real hs]
  · intro h
    constructor
    · have := mt hq.mp h
      exact ⟨fabs _, by simp [dist, pyDiv_ok this, pure, Except.pure]; rfl⟩
    · exact ⟨_, pyDiv_ok (mt hz.mp h)⟩

end Line

namespace Ray

@[simp] theorem lineE_real (r : Ray ℝ) : r.lineE = .ok r.line := by simp [lineE, line]
@[simp] theorem inRightDirE_real (r : Ray ℝ) (p : Vec ℝ) (t : ℝ) : r.inRightDirE p t = .ok (r.inRightDir p t) := by
  simp [inRightDirE, inRightDir, pure, Except.pure]

/-- Non-vacuity of the exception: the line `0x + 0y + 1 = 0` has no distances. -/
example (p : Vec ℝ) : (Line.mk (0:ℝ) 0 1).distE p = .error .zeroDivision := by
  have h := Line.C162_line (Line.mk (0:ℝ) 0 1) ⟨0, 0, 1⟩ p ⟨0⟩ ⟨0⟩ 0
  rw [h.2.2.2.2.2.2.1, h.2.2.2.2.2.2.2.1]; exact ⟨rfl, rfl⟩

/-- **C162** Nothing about rays raises. -/
theorem C162_ray (r o : Ray ℝ) (l : Line ℝ) (p q : Vec ℝ) (a : AngleDeg ℝ) (t : ℝ) :
    ofAngleE p a = .ok (ofAngle p a) ∧ ofPointE p q = .ok (ofPoint p q) ∧ r.lineE = .ok r.line ∧
    r.inRightDirE p t = .ok (r.inRightDir p t) ∧ r.intersectionLineE l = .ok (r.intersectionLine l) ∧
    r.intersectionRayE o = .ok (r.intersectionRay o) ∧ r.eqE o = .ok (r.eq o) := by
  refine ⟨by simp [ofAngleE, ofAngle, pure, Except.pure], by simp [ofPointE, ofPoint, pure, Except.pure], by simp, by simp,
    ?_, ?_, by simp [eqE, Ray.eq, pure, Except.pure]⟩
  · unfold intersectionLineE intersectionLine
    cases h1 : (r.line.intersection l).valid <;> cases h2 : r.inRightDir (r.line.intersection l) 10 <;>
      simp [h1, h2, pure, Except.pure]
  · unfold intersectionRayE intersectionRay
    cases h1 : (r.line.intersection o.line).valid <;> cases h2 : r.inRightDir (r.line.intersection o.line) 10 <;>
      cases h3 : o.inRightDir (r.line.intersection o.line) 10 <;> simp [h1, h2, h3, pure, Except.pure]

end Ray

/-! ## Segments -/

namespace Seg

@[simp] theorem lengthE_real (s : Seg ℝ) : s.lengthE = .ok s.length := by simp [lengthE, length]

@[simp] theorem projectionE_real (s : Seg ℝ) (p : Vec ℝ) : s.projectionE p = .ok (s.projection p) := by
  unfold projectionE projection
  simp only [Vec.rE_real, except_ok_bind]
  by_cases h : (s.terminal.sub s.origin).r < EPSILON
  · simp [h, pure, Except.pure]
  · have : (s.terminal.sub s.origin).r ≠ 0 := by intro h0; rw [h0] at h; exact h EPSILON_pos
    simp only [h, if_false, pyDiv_ok this, except_ok_bind, pure, Except.pure]
    split_ifs <;> rfl

@[simp] theorem nearestPointE_real (s : Seg ℝ) (p : Vec ℝ) : s.nearestPointE p = .ok (s.nearestPoint p) := by
  unfold nearestPointE nearestPoint
  by_cases h : (s.terminal.sub s.origin).r2 = 0
  · simp [h]
  · have := (Vec.C162_vector ((s.terminal.sub s.origin).mul ((s.terminal.sub s.origin).innerProduct (p.sub s.origin))) p
      (s.terminal.sub s.origin).r2 ⟨0⟩).2.2.2.2.2.2.2.2.2.2 h
    simp only [num_real, Nat.cast_zero, beq_iff_eq, h, if_false, this, except_ok_bind, pure, Except.pure]
    split_ifs <;> rfl

@[simp] theorem distPointE_real (s : Seg ℝ) (p : Vec ℝ) : s.distPointE p = .ok (s.distPoint p) := by
  unfold distPointE distPoint
  simp only [lengthE_real, except_ok_bind]
  by_cases h : s.length = 0
  · simp [h]
  · have hm : 0 ≤ pyMin (s.origin.dist2 p) (s.terminal.dist2 p) := by
      rw [pyMin_real]; exact le_min (Vec.dist2_nonneg _ _) (Vec.dist2_nonneg _ _)
    simp only [num_real, Nat.cast_zero, beq_iff_eq, h, if_false, pyDiv_ok h, except_ok_bind, pure, Except.pure, Vec.dist2E_real,
      sqrtE_real hm]
    split_ifs <;> rfl

@[simp] theorem intersectionLineE_real (s : Seg ℝ) (l : Line ℝ) :
    s.intersectionLineE l = .ok (s.intersectionLine l) := by
  simp [intersectionLineE, intersectionLine, pure, Except.pure]

/-- **C162** Nothing about segments raises. -/
theorem C162_segment (s o : Seg ℝ) (l : Line ℝ) (p : Vec ℝ) (a : AngleDeg ℝ) (x : ℝ) (b : Bool) :
    ofPolarE p x a = .ok (ofPolar p x a) ∧ s.lengthE = .ok s.length ∧ s.directionE = .ok s.direction ∧
    s.projectionE p = .ok (s.projection p) ∧ s.intersectionLineE l = .ok (s.intersectionLine l) ∧
    s.intersectionSegE o b = .ok (s.intersectionSeg o b) ∧ s.nearestPointE p = .ok (s.nearestPoint p) ∧
    s.distPointE p = .ok (s.distPoint p) ∧ s.distSegE o = .ok (s.distSeg o) ∧ s.farthestDistE p = .ok (s.farthestDist p) ∧
    s.onSegmentWeaklyE p = .ok (s.onSegmentWeakly p) := by
  have hm : 0 ≤ pyMax (s.origin.dist2 p) (s.terminal.dist2 p) := by
    rw [pyMax_real]; exact le_max_of_le_left (Vec.dist2_nonneg _ _)
  refine ⟨by simp [ofPolarE, ofPolar, pure, Except.pure], by simp, by simp [directionE, direction], by simp, by simp,
    by simp [intersectionSegE, intersectionSeg, pure, Except.pure], by simp, by simp, ?_, ?_,
    by simp [onSegmentWeaklyE, onSegmentWeakly, pure, Except.pure]⟩
  · unfold distSegE distSeg
    split_ifs <;> simp [pure, Except.pure]
  · simp [farthestDistE, farthestDist, sqrtE_real hm]

end Seg

/-- Non-vacuity: a segment without length projects onto its origin, through the branch before the division. -/
example : (Seg.ofPoints (Vec.ofXY (1:ℝ) 2) (Vec.ofXY 1 2)).projectionE (Vec.ofXY 7 7) = .ok (Vec.ofXY 1 2) := by
  rw [Seg.projectionE_real]
  unfold Seg.projection
  rw [if_pos]
  · rfl
  · have : (Vec.r ((Seg.ofPoints (Vec.ofXY (1:ℝ) 2) (Vec.ofXY 1 2)).terminal.sub
        (Seg.ofPoints (Vec.ofXY (1:ℝ) 2) (Vec.ofXY 1 2)).origin)) = 0 := by
      simp [Vec.r, Vec.r2, Vec.sub, Vec.ofXY, Seg.ofPoints, PyMath.sqrt]
    rw [this]; exact EPSILON_pos

/-! ## Triangles and circles -/

namespace Tri

@[simp] theorem triCircumcenterE_real (a b c : Vec ℝ) : triCircumcenterE a b c = .ok (triCircumcenter a b c) := by
  have hf : circumFormulaE a b c = .ok (
      let ab := b.sub a
      let ca := c.sub a
      let tmp := ab.outerProduct ca
      if fabs tmp < num 1 / num 10000000000 then Vec.invalid
      else
        let inv := (num 1 / num 2) / tmp
        let abLen2 := ab.r2
        let caLen2 := ca.r2
        let xcc := inv * (abLen2 * ca.y - caLen2 * ab.y)
        let ycc := inv * (ab.x * caLen2 - ca.x * abLen2)
        Vec.ofXY (a.x + xcc) (a.y + ycc)) := by
    unfold circumFormulaE
    dsimp only
    by_cases h : fabs ((b.sub a).outerProduct (c.sub a)) < (num 1 / num 10000000000 : ℝ)
    · rw [if_pos h, if_pos h]
    · have := ne_zero_of_fabs (by norm_num) h
      rw [if_neg h, if_neg h, pyDiv_ok this]; rfl
  unfold triCircumcenterE triCircumcenter
  simp only [Line.intersectionE_real, except_ok_bind, hf, pure, Except.pure]
  split_ifs <;> rfl

/-- **C162** The centers of a triangle (other than the centroid) do not raise. -/
theorem C162_triangle (a b c : Vec ℝ) :
    triIncenterE a b c = .ok (triIncenter a b c) ∧ triCircumcenterE a b c = .ok (triCircumcenter a b c) ∧
    triOrthocenterE a b c = .ok (triOrthocenter a b c) := by
  refine ⟨?_, by simp, by simp [triOrthocenterE, triOrthocenter]⟩
  simp [triIncenterE, triIncenter, Line.angleBisector]

end Tri

theorem quadraticFE_real (a b c : ℝ) : quadraticFE a b c = quadraticF a b c := by
  unfold quadraticFE quadraticF
  by_cases ha : a = 0
  · simp [ha]
  have h2 : 2 * a ≠ 0 := mul_ne_zero two_ne_zero ha
  simp only [num_real, Nat.cast_ofNat, Nat.cast_zero, beq_iff_eq, ha, if_false, pyDiv_ok h2, except_ok_bind, pure, Except.pure]
  split_ifs with h1 h3
  · rfl
  · rfl
  · rw [sqrtE_real (not_lt.mp h3)]; rfl

namespace Circle

theorem solPointsE_ok {mk : ℝ → Vec ℝ} {mkE : ℝ → Except PyErr (Vec ℝ)} (h : ∀ s, mkE s = .ok (mk s)) (l : List ℝ) :
    solPointsE mkE l = .ok (solPoints mk l) := by
  unfold solPointsE solPoints
  match l with
  | [] => rfl
  | [_] => rfl
  | _ :: _ :: _ => simp [h, pure, Except.pure]

theorem dropRejectedE_ok {ok : Vec ℝ → Bool} {okE : Vec ℝ → Except PyErr Bool} (h : ∀ s, okE s = .ok (ok s))
    (l : List (Vec ℝ)) : dropRejectedE okE l = .ok (dropRejected ok l) := by
  unfold dropRejectedE dropRejected
  match l with
  | [] => rfl
  | [a] => cases h1 : ok a <;> simp [h, h1, Except.map]
  | a :: b :: r => cases h1 : ok a <;> cases h2 : ok b <;> simp [h, h1, h2, Except.map]

theorem intersectionLineE_real (c : Circle ℝ) (l : Line ℝ) : c.intersectionLineE l = c.intersectionLine l := by
  unfold intersectionLineE intersectionLine
  by_cases ha : fabs l.a < EPSILON
  · by_cases hb : fabs l.b < EPSILON
    · simp [ha, hb]
    · have h0 := ne_zero_of_fabs EPSILON_pos hb
      simp only [ha, hb, if_true, if_false, powE_two_real, except_ok_bind, pyDiv_ok h0, quadraticFE_real]
      congr 1; funext sol
      exact solPointsE_ok (fun s => rfl) sol
  · have h0 := ne_zero_of_fabs EPSILON_pos ha
    simp only [ha, if_false, powE_two_real, except_ok_bind, pyDiv_ok h0, quadraticFE_real]
    congr 1; funext sol
    exact solPointsE_ok (fun s => by simp [pure, Except.pure]) sol

/-- `intersection` of a circle with a line does not raise: the leading coefficient is 1 or `1 + (b/a)²`. -/
theorem intersectionLine_ok (c : Circle ℝ) (l : Line ℝ) : ∃ s, c.intersectionLine l = .ok s := by
  have hq : ∀ a b d : ℝ, a ≠ 0 → ∃ s, quadraticF a b d = .ok s := by
    intro a b d ha
    unfold quadraticF
    simp only [num_real, Nat.cast_zero, beq_iff_eq, ha, if_false]
    split_ifs <;> exact ⟨_, rfl⟩
  unfold intersectionLine
  split_ifs with h1 h2
  · exact ⟨_, rfl⟩
  · obtain ⟨s, hs⟩ := hq (num 1) (-(num 2) * c.center.x)
      (PyrusGeom.sq c.center.x + PyrusGeom.sq (l.c / l.b + c.center.y) - PyrusGeom.sq c.radius) (by norm_num)
    rw [hs]; exact ⟨_, rfl⟩
  · obtain ⟨s, hs⟩ := hq (num 1 + l.b / l.a * (l.b / l.a)) (num 2 * (-c.center.y + (l.c / l.a + c.center.x) * (l.b / l.a)))
      (PyrusGeom.sq (l.c / l.a + c.center.x) + PyrusGeom.sq c.center.y - PyrusGeom.sq c.radius) (by
        have := mul_self_nonneg (l.b / l.a)
        simp only [num_real, Nat.cast_one]; positivity)
    dsimp only
    rw [hs]; exact ⟨_, rfl⟩

/-- **C162** Nothing about circles raises. -/
theorem C162_circle (c o : Circle ℝ) (l : Line ℝ) (r : Ray ℝ) (s : Seg ℝ) (p q p1 p2 : Vec ℝ) :
    c.containsE p = .ok (c.contains p) ∧
    (c.intersectionLineE l = c.intersectionLine l ∧ ∃ x, c.intersectionLine l = .ok x) ∧
    (c.intersectionRayE r = c.intersectionRay r ∧ ∃ x, c.intersectionRay r = .ok x) ∧
    (c.intersectionSegE s = c.intersectionSeg s ∧ ∃ x, c.intersectionSeg s = .ok x) ∧
    (c.intersectionCircleE o = c.intersectionCircle o ∧ ∃ x, c.intersectionCircle o = .ok x) ∧
    circumCircleE p p1 p2 = .ok (circumCircle p p1 p2) ∧
    circumCircleContainsE q p p1 p2 = .ok (circumCircleContains q p p1 p2) := by
  refine ⟨by simp [containsE, contains, pure, Except.pure], ⟨intersectionLineE_real c l, intersectionLine_ok c l⟩, ⟨?_, ?_⟩,
    ⟨?_, ?_⟩, ⟨?_, ?_⟩, ?_, ?_⟩
  · unfold intersectionRayE intersectionRay
    simp only [AngleDeg.ofAngleE_real, Line.ofAngleE_real, except_ok_bind, intersectionLineE_real]
    congr 1; funext sol
    exact dropRejectedE_ok (fun p => by simp) sol
  · obtain ⟨x, hx⟩ := intersectionLine_ok c (Line.ofAngle (Vec.ofVec r.origin) (AngleDeg.ofAngle r.dir))
    unfold intersectionRay
    rw [hx]; exact ⟨_, rfl⟩
  · unfold intersectionSegE intersectionSeg
    rw [intersectionLineE_real]
  · obtain ⟨x, hx⟩ := intersectionLine_ok c s.line
    unfold intersectionSeg
    rw [hx]; exact ⟨_, rfl⟩
  · unfold intersectionCircleE intersectionCircle
    have hs : 0 ≤ (o.center.x - c.center.x) * (o.center.x - c.center.x) + (o.center.y - c.center.y) * (o.center.y - c.center.y) :=
      add_nonneg (mul_self_nonneg _) (mul_self_nonneg _)
    simp only [sqrtE_real hs, except_ok_bind, intersectionLineE_real, pure, Except.pure]
  · unfold intersectionCircle
    dsimp only
    split_ifs
    · exact ⟨_, rfl⟩
    · exact intersectionLine_ok _ _
  · unfold circumCircleE circumCircle
    simp only [Tri.triCircumcenterE_real, except_ok_bind, Vec.distE_real, pure, Except.pure]
    split_ifs <;> rfl
  · unfold circumCircleContainsE circumCircleContains
    dsimp only
    split_ifs with h
    · rfl
    · have := ne_zero_of_fabs (by norm_num) h
      rw [pyDiv_ok this, pyDiv_ok this]
      simp [pure, Except.pure]

end Circle

/-! ## Matrices, sectors, rectangles, polygons -/

/-- **C162** Nothing about matrices raises. -/
theorem C162_matrix_total (m : Mat ℝ) (a : AngleDeg ℝ) :
    m.invertedE = .ok m.inverted ∧ m.rotateE a = .ok (m.rotate a) ∧ Mat.makeRotationE a = .ok (Mat.makeRotation a) := by
  refine ⟨?_, by simp [Mat.rotateE, Mat.rotate, pure, Except.pure], by simp [Mat.makeRotationE, Mat.makeRotation, pure, Except.pure]⟩
  unfold Mat.invertedE Mat.inverted
  by_cases h : m.det = 0
  · simp [h]
  · simp [h, pyDiv_ok h, pure, Except.pure]

@[simp] theorem Sector.arcDegE_real (s : Sector ℝ) : s.arcDegE = .ok s.arcDeg := by
  simp [Sector.arcDegE, Sector.arcDeg, pure, Except.pure]

/-- **C162** Nothing about sectors raises. -/
theorem C162_sector_total (s : Sector ℝ) (p : Vec ℝ) (x y : ℝ) (a b : AngleDeg ℝ) :
    Sector.ofArgsE p x y a b = .ok (Sector.ofArgs p x y a b) ∧ s.areaE = .ok s.area ∧ s.containsE p = .ok (s.contains p) ∧
    s.circumferenceMinE = .ok s.circumferenceMin ∧ s.circumferenceMaxE = .ok s.circumferenceMax := by
  have h360 : (num 360 : ℝ) ≠ 0 := by norm_num
  refine ⟨by simp [Sector.ofArgsE, Sector.ofArgs, pure, Except.pure], ?_, ?_, ?_, ?_⟩
  · simp only [Sector.areaE, Sector.area, Sector.arcDegE_real, except_ok_bind, pyDiv_ok h360]
  · unfold Sector.containsE Sector.contains
    by_cases h1 : s.minR * s.minR ≤ (p.sub s.center).r2 <;> by_cases h2 : (p.sub s.center).r2 ≤ s.maxR * s.maxR <;>
      simp [h1, h2, pure, Except.pure]
  · simp only [Sector.circumferenceMinE, Sector.circumferenceMin, Sector.arcDegE_real, except_ok_bind, pyDiv_ok h360, pure, Except.pure]
  · simp only [Sector.circumferenceMaxE, Sector.circumferenceMax, Sector.arcDegE_real, except_ok_bind, pyDiv_ok h360, pure, Except.pure]

@[simp] theorem Rect.intersectionLineE_real (r : Rect ℝ) (l : Line ℝ) :
    r.intersectionLineE l = .ok (r.intersectionLine l) := by
  simp [Rect.intersectionLineE, Rect.intersectionLine, pure, Except.pure]

/-- **C162** Nothing about sizes and rectangles raises (apart from the methods that always do: `Rect2D()`,
`contains_almost`, `from_center` with a point). -/
theorem C162_rect_total (z : Size ℝ) (r : Rect ℝ) (l : Line ℝ) (y : Ray ℝ) (s : Seg ℝ) :
    z.diagonalE = .ok z.diagonal ∧ r.intersectionLineE l = .ok (r.intersectionLine l) ∧
    r.intersectionRayE y = .ok (r.intersectionRay y) ∧ r.intersectionSegE s = .ok (r.intersectionSeg s) := by
  refine ⟨sqrtE_real (add_nonneg (mul_self_nonneg _) (mul_self_nonneg _)), by simp, ?_,
    by simp [Rect.intersectionSegE, Rect.intersectionSeg, pure, Except.pure]⟩
  unfold Rect.intersectionRayE Rect.intersectionRay
  simp only [Ray.lineE_real, Rect.intersectionLineE_real, except_ok_bind]
  exact Circle.dropRejectedE_ok (fun p => by simp) _

theorem Poly.boundingBox_ok (g : Poly ℝ) (h : g.vertices ≠ []) : ∃ r, g.boundingBox = .ok r := by
  obtain ⟨r, hr, _⟩ := g.boundingBox_spec h
  exact ⟨r, hr⟩

@[simp] theorem Poly.containsE_real (g : Poly ℝ) (p : Vec ℝ) (b : Bool) : g.containsE p b = .ok (g.contains p b) := by
  obtain ⟨vs⟩ := g
  match vs with
  | [] => rfl
  | [v] => rfl
  | v0 :: v1 :: vs =>
    obtain ⟨r, hr⟩ := Poly.boundingBox_ok ⟨v0 :: v1 :: vs⟩ (by simp)
    simp only [Poly.containsE, Poly.contains, hr, except_ok_bind, Poly.halfLineE, Vec.rE_real, pure, Except.pure]
    split_ifs <;> rfl

theorem Poly.foldlM_distStepE (p : Vec ℝ) (l : List (Vec ℝ × Vec ℝ)) (m : Option ℝ) :
    l.foldlM (Poly.distStepE p) m = .ok (l.foldl (Poly.distStep p) m) := by
  induction l generalizing m with
  | nil => rfl
  | cons e l ih => simp [List.foldlM_cons, Poly.distStepE, ih, Poly.distStep, pure, Except.pure]

/-- **C162** `contains` and `dist` of a polygon do not raise; `get_bounding_box` raises exactly for a polygon without
vertices. -/
theorem C162_polygon (g : Poly ℝ) (p : Vec ℝ) (b : Bool) :
    g.containsE p b = .ok (g.contains p b) ∧ g.distE p b = .ok (g.dist p b) ∧
    ((∃ e, g.boundingBox = .error e) ↔ g.vertices = []) := by
  refine ⟨by simp, ?_, ?_⟩
  · obtain ⟨vs⟩ := g
    unfold Poly.distE Poly.dist
    match vs with
    | [] => cases b <;> simp [Poly.foldlM_distStepE, pure, Except.pure, Poly.contains, chainPairs]
    | [v] => simp [pure, Except.pure]
    | [v, w] => 
      cases b <;> cases h : Poly.contains ⟨[v, w]⟩ p true <;>
        simp [h, Poly.foldlM_distStepE, pure, Except.pure, Poly.distStepE, Poly.distStep]
    | v0 :: v1 :: v2 :: r => 
      cases b <;> cases h : Poly.contains ⟨v0 :: v1 :: v2 :: r⟩ p true <;>
        simp [h, Poly.foldlM_distStepE, pure, Except.pure, Poly.distStepE, Poly.distStep]
  · constructor
    · rintro ⟨e, he⟩
      by_contra h
      obtain ⟨r, hr⟩ := Poly.boundingBox_ok g h
      rw [hr] at he; cases he
    · intro h
      exact ⟨.exception, by unfold Poly.boundingBox; rw [h]; rfl⟩

/-! ## soccer_math -/

namespace SoccerMath

theorem rIntE_real (x : ℝ) : rIntE x = .ok (rInt x) := rfl

theorem quantizeE_real (v q : ℝ) : quantizeE v q = quantize v q := by
  simp only [quantizeE, quantize, rIntE_real, except_ok_bind]
theorem unquantizeMinE_real (v q : ℝ) : unquantizeMinE v q = unquantizeMin v q := by
  simp only [unquantizeMinE, unquantizeMin, rIntE_real, except_ok_bind]
theorem unquantizeMaxE_real (v q : ℝ) : unquantizeMaxE v q = unquantizeMax v q := by
  simp only [unquantizeMaxE, unquantizeMax, rIntE_real, except_ok_bind]

/-- **C162** The functions of `soccer_math.py` that were modelled without the `OverflowError` of `math.pow` and
`math.exp`, with a plain division, or with `int` total: in exact arithmetic the checked versions agree with them. -/
theorem C162_soccer_math (v : Vec ℝ) (n : ℤ) (x y z : ℝ) :
    inertiaNStepTravelE v n x = inertiaNStepTravel v n x ∧ inertiaNStepDistanceE x n y = inertiaNStepDistance x n y ∧
    calcLengthGeomSeriesE x y z = calcLengthGeomSeries x y z ∧
    calcFirstTermGeomSeriesE x y n = calcFirstTermGeomSeries x y n ∧ rIntE x = .ok (rInt x) ∧
    quantizeE x y = quantize x y ∧ quantizeDistE x y = quantizeDist x y ∧ unquantizeMinE x y = unquantizeMin x y ∧
    unquantizeMaxE x y = unquantizeMax x y ∧ unquantizeErrorE x y = unquantizeError x y := by
  have hp : ∀ (a : ℝ) (k : ℤ), powE a k = mathPow a k := fun a k => by
    simp [powE, mathPow, instPyMathEReal]
  have hl : ∀ a : ℝ, logE a = mathLog a := fun a => by
    simp [logE, mathLog, instPyMathEReal]
  have he : ∀ a : ℝ, expE a = .ok (PyMath.exp a) := fun a => rfl
  refine ⟨by simp [inertiaNStepTravelE, inertiaNStepTravel, hp], by simp [inertiaNStepDistanceE, inertiaNStepDistance, hp],
    ?_, by simp [calcFirstTermGeomSeriesE, calcFirstTermGeomSeries, hp], rfl, quantizeE_real x y, ?_,
    unquantizeMinE_real x y, unquantizeMaxE_real x y, ?_⟩
  · unfold calcLengthGeomSeriesE calcLengthGeomSeries
    have hm : ∀ a : ℝ, 0 < a → logE a = .ok (PyMath.log a) := fun a ha => by
      rw [hl]; simp [mathLog, ha]
    have hS : (0:ℝ) < SERVER_EPS := by unfold SERVER_EPS; norm_num
    by_cases h1 : x ≤ SERVER_EPS ∨ y < num 0 ∨ z ≤ SERVER_EPS
    · simp only [if_pos h1]
    · by_cases h2 : y ≤ SERVER_EPS
      · simp only [if_neg h1, if_pos h2]
      · have hx : x ≠ 0 := by push Not at h1; exact ne_of_gt (lt_trans hS h1.1)
        have hz : 0 < z := by push Not at h1; exact lt_trans hS h1.2.2
        simp only [if_neg h1, if_neg h2, pyDiv_ok hx, except_ok_bind]
        by_cases h3 : num 1 + y * (z - num 1) / x ≤ SERVER_EPS
        · simp only [if_pos h3]; rfl
        · have := lt_trans hS (not_le.mp h3)
          simp only [if_neg h3, hm _ this, hm _ hz, except_ok_bind]
  · simp [quantizeDistE, quantizeDist, hl, he, quantizeE_real]
  · simp only [unquantizeErrorE, unquantizeError, hl, except_ok_bind, he, unquantizeMinE_real, unquantizeMaxE_real]

/-- Non-vacuity: with `ratio = 1` the quotient of logarithms is reached and raises in both models. -/
example : calcLengthGeomSeriesE (1:ℝ) 1 1 = .error .zeroDivision := by
  rw [(C162_soccer_math ⟨0, 0, true⟩ 0 1 1 1).2.2.1]
  unfold calcLengthGeomSeries SERVER_EPS
  norm_num [pyDiv, PyMath.log]

end SoccerMath

end PyrusGeom
