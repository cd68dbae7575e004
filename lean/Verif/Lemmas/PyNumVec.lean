import Verif.Lemmas.PyNum

/-! # Integers in place of floats: angles, vectors, lines -/

namespace PyrusGeom

/-- Unfolds a definition and proves that it is simulated. -/
macro "sim_def " f:ident : tactic => `(tactic| (unfold $f; (try dsimp only); sim_tac))

variable {lit : Bool} {k l j i g : ℕ} [m : PyMath (FP double)]

theorem sim_CALC_ERROR  : sim (0) ((CALC_ERROR : PyNum lit)) ((CALC_ERROR : FP double)) := by
  sim_def CALC_ERROR
theorem sim_ERROR_VALUE  : sim (0) ((ERROR_VALUE : PyNum lit)) ((ERROR_VALUE : FP double)) := by
  sim_def ERROR_VALUE
theorem sim_DEG2RAD  : sim (0) ((DEG2RAD : PyNum lit)) ((DEG2RAD : FP double)) := by
  sim_def DEG2RAD
theorem sim_RAD2DEG  : sim (0) ((RAD2DEG : PyNum lit)) ((RAD2DEG : FP double)) := by
  sim_def RAD2DEG
theorem sim_pyMax {a0 : PyNum lit} {x0 : FP double} (h0 : sim k a0 x0) {a1 : PyNum lit} {x1 : FP double} (h1 : sim l a1 x1) : sim (max k l) (pyMax a0 a1) (pyMax x0 x1) := by
  sim_def pyMax
theorem sim_pyDiv {a0 : PyNum lit} {x0 : FP double} (h0 : sim k a0 x0) {a1 : PyNum lit} {x1 : FP double} (h1 : sim l a1 x1) (hk : max k l ≤ 53) : sim (0) (pyDiv a0 a1) (pyDiv x0 x1) := by
  sim_def pyDiv


/-- A small `int` is given by its value. -/
theorem sim_of_le {a : PyNum lit} {x : FP double} (h : sim k a x) (hx : |x.val| ≤ 2 ^ l) : sim l a x := by
  cases a with
  | int n =>
    refine ⟨h.1, ?_⟩
    rw [← h.1] at hx
    exact_mod_cast hx
  | flt y => exact h

theorem sim_AngleDeg_normalDeg {a : PyNum lit} {x : FP double} (h : sim k a x) (hk : k ≤ 53) : sim 12 (AngleDeg.normalDeg a) (AngleDeg.normalDeg x) := by
  have h1 : sim 9 (if a < -(num 360) ∨ num 360 < a then PyMath.fmod a (num 360) else a)
      (if x < -(num 360) ∨ num 360 < x then PyMath.fmod x (num 360) else x) := by
    have hc : (a < -(num 360) ∨ num 360 < a) ↔ (x < -(num 360) ∨ num 360 < x) := by repeat' sim_step
    have e360 : (num 360 : FP double).val = 360 := (double.int 360 (by norm_num)).trans (by norm_num)
    by_cases c : x < -(num 360) ∨ num 360 < x
    · rw [if_pos c, if_pos (hc.mpr c)]
      sim_tac
    · rw [if_neg c, if_neg (fun h => c (hc.mp h))]
      refine sim_of_le h ?_
      rw [not_or, FP.lt_def, FP.lt_def, FP.neg_val, e360, not_lt, not_lt] at c
      rw [abs_le]
      constructor <;> norm_num <;> linarith
  unfold AngleDeg.normalDeg
  dsimp only
  sim_tac

theorem sim_AngleDeg_ofNum {a0 : PyNum lit} {x0 : FP double} (h0 : sim k a0 x0) (hk : k ≤ 53) : sim (12) (AngleDeg.ofNum a0) (AngleDeg.ofNum x0) := by
  sim_def AngleDeg.ofNum
theorem sim_AngleDeg_default  : sim (12) ((AngleDeg.default : AngleDeg (PyNum lit))) ((AngleDeg.default : AngleDeg (FP double))) := by
  sim_def AngleDeg.default
theorem sim_AngleDeg_degree {a0 : AngleDeg (PyNum lit)} {x0 : AngleDeg (FP double)} (h0 : sim k a0 x0) (hk : k ≤ 53) : sim (12) (AngleDeg.degree a0) (AngleDeg.degree x0) := by
  sim_def AngleDeg.degree
theorem sim_AngleDeg_degree_ {a0 : AngleDeg (PyNum lit)} {x0 : AngleDeg (FP double)} (h0 : sim k a0 x0) : sim (k) (AngleDeg.degree_ a0) (AngleDeg.degree_ x0) := by
  sim_def AngleDeg.degree_
theorem sim_AngleDeg_ofAngle {a0 : AngleDeg (PyNum lit)} {x0 : AngleDeg (FP double)} (h0 : sim k a0 x0) (hk : k ≤ 53) : sim (12) (AngleDeg.ofAngle a0) (AngleDeg.ofAngle x0) := by
  sim_def AngleDeg.ofAngle
theorem sim_AngleDeg_setDegree {a0 : AngleDeg (PyNum lit)} {x0 : AngleDeg (FP double)} (h0 : sim k a0 x0) {a1 : PyNum lit} {x1 : FP double} (h1 : sim l a1 x1) (hk : l ≤ 53) : sim (12) (AngleDeg.setDegree a0 a1) (AngleDeg.setDegree x0 x1) := by
  sim_def AngleDeg.setDegree
theorem sim_AngleDeg_setAngle {a0 : AngleDeg (PyNum lit)} {x0 : AngleDeg (FP double)} (h0 : sim k a0 x0) {a1 : AngleDeg (PyNum lit)} {x1 : AngleDeg (FP double)} (h1 : sim l a1 x1) (hk : l ≤ 53) : sim (12) (AngleDeg.setAngle a0 a1) (AngleDeg.setAngle x0 x1) := by
  sim_def AngleDeg.setAngle
theorem sim_AngleDeg_abs {a0 : AngleDeg (PyNum lit)} {x0 : AngleDeg (FP double)} (h0 : sim k a0 x0) (hk : k ≤ 53) : sim (12) (AngleDeg.abs a0) (AngleDeg.abs x0) := by
  sim_def AngleDeg.abs
theorem sim_AngleDeg_radian {a0 : AngleDeg (PyNum lit)} {x0 : AngleDeg (FP double)} (h0 : sim k a0 x0) (hk : k ≤ 53) : sim (12) (AngleDeg.radian a0) (AngleDeg.radian x0) := by
  sim_def AngleDeg.radian
theorem sim_AngleDeg_copy {a0 : AngleDeg (PyNum lit)} {x0 : AngleDeg (FP double)} (h0 : sim k a0 x0) (hk : k ≤ 53) : sim (12) (AngleDeg.copy a0) (AngleDeg.copy x0) := by
  sim_def AngleDeg.copy
theorem sim_AngleDeg_reverse {a0 : AngleDeg (PyNum lit)} {x0 : AngleDeg (FP double)} (h0 : sim k a0 x0) (hk : max k 10 + 1 ≤ 53) : sim (max k 10 + 1) (AngleDeg.reverse a0) (AngleDeg.reverse x0) := by
  sim_def AngleDeg.reverse
theorem sim_AngleDeg_reverseAngle {a0 : AngleDeg (PyNum lit)} {x0 : AngleDeg (FP double)} (h0 : sim k a0 x0) (hk : k ≤ 53) : sim (13) (AngleDeg.reverseAngle a0) (AngleDeg.reverseAngle x0) := by
  sim_def AngleDeg.reverseAngle
theorem sim_AngleDeg_getNormalized {a0 : AngleDeg (PyNum lit)} {x0 : AngleDeg (FP double)} (h0 : sim k a0 x0) (hk : k ≤ 53) : sim (0) (AngleDeg.getNormalized a0) (AngleDeg.getNormalized x0) := by
  sim_def AngleDeg.getNormalized
theorem sim_AngleDeg_isLeftOf {a0 : AngleDeg (PyNum lit)} {x0 : AngleDeg (FP double)} (h0 : sim k a0 x0) {a1 : AngleDeg (PyNum lit)} {x1 : AngleDeg (FP double)} (h1 : sim l a1 x1) (hk : max k l ≤ 53) : sim (0) (AngleDeg.isLeftOf a0 a1) (AngleDeg.isLeftOf x0 x1) := by
  sim_def AngleDeg.isLeftOf
theorem sim_AngleDeg_isRightOf {a0 : AngleDeg (PyNum lit)} {x0 : AngleDeg (FP double)} (h0 : sim k a0 x0) {a1 : AngleDeg (PyNum lit)} {x1 : AngleDeg (FP double)} (h1 : sim l a1 x1) (hk : max k l ≤ 53) : sim (0) (AngleDeg.isRightOf a0 a1) (AngleDeg.isRightOf x0 x1) := by
  sim_def AngleDeg.isRightOf
theorem sim_AngleDeg_isLeftEqualOf {a0 : AngleDeg (PyNum lit)} {x0 : AngleDeg (FP double)} (h0 : sim k a0 x0) {a1 : AngleDeg (PyNum lit)} {x1 : AngleDeg (FP double)} (h1 : sim l a1 x1) (hk : max k l + 12 ≤ 53) : sim (0) (AngleDeg.isLeftEqualOf a0 a1) (AngleDeg.isLeftEqualOf x0 x1) := by
  sim_def AngleDeg.isLeftEqualOf
theorem sim_AngleDeg_isRightEqualOf {a0 : AngleDeg (PyNum lit)} {x0 : AngleDeg (FP double)} (h0 : sim k a0 x0) {a1 : AngleDeg (PyNum lit)} {x1 : AngleDeg (FP double)} (h1 : sim l a1 x1) (hk : max k l ≤ 53) : sim (0) (AngleDeg.isRightEqualOf a0 a1) (AngleDeg.isRightEqualOf x0 x1) := by
  sim_def AngleDeg.isRightEqualOf
theorem sim_AngleDeg_isWithin {a0 : AngleDeg (PyNum lit)} {x0 : AngleDeg (FP double)} (h0 : sim k a0 x0) {a1 : AngleDeg (PyNum lit)} {x1 : AngleDeg (FP double)} (h1 : sim l a1 x1) {a2 : AngleDeg (PyNum lit)} {x2 : AngleDeg (FP double)} (h2 : sim j a2 x2) (hk : max k (max l j) + 12 ≤ 53) : sim (0) (AngleDeg.isWithin a0 a1 a2) (AngleDeg.isWithin x0 x1 x2) := by
  sim_def AngleDeg.isWithin
theorem sim_AngleDeg_iaddNum {a0 : AngleDeg (PyNum lit)} {x0 : AngleDeg (FP double)} (h0 : sim k a0 x0) {a1 : PyNum lit} {x1 : FP double} (h1 : sim l a1 x1) (hk : max k l + 1 ≤ 53) : sim (12) (AngleDeg.iaddNum a0 a1) (AngleDeg.iaddNum x0 x1) := by
  sim_def AngleDeg.iaddNum
theorem sim_AngleDeg_iadd {a0 : AngleDeg (PyNum lit)} {x0 : AngleDeg (FP double)} (h0 : sim k a0 x0) {a1 : AngleDeg (PyNum lit)} {x1 : AngleDeg (FP double)} (h1 : sim l a1 x1) (hk : max k l + 13 ≤ 53) : sim (12) (AngleDeg.iadd a0 a1) (AngleDeg.iadd x0 x1) := by
  sim_def AngleDeg.iadd
theorem sim_AngleDeg_isubNum {a0 : AngleDeg (PyNum lit)} {x0 : AngleDeg (FP double)} (h0 : sim k a0 x0) {a1 : PyNum lit} {x1 : FP double} (h1 : sim l a1 x1) (hk : max k l + 1 ≤ 53) : sim (12) (AngleDeg.isubNum a0 a1) (AngleDeg.isubNum x0 x1) := by
  sim_def AngleDeg.isubNum
theorem sim_AngleDeg_isub {a0 : AngleDeg (PyNum lit)} {x0 : AngleDeg (FP double)} (h0 : sim k a0 x0) {a1 : AngleDeg (PyNum lit)} {x1 : AngleDeg (FP double)} (h1 : sim l a1 x1) (hk : max k l + 13 ≤ 53) : sim (12) (AngleDeg.isub a0 a1) (AngleDeg.isub x0 x1) := by
  sim_def AngleDeg.isub
theorem sim_AngleDeg_imul {a0 : AngleDeg (PyNum lit)} {x0 : AngleDeg (FP double)} (h0 : sim k a0 x0) {a1 : PyNum lit} {x1 : FP double} (h1 : sim l a1 x1) (hk : k + l ≤ 53) : sim (12) (AngleDeg.imul a0 a1) (AngleDeg.imul x0 x1) := by
  sim_def AngleDeg.imul
theorem sim_AngleDeg_idiv {a0 : AngleDeg (PyNum lit)} {x0 : AngleDeg (FP double)} (h0 : sim k a0 x0) {a1 : PyNum lit} {x1 : FP double} (h1 : sim l a1 x1) (hk : max k l ≤ 53) : sim (12) (AngleDeg.idiv a0 a1) (AngleDeg.idiv x0 x1) := by
  sim_def AngleDeg.idiv
theorem sim_AngleDeg_add {a0 : AngleDeg (PyNum lit)} {x0 : AngleDeg (FP double)} (h0 : sim k a0 x0) {a1 : AngleDeg (PyNum lit)} {x1 : AngleDeg (FP double)} (h1 : sim l a1 x1) (hk : max k l + 13 ≤ 53) : sim (12) (AngleDeg.add a0 a1) (AngleDeg.add x0 x1) := by
  sim_def AngleDeg.add
theorem sim_AngleDeg_addNum {a0 : AngleDeg (PyNum lit)} {x0 : AngleDeg (FP double)} (h0 : sim k a0 x0) {a1 : PyNum lit} {x1 : FP double} (h1 : sim l a1 x1) (hk : max k l + 1 ≤ 53) : sim (12) (AngleDeg.addNum a0 a1) (AngleDeg.addNum x0 x1) := by
  sim_def AngleDeg.addNum
theorem sim_AngleDeg_sub {a0 : AngleDeg (PyNum lit)} {x0 : AngleDeg (FP double)} (h0 : sim k a0 x0) {a1 : AngleDeg (PyNum lit)} {x1 : AngleDeg (FP double)} (h1 : sim l a1 x1) (hk : max k l + 1 ≤ 53) : sim (12) (AngleDeg.sub a0 a1) (AngleDeg.sub x0 x1) := by
  sim_def AngleDeg.sub
theorem sim_AngleDeg_subNum {a0 : AngleDeg (PyNum lit)} {x0 : AngleDeg (FP double)} (h0 : sim k a0 x0) {a1 : PyNum lit} {x1 : FP double} (h1 : sim l a1 x1) (hk : max k l + 1 ≤ 53) : sim (12) (AngleDeg.subNum a0 a1) (AngleDeg.subNum x0 x1) := by
  sim_def AngleDeg.subNum
theorem sim_AngleDeg_mul {a0 : AngleDeg (PyNum lit)} {x0 : AngleDeg (FP double)} (h0 : sim k a0 x0) {a1 : PyNum lit} {x1 : FP double} (h1 : sim l a1 x1) (hk : k + l ≤ 53) : sim (12) (AngleDeg.mul a0 a1) (AngleDeg.mul x0 x1) := by
  sim_def AngleDeg.mul
theorem sim_AngleDeg_floordiv {a0 : AngleDeg (PyNum lit)} {x0 : AngleDeg (FP double)} (h0 : sim k a0 x0) {a1 : PyNum lit} {x1 : FP double} (h1 : sim l a1 x1) (hk : max k l ≤ 53) : sim (12) (AngleDeg.floordiv a0 a1) (AngleDeg.floordiv x0 x1) := by
  sim_def AngleDeg.floordiv
theorem sim_AngleDeg_neg {a0 : AngleDeg (PyNum lit)} {x0 : AngleDeg (FP double)} (h0 : sim k a0 x0) (hk : k ≤ 53) : sim (12) (AngleDeg.neg a0) (AngleDeg.neg x0) := by
  sim_def AngleDeg.neg
theorem sim_AngleDeg_eqNum {a0 : AngleDeg (PyNum lit)} {x0 : AngleDeg (FP double)} (h0 : sim k a0 x0) {a1 : PyNum lit} {x1 : FP double} (h1 : sim l a1 x1) (hk : max k l + 1 ≤ 53) : sim (0) (AngleDeg.eqNum a0 a1) (AngleDeg.eqNum x0 x1) := by
  sim_def AngleDeg.eqNum
theorem sim_AngleDeg_eq {a0 : AngleDeg (PyNum lit)} {x0 : AngleDeg (FP double)} (h0 : sim k a0 x0) {a1 : AngleDeg (PyNum lit)} {x1 : AngleDeg (FP double)} (h1 : sim l a1 x1) (hk : max k l + 13 ≤ 53) : sim (0) (AngleDeg.eq a0 a1) (AngleDeg.eq x0 x1) := by
  sim_def AngleDeg.eq
theorem sim_AngleDeg_cos {a0 : AngleDeg (PyNum lit)} {x0 : AngleDeg (FP double)} (h0 : sim k a0 x0) (hk : k ≤ 53) : sim (0) (AngleDeg.cos a0) (AngleDeg.cos x0) := by
  sim_def AngleDeg.cos
theorem sim_AngleDeg_sin {a0 : AngleDeg (PyNum lit)} {x0 : AngleDeg (FP double)} (h0 : sim k a0 x0) (hk : k ≤ 53) : sim (0) (AngleDeg.sin a0) (AngleDeg.sin x0) := by
  sim_def AngleDeg.sin
theorem sim_AngleDeg_tan {a0 : AngleDeg (PyNum lit)} {x0 : AngleDeg (FP double)} (h0 : sim k a0 x0) (hk : k ≤ 53) : sim (0) (AngleDeg.tan a0) (AngleDeg.tan x0) := by
  sim_def AngleDeg.tan
theorem sim_AngleDeg_rad2deg {a0 : PyNum lit} {x0 : FP double} (h0 : sim k a0 x0) (hk : k ≤ 53) : sim (k) (AngleDeg.rad2deg a0) (AngleDeg.rad2deg x0) := by
  sim_def AngleDeg.rad2deg
theorem sim_AngleDeg_deg2rad {a0 : PyNum lit} {x0 : FP double} (h0 : sim k a0 x0) (hk : k ≤ 53) : sim (k) (AngleDeg.deg2rad a0) (AngleDeg.deg2rad x0) := by
  sim_def AngleDeg.deg2rad
theorem sim_AngleDeg_cosDeg {a0 : PyNum lit} {x0 : FP double} (h0 : sim k a0 x0) (hk : k ≤ 53) : sim (0) (AngleDeg.cosDeg a0) (AngleDeg.cosDeg x0) := by
  sim_def AngleDeg.cosDeg
theorem sim_AngleDeg_sinDeg {a0 : PyNum lit} {x0 : FP double} (h0 : sim k a0 x0) (hk : k ≤ 53) : sim (0) (AngleDeg.sinDeg a0) (AngleDeg.sinDeg x0) := by
  sim_def AngleDeg.sinDeg
theorem sim_AngleDeg_tanDeg {a0 : PyNum lit} {x0 : FP double} (h0 : sim k a0 x0) (hk : k ≤ 53) : sim (0) (AngleDeg.tanDeg a0) (AngleDeg.tanDeg x0) := by
  sim_def AngleDeg.tanDeg
theorem sim_AngleDeg_mathAcos {a0 : PyNum lit} {x0 : FP double} (h0 : sim k a0 x0) (hk : k ≤ 53) : sim (0) (AngleDeg.mathAcos a0) (AngleDeg.mathAcos x0) := by
  sim_def AngleDeg.mathAcos
theorem sim_AngleDeg_mathAsin {a0 : PyNum lit} {x0 : FP double} (h0 : sim k a0 x0) (hk : k ≤ 53) : sim (0) (AngleDeg.mathAsin a0) (AngleDeg.mathAsin x0) := by
  sim_def AngleDeg.mathAsin
theorem sim_AngleDeg_acosDeg {a0 : PyNum lit} {x0 : FP double} (h0 : sim k a0 x0) (hk : k ≤ 53) : sim (10) (AngleDeg.acosDeg a0) (AngleDeg.acosDeg x0) := by
  sim_def AngleDeg.acosDeg
theorem sim_AngleDeg_asinDeg {a0 : PyNum lit} {x0 : FP double} (h0 : sim k a0 x0) (hk : k ≤ 53) : sim (10) (AngleDeg.asinDeg a0) (AngleDeg.asinDeg x0) := by
  sim_def AngleDeg.asinDeg
theorem sim_AngleDeg_atanDeg {a0 : PyNum lit} {x0 : FP double} (h0 : sim k a0 x0) (hk : k ≤ 53) : sim (0) (AngleDeg.atanDeg a0) (AngleDeg.atanDeg x0) := by
  sim_def AngleDeg.atanDeg
theorem sim_AngleDeg_atan2Deg {a0 : PyNum lit} {x0 : FP double} (h0 : sim k a0 x0) {a1 : PyNum lit} {x1 : FP double} (h1 : sim l a1 x1) (hk : max k l ≤ 53) : sim (0) (AngleDeg.atan2Deg a0 a1) (AngleDeg.atan2Deg x0 x1) := by
  sim_def AngleDeg.atan2Deg
theorem sim_AngleDeg_bisect {a0 : PyNum lit} {x0 : FP double} (h0 : sim k a0 x0) {a1 : PyNum lit} {x1 : FP double} (h1 : sim l a1 x1) (hk : max k l ≤ 53) : sim (12) (AngleDeg.bisect a0 a1) (AngleDeg.bisect x0 x1) := by
  sim_def AngleDeg.bisect

theorem sim_Vec_ofXY {a0 : PyNum lit} {x0 : FP double} (h0 : sim k a0 x0) {a1 : PyNum lit} {x1 : FP double} (h1 : sim l a1 x1) : sim (max k l) (Vec.ofXY a0 a1) (Vec.ofXY x0 x1) := by
  sim_def Vec.ofXY
theorem sim_Vec_zero  : sim (0) ((Vec.zero : Vec (PyNum lit))) ((Vec.zero : Vec (FP double))) := by
  sim_def Vec.zero
theorem sim_Vec_ofVec {a0 : Vec (PyNum lit)} {x0 : Vec (FP double)} (h0 : sim k a0 x0) : sim (k) (Vec.ofVec a0) (Vec.ofVec x0) := by
  sim_def Vec.ofVec
theorem sim_Vec_copy {a0 : Vec (PyNum lit)} {x0 : Vec (FP double)} (h0 : sim k a0 x0) : sim (k) (Vec.copy a0) (Vec.copy x0) := by
  sim_def Vec.copy
theorem sim_Vec_assign {a0 : Vec (PyNum lit)} {x0 : Vec (FP double)} (h0 : sim k a0 x0) {a1 : PyNum lit} {x1 : FP double} (h1 : sim l a1 x1) {a2 : PyNum lit} {x2 : FP double} (h2 : sim j a2 x2) : sim (max l j) (Vec.assign a0 a1 a2) (Vec.assign x0 x1 x2) := by
  sim_def Vec.assign
theorem sim_Vec_setX {a0 : Vec (PyNum lit)} {x0 : Vec (FP double)} (h0 : sim k a0 x0) {a1 : PyNum lit} {x1 : FP double} (h1 : sim l a1 x1) : sim (max k l) (Vec.setX a0 a1) (Vec.setX x0 x1) := by
  sim_def Vec.setX
theorem sim_Vec_setY {a0 : Vec (PyNum lit)} {x0 : Vec (FP double)} (h0 : sim k a0 x0) {a1 : PyNum lit} {x1 : FP double} (h1 : sim l a1 x1) : sim (max k l) (Vec.setY a0 a1) (Vec.setY x0 x1) := by
  sim_def Vec.setY
theorem sim_Vec_setVector {a0 : Vec (PyNum lit)} {x0 : Vec (FP double)} (h0 : sim k a0 x0) {a1 : Vec (PyNum lit)} {x1 : Vec (FP double)} (h1 : sim l a1 x1) : sim (l) (Vec.setVector a0 a1) (Vec.setVector x0 x1) := by
  sim_def Vec.setVector
theorem sim_Vec_setPolar {a0 : Vec (PyNum lit)} {x0 : Vec (FP double)} (h0 : sim k a0 x0) {a1 : PyNum lit} {x1 : FP double} (h1 : sim l a1 x1) {a2 : AngleDeg (PyNum lit)} {x2 : AngleDeg (FP double)} (h2 : sim j a2 x2) (hk : max l j ≤ 53) : sim (l) (Vec.setPolar a0 a1 a2) (Vec.setPolar x0 x1 x2) := by
  sim_def Vec.setPolar
theorem sim_Vec_validate {a0 : Vec (PyNum lit)} {x0 : Vec (FP double)} (h0 : sim k a0 x0) : sim (k) (Vec.validate a0) (Vec.validate x0) := by
  sim_def Vec.validate
theorem sim_Vec_invalidate {a0 : Vec (PyNum lit)} {x0 : Vec (FP double)} (h0 : sim k a0 x0) : sim (k) (Vec.invalidate a0) (Vec.invalidate x0) := by
  sim_def Vec.invalidate
theorem sim_Vec_isValid {a0 : Vec (PyNum lit)} {x0 : Vec (FP double)} (h0 : sim k a0 x0) : sim (0) (Vec.isValid a0) (Vec.isValid x0) := by
  sim_def Vec.isValid
theorem sim_Vec_r2 {a0 : Vec (PyNum lit)} {x0 : Vec (FP double)} (h0 : sim k a0 x0) (hk : 2 * k + 1 ≤ 53) : sim (2 * k + 1) (Vec.r2 a0) (Vec.r2 x0) := by
  sim_def Vec.r2
theorem sim_Vec_r {a0 : Vec (PyNum lit)} {x0 : Vec (FP double)} (h0 : sim k a0 x0) (hk : 2 * k + 1 ≤ 53) : sim (0) (Vec.r a0) (Vec.r x0) := by
  sim_def Vec.r
theorem sim_Vec_th {a0 : Vec (PyNum lit)} {x0 : Vec (FP double)} (h0 : sim k a0 x0) (hk : k ≤ 53) : sim (12) (Vec.th a0) (Vec.th x0) := by
  sim_def Vec.th
theorem sim_Vec_abs {a0 : Vec (PyNum lit)} {x0 : Vec (FP double)} (h0 : sim k a0 x0) : sim (k) (Vec.abs a0) (Vec.abs x0) := by
  sim_def Vec.abs
theorem sim_Vec_absX {a0 : Vec (PyNum lit)} {x0 : Vec (FP double)} (h0 : sim k a0 x0) : sim (k) (Vec.absX a0) (Vec.absX x0) := by
  sim_def Vec.absX
theorem sim_Vec_absY {a0 : Vec (PyNum lit)} {x0 : Vec (FP double)} (h0 : sim k a0 x0) : sim (k) (Vec.absY a0) (Vec.absY x0) := by
  sim_def Vec.absY
theorem sim_Vec_addIn {a0 : Vec (PyNum lit)} {x0 : Vec (FP double)} (h0 : sim k a0 x0) {a1 : Vec (PyNum lit)} {x1 : Vec (FP double)} (h1 : sim l a1 x1) (hk : max k l + 1 ≤ 53) : sim (max k l + 1) (Vec.addIn a0 a1) (Vec.addIn x0 x1) := by
  sim_def Vec.addIn
theorem sim_Vec_addXY {a0 : Vec (PyNum lit)} {x0 : Vec (FP double)} (h0 : sim k a0 x0) {a1 : PyNum lit} {x1 : FP double} (h1 : sim l a1 x1) {a2 : PyNum lit} {x2 : FP double} (h2 : sim j a2 x2) (hk : max k (max l j) + 1 ≤ 53) : sim (max k (max l j) + 1) (Vec.addXY a0 a1 a2) (Vec.addXY x0 x1 x2) := by
  sim_def Vec.addXY
theorem sim_Vec_addX {a0 : Vec (PyNum lit)} {x0 : Vec (FP double)} (h0 : sim k a0 x0) {a1 : PyNum lit} {x1 : FP double} (h1 : sim l a1 x1) (hk : max k l + 1 ≤ 53) : sim (max k l + 1) (Vec.addX a0 a1) (Vec.addX x0 x1) := by
  sim_def Vec.addX
theorem sim_Vec_addY {a0 : Vec (PyNum lit)} {x0 : Vec (FP double)} (h0 : sim k a0 x0) {a1 : PyNum lit} {x1 : FP double} (h1 : sim l a1 x1) (hk : max k l + 1 ≤ 53) : sim (max k l + 1) (Vec.addY a0 a1) (Vec.addY x0 x1) := by
  sim_def Vec.addY
theorem sim_Vec_subIn {a0 : Vec (PyNum lit)} {x0 : Vec (FP double)} (h0 : sim k a0 x0) {a1 : Vec (PyNum lit)} {x1 : Vec (FP double)} (h1 : sim l a1 x1) (hk : max k l + 1 ≤ 53) : sim (max k l + 1) (Vec.subIn a0 a1) (Vec.subIn x0 x1) := by
  sim_def Vec.subIn
theorem sim_Vec_subXY {a0 : Vec (PyNum lit)} {x0 : Vec (FP double)} (h0 : sim k a0 x0) {a1 : PyNum lit} {x1 : FP double} (h1 : sim l a1 x1) {a2 : PyNum lit} {x2 : FP double} (h2 : sim j a2 x2) (hk : max k (max l j) + 1 ≤ 53) : sim (max k (max l j) + 1) (Vec.subXY a0 a1 a2) (Vec.subXY x0 x1 x2) := by
  sim_def Vec.subXY
theorem sim_Vec_subX {a0 : Vec (PyNum lit)} {x0 : Vec (FP double)} (h0 : sim k a0 x0) {a1 : PyNum lit} {x1 : FP double} (h1 : sim l a1 x1) (hk : max k l + 1 ≤ 53) : sim (max k l + 1) (Vec.subX a0 a1) (Vec.subX x0 x1) := by
  sim_def Vec.subX
theorem sim_Vec_subY {a0 : Vec (PyNum lit)} {x0 : Vec (FP double)} (h0 : sim k a0 x0) {a1 : PyNum lit} {x1 : FP double} (h1 : sim l a1 x1) (hk : max k l + 1 ≤ 53) : sim (max k l + 1) (Vec.subY a0 a1) (Vec.subY x0 x1) := by
  sim_def Vec.subY
theorem sim_Vec_scale {a0 : Vec (PyNum lit)} {x0 : Vec (FP double)} (h0 : sim k a0 x0) {a1 : PyNum lit} {x1 : FP double} (h1 : sim l a1 x1) (hk : k + l ≤ 53) : sim (k + l) (Vec.scale a0 a1) (Vec.scale x0 x1) := by
  sim_def Vec.scale
theorem sim_Vec_dist2 {a0 : Vec (PyNum lit)} {x0 : Vec (FP double)} (h0 : sim k a0 x0) {a1 : Vec (PyNum lit)} {x1 : Vec (FP double)} (h1 : sim l a1 x1) (hk : 2 * max k l + 3 ≤ 53) : sim (2 * max k l + 3) (Vec.dist2 a0 a1) (Vec.dist2 x0 x1) := by
  sim_def Vec.dist2
theorem sim_Vec_dist {a0 : Vec (PyNum lit)} {x0 : Vec (FP double)} (h0 : sim k a0 x0) {a1 : Vec (PyNum lit)} {x1 : Vec (FP double)} (h1 : sim l a1 x1) (hk : 2 * max k l + 3 ≤ 53) : sim (0) (Vec.dist a0 a1) (Vec.dist x0 x1) := by
  sim_def Vec.dist
theorem sim_Vec_reverse {a0 : Vec (PyNum lit)} {x0 : Vec (FP double)} (h0 : sim k a0 x0) (hk : k ≤ 53) : sim (k) (Vec.reverse a0) (Vec.reverse x0) := by
  sim_def Vec.reverse
theorem sim_Vec_reverseVector {a0 : Vec (PyNum lit)} {x0 : Vec (FP double)} (h0 : sim k a0 x0) (hk : k ≤ 53) : sim (k) (Vec.reverseVector a0) (Vec.reverseVector x0) := by
  sim_def Vec.reverseVector
theorem sim_Vec_setLength {a0 : Vec (PyNum lit)} {x0 : Vec (FP double)} (h0 : sim k a0 x0) {a1 : PyNum lit} {x1 : FP double} (h1 : sim l a1 x1) (hk : max (2 * k + 1) l ≤ 53) : sim (k) (Vec.setLength a0 a1) (Vec.setLength x0 x1) := by
  sim_def Vec.setLength
theorem sim_Vec_setLengthVector {a0 : Vec (PyNum lit)} {x0 : Vec (FP double)} (h0 : sim k a0 x0) {a1 : PyNum lit} {x1 : FP double} (h1 : sim l a1 x1) (hk : max (2 * k + 1) l ≤ 53) : sim (k) (Vec.setLengthVector a0 a1) (Vec.setLengthVector x0 x1) := by
  sim_def Vec.setLengthVector
theorem sim_Vec_normalize {a0 : Vec (PyNum lit)} {x0 : Vec (FP double)} (h0 : sim k a0 x0) (hk : 2 * k + 1 ≤ 53) : sim (k) (Vec.normalize a0) (Vec.normalize x0) := by
  sim_def Vec.normalize
theorem sim_Vec_normalizeVector {a0 : Vec (PyNum lit)} {x0 : Vec (FP double)} (h0 : sim k a0 x0) (hk : 2 * k + 1 ≤ 53) : sim (k) (Vec.normalizeVector a0) (Vec.normalizeVector x0) := by
  sim_def Vec.normalizeVector
theorem sim_Vec_innerProduct {a0 : Vec (PyNum lit)} {x0 : Vec (FP double)} (h0 : sim k a0 x0) {a1 : Vec (PyNum lit)} {x1 : Vec (FP double)} (h1 : sim l a1 x1) (hk : k + l + 1 ≤ 53) : sim (k + l + 1) (Vec.innerProduct a0 a1) (Vec.innerProduct x0 x1) := by
  sim_def Vec.innerProduct
theorem sim_Vec_outerProduct {a0 : Vec (PyNum lit)} {x0 : Vec (FP double)} (h0 : sim k a0 x0) {a1 : Vec (PyNum lit)} {x1 : Vec (FP double)} (h1 : sim l a1 x1) (hk : k + l + 1 ≤ 53) : sim (k + l + 1) (Vec.outerProduct a0 a1) (Vec.outerProduct x0 x1) := by
  sim_def Vec.outerProduct
theorem sim_Vec_equals {a0 : Vec (PyNum lit)} {x0 : Vec (FP double)} (h0 : sim k a0 x0) {a1 : Vec (PyNum lit)} {x1 : Vec (FP double)} (h1 : sim l a1 x1) : sim (0) (Vec.equals a0 a1) (Vec.equals x0 x1) := by
  sim_def Vec.equals
theorem sim_Vec_equalsWeakly {a0 : Vec (PyNum lit)} {x0 : Vec (FP double)} (h0 : sim k a0 x0) {a1 : Vec (PyNum lit)} {x1 : Vec (FP double)} (h1 : sim l a1 x1) (hk : max k l + 1 ≤ 53) : sim (0) (Vec.equalsWeakly a0 a1) (Vec.equalsWeakly x0 x1) := by
  sim_def Vec.equalsWeakly
theorem sim_Vec_rotate {a0 : Vec (PyNum lit)} {x0 : Vec (FP double)} (h0 : sim k a0 x0) {a1 : PyNum lit} {x1 : FP double} (h1 : sim l a1 x1) (hk : max k l + 1 ≤ 53) : sim (k + 1) (Vec.rotate a0 a1) (Vec.rotate x0 x1) := by
  sim_def Vec.rotate
theorem sim_Vec_rotatedVector {a0 : Vec (PyNum lit)} {x0 : Vec (FP double)} (h0 : sim k a0 x0) {a1 : PyNum lit} {x1 : FP double} (h1 : sim l a1 x1) (hk : max k l + 1 ≤ 53) : sim (k + 1) (Vec.rotatedVector a0 a1) (Vec.rotatedVector x0 x1) := by
  sim_def Vec.rotatedVector
theorem sim_Vec_setDir {a0 : Vec (PyNum lit)} {x0 : Vec (FP double)} (h0 : sim k a0 x0) {a1 : AngleDeg (PyNum lit)} {x1 : AngleDeg (FP double)} (h1 : sim l a1 x1) (hk : max (2 * k + 1) l ≤ 53) : sim (0) (Vec.setDir a0 a1) (Vec.setDir x0 x1) := by
  sim_def Vec.setDir
theorem sim_Vec_eq {a0 : Vec (PyNum lit)} {x0 : Vec (FP double)} (h0 : sim k a0 x0) {a1 : Vec (PyNum lit)} {x1 : Vec (FP double)} (h1 : sim l a1 x1) : sim (0) (Vec.eq a0 a1) (Vec.eq x0 x1) := by
  sim_def Vec.eq
theorem sim_Vec_add {a0 : Vec (PyNum lit)} {x0 : Vec (FP double)} (h0 : sim k a0 x0) {a1 : Vec (PyNum lit)} {x1 : Vec (FP double)} (h1 : sim l a1 x1) (hk : max k l + 1 ≤ 53) : sim (max k l + 1) (Vec.add a0 a1) (Vec.add x0 x1) := by
  sim_def Vec.add
theorem sim_Vec_sub {a0 : Vec (PyNum lit)} {x0 : Vec (FP double)} (h0 : sim k a0 x0) {a1 : Vec (PyNum lit)} {x1 : Vec (FP double)} (h1 : sim l a1 x1) (hk : max k l + 1 ≤ 53) : sim (max k l + 1) (Vec.sub a0 a1) (Vec.sub x0 x1) := by
  sim_def Vec.sub
theorem sim_Vec_truediv {a0 : Vec (PyNum lit)} {x0 : Vec (FP double)} (h0 : sim k a0 x0) {a1 : PyNum lit} {x1 : FP double} (h1 : sim l a1 x1) (hk : max k l ≤ 53) : sim (0) (Vec.truediv a0 a1) (Vec.truediv x0 x1) := by
  sim_def Vec.truediv
theorem sim_Vec_mul {a0 : Vec (PyNum lit)} {x0 : Vec (FP double)} (h0 : sim k a0 x0) {a1 : PyNum lit} {x1 : FP double} (h1 : sim l a1 x1) (hk : k + l ≤ 53) : sim (k + l) (Vec.mul a0 a1) (Vec.mul x0 x1) := by
  sim_def Vec.mul
theorem sim_Vec_iadd {a0 : Vec (PyNum lit)} {x0 : Vec (FP double)} (h0 : sim k a0 x0) {a1 : Vec (PyNum lit)} {x1 : Vec (FP double)} (h1 : sim l a1 x1) (hk : max k l + 1 ≤ 53) : sim (max k l + 1) (Vec.iadd a0 a1) (Vec.iadd x0 x1) := by
  sim_def Vec.iadd
theorem sim_Vec_isub {a0 : Vec (PyNum lit)} {x0 : Vec (FP double)} (h0 : sim k a0 x0) {a1 : Vec (PyNum lit)} {x1 : Vec (FP double)} (h1 : sim l a1 x1) (hk : max k l + 1 ≤ 53) : sim (max k l + 1) (Vec.isub a0 a1) (Vec.isub x0 x1) := by
  sim_def Vec.isub
theorem sim_Vec_imul {a0 : Vec (PyNum lit)} {x0 : Vec (FP double)} (h0 : sim k a0 x0) {a1 : PyNum lit} {x1 : FP double} (h1 : sim l a1 x1) (hk : k + l ≤ 53) : sim (k + l) (Vec.imul a0 a1) (Vec.imul x0 x1) := by
  sim_def Vec.imul
theorem sim_Vec_invalid  : sim (0) ((Vec.invalid : Vec (PyNum lit))) ((Vec.invalid : Vec (FP double))) := by
  sim_def Vec.invalid
theorem sim_Vec_fromPolar {a0 : PyNum lit} {x0 : FP double} (h0 : sim k a0 x0) {a1 : AngleDeg (PyNum lit)} {x1 : AngleDeg (FP double)} (h1 : sim l a1 x1) (hk : max k l ≤ 53) : sim (k) (Vec.fromPolar a0 a1) (Vec.fromPolar x0 x1) := by
  sim_def Vec.fromPolar
theorem sim_Vec_ofRA {a0 : PyNum lit} {x0 : FP double} (h0 : sim k a0 x0) {a1 : AngleDeg (PyNum lit)} {x1 : AngleDeg (FP double)} (h1 : sim l a1 x1) (hk : max k l ≤ 53) : sim (k) (Vec.ofRA a0 a1) (Vec.ofRA x0 x1) := by
  sim_def Vec.ofRA

theorem sim_Line_ofABC {a0 : PyNum lit} {x0 : FP double} (h0 : sim k a0 x0) {a1 : PyNum lit} {x1 : FP double} (h1 : sim l a1 x1) {a2 : PyNum lit} {x2 : FP double} (h2 : sim j a2 x2) : sim (max (max k l) j) (Line.ofABC a0 a1 a2) (Line.ofABC x0 x1 x2) := by
  sim_def Line.ofABC
theorem sim_Line_ofAngle {a0 : Vec (PyNum lit)} {x0 : Vec (FP double)} (h0 : sim k a0 x0) {a1 : AngleDeg (PyNum lit)} {x1 : AngleDeg (FP double)} (h1 : sim l a1 x1) (hk : max k l + 1 ≤ 53) : sim (k + 1) (Line.ofAngle a0 a1) (Line.ofAngle x0 x1) := by
  sim_def Line.ofAngle
theorem sim_Line_ofPoints {a0 : Vec (PyNum lit)} {x0 : Vec (FP double)} (h0 : sim k a0 x0) {a1 : Vec (PyNum lit)} {x1 : Vec (FP double)} (h1 : sim l a1 x1) (hk : 2 * max k l + 2 ≤ 53) : sim (2 * max k l + 2) (Line.ofPoints a0 a1) (Line.ofPoints x0 x1) := by
  sim_def Line.ofPoints
theorem sim_Line_getX {a0 : Line (PyNum lit)} {x0 : Line (FP double)} (h0 : sim k a0 x0) {a1 : PyNum lit} {x1 : FP double} (h1 : sim l a1 x1) (hk : k + l + 1 ≤ 53) : sim (0) (Line.getX a0 a1) (Line.getX x0 x1) := by
  sim_def Line.getX
theorem sim_Line_getY {a0 : Line (PyNum lit)} {x0 : Line (FP double)} (h0 : sim k a0 x0) {a1 : PyNum lit} {x1 : FP double} (h1 : sim l a1 x1) (hk : k + l + 1 ≤ 53) : sim (0) (Line.getY a0 a1) (Line.getY x0 x1) := by
  sim_def Line.getY
theorem sim_Line_dist {a0 : Line (PyNum lit)} {x0 : Line (FP double)} (h0 : sim k a0 x0) {a1 : Vec (PyNum lit)} {x1 : Vec (FP double)} (h1 : sim l a1 x1) (hk : max (2 * k + 1) (k + l + 2) ≤ 53) : sim (0) (Line.dist a0 a1) (Line.dist x0 x1) := by
  sim_def Line.dist
theorem sim_Line_dist2 {a0 : Line (PyNum lit)} {x0 : Line (FP double)} (h0 : sim k a0 x0) {a1 : Vec (PyNum lit)} {x1 : Vec (FP double)} (h1 : sim l a1 x1) (hk : max (2 * k + 1) (2 * (k + l + 2)) ≤ 53) : sim (0) (Line.dist2 a0 a1) (Line.dist2 x0 x1) := by
  sim_def Line.dist2
theorem sim_Line_isParallel {a0 : Line (PyNum lit)} {x0 : Line (FP double)} (h0 : sim k a0 x0) {a1 : Line (PyNum lit)} {x1 : Line (FP double)} (h1 : sim l a1 x1) (hk : k + l + 1 ≤ 53) : sim (0) (Line.isParallel a0 a1) (Line.isParallel x0 x1) := by
  sim_def Line.isParallel
theorem sim_Line_intersection {a0 : Line (PyNum lit)} {x0 : Line (FP double)} (h0 : sim k a0 x0) {a1 : Line (PyNum lit)} {x1 : Line (FP double)} (h1 : sim l a1 x1) (hk : k + l + 1 ≤ 53) : sim (0) (Line.intersection a0 a1) (Line.intersection x0 x1) := by
  sim_def Line.intersection
theorem sim_Line_perpendicular {a0 : Line (PyNum lit)} {x0 : Line (FP double)} (h0 : sim k a0 x0) {a1 : Vec (PyNum lit)} {x1 : Vec (FP double)} (h1 : sim l a1 x1) (hk : k + l + 1 ≤ 53) : sim (k + l + 1) (Line.perpendicular a0 a1) (Line.perpendicular x0 x1) := by
  sim_def Line.perpendicular
theorem sim_Line_projection {a0 : Line (PyNum lit)} {x0 : Line (FP double)} (h0 : sim k a0 x0) {a1 : Vec (PyNum lit)} {x1 : Vec (FP double)} (h1 : sim l a1 x1) (hk : 2 * k + l + 2 ≤ 53) : sim (0) (Line.projection a0 a1) (Line.projection x0 x1) := by
  sim_def Line.projection
theorem sim_Line_angleBisector {a0 : Vec (PyNum lit)} {x0 : Vec (FP double)} (h0 : sim k a0 x0) {a1 : AngleDeg (PyNum lit)} {x1 : AngleDeg (FP double)} (h1 : sim l a1 x1) {a2 : AngleDeg (PyNum lit)} {x2 : AngleDeg (FP double)} (h2 : sim j a2 x2) (hk : max k (max l j) + 1 ≤ 53) : sim (k + 1) (Line.angleBisector a0 a1 a2) (Line.angleBisector x0 x1 x2) := by
  sim_def Line.angleBisector
theorem sim_Line_perpendicularBisector {a0 : Vec (PyNum lit)} {x0 : Vec (FP double)} (h0 : sim k a0 x0) {a1 : Vec (PyNum lit)} {x1 : Vec (FP double)} (h1 : sim l a1 x1) (hk : 2 * max k l + 4 ≤ 53) : sim (2 * max k l + 4) (Line.perpendicularBisector a0 a1) (Line.perpendicularBisector x0 x1) := by
  sim_def Line.perpendicularBisector
theorem sim_Line_eq {a0 : Line (PyNum lit)} {x0 : Line (FP double)} (h0 : sim k a0 x0) {a1 : Line (PyNum lit)} {x1 : Line (FP double)} (h1 : sim l a1 x1) (hk : k + l + 1 ≤ 53) : sim (0) (Line.eq a0 a1) (Line.eq x0 x1) := by
  sim_def Line.eq

end PyrusGeom
