import Verif.Lemmas.Signed
import Verif.Props.CheckedIeee
import Verif.Props.Mirror
import Verif.Props.FloatAngle
import Mathlib.Analysis.Real.Pi.Bounds

/-! # Property C178: the sign of zero -/

namespace PyrusGeom
open Spec Ieee

/-! ## `π` in double precision -/

theorem rne_pi : rne Real.pi = 884279719003555 / 281474976710656 := by
  have h1 := Real.pi_gt_d20
  have h2 := Real.pi_lt_d20
  rw [rne_eq 1 7074237752028440 (by norm_num) (by rw [abs_of_pos Real.pi_pos]; norm_num; linarith)
    (by rw [abs_of_pos Real.pi_pos]; norm_num; linarith) (by
      rw [show (1 - 52 : ℤ) = -51 by norm_num, div_eq_mul_inv, ← zpow_neg, abs_lt]
      norm_num
      constructor <;> linarith)]
  norm_num

theorem ieee_pi : (PyMath.pi : Ieee) = fin (884279719003555 / 281474976710656) := by
  have : (PyMath.pi : Ieee) = ofReal Real.pi := rfl
  rw [this, Ieee.ofReal_of_le (n := 2) (by norm_num) (by rw [abs_of_pos Real.pi_pos]; norm_num; exact Real.pi_le_four), rne_pi]

theorem ieee_RAD2DEG : (RAD2DEG : Ieee) = fin (1007958012753983 / 17592186044416) := by
  unfold RAD2DEG
  rw [ieee_pi, num_ieee (by norm_num)]
  change ofReal _ = _
  rw [Ieee.ofReal_of_le (n := 6) (by norm_num) (by norm_num [abs_of_pos]),
    rne_eq 5 8063664102031864 (by norm_num) (by norm_num [abs_of_pos]) (by norm_num [abs_of_pos]) (by norm_num [abs_lt])]
  norm_num

/-- `math.degrees`, as the code computes it, of `math.pi` is exactly 180. -/
theorem ieee_rad2deg_pi : AngleDeg.rad2deg (PyMath.pi : Ieee) = fin 180 := by
  unfold AngleDeg.rad2deg
  rw [ieee_pi, ieee_RAD2DEG]
  change ofReal _ = _
  rw [Ieee.ofReal_of_le (n := 8) (by norm_num) (by norm_num [abs_of_pos]),
    rne_eq 7 6333186975989760 (by norm_num) (by norm_num [abs_of_pos]) (by norm_num [abs_of_pos]) (by norm_num [abs_lt])]
  norm_num

/-! ## Functions that do not compute a direction -/

/-- **C178** The functions of `AngleDeg`: the results do not depend on the signs of zeros. -/
theorem C178_angle :
    (∀ d : SZ, val (AngleDeg.normalDeg d) = AngleDeg.normalDeg (val d)) ∧
    (∀ d : SZ, val (AngleDeg.ofNum d) = AngleDeg.ofNum (val d)) ∧
    (val (AngleDeg.default : AngleDeg SZ) = AngleDeg.default) ∧
    (∀ a : AngleDeg SZ, val (AngleDeg.degree a) = AngleDeg.degree (val a)) ∧
    (∀ a : AngleDeg SZ, val (AngleDeg.degree_ a) = AngleDeg.degree_ (val a)) ∧
    (∀ a : AngleDeg SZ, val (AngleDeg.ofAngle a) = AngleDeg.ofAngle (val a)) ∧
    (∀ (_a : AngleDeg SZ) (d : SZ), val (AngleDeg.setDegree _a d) = AngleDeg.setDegree (val _a) (val d)) ∧
    (∀ (_a : AngleDeg SZ) (b : AngleDeg SZ), val (AngleDeg.setAngle _a b) = AngleDeg.setAngle (val _a) (val b)) ∧
    (∀ a : AngleDeg SZ, val (AngleDeg.abs a) = AngleDeg.abs (val a)) ∧
    (∀ a : AngleDeg SZ, val (AngleDeg.radian a) = AngleDeg.radian (val a)) ∧
    (∀ a : AngleDeg SZ, val (AngleDeg.copy a) = AngleDeg.copy (val a)) ∧
    (∀ a : AngleDeg SZ, val (AngleDeg.reverse a) = AngleDeg.reverse (val a)) ∧
    (∀ a : AngleDeg SZ, val (AngleDeg.reverseAngle a) = AngleDeg.reverseAngle (val a)) ∧
    (∀ a : AngleDeg SZ, val (AngleDeg.getNormalized a) = AngleDeg.getNormalized (val a)) ∧
    (∀ a b : AngleDeg SZ, AngleDeg.isLeftOf a b = AngleDeg.isLeftOf (val a) (val b)) ∧
    (∀ a b : AngleDeg SZ, AngleDeg.isRightOf a b = AngleDeg.isRightOf (val a) (val b)) ∧
    (∀ a b : AngleDeg SZ, AngleDeg.isLeftEqualOf a b = AngleDeg.isLeftEqualOf (val a) (val b)) ∧
    (∀ a b : AngleDeg SZ, AngleDeg.isRightEqualOf a b = AngleDeg.isRightEqualOf (val a) (val b)) ∧
    (∀ a left right : AngleDeg SZ, AngleDeg.isWithin a left right = AngleDeg.isWithin (val a) (val left) (val right)) ∧
    (∀ (a : AngleDeg SZ) (d : SZ), val (AngleDeg.iaddNum a d) = AngleDeg.iaddNum (val a) (val d)) ∧
    (∀ a b : AngleDeg SZ, val (AngleDeg.iadd a b) = AngleDeg.iadd (val a) (val b)) ∧
    (∀ (a : AngleDeg SZ) (d : SZ), val (AngleDeg.isubNum a d) = AngleDeg.isubNum (val a) (val d)) ∧
    (∀ a b : AngleDeg SZ, val (AngleDeg.isub a b) = AngleDeg.isub (val a) (val b)) ∧
    (∀ (a : AngleDeg SZ) (s : SZ), val (AngleDeg.imul a s) = AngleDeg.imul (val a) (val s)) ∧
    (∀ (a : AngleDeg SZ) (s : SZ), val (AngleDeg.idiv a s) = AngleDeg.idiv (val a) (val s)) ∧
    (∀ a b : AngleDeg SZ, val (AngleDeg.add a b) = AngleDeg.add (val a) (val b)) ∧
    (∀ (a : AngleDeg SZ) (d : SZ), val (AngleDeg.addNum a d) = AngleDeg.addNum (val a) (val d)) ∧
    (∀ a b : AngleDeg SZ, val (AngleDeg.sub a b) = AngleDeg.sub (val a) (val b)) ∧
    (∀ (a : AngleDeg SZ) (d : SZ), val (AngleDeg.subNum a d) = AngleDeg.subNum (val a) (val d)) ∧
    (∀ (a : AngleDeg SZ) (s : SZ), val (AngleDeg.mul a s) = AngleDeg.mul (val a) (val s)) ∧
    (∀ (a : AngleDeg SZ) (s : SZ), val (AngleDeg.floordiv a s) = AngleDeg.floordiv (val a) (val s)) ∧
    (∀ a : AngleDeg SZ, val (AngleDeg.neg a) = AngleDeg.neg (val a)) ∧
    (∀ (a : AngleDeg SZ) (d : SZ), AngleDeg.eqNum a d = AngleDeg.eqNum (val a) (val d)) ∧
    (∀ a b : AngleDeg SZ, AngleDeg.eq a b = AngleDeg.eq (val a) (val b)) ∧
    (∀ a : AngleDeg SZ, val (AngleDeg.cos a) = AngleDeg.cos (val a)) ∧
    (∀ a : AngleDeg SZ, val (AngleDeg.sin a) = AngleDeg.sin (val a)) ∧
    (∀ a : AngleDeg SZ, val (AngleDeg.tan a) = AngleDeg.tan (val a)) ∧
    (∀ rad : SZ, val (AngleDeg.rad2deg rad) = AngleDeg.rad2deg (val rad)) ∧
    (∀ deg : SZ, val (AngleDeg.deg2rad deg) = AngleDeg.deg2rad (val deg)) ∧
    (∀ deg : SZ, val (AngleDeg.cosDeg deg) = AngleDeg.cosDeg (val deg)) ∧
    (∀ deg : SZ, val (AngleDeg.sinDeg deg) = AngleDeg.sinDeg (val deg)) ∧
    (∀ deg : SZ, val (AngleDeg.tanDeg deg) = AngleDeg.tanDeg (val deg)) ∧
    (∀ cosine : SZ, val (AngleDeg.acosDeg cosine) = AngleDeg.acosDeg (val cosine)) ∧
    (∀ sine : SZ, val (AngleDeg.asinDeg sine) = AngleDeg.asinDeg (val sine)) ∧
    (∀ tangent : SZ, val (AngleDeg.atanDeg tangent) = AngleDeg.atanDeg (val tangent)) ∧
    (∀ left right : SZ, val (AngleDeg.bisect left right) = AngleDeg.bisect (val left) (val right)) ∧
    (∀ d : SZ, val (AngleDeg.normalizeAngle d) = AngleDeg.normalizeAngle (val d)) :=
  ⟨sz_AngleDeg_normalDeg, sz_AngleDeg_ofNum, sz_AngleDeg_default, sz_AngleDeg_degree, sz_AngleDeg_degree_, sz_AngleDeg_ofAngle,
    sz_AngleDeg_setDegree, sz_AngleDeg_setAngle, sz_AngleDeg_abs, sz_AngleDeg_radian, sz_AngleDeg_copy, sz_AngleDeg_reverse,
    sz_AngleDeg_reverseAngle, sz_AngleDeg_getNormalized, sz_AngleDeg_isLeftOf, sz_AngleDeg_isRightOf, sz_AngleDeg_isLeftEqualOf,
    sz_AngleDeg_isRightEqualOf, sz_AngleDeg_isWithin, sz_AngleDeg_iaddNum, sz_AngleDeg_iadd, sz_AngleDeg_isubNum, sz_AngleDeg_isub,
    sz_AngleDeg_imul, sz_AngleDeg_idiv, sz_AngleDeg_add, sz_AngleDeg_addNum, sz_AngleDeg_sub, sz_AngleDeg_subNum, sz_AngleDeg_mul,
    sz_AngleDeg_floordiv, sz_AngleDeg_neg, sz_AngleDeg_eqNum, sz_AngleDeg_eq, sz_AngleDeg_cos, sz_AngleDeg_sin, sz_AngleDeg_tan,
    sz_AngleDeg_rad2deg, sz_AngleDeg_deg2rad, sz_AngleDeg_cosDeg, sz_AngleDeg_sinDeg, sz_AngleDeg_tanDeg, sz_AngleDeg_acosDeg,
    sz_AngleDeg_asinDeg, sz_AngleDeg_atanDeg, sz_AngleDeg_bisect, sz_AngleDeg_normalizeAngle⟩

/-- **C178** `Vector2D`: the results do not depend on the signs of zeros. -/
theorem C178_vector :
    (∀ x y : SZ, val (Vec.ofXY x y) = Vec.ofXY (val x) (val y)) ∧
    (val (Vec.zero : Vec SZ) = Vec.zero) ∧
    (∀ v : Vec SZ, val (Vec.ofVec v) = Vec.ofVec (val v)) ∧
    (∀ v : Vec SZ, val (Vec.copy v) = Vec.copy (val v)) ∧
    (∀ (v : Vec SZ) (x y : SZ), val (Vec.assign v x y) = Vec.assign (val v) (val x) (val y)) ∧
    (∀ (v : Vec SZ) (x : SZ), val (Vec.setX v x) = Vec.setX (val v) (val x)) ∧
    (∀ (v : Vec SZ) (y : SZ), val (Vec.setY v y) = Vec.setY (val v) (val y)) ∧
    (∀ (_v : Vec SZ) (o : Vec SZ), val (Vec.setVector _v o) = Vec.setVector (val _v) (val o)) ∧
    (∀ (v : Vec SZ) (radius : SZ) (angle : AngleDeg SZ), val (Vec.setPolar v radius angle) = Vec.setPolar (val v) (val radius) (val angle)) ∧
    (∀ v : Vec SZ, val (Vec.validate v) = Vec.validate (val v)) ∧
    (∀ v : Vec SZ, val (Vec.invalidate v) = Vec.invalidate (val v)) ∧
    (∀ v : Vec SZ, Vec.isValid v = Vec.isValid (val v)) ∧
    (∀ v : Vec SZ, val (Vec.r2 v) = Vec.r2 (val v)) ∧
    (∀ v : Vec SZ, val (Vec.r v) = Vec.r (val v)) ∧
    (∀ v : Vec SZ, val (Vec.abs v) = Vec.abs (val v)) ∧
    (∀ v : Vec SZ, val (Vec.absX v) = Vec.absX (val v)) ∧
    (∀ v : Vec SZ, val (Vec.absY v) = Vec.absY (val v)) ∧
    (∀ v o : Vec SZ, val (Vec.addIn v o) = Vec.addIn (val v) (val o)) ∧
    (∀ (v : Vec SZ) (x y : SZ), val (Vec.addXY v x y) = Vec.addXY (val v) (val x) (val y)) ∧
    (∀ (v : Vec SZ) (x : SZ), val (Vec.addX v x) = Vec.addX (val v) (val x)) ∧
    (∀ (v : Vec SZ) (y : SZ), val (Vec.addY v y) = Vec.addY (val v) (val y)) ∧
    (∀ v o : Vec SZ, val (Vec.subIn v o) = Vec.subIn (val v) (val o)) ∧
    (∀ (v : Vec SZ) (x y : SZ), val (Vec.subXY v x y) = Vec.subXY (val v) (val x) (val y)) ∧
    (∀ (v : Vec SZ) (x : SZ), val (Vec.subX v x) = Vec.subX (val v) (val x)) ∧
    (∀ (v : Vec SZ) (y : SZ), val (Vec.subY v y) = Vec.subY (val v) (val y)) ∧
    (∀ (v : Vec SZ) (s : SZ), val (Vec.scale v s) = Vec.scale (val v) (val s)) ∧
    (∀ v o : Vec SZ, val (Vec.dist2 v o) = Vec.dist2 (val v) (val o)) ∧
    (∀ v o : Vec SZ, val (Vec.dist v o) = Vec.dist (val v) (val o)) ∧
    (∀ v : Vec SZ, val (Vec.reverse v) = Vec.reverse (val v)) ∧
    (∀ v : Vec SZ, val (Vec.reverseVector v) = Vec.reverseVector (val v)) ∧
    (∀ (v : Vec SZ) (length : SZ), val (Vec.setLength v length) = Vec.setLength (val v) (val length)) ∧
    (∀ (v : Vec SZ) (length : SZ), val (Vec.setLengthVector v length) = Vec.setLengthVector (val v) (val length)) ∧
    (∀ v : Vec SZ, val (Vec.normalize v) = Vec.normalize (val v)) ∧
    (∀ v : Vec SZ, val (Vec.normalizeVector v) = Vec.normalizeVector (val v)) ∧
    (∀ v p : Vec SZ, val (Vec.innerProduct v p) = Vec.innerProduct (val v) (val p)) ∧
    (∀ v p : Vec SZ, val (Vec.outerProduct v p) = Vec.outerProduct (val v) (val p)) ∧
    (∀ v o : Vec SZ, Vec.equals v o = Vec.equals (val v) (val o)) ∧
    (∀ v o : Vec SZ, Vec.equalsWeakly v o = Vec.equalsWeakly (val v) (val o)) ∧
    (∀ (v : Vec SZ) (deg : SZ), val (Vec.rotate v deg) = Vec.rotate (val v) (val deg)) ∧
    (∀ (v : Vec SZ) (deg : SZ), val (Vec.rotatedVector v deg) = Vec.rotatedVector (val v) (val deg)) ∧
    (∀ (v : Vec SZ) (direction : AngleDeg SZ), val (Vec.setDir v direction) = Vec.setDir (val v) (val direction)) ∧
    (∀ v o : Vec SZ, Vec.eq v o = Vec.eq (val v) (val o)) ∧
    (∀ v o : Vec SZ, val (Vec.add v o) = Vec.add (val v) (val o)) ∧
    (∀ v o : Vec SZ, val (Vec.sub v o) = Vec.sub (val v) (val o)) ∧
    (∀ (v : Vec SZ) (s : SZ), val (Vec.truediv v s) = Vec.truediv (val v) (val s)) ∧
    (∀ (v : Vec SZ) (s : SZ), val (Vec.mul v s) = Vec.mul (val v) (val s)) ∧
    (∀ v o : Vec SZ, val (Vec.iadd v o) = Vec.iadd (val v) (val o)) ∧
    (∀ v o : Vec SZ, val (Vec.isub v o) = Vec.isub (val v) (val o)) ∧
    (∀ (v : Vec SZ) (s : SZ), val (Vec.imul v s) = Vec.imul (val v) (val s)) ∧
    (val (Vec.invalid : Vec SZ) = Vec.invalid) ∧
    (∀ (mag : SZ) (theta : AngleDeg SZ), val (Vec.fromPolar mag theta) = Vec.fromPolar (val mag) (val theta)) ∧
    (∀ (radius : SZ) (angle : AngleDeg SZ), val (Vec.ofRA radius angle) = Vec.ofRA (val radius) (val angle)) ∧
    (∀ (v : Vec SZ) (x y : SZ), val (Vec.setXY v x y) = Vec.setXY (val v) (val x) (val y)) ∧
    (∀ v w : Vec SZ, val (Vec.innerProductStatic v w) = Vec.innerProductStatic (val v) (val w)) ∧
    (∀ v w : Vec SZ, val (Vec.outerProductStatic v w) = Vec.outerProductStatic (val v) (val w)) :=
  ⟨sz_Vec_ofXY, sz_Vec_zero, sz_Vec_ofVec, sz_Vec_copy, sz_Vec_assign, sz_Vec_setX, sz_Vec_setY, sz_Vec_setVector, sz_Vec_setPolar,
    sz_Vec_validate, sz_Vec_invalidate, sz_Vec_isValid, sz_Vec_r2, sz_Vec_r, sz_Vec_abs, sz_Vec_absX, sz_Vec_absY, sz_Vec_addIn,
    sz_Vec_addXY, sz_Vec_addX, sz_Vec_addY, sz_Vec_subIn, sz_Vec_subXY, sz_Vec_subX, sz_Vec_subY, sz_Vec_scale, sz_Vec_dist2, sz_Vec_dist,
    sz_Vec_reverse, sz_Vec_reverseVector, sz_Vec_setLength, sz_Vec_setLengthVector, sz_Vec_normalize, sz_Vec_normalizeVector,
    sz_Vec_innerProduct, sz_Vec_outerProduct, sz_Vec_equals, sz_Vec_equalsWeakly, sz_Vec_rotate, sz_Vec_rotatedVector, sz_Vec_setDir,
    sz_Vec_eq, sz_Vec_add, sz_Vec_sub, sz_Vec_truediv, sz_Vec_mul, sz_Vec_iadd, sz_Vec_isub, sz_Vec_imul, sz_Vec_invalid, sz_Vec_fromPolar,
    sz_Vec_ofRA, sz_Vec_setXY, sz_Vec_innerProductStatic, sz_Vec_outerProductStatic⟩

/-- **C178** `Line2D`: the results do not depend on the signs of zeros. -/
theorem C178_line :
    (∀ a b c : SZ, val (Line.ofABC a b c) = Line.ofABC (val a) (val b) (val c)) ∧
    (∀ (p : Vec SZ) (dir : AngleDeg SZ), val (Line.ofAngle p dir) = Line.ofAngle (val p) (val dir)) ∧
    (∀ p q : Vec SZ, val (Line.ofPoints p q) = Line.ofPoints (val p) (val q)) ∧
    (∀ (l : Line SZ) (y : SZ), val (Line.getX l y) = Line.getX (val l) (val y)) ∧
    (∀ (l : Line SZ) (x : SZ), val (Line.getY l x) = Line.getY (val l) (val x)) ∧
    (∀ (l : Line SZ) (p : Vec SZ), val (Line.dist l p) = Line.dist (val l) (val p)) ∧
    (∀ (l : Line SZ) (p : Vec SZ), val (Line.dist2 l p) = Line.dist2 (val l) (val p)) ∧
    (∀ l o : Line SZ, Line.isParallel l o = Line.isParallel (val l) (val o)) ∧
    (∀ l1 l2 : Line SZ, val (Line.intersection l1 l2) = Line.intersection (val l1) (val l2)) ∧
    (∀ (l : Line SZ) (p : Vec SZ), val (Line.perpendicular l p) = Line.perpendicular (val l) (val p)) ∧
    (∀ (l : Line SZ) (p : Vec SZ), val (Line.projection l p) = Line.projection (val l) (val p)) ∧
    (∀ (origin : Vec SZ) (left right : AngleDeg SZ), val (Line.angleBisector origin left right) = Line.angleBisector (val origin) (val left) (val right)) ∧
    (∀ p1 p2 : Vec SZ, val (Line.perpendicularBisector p1 p2) = Line.perpendicularBisector (val p1) (val p2)) ∧
    (∀ l o : Line SZ, Line.eq l o = Line.eq (val l) (val o)) ∧
    (∀ l : Line SZ, val (Line.copy l) = Line.copy (val l)) :=
  ⟨sz_Line_ofABC, sz_Line_ofAngle, sz_Line_ofPoints, sz_Line_getX, sz_Line_getY, sz_Line_dist, sz_Line_dist2, sz_Line_isParallel,
    sz_Line_intersection, sz_Line_perpendicular, sz_Line_projection, sz_Line_angleBisector, sz_Line_perpendicularBisector, sz_Line_eq,
    sz_Line_copy⟩

/-- **C178** `Ray2D`, the functions that compute no direction: the results do not depend on the signs of zeros. -/
theorem C178_rayRest :
    (∀ (origin : Vec SZ) (a : AngleDeg SZ), val (Ray.ofAngle origin a) = Ray.ofAngle (val origin) (val a)) ∧
    (∀ r : Ray SZ, val (Ray.line r) = Ray.line (val r)) ∧
    (∀ r o : Ray SZ, Ray.eq r o = Ray.eq (val r) (val o)) ∧
    (∀ r : Ray SZ, val (Ray.copy r) = Ray.copy (val r)) :=
  ⟨sz_Ray_ofAngle, sz_Ray_line, sz_Ray_eq, sz_Ray_copy⟩

/-- **C178** `Segment2D`: the results do not depend on the signs of zeros. -/
theorem C178_segment :
    (∀ p q : Vec SZ, val (Seg.ofPoints p q) = Seg.ofPoints (val p) (val q)) ∧
    (∀ (p : Vec SZ) (length : SZ) (a : AngleDeg SZ), val (Seg.ofPolar p length a) = Seg.ofPolar (val p) (val length) (val a)) ∧
    (∀ x0 y0 x1 y1 : SZ, val (Seg.ofXYXY x0 y0 x1 y1) = Seg.ofXYXY (val x0) (val y0) (val x1) (val y1)) ∧
    (∀ s : Seg SZ, Seg.isValid s = Seg.isValid (val s)) ∧
    (∀ s : Seg SZ, val (Seg.line s) = Seg.line (val s)) ∧
    (∀ s : Seg SZ, val (Seg.length s) = Seg.length (val s)) ∧
    (∀ s : Seg SZ, val (Seg.swap s) = Seg.swap (val s)) ∧
    (∀ s : Seg SZ, val (Seg.reversedSegment s) = Seg.reversedSegment (val s)) ∧
    (∀ s : Seg SZ, val (Seg.perpendicularBisector s) = Seg.perpendicularBisector (val s)) ∧
    (∀ (s : Seg SZ) (p : Vec SZ), Seg.contains s p = Seg.contains (val s) (val p)) ∧
    (∀ s o : Seg SZ, Seg.eq s o = Seg.eq (val s) (val o)) ∧
    (∀ s o : Seg SZ, Seg.equalsWeakly s o = Seg.equalsWeakly (val s) (val o)) ∧
    (∀ (s : Seg SZ) (p : Vec SZ), val (Seg.projection s p) = Seg.projection (val s) (val p)) ∧
    (∀ (s : Seg SZ) (p : Vec SZ), Seg.checkIntersectsOnLine s p = Seg.checkIntersectsOnLine (val s) (val p)) ∧
    (∀ s o : Seg SZ, Seg.existIntersection s o = Seg.existIntersection (val s) (val o)) ∧
    (∀ (s : Seg SZ) (l : Line SZ), Seg.existIntersectionLine s l = Seg.existIntersectionLine (val s) (val l)) ∧
    (∀ s o : Seg SZ, Seg.existIntersectionExceptEndpoint s o = Seg.existIntersectionExceptEndpoint (val s) (val o)) ∧
    (∀ (s : Seg SZ) (l : Line SZ), val (Seg.intersectionLine s l) = Seg.intersectionLine (val s) (val l)) ∧
    (∀ (s o : Seg SZ) (allowEndPoint : Bool), val (Seg.intersectionSeg s o allowEndPoint) = Seg.intersectionSeg (val s) (val o) allowEndPoint) ∧
    (∀ (s : Seg SZ) (p : Vec SZ), val (Seg.nearestPoint s p) = Seg.nearestPoint (val s) (val p)) ∧
    (∀ (s : Seg SZ) (p : Vec SZ), val (Seg.distPoint s p) = Seg.distPoint (val s) (val p)) ∧
    (∀ s o : Seg SZ, val (Seg.distSeg s o) = Seg.distSeg (val s) (val o)) ∧
    (∀ (s : Seg SZ) (p : Vec SZ), val (Seg.farthestDist s p) = Seg.farthestDist (val s) (val p)) ∧
    (∀ (s : Seg SZ) (p : Vec SZ), Seg.onSegment s p = Seg.onSegment (val s) (val p)) ∧
    (∀ (s : Seg SZ) (p : Vec SZ), Seg.onSegmentWeakly s p = Seg.onSegmentWeakly (val s) (val p)) :=
  ⟨sz_Seg_ofPoints, sz_Seg_ofPolar, sz_Seg_ofXYXY, sz_Seg_isValid, sz_Seg_line, sz_Seg_length, sz_Seg_swap, sz_Seg_reversedSegment,
    sz_Seg_perpendicularBisector, sz_Seg_contains, sz_Seg_eq, sz_Seg_equalsWeakly, sz_Seg_projection, sz_Seg_checkIntersectsOnLine,
    sz_Seg_existIntersection, sz_Seg_existIntersectionLine, sz_Seg_existIntersectionExceptEndpoint, sz_Seg_intersectionLine,
    sz_Seg_intersectionSeg, sz_Seg_nearestPoint, sz_Seg_distPoint, sz_Seg_distSeg, sz_Seg_farthestDist, sz_Seg_onSegment,
    sz_Seg_onSegmentWeakly⟩

/-- **C178** `Triangle2D`: the results do not depend on the signs of zeros. -/
theorem C178_triangle :
    (∀ a b c : Vec SZ, val (Tri.dsa a b c) = Tri.dsa (val a) (val b) (val c)) ∧
    (∀ a b c : Vec SZ, val (Tri.signedArea a b c) = Tri.signedArea (val a) (val b) (val c)) ∧
    (∀ a b c : Vec SZ, Tri.ccw a b c = Tri.ccw (val a) (val b) (val c)) ∧
    (∀ a b c : Vec SZ, val (Tri.ofPoints a b c) = Tri.ofPoints (val a) (val b) (val c)) ∧
    (∀ (s : Seg SZ) (c : Vec SZ), val (Tri.ofSeg s c) = Tri.ofSeg (val s) (val c)) ∧
    (∀ t : Tri SZ, Tri.isValid t = Tri.isValid (val t)) ∧
    (∀ t : Tri SZ, val (Tri.area t) = Tri.area (val t)) ∧
    (∀ a b c p : Vec SZ, Tri.triContains a b c p = Tri.triContains (val a) (val b) (val c) (val p)) ∧
    (∀ (t : Tri SZ) (p : Vec SZ), Tri.contains t p = Tri.contains (val t) (val p)) ∧
    (∀ a b c : Vec SZ, val (Tri.triCentroid a b c) = Tri.triCentroid (val a) (val b) (val c)) ∧
    (∀ a b c : Vec SZ, val (Tri.triCircumcenter a b c) = Tri.triCircumcenter (val a) (val b) (val c)) ∧
    (∀ a b c : Vec SZ, val (Tri.triOrthocenter a b c) = Tri.triOrthocenter (val a) (val b) (val c)) ∧
    (∀ (t : Tri SZ) (l : Line SZ), val (Tri.intersectionLine t l) = Tri.intersectionLine (val t) (val l)) ∧
    (∀ (_t : Tri SZ) (_s : Seg SZ), val (Tri.intersectionSeg _t _s) = Tri.intersectionSeg (val _t) (val _s)) ∧
    (∀ (_t : Tri SZ) (a b c : Vec SZ), val (Tri.assign3 _t a b c) = Tri.assign3 (val _t) (val a) (val b) (val c)) ∧
    (∀ (_t : Tri SZ) (s : Seg SZ) (c : Vec SZ), val (Tri.assignSeg _t s c) = Tri.assignSeg (val _t) (val s) (val c)) ∧
    (∀ t : Tri SZ, val (Tri.getA t) = Tri.getA (val t)) ∧
    (∀ t : Tri SZ, val (Tri.getB t) = Tri.getB (val t)) ∧
    (∀ t : Tri SZ, val (Tri.getC t) = Tri.getC (val t)) ∧
    (∀ t : Tri SZ, val (Tri.methodSignedArea t) = Tri.methodSignedArea (val t)) ∧
    (∀ t : Tri SZ, val (Tri.methodDsa t) = Tri.methodDsa (val t)) ∧
    (∀ t : Tri SZ, Tri.methodCcw t = Tri.methodCcw (val t)) ∧
    (∀ t : Tri SZ, val (Tri.centroid t) = Tri.centroid (val t)) ∧
    (∀ t : Tri SZ, val (Tri.circumcenter t) = Tri.circumcenter (val t)) ∧
    (∀ t : Tri SZ, val (Tri.orthocenter t) = Tri.orthocenter (val t)) :=
  ⟨sz_Tri_dsa, sz_Tri_signedArea, sz_Tri_ccw, sz_Tri_ofPoints, sz_Tri_ofSeg, sz_Tri_isValid, sz_Tri_area, sz_Tri_triContains,
    sz_Tri_contains, sz_Tri_triCentroid, sz_Tri_triCircumcenter, sz_Tri_triOrthocenter, sz_Tri_intersectionLine, sz_Tri_intersectionSeg,
    sz_Tri_assign3, sz_Tri_assignSeg, sz_Tri_getA, sz_Tri_getB, sz_Tri_getC, sz_Tri_methodSignedArea, sz_Tri_methodDsa, sz_Tri_methodCcw,
    sz_Tri_centroid, sz_Tri_circumcenter, sz_Tri_orthocenter⟩

/-- **C178** `Circle2D`: the results do not depend on the signs of zeros. -/
theorem C178_circle :
    (∀ a b c : SZ, val (quadraticF a b c) = quadraticF (val a) (val b) (val c)) ∧
    (∀ (center : Vec SZ) (radius : SZ), val (Circle.ofCR center radius) = Circle.ofCR (val center) (val radius)) ∧
    (val (Circle.default : Circle SZ) = Circle.default) ∧
    (∀ c : Circle SZ, val (Circle.area c) = Circle.area (val c)) ∧
    (∀ (c : Circle SZ) (p : Vec SZ), Circle.contains c p = Circle.contains (val c) (val p)) ∧
    (∀ (c : Circle SZ) (l : Line SZ), val (Circle.intersectionLine c l) = Circle.intersectionLine (val c) (val l)) ∧
    (∀ (c : Circle SZ) (s : Seg SZ), val (Circle.intersectionSeg c s) = Circle.intersectionSeg (val c) (val s)) ∧
    (∀ c o : Circle SZ, val (Circle.intersectionCircle c o) = Circle.intersectionCircle (val c) (val o)) ∧
    (∀ p0 p1 p2 : Vec SZ, val (Circle.circumCircle p0 p1 p2) = Circle.circumCircle (val p0) (val p1) (val p2)) ∧
    (∀ q p0 p1 p2 : Vec SZ, Circle.circumCircleContains q p0 p1 p2 = Circle.circumCircleContains (val q) (val p0) (val p1) (val p2)) ∧
    (∀ (c : Circle SZ) (l : Line SZ), val (Circle.intersectionWithLine c l) = Circle.intersectionWithLine (val c) (val l)) ∧
    (∀ (c : Circle SZ) (s : Seg SZ), val (Circle.intersectionWithSegment c s) = Circle.intersectionWithSegment (val c) (val s)) ∧
    (∀ c o : Circle SZ, val (Circle.intersectionWithCircle c o) = Circle.intersectionWithCircle (val c) (val o)) :=
  ⟨sz_quadraticF, sz_Circle_ofCR, sz_Circle_default, sz_Circle_area, sz_Circle_contains, sz_Circle_intersectionLine,
    sz_Circle_intersectionSeg, sz_Circle_intersectionCircle, sz_Circle_circumCircle, sz_Circle_circumCircleContains,
    sz_Circle_intersectionWithLine, sz_Circle_intersectionWithSegment, sz_Circle_intersectionWithCircle⟩

/-- **C178** `Matrix2D`: the results do not depend on the signs of zeros. -/
theorem C178_matrix :
    (val (Mat.identity : Mat SZ) = Mat.identity) ∧
    (∀ m : Mat SZ, val (Mat.det m) = Mat.det (val m)) ∧
    (∀ m : Mat SZ, Mat.invertible m = Mat.invertible (val m)) ∧
    (∀ m : Mat SZ, val (Mat.inverted m) = Mat.inverted (val m)) ∧
    (∀ (m : Mat SZ) (x y : SZ), val (Mat.translate m x y) = Mat.translate (val m) (val x) (val y)) ∧
    (∀ (m : Mat SZ) (sx sy : SZ), val (Mat.scale m sx sy) = Mat.scale (val m) (val sx) (val sy)) ∧
    (∀ (m : Mat SZ) (angle : AngleDeg SZ), val (Mat.rotate m angle) = Mat.rotate (val m) (val angle)) ∧
    (∀ (m : Mat SZ) (x y : SZ), val (Mat.transformXY m x y) = Mat.transformXY (val m) (val x) (val y)) ∧
    (∀ (m : Mat SZ) (v : Vec SZ), val (Mat.transform m v) = Mat.transform (val m) (val v)) ∧
    (∀ (m : Mat SZ) (v : Vec SZ), val (Mat.transformVec m v) = Mat.transformVec (val m) (val v)) ∧
    (∀ x y : SZ, val (Mat.makeTranslation x y) = Mat.makeTranslation (val x) (val y)) ∧
    (∀ sx sy : SZ, val (Mat.makeScaling sx sy) = Mat.makeScaling (val sx) (val sy)) ∧
    (∀ angle : AngleDeg SZ, val (Mat.makeRotation angle) = Mat.makeRotation (val angle)) ∧
    (∀ m o : Mat SZ, val (Mat.mul m o) = Mat.mul (val m) (val o)) ∧
    (∀ m o : Mat SZ, Mat.eq m o = Mat.eq (val m) (val o)) ∧
    (∀ (_m : Mat SZ) (a b c d x y : SZ), val (Mat.assign _m a b c d x y) = Mat.assign (val _m) (val a) (val b) (val c) (val d) (val x) (val y)) :=
  ⟨sz_Mat_identity, sz_Mat_det, sz_Mat_invertible, sz_Mat_inverted, sz_Mat_translate, sz_Mat_scale, sz_Mat_rotate, sz_Mat_transformXY,
    sz_Mat_transform, sz_Mat_transformVec, sz_Mat_makeTranslation, sz_Mat_makeScaling, sz_Mat_makeRotation, sz_Mat_mul, sz_Mat_eq,
    sz_Mat_assign⟩

/-- **C178** `Size2D`: the results do not depend on the signs of zeros. -/
theorem C178_size :
    (∀ l w : SZ, val (Size.ofLW l w) = Size.ofLW (val l) (val w)) ∧
    (∀ (s : Size SZ) (l : SZ), val (Size.setLength s l) = Size.setLength (val s) (val l)) ∧
    (∀ (s : Size SZ) (w : SZ), val (Size.setWidth s w) = Size.setWidth (val s) (val w)) ∧
    (∀ s : Size SZ, val (Size.diagonal s) = Size.diagonal (val s)) ∧
    (∀ s : Size SZ, Size.isValid s = Size.isValid (val s)) ∧
    (∀ s o : Size SZ, Size.eq s o = Size.eq (val s) (val o)) :=
  ⟨sz_Size_ofLW, sz_Size_setLength, sz_Size_setWidth, sz_Size_diagonal, sz_Size_isValid, sz_Size_eq⟩

/-- **C178** `Rect2D`: the results do not depend on the signs of zeros. -/
theorem C178_rect :
    (∀ l t len wid : SZ, val (Rect.ofLTLW l t len wid) = Rect.ofLTLW (val l) (val t) (val len) (val wid)) ∧
    (∀ (p : Vec SZ) (len wid : SZ), val (Rect.ofPointLW p len wid) = Rect.ofPointLW (val p) (val len) (val wid)) ∧
    (∀ p q : Vec SZ, val (Rect.ofCorners p q) = Rect.ofCorners (val p) (val q)) ∧
    (∀ (p : Vec SZ) (s : Size SZ), val (Rect.ofPointSize p s) = Rect.ofPointSize (val p) (val s)) ∧
    (∀ r : Rect SZ, val (Rect.ofRect r) = Rect.ofRect (val r)) ∧
    (val (Rect.ofNothing : Except PyErr (Rect SZ)) = Rect.ofNothing) ∧
    (∀ (r : Rect SZ) (l t _len wid : SZ), val (Rect.assign4 r l t _len wid) = Rect.assign4 (val r) (val l) (val t) (val _len) (val wid)) ∧
    (∀ (_r : Rect SZ) (p : Vec SZ) (len wid : SZ), val (Rect.assign3 _r p len wid) = Rect.assign3 (val _r) (val p) (val len) (val wid)) ∧
    (∀ r : Rect SZ, val (Rect.left r) = Rect.left (val r)) ∧
    (∀ r : Rect SZ, val (Rect.right r) = Rect.right (val r)) ∧
    (∀ r : Rect SZ, val (Rect.top r) = Rect.top (val r)) ∧
    (∀ r : Rect SZ, val (Rect.bottom r) = Rect.bottom (val r)) ∧
    (∀ (r : Rect SZ) (p : Vec SZ), val (Rect.moveCenter r p) = Rect.moveCenter (val r) (val p)) ∧
    (∀ (r : Rect SZ) (p : Vec SZ), val (Rect.moveTopLeft r p) = Rect.moveTopLeft (val r) (val p)) ∧
    (∀ (r : Rect SZ) (p : Vec SZ), val (Rect.moveBottomRight r p) = Rect.moveBottomRight (val r) (val p)) ∧
    (∀ (r : Rect SZ) (x : SZ), val (Rect.moveLeft r x) = Rect.moveLeft (val r) (val x)) ∧
    (∀ (r : Rect SZ) (x : SZ), val (Rect.moveRight r x) = Rect.moveRight (val r) (val x)) ∧
    (∀ (r : Rect SZ) (y : SZ), val (Rect.moveTop r y) = Rect.moveTop (val r) (val y)) ∧
    (∀ (r : Rect SZ) (y : SZ), val (Rect.moveBottom r y) = Rect.moveBottom (val r) (val y)) ∧
    (∀ (r : Rect SZ) (x y : SZ), val (Rect.setTopLeft r x y) = Rect.setTopLeft (val r) (val x) (val y)) ∧
    (∀ (r : Rect SZ) (x y : SZ), val (Rect.setBottomRight r x y) = Rect.setBottomRight (val r) (val x) (val y)) ∧
    (∀ (r : Rect SZ) (x : SZ), val (Rect.setLeft r x) = Rect.setLeft (val r) (val x)) ∧
    (∀ (r : Rect SZ) (x : SZ), val (Rect.setRight r x) = Rect.setRight (val r) (val x)) ∧
    (∀ (r : Rect SZ) (y : SZ), val (Rect.setTop r y) = Rect.setTop (val r) (val y)) ∧
    (∀ (r : Rect SZ) (y : SZ), val (Rect.setBottom r y) = Rect.setBottom (val r) (val y)) ∧
    (∀ (r : Rect SZ) (l : SZ), val (Rect.setLength r l) = Rect.setLength (val r) (val l)) ∧
    (∀ (r : Rect SZ) (w : SZ), val (Rect.setWidth r w) = Rect.setWidth (val r) (val w)) ∧
    (∀ (r : Rect SZ) (l w : SZ), val (Rect.setSize r l w) = Rect.setSize (val r) (val l) (val w)) ∧
    (∀ r : Rect SZ, Rect.isValid r = Rect.isValid (val r)) ∧
    (∀ r : Rect SZ, val (Rect.area r) = Rect.area (val r)) ∧
    (∀ (r : Rect SZ) (p : Vec SZ), Rect.contains r p = Rect.contains (val r) (val p)) ∧
    (∀ (_r : Rect SZ) (_p : Vec SZ) (_thr : SZ), Rect.containsAlmost _r _p _thr = Rect.containsAlmost (val _r) (val _p) (val _thr)) ∧
    (∀ r : Rect SZ, val (Rect.center r) = Rect.center (val r)) ∧
    (∀ r : Rect SZ, val (Rect.getTopLeft r) = Rect.getTopLeft (val r)) ∧
    (∀ r : Rect SZ, val (Rect.topRight r) = Rect.topRight (val r)) ∧
    (∀ r : Rect SZ, val (Rect.bottomLeft r) = Rect.bottomLeft (val r)) ∧
    (∀ r : Rect SZ, val (Rect.bottomRight r) = Rect.bottomRight (val r)) ∧
    (∀ r : Rect SZ, val (Rect.leftEdge r) = Rect.leftEdge (val r)) ∧
    (∀ r : Rect SZ, val (Rect.rightEdge r) = Rect.rightEdge (val r)) ∧
    (∀ r : Rect SZ, val (Rect.topEdge r) = Rect.topEdge (val r)) ∧
    (∀ r : Rect SZ, val (Rect.bottomEdge r) = Rect.bottomEdge (val r)) ∧
    (∀ (r : Rect SZ) (l : Line SZ), val (Rect.intersectionLine r l) = Rect.intersectionLine (val r) (val l)) ∧
    (∀ (r : Rect SZ) (s : Seg SZ), val (Rect.intersectionSeg r s) = Rect.intersectionSeg (val r) (val s)) ∧
    (∀ r o : Rect SZ, val (Rect.intersected r o) = Rect.intersected (val r) (val o)) ∧
    (∀ r o : Rect SZ, val (Rect.united r o) = Rect.united (val r) (val o)) ∧
    (∀ x y l w : SZ, val (Rect.fromCenter4 x y l w) = Rect.fromCenter4 (val x) (val y) (val l) (val w)) ∧
    (∀ (_p : Vec SZ) (_l _w : SZ), val (Rect.fromCenter3 _p _l _w) = Rect.fromCenter3 (val _p) (val _l) (val _w)) :=
  ⟨sz_Rect_ofLTLW, sz_Rect_ofPointLW, sz_Rect_ofCorners, sz_Rect_ofPointSize, sz_Rect_ofRect, sz_Rect_ofNothing, sz_Rect_assign4,
    sz_Rect_assign3, sz_Rect_left, sz_Rect_right, sz_Rect_top, sz_Rect_bottom, sz_Rect_moveCenter, sz_Rect_moveTopLeft,
    sz_Rect_moveBottomRight, sz_Rect_moveLeft, sz_Rect_moveRight, sz_Rect_moveTop, sz_Rect_moveBottom, sz_Rect_setTopLeft,
    sz_Rect_setBottomRight, sz_Rect_setLeft, sz_Rect_setRight, sz_Rect_setTop, sz_Rect_setBottom, sz_Rect_setLength, sz_Rect_setWidth,
    sz_Rect_setSize, sz_Rect_isValid, sz_Rect_area, sz_Rect_contains, sz_Rect_containsAlmost, sz_Rect_center, sz_Rect_getTopLeft,
    sz_Rect_topRight, sz_Rect_bottomLeft, sz_Rect_bottomRight, sz_Rect_leftEdge, sz_Rect_rightEdge, sz_Rect_topEdge, sz_Rect_bottomEdge,
    sz_Rect_intersectionLine, sz_Rect_intersectionSeg, sz_Rect_intersected, sz_Rect_united, sz_Rect_fromCenter4, sz_Rect_fromCenter3⟩

/-- **C178** `Sector2D`, without `contains`: the results do not depend on the signs of zeros. -/
theorem C178_sectorRest :
    (∀ (center : Vec SZ) (minR maxR : SZ) (start stop : AngleDeg SZ), val (Sector.ofArgs center minR maxR start stop) = Sector.ofArgs (val center) (val minR) (val maxR) (val start) (val stop)) ∧
    (∀ s : Sector SZ, val (Sector.radiusMin s) = Sector.radiusMin (val s)) ∧
    (∀ s : Sector SZ, val (Sector.radiusMax s) = Sector.radiusMax (val s)) ∧
    (∀ s : Sector SZ, val (Sector.area s) = Sector.area (val s)) ∧
    (∀ s : Sector SZ, val (Sector.circumferenceMin s) = Sector.circumferenceMin (val s)) ∧
    (∀ s : Sector SZ, val (Sector.circumferenceMax s) = Sector.circumferenceMax (val s)) ∧
    (∀ s o : Sector SZ, Sector.eq s o = Sector.eq (val s) (val o)) :=
  ⟨sz_Sector_ofArgs, sz_Sector_radiusMin, sz_Sector_radiusMax, sz_Sector_area, sz_Sector_circumferenceMin, sz_Sector_circumferenceMax,
    sz_Sector_eq⟩

/-- **C178** `Polygon2D`: the results do not depend on the signs of zeros. -/
theorem C178_polygon :
    (val (Poly.default : Poly SZ) = Poly.default) ∧
    (∀ (l : List (Vec SZ)), val (Poly.ofList l) = Poly.ofList (val l)) ∧
    (∀ (l : List (Vec SZ)), val (Poly.ofVecs l) = Poly.ofVecs (val l)) ∧
    (∀ (p : Poly SZ) (l : List (Vec SZ)), val (Poly.assign p l) = Poly.assign (val p) (val l)) ∧
    (∀ (p : Poly SZ) (v : Vec SZ), val (Poly.addVertex p v) = Poly.addVertex (val p) (val v)) ∧
    (∀ p : Poly SZ, val (Poly.boundingBox p) = Poly.boundingBox (val p)) ∧
    (∀ (poly : Poly SZ) (p : Vec SZ) (allow : Bool), Poly.contains poly p allow = Poly.contains (val poly) (val p) allow) ∧
    (∀ (poly : Poly SZ) (p : Vec SZ) (checkAsPlane : Bool), val (Poly.dist poly p checkAsPlane) = Poly.dist (val poly) (val p) checkAsPlane) ∧
    (∀ poly : Poly SZ, val (Poly.doubleSignedArea poly) = Poly.doubleSignedArea (val poly)) ∧
    (∀ poly : Poly SZ, val (Poly.area poly) = Poly.area (val poly)) ∧
    (∀ poly : Poly SZ, Poly.isCounterClockwise poly = Poly.isCounterClockwise (val poly)) ∧
    (∀ poly : Poly SZ, Poly.isClockwise poly = Poly.isClockwise (val poly)) ∧
    (∀ (poly : Poly SZ) (r : Rect SZ), val (Poly.rectClipped poly r) = Poly.rectClipped (val poly) (val r)) ∧
    (∀ p : Poly SZ, val (Poly.boundingBoxCenter p) = Poly.boundingBoxCenter (val p)) ∧
    (∀ (thr : SZ) (v : Vec SZ), Poly.xLessEqual thr v = Poly.xLessEqual (val thr) (val v)) ∧
    (∀ (thr : SZ) (v : Vec SZ), Poly.xMoreEqual thr v = Poly.xMoreEqual (val thr) (val v)) ∧
    (∀ (thr : SZ) (v : Vec SZ), Poly.yLessEqual thr v = Poly.yLessEqual (val thr) (val v)) ∧
    (∀ (thr : SZ) (v : Vec SZ), Poly.yMoreEqual thr v = Poly.yMoreEqual (val thr) (val v)) :=
  ⟨sz_Poly_default, sz_Poly_ofList, sz_Poly_ofVecs, sz_Poly_assign, sz_Poly_addVertex, sz_Poly_boundingBox, sz_Poly_contains, sz_Poly_dist,
    sz_Poly_doubleSignedArea, sz_Poly_area, sz_Poly_isCounterClockwise, sz_Poly_isClockwise, sz_Poly_rectClipped,
    sz_Poly_boundingBoxCenter, sz_Poly_xLessEqual, sz_Poly_xMoreEqual, sz_Poly_yLessEqual, sz_Poly_yMoreEqual⟩

/-- **C178** `soccer_math.py`: the results do not depend on the signs of zeros. -/
theorem C178_soccer :
    (∀ dist dirDiff power ballSize playerSize margin : SZ, val (SoccerMath.kickRate dist dirDiff power ballSize playerSize margin) = SoccerMath.kickRate (val dist) (val dirDiff) (val power) (val ballSize) (val playerSize) (val margin)) ∧
    (∀ dir back side : SZ, val (SoccerMath.dirRate dir back side) = SoccerMath.dirRate (val dir) (val back) (val side)) ∧
    (∀ moment speed inertia : SZ, val (SoccerMath.effectiveTurn moment speed inertia) = SoccerMath.effectiveTurn (val moment) (val speed) (val inertia)) ∧
    (∀ power rate effort decay : SZ, val (SoccerMath.finalSpeed power rate effort decay) = SoccerMath.finalSpeed (val power) (val rate) (val effort) (val decay)) ∧
    (∀ power rate effort decay speedMax : SZ, SoccerMath.canOverSpeedMax power rate effort decay speedMax = SoccerMath.canOverSpeedMax (val power) (val rate) (val effort) (val decay) (val speedMax)) ∧
    (∀ (vel : Vec SZ) (n : ℤ) (decay : SZ), val (SoccerMath.inertiaNStepTravel vel n decay) = SoccerMath.inertiaNStepTravel (val vel) n (val decay)) ∧
    (∀ (pos vel : Vec SZ) (n : ℤ) (decay : SZ), val (SoccerMath.inertiaNStepPoint pos vel n decay) = SoccerMath.inertiaNStepPoint (val pos) (val vel) n (val decay)) ∧
    (∀ (speed : SZ) (n : ℤ) (decay : SZ), val (SoccerMath.inertiaNStepDistance speed n decay) = SoccerMath.inertiaNStepDistance (val speed) n (val decay)) ∧
    (∀ (vel : Vec SZ) (decay : SZ), val (SoccerMath.inertiaFinalTravel vel decay) = SoccerMath.inertiaFinalTravel (val vel) (val decay)) ∧
    (∀ (pos vel : Vec SZ) (decay : SZ), val (SoccerMath.inertiaFinalPoint pos vel decay) = SoccerMath.inertiaFinalPoint (val pos) (val vel) (val decay)) ∧
    (∀ speed decay : SZ, val (SoccerMath.inertiaFinalDistance speed decay) = SoccerMath.inertiaFinalDistance (val speed) (val decay)) ∧
    (∀ x : SZ, SoccerMath.rInt x = SoccerMath.rInt (val x)) ∧
    (∀ first sum ratio : SZ, val (SoccerMath.calcLengthGeomSeries first sum ratio) = SoccerMath.calcLengthGeomSeries (val first) (val sum) (val ratio)) ∧
    (∀ (sums ratio : SZ) (length : ℤ), val (SoccerMath.calcFirstTermGeomSeries sums ratio length) = SoccerMath.calcFirstTermGeomSeries (val sums) (val ratio) length) ∧
    (∀ a b c : SZ, val (SoccerMath.bound a b c) = SoccerMath.bound (val a) (val b) (val c)) ∧
    (∀ low x high : SZ, val (SoccerMath.minMax low x high) = SoccerMath.minMax (val low) (val x) (val high)) ∧
    (∀ (start : SZ) (stop step : Option SZ) (n : ℕ), val (SoccerMath.fRange start stop step n) = SoccerMath.fRange (val start) (val stop) (val step) n) ∧
    (∀ v q : SZ, val (SoccerMath.quantize v q) = SoccerMath.quantize (val v) (val q)) ∧
    (∀ d q : SZ, val (SoccerMath.quantizeDist d q) = SoccerMath.quantizeDist (val d) (val q)) ∧
    (∀ d q : SZ, val (SoccerMath.unquantizeMin d q) = SoccerMath.unquantizeMin (val d) (val q)) ∧
    (∀ d q : SZ, val (SoccerMath.unquantizeMax d q) = SoccerMath.unquantizeMax (val d) (val q)) ∧
    (∀ (speed weight _force _dir windWeight rand : SZ) (err : Vec SZ), val (SoccerMath.windEffect speed weight _force _dir windWeight rand err) = SoccerMath.windEffect (val speed) (val weight) (val _force) (val _dir) (val windWeight) (val rand) (val err)) ∧
    (∀ see q : SZ, val (SoccerMath.unquantizeError see q) = SoccerMath.unquantizeError (val see) (val q)) :=
  ⟨sz_SoccerMath_kickRate, sz_SoccerMath_dirRate, sz_SoccerMath_effectiveTurn, sz_SoccerMath_finalSpeed, sz_SoccerMath_canOverSpeedMax,
    sz_SoccerMath_inertiaNStepTravel, sz_SoccerMath_inertiaNStepPoint, sz_SoccerMath_inertiaNStepDistance,
    sz_SoccerMath_inertiaFinalTravel, sz_SoccerMath_inertiaFinalPoint, sz_SoccerMath_inertiaFinalDistance, sz_SoccerMath_rInt,
    sz_SoccerMath_calcLengthGeomSeries, sz_SoccerMath_calcFirstTermGeomSeries, sz_SoccerMath_bound, sz_SoccerMath_minMax,
    sz_SoccerMath_fRange, sz_SoccerMath_quantize, sz_SoccerMath_quantizeDist, sz_SoccerMath_unquantizeMin, sz_SoccerMath_unquantizeMax,
    sz_SoccerMath_windEffect, sz_SoccerMath_unquantizeError⟩

/-- **C178** `convex_hull.py`: the results do not depend on the signs of zeros. -/
theorem C178_hull :
    (∀ (l : List (Vec SZ)), val (Hull.list2set Vec.eq l) = Hull.list2set Vec.eq (val l)) ∧
    (∀ lhs rhs base : Vec SZ, Hull.angleSortPredicate lhs rhs base = Hull.angleSortPredicate (val lhs) (val rhs) (val base)) ∧
    (∀ p0 p1 p2 : Vec SZ, Hull.isClockwise p0 p1 p2 = Hull.isClockwise (val p0) (val p1) (val p2)) ∧
    (∀ (pts : List (Vec SZ)), val (Hull.Obj.ofList pts) = Hull.Obj.ofList (val pts)) ∧
    (∀ h : Hull.Obj SZ, val (Hull.Obj.inputPoints h) = Hull.Obj.inputPoints (val h)) ∧
    (∀ h : Hull.Obj SZ, val (Hull.Obj.vertices h) = Hull.Obj.vertices (val h)) ∧
    (∀ h : Hull.Obj SZ, val (Hull.Obj.getEdges h) = Hull.Obj.getEdges (val h)) ∧
    (∀ h : Hull.Obj SZ, val (Hull.Obj.clearResults h) = Hull.Obj.clearResults (val h)) ∧
    (∀ h : Hull.Obj SZ, val (Hull.Obj.clear h) = Hull.Obj.clear (val h)) ∧
    (∀ (h : Hull.Obj SZ) (p : Vec SZ), val (Hull.Obj.addPoint h p) = Hull.Obj.addPoint (val h) (val p)) ∧
    (∀ (h : Hull.Obj SZ) (ps : List (Vec SZ)), val (Hull.Obj.addPoints h ps) = Hull.Obj.addPoints (val h) (val ps)) ∧
    (∀ h : Hull.Obj SZ, val (Hull.Obj.toPolygon h) = Hull.Obj.toPolygon (val h)) ∧
    (∀ (pts : List (Vec SZ)), Hull.minPointIndex pts = Hull.minPointIndex (val pts)) ∧
    (∀ (pts : List (Vec SZ)) (cur : ℕ) (used : List ℕ), Hull.nextIndex pts cur used = Hull.nextIndex (val pts) cur used) ∧
    (∀ h : Hull.Obj SZ, val (Hull.wrapping h) = Hull.wrapping (val h)) ∧
    (∀ s o : Hull.SortKey SZ, Hull.SortKey.lt s o = Hull.SortKey.lt (val s) (val o)) ∧
    (∀ s o : Hull.SortKey SZ, Hull.SortKey.gt s o = Hull.SortKey.gt (val s) (val o)) ∧
    (∀ s o : Hull.SortKey SZ, Hull.SortKey.eq s o = Hull.SortKey.eq (val s) (val o)) ∧
    (∀ s o : Hull.SortKey SZ, Hull.SortKey.le s o = Hull.SortKey.le (val s) (val o)) ∧
    (∀ s o : Hull.SortKey SZ, Hull.SortKey.ge s o = Hull.SortKey.ge (val s) (val o)) ∧
    (∀ s o : Hull.SortKey SZ, Hull.SortKey.ne s o = Hull.SortKey.ne (val s) (val o)) :=
  ⟨sz_Hull_list2set, sz_Hull_angleSortPredicate, sz_Hull_isClockwise, sz_Hull_Obj_ofList, sz_Hull_Obj_inputPoints, sz_Hull_Obj_vertices,
    sz_Hull_Obj_getEdges, sz_Hull_Obj_clearResults, sz_Hull_Obj_clear, sz_Hull_Obj_addPoint, sz_Hull_Obj_addPoints, sz_Hull_Obj_toPolygon,
    sz_Hull_minPointIndex, sz_Hull_nextIndex, sz_Hull_wrapping, sz_Hull_SortKey_lt, sz_Hull_SortKey_gt, sz_Hull_SortKey_eq,
    sz_Hull_SortKey_le, sz_Hull_SortKey_ge, sz_Hull_SortKey_ne⟩

/-! ## Directions -/

/-- `-0.0` -/
def Spec.NegZero (a : SZ) : Prop := a.v = fin 0 ∧ a.z = true

/-- `0.0` -/
def Spec.PosZero (a : SZ) : Prop := a.v = fin 0 ∧ a.z = false

/-- The vector points to the negative x axis from below: `y` is `-0.0` and `x` is negative (by at least `EPSILON`). -/
def Spec.FromBelow (v : Vec SZ) : Prop := NegZero v.y ∧ v.x.v ≤ -EPSILON

theorem ieee_le_neg_EPSILON {a : ℝ} : fin a ≤ -(EPSILON : Ieee) ↔ a ≤ -(EPSILON : FP double).val := by
  rw [EPSILON_sim.eq]; rfl

theorem ieee_fabs (a : ℝ) : fabs (fin a) = fin |a| := by
  unfold fabs
  rw [num_ieee_zero]
  by_cases h : a < 0
  · rw [if_pos (show fin a < fin 0 from h), abs_of_neg h]; rfl
  · rw [if_neg (show ¬ fin a < fin 0 from h), abs_of_nonneg (not_lt.mp h)]

theorem ieee_lt_EPSILON {a : ℝ} : fin a < (EPSILON : Ieee) ↔ a < (EPSILON : FP double).val := by
  rw [EPSILON_sim.eq]; rfl

open Classical in
theorem val_atan2 (y x : SZ) : val (PyMath.atan2 y x) = if y.v = fin 0 ∧ x.v ≠ nan then
    (if x.sgn then ofReal (if y.z then -Real.pi else Real.pi) else fin 0) else PyMath.atan2 y.v x.v := rfl

theorem ieee_ofReal_zero : ofReal 0 = fin 0 := by
  rw [Ieee.ofReal_of_le (n := 0) (by norm_num) (by norm_num), rne_zero]

theorem sgn_fin {x : SZ} {a : ℝ} (h : x.v = fin a) (h0 : a ≠ 0) : x.sgn = decide (a < 0) := by
  classical
  unfold SZ.sgn
  rw [h]
  exact if_neg h0

theorem sgn_inf {x : SZ} {s : Bool} (h : x.v = inf s) : x.sgn = s := by
  unfold SZ.sgn
  rw [h]

/-- **C178** (partial: not for `y` `-0.0` and `x` negative). `atan2_deg` does not depend on the signs of zeros. -/
theorem C178_atan2Deg_partial (y x : SZ) (h : ¬ (NegZero y ∧ x.v ≤ -EPSILON)) :
    val (AngleDeg.atan2Deg y x) = AngleDeg.atan2Deg (val y) (val x) := by
  classical
  simp only [AngleDeg.atan2Deg, sz]
  by_cases hs : fabs (val x) < EPSILON ∧ fabs (val y) < EPSILON
  · rw [if_pos hs, if_pos hs]
  rw [if_neg hs, if_neg hs]
  refine congrArg AngleDeg.rad2deg ?_
  rw [val_atan2]
  by_cases hy : y.v = fin 0
  swap
  · rw [if_neg (fun h => hy h.1)]; rfl
  have hys : fabs (val y) < (EPSILON : Ieee) := by
    change fabs y.v < _
    rw [hy]; exact fabs_fin_zero_lt
  have hxs : ¬ fabs x.v < (EPSILON : Ieee) := fun h => hs ⟨h, hys⟩
  change _ = PyMath.atan2 y.v x.v
  rw [hy]
  rcases hx : x.v with _ | s | a
  · rw [if_neg (by simp)]
  · rw [if_pos (by simp), sgn_inf hx]
    cases s with
    | false => rfl
    | true =>
      have hz : y.z = false := by
        by_contra hz
        refine h ⟨⟨hy, by simpa using hz⟩, ?_⟩
        rw [hx, EPSILON_sim.eq]; rfl
      rw [hz]
      change ofReal Real.pi = ofReal (if (0 : ℝ) < 0 then _ else _)
      rw [if_neg (lt_irrefl _)]
  · rw [if_pos (by simp)]
    rw [hx, ieee_fabs, ieee_lt_EPSILON] at hxs
    have ha : a ≠ 0 := by
      rintro rfl
      rw [abs_zero] at hxs
      exact hxs fp_EPSILON.1
    rw [sgn_fin hx ha]
    change _ = ofReal (Complex.arg ⟨a, 0⟩)
    rcases lt_or_gt_of_ne ha with h0 | h0
    · have hz : y.z = false := by
        by_contra hz
        refine h ⟨⟨hy, by simpa using hz⟩, ?_⟩
        rw [hx, ieee_le_neg_EPSILON]
        rw [abs_of_neg h0] at hxs
        linarith
      rw [hz, decide_eq_true h0, show (⟨a, 0⟩ : ℂ) = (a : ℂ) from rfl, Complex.arg_ofReal_of_neg h0]
      rfl
    · rw [decide_eq_false h0.le.not_gt, show (⟨a, 0⟩ : ℂ) = (a : ℂ) from rfl, Complex.arg_ofReal_of_nonneg h0.le, ieee_ofReal_zero]
      rfl

/-- **C178** `y` is `-0.0` and `x` is negative: the result is -180, whereas it is 180 for `0.0`. -/
theorem C178_atan2Deg_below (y x : SZ) (h : NegZero y ∧ x.v ≤ -EPSILON) :
    val (AngleDeg.atan2Deg y x) = fin (-180) ∧ AngleDeg.atan2Deg (val y) (val x) = fin 180 := by
  classical
  obtain ⟨⟨hy, hz⟩, hx⟩ := h
  have hs : ¬ (fabs (val x) < EPSILON ∧ fabs (val y) < EPSILON) := by
    rintro ⟨h1, -⟩
    change fabs x.v < _ at h1
    rcases hv : x.v with _ | s | a
    · rw [hv] at hx; exact hx
    · rw [hv] at h1 hx
      rw [EPSILON_sim.eq] at h1 hx
      have hs : s = true := hx
      subst hs
      have : fabs (inf true) = inf false := by
        unfold fabs
        rw [num_ieee_zero, if_pos (show inf true < fin 0 from rfl)]; rfl
      rw [this] at h1
      exact absurd (show false = true from h1) (by simp)
    · rw [hv, ieee_fabs, ieee_lt_EPSILON] at h1
      rw [hv, ieee_le_neg_EPSILON] at hx
      have := neg_abs_le a
      linarith
  have hneg : x.sgn = true ∧ x.v ≠ nan ∧ PyMath.atan2 (fin 0) x.v = PyMath.pi := by
    rcases hv : x.v with _ | s | a
    · rw [hv] at hx; exact hx.elim
    · rw [hv, EPSILON_sim.eq] at hx
      have hs : s = true := hx
      subst hs
      refine ⟨sgn_inf hv, by simp, ?_⟩
      change ofReal (if (0 : ℝ) < 0 then _ else _) = _
      rw [if_neg (lt_irrefl _)]; rfl
    · rw [hv, ieee_le_neg_EPSILON] at hx
      have h0 : a < 0 := by have := fp_EPSILON.1; linarith
      refine ⟨by rw [sgn_fin hv h0.ne, decide_eq_true h0], by simp, ?_⟩
      change ofReal (Complex.arg ⟨a, 0⟩) = ofReal Real.pi
      rw [show (⟨a, 0⟩ : ℂ) = (a : ℂ) from rfl, Complex.arg_ofReal_of_neg h0]
  have e1 : val (PyMath.atan2 y x) = -(PyMath.pi : Ieee) := by
    rw [val_atan2, if_pos ⟨hy, hneg.2.1⟩, hneg.1, hz]
    exact Ieee.ofReal_neg Real.pi
  constructor
  · simp only [AngleDeg.atan2Deg, sz]
    rw [if_neg hs, e1]
    have : AngleDeg.rad2deg (-(PyMath.pi : Ieee)) = -AngleDeg.rad2deg (PyMath.pi : Ieee) := OddNum.neg_mul _ _
    rw [this, ieee_rad2deg_pi]; rfl
  · unfold AngleDeg.atan2Deg
    rw [if_neg hs]
    change AngleDeg.rad2deg (PyMath.atan2 y.v x.v) = _
    rw [hy, hneg.2.2, ieee_rad2deg_pi]

theorem ieee_normalDeg_180 : AngleDeg.normalDeg (fin 180) = fin 180 ∧ AngleDeg.normalDeg (fin (-180)) = fin (-180) := by
  constructor
  · unfold AngleDeg.normalDeg
    simp only [num_ieee (show 360 ≤ 2 ^ 53 by norm_num), num_ieee (show 180 ≤ 2 ^ 53 by norm_num)]
    have h1 : ¬ (fin 180 < -fin ((360 : ℕ) : ℝ) ∨ fin ((360 : ℕ) : ℝ) < fin 180) := by
      change ¬ ((180 : ℝ) < -((360 : ℕ) : ℝ) ∨ ((360 : ℕ) : ℝ) < (180 : ℝ)); norm_num
    have h2 : ¬ fin 180 < -fin ((180 : ℕ) : ℝ) := by
      change ¬ ((180 : ℝ) < -((180 : ℕ) : ℝ)); norm_num
    have h3 : ¬ fin ((180 : ℕ) : ℝ) < fin 180 := by
      change ¬ (((180 : ℕ) : ℝ) < (180 : ℝ)); norm_num
    rw [if_neg h1, if_neg h2, if_neg h3]
  · unfold AngleDeg.normalDeg
    simp only [num_ieee (show 360 ≤ 2 ^ 53 by norm_num), num_ieee (show 180 ≤ 2 ^ 53 by norm_num)]
    have h1 : ¬ (fin (-180) < -fin ((360 : ℕ) : ℝ) ∨ fin ((360 : ℕ) : ℝ) < fin (-180)) := by
      change ¬ ((-180 : ℝ) < -((360 : ℕ) : ℝ) ∨ ((360 : ℕ) : ℝ) < (-180 : ℝ)); norm_num
    have h2 : ¬ fin (-180) < -fin ((180 : ℕ) : ℝ) := by
      change ¬ ((-180 : ℝ) < -((180 : ℕ) : ℝ)); norm_num
    have h3 : ¬ fin ((180 : ℕ) : ℝ) < fin (-180) := by
      change ¬ (((180 : ℕ) : ℝ) < (-180 : ℝ)); norm_num
    rw [if_neg h1, if_neg h2, if_neg h3]

/-- **C178** (partial: not for a vector pointing to the negative x axis from below). `th` does not depend on the signs of zeros. -/
theorem C178_th_partial (v : Vec SZ) (h : ¬ FromBelow v) : val v.th = (val v).th := by
  simp only [Vec.th, sz]
  rw [C178_atan2Deg_partial v.y v.x h]; rfl

/-- **C178** For a vector pointing to the negative x axis from below `th` is -180 and not 180. -/
theorem C178_th_below (v : Vec SZ) (h : FromBelow v) : val v.th = ⟨fin (-180)⟩ ∧ (val v).th = ⟨fin 180⟩ := by
  have := C178_atan2Deg_below v.y v.x h
  simp only [Vec.th, sz]
  constructor
  · rw [this.1]; exact congrArg AngleDeg.mk ieee_normalDeg_180.2
  · change AngleDeg.ofNum (AngleDeg.atan2Deg (val v.y) (val v.x)) = _
    rw [this.2]; exact congrArg AngleDeg.mk ieee_normalDeg_180.1

/-- **C178** `th` ignores the signs of zeros exactly for the other vectors. -/
theorem C178_th_iff (v : Vec SZ) : val v.th = (val v).th ↔ ¬ FromBelow v := by
  refine ⟨fun e h => ?_, C178_th_partial v⟩
  rw [(C178_th_below v h).1, (C178_th_below v h).2] at e
  have := Ieee.fin.inj (congrArg AngleDeg.deg e)
  norm_num at this

/-- The value is a double, an infinity or NaN. -/
def Spec.IsIeee (a : SZ) : Prop := ∀ x, a.v = fin x → IsDouble x

/-- **C178** A difference of doubles is `-0.0` only if it is the difference `-0.0 - 0.0`. -/
theorem C178_sub (a b : SZ) (ha : IsIeee a) (hb : IsIeee b) : NegZero (a - b) ↔ NegZero a ∧ PosZero b := by
  classical
  constructor
  · rintro ⟨hv, hz⟩
    change Ieee.add a.v (Ieee.neg b.v) = fin 0 at hv
    change (a.sgn && (-b).sgn) = true at hz
    rw [Bool.and_eq_true] at hz
    rcases hx : a.v with _ | s | x
    · rw [hx] at hv; cases hv
    · rcases hy : b.v with _ | t | y
      · rw [hx, hy] at hv; cases hv
      · rw [hx, hy] at hv
        change (if s = !t then inf s else nan) = _ at hv
        split at hv <;> cases hv
      · rw [hx, hy] at hv; cases hv
    · rcases hy : b.v with _ | t | y
      · rw [hx, hy] at hv; cases hv
      · rw [hx, hy] at hv; cases hv
      · rw [hx, hy] at hv
        have h0 : rne (x - y) = 0 := by
          change ofReal (x + -y) = fin 0 at hv
          unfold ofReal at hv
          split at hv
          · rw [sub_eq_add_neg]; exact Ieee.fin.inj hv
          · cases hv
        have hxy : x = y := by
          have h1 := rne_pos_iff (ha x hx) (hb y hy)
          have h2 := rne_pos_iff (hb y hy) (ha x hx)
          rw [← neg_sub, rne_neg, h0] at h2
          rw [h0] at h1
          simp only [lt_irrefl, neg_zero, false_iff, not_lt] at h1 h2
          linarith
        have hnb : (-b).v = fin (-y) := by change Ieee.neg b.v = _; rw [hy]; rfl
        by_cases hx0 : x = 0
        · subst hx0
          subst hxy
          refine ⟨⟨hx, ?_⟩, hy, ?_⟩
          · have := hz.1
            unfold SZ.sgn at this
            rw [hx] at this
            simpa using this
          · have := hz.2
            unfold SZ.sgn at this
            rw [hnb] at this
            simp only [neg_zero, if_true] at this
            change (!b.z) = true at this
            simpa using this
        · have h1 := hz.1
          have h2 := hz.2
          rw [sgn_fin hx hx0] at h1
          rw [sgn_fin hnb (neg_ne_zero.mpr (hxy ▸ hx0))] at h2
          have h3 := of_decide_eq_true h1
          have h4 := of_decide_eq_true h2
          linarith
  · rintro ⟨⟨h1, h2⟩, h3, h4⟩
    have hnb : (-b).v = fin (-0) := by change Ieee.neg b.v = _; rw [h3]; rfl
    refine ⟨?_, ?_⟩
    · change Ieee.add a.v (-b).v = fin 0
      rw [h1, hnb]
      change ofReal (0 + -0) = _
      rw [neg_zero, add_zero, ieee_ofReal_zero]
    · change (a.sgn && (-b).sgn) = true
      unfold SZ.sgn
      rw [h1, hnb]
      simp only [neg_zero, if_true]
      change (a.z && !b.z) = true
      rw [h2, h4]; rfl

/-- **C178** The vector from `o` to `p` points to the negative x axis from below only if the y coordinate of `p` is `-0.0`
and that of `o` is `0.0`. -/
theorem C178_fromBelow (p o : Vec SZ) (hp : IsIeee p.y) (ho : IsIeee o.y) (h : FromBelow (p.sub o)) : NegZero p.y ∧ PosZero o.y :=
  (C178_sub p.y o.y hp ho).mp h.1

/-- **C178** (partial: not for a vector pointing to the negative x axis from below). A ray through a point. -/
theorem C178_ray_partial (origin p : Vec SZ) (h : ¬ FromBelow (p.sub origin)) : val (Ray.ofPoint origin p) = Ray.ofPoint (val origin) (val p) := by
  simp only [Ray.ofPoint, sz, C178_th_partial _ h]

/-- **C178** (partial, as before). The direction of a segment. -/
theorem C178_direction_partial (s : Seg SZ) (h : ¬ FromBelow (s.terminal.sub s.origin)) : val s.direction = (val s).direction := by
  simp only [Seg.direction, sz, C178_th_partial _ h]

/-- **C178** (partial, as before). -/
theorem C178_inRightDir_partial (r : Ray SZ) (p : Vec SZ) (thr : SZ) (h : ¬ FromBelow (p.sub r.origin)) :
    r.inRightDir p thr = (val r).inRightDir (val p) (val thr) := by
  simp only [Ray.inRightDir, sz, C178_th_partial _ h]

/-- **C178** (partial, as before). -/
theorem C178_rayLine_partial (r : Ray SZ) (l : Line SZ) (h : ¬ FromBelow ((r.line.intersection l).sub r.origin)) :
    val (r.intersectionLine l) = (val r).intersectionLine (val l) := by
  simp only [Ray.intersectionLine, sz, C178_inRightDir_partial _ _ _ h]

/-- **C178** (partial, as before). -/
theorem C178_rayRay_partial (r o : Ray SZ) (h : ¬ FromBelow ((r.line.intersection o.line).sub r.origin))
    (h' : ¬ FromBelow ((r.line.intersection o.line).sub o.origin)) : val (r.intersectionRay o) = (val r).intersectionRay (val o) := by
  simp only [Ray.intersectionRay, sz, C178_inRightDir_partial _ _ _ h, C178_inRightDir_partial _ _ _ h']

/-- **C178** (partial, as before). -/
theorem C178_circleRay_partial (c : Circle SZ) (r : Ray SZ)
    (h : ∀ sol, c.intersectionLine (Line.ofAngle (Vec.ofVec r.origin) (AngleDeg.ofAngle r.dir)) = .ok sol → ∀ p ∈ sol, ¬ FromBelow (p.sub r.origin)) :
    val (c.intersectionRay r) = (val c).intersectionRay (val r) := by
  simp only [Circle.intersectionRay]
  have e := sz_Circle_intersectionLine c (Line.ofAngle (Vec.ofVec r.origin) (AngleDeg.ofAngle r.dir))
  rcases hq : c.intersectionLine (Line.ofAngle (Vec.ofVec r.origin) (AngleDeg.ofAngle r.dir)) with err | sol
  · rw [hq] at e
    simp only [sz] at e
    simp only [sz, ← e]
    rfl
  · rw [hq] at e
    simp only [sz] at e
    simp only [sz, ← e]
    exact congrArg Except.ok (val_dropRejected_on _ _ _ fun p hp => by
      rw [C178_inRightDir_partial r p _ (h sol hq p hp)]; rfl)

/-- **C178** (partial, as before). -/
theorem C178_rectRay_partial (t : Rect SZ) (r : Ray SZ) (h : ∀ p ∈ t.intersectionLine r.line, ¬ FromBelow (p.sub r.origin)) :
    val (t.intersectionRay r) = (val t).intersectionRay (val r) := by
  simp only [Rect.intersectionRay]
  rw [val_dropRejected_on _ (fun p => (val r).inRightDir p (num 1)) _ fun p hp => by
    rw [C178_inRightDir_partial r p _ (h p hp)]; rfl]
  simp only [sz]

/-- **C178** (partial, as before). -/
theorem C178_triRay_partial (t : Tri SZ) (r : Ray SZ)
    (h : ∀ s, t.intersectionLine r.line = .ok s → ¬ FromBelow (s.s0.sub r.origin)) :
    val (t.intersectionRay r) = (val t).intersectionRay (val r) := by
  simp only [Tri.intersectionRay]
  have e := sz_Tri_intersectionLine t r.line
  rcases hq : t.intersectionLine r.line with err | s
  · rw [hq] at e
    simp only [sz] at e
    rw [← e]
    rfl
  · rw [hq] at e
    simp only [sz] at e
    rw [← e]
    obtain ⟨n, s0, s1⟩ := s
    have hr : r.inRightDir s0 (num 1) = (val r).inRightDir (val s0) (num 1) := C178_inRightDir_partial r s0 (num 1) (h _ hq)
    simp only [bind, Except.bind, pure, Except.pure, val_InterRes]
    cases hb : (val r).inRightDir (val s0) (num 1) <;> rw [hb] at hr <;> by_cases h1 : 1 < n <;> by_cases h2 : 0 < n - 1 <;> by_cases h3 : 0 < n <;>
      simp [h1, h2, h3, hr, hb, sz]

/-- **C178** (partial, as before). -/
theorem C178_sector_partial (s : Sector SZ) (p : Vec SZ) (h : ¬ FromBelow (p.sub s.center)) : s.contains p = (val s).contains (val p) := by
  simp only [Sector.contains, sz, C178_th_partial _ h]

/-- **C178** (partial, as before). -/
theorem C178_incenter_partial (a b c : Vec SZ) (h1 : ¬ FromBelow (b.sub a)) (h2 : ¬ FromBelow (c.sub a)) (h3 : ¬ FromBelow (a.sub b))
    (h4 : ¬ FromBelow (c.sub b)) : val (Tri.triIncenter a b c) = Tri.triIncenter (val a) (val b) (val c) := by
  simp only [Tri.triIncenter, sz, C178_th_partial _ h1, C178_th_partial _ h2, C178_th_partial _ h3, C178_th_partial _ h4]


/-! ## Convex hulls -/

/-- **C178** The hypothesis on the sort holds for the stable sort. -/
theorem C178_mergeSort : SortVal (fun lt l => l.mergeSort fun a b => !lt b a) (fun lt l => l.mergeSort fun a b => !lt b a) := by
  intro lt lt' h l
  exact List.map_mergeSort fun a _ b _ => by rw [h b a]

/-- **C178** The three methods of `ConvexHull`, with a sort that does not look at the signs of zeros other than through the comparison. -/
theorem C178_compute (srt : (Vec SZ → Vec SZ → Bool) → List (Vec SZ) → List (Vec SZ)) (srt' : (Vec Ieee → Vec Ieee → Bool) → List (Vec Ieee) → List (Vec Ieee))
    (hs : SortVal srt srt') (h : Hull.Obj SZ) (m : Hull.Method) : val (Hull.compute srt h m) = Hull.compute srt' (val h) m :=
  val_compute srt srt' hs h m

/-! ## Where the sign of zero matters -/

theorem ieee_normalDeg {a : ℝ} (h : |a| ≤ 180) : AngleDeg.normalDeg (fin a) = fin a := by
  have h' := abs_le.mp h
  unfold AngleDeg.normalDeg
  simp only [num_ieee (show 360 ≤ 2 ^ 53 by norm_num), num_ieee (show 180 ≤ 2 ^ 53 by norm_num)]
  have h1 : ¬ (fin a < -fin ((360 : ℕ) : ℝ) ∨ fin ((360 : ℕ) : ℝ) < fin a) := by
    change ¬ (a < -((360 : ℕ) : ℝ) ∨ ((360 : ℕ) : ℝ) < a)
    push_cast
    rintro (h | h) <;> linarith
  have h2 : ¬ fin a < -fin ((180 : ℕ) : ℝ) := by
    change ¬ (a < -((180 : ℕ) : ℝ))
    push_cast
    linarith
  have h3 : ¬ fin ((180 : ℕ) : ℝ) < fin a := by
    change ¬ (((180 : ℕ) : ℝ) < a)
    push_cast
    linarith
  rw [if_neg h1, if_neg h2, if_neg h3]

theorem ieee_isLeftEqualOf {a b : ℤ} (ha : |a| ≤ 180) (hb : |b| ≤ 180) : AngleDeg.isLeftEqualOf ⟨fin a⟩ ⟨fin b⟩ =
    ((decide (0 ≤ b - a) && decide (b - a < 180)) || decide (b - a < -180)) := by
  have hb' : |(b : ℝ)| ≤ 180 := by exact_mod_cast hb
  have e : fin (b : ℝ) - fin (a : ℝ) = fin ((b - a : ℤ) : ℝ) := by
    change ofReal ((b : ℝ) + -(a : ℝ)) = _
    have e1 : (b : ℝ) + -(a : ℝ) = ((b - a : ℤ) : ℝ) := by push_cast; ring
    have h2 : |b - a| ≤ 360 := by
      rw [abs_le] at *
      constructor <;> omega
    have h3 : |((b - a : ℤ) : ℝ)| ≤ 2 ^ 9 := by
      have : |((b - a : ℤ) : ℝ)| ≤ 360 := by exact_mod_cast h2
      linarith
    rw [e1, Ieee.ofReal_of_le (n := 9) (by norm_num) h3, rne_int (h2.trans (by norm_num))]
  have d : AngleDeg.degree (⟨fin (b : ℝ)⟩ : AngleDeg Ieee) = fin b := ieee_normalDeg hb'
  unfold AngleDeg.isLeftEqualOf
  simp only [d, e, num_ieee (show 180 ≤ 2 ^ 53 by norm_num), num_ieee_zero]
  congr 1
  · congr 1
    · exact decide_eq_decide.mpr (by change (0 : ℝ) ≤ ((b - a : ℤ) : ℝ) ↔ _; exact_mod_cast Iff.rfl)
    · exact decide_eq_decide.mpr (by change ((b - a : ℤ) : ℝ) < ((180 : ℕ) : ℝ) ↔ _; exact_mod_cast Iff.rfl)
  · exact decide_eq_decide.mpr (by change ((b - a : ℤ) : ℝ) < -((180 : ℕ) : ℝ) ↔ _; exact_mod_cast Iff.rfl)

/-- -180 is not within 90 and 180, but 180 is. -/
theorem ieee_isWithin_180 : AngleDeg.isWithin (⟨fin 180⟩ : AngleDeg Ieee) ⟨fin 90⟩ ⟨fin 180⟩ = true ∧
    AngleDeg.isWithin (⟨fin (-180)⟩ : AngleDeg Ieee) ⟨fin 90⟩ ⟨fin 180⟩ = false := by
  have e1 := ieee_isLeftEqualOf (a := 90) (b := 180) (by norm_num) (by norm_num)
  have e2 := ieee_isLeftEqualOf (a := 180) (b := 180) (by norm_num) (by norm_num)
  have e3 := ieee_isLeftEqualOf (a := 90) (b := -180) (by norm_num) (by norm_num)
  have e4 := ieee_isLeftEqualOf (a := -180) (b := 180) (by norm_num) (by norm_num)
  push_cast at e1 e2 e3 e4
  constructor
  · unfold AngleDeg.isWithin
    rw [e1, e2]; decide
  · unfold AngleDeg.isWithin
    rw [e1, e3, e4]; decide

/-- The point `(-1, ±0.0)`. -/
noncomputable def Spec.west (z : Bool) : Vec SZ := ⟨⟨fin (-1), false⟩, ⟨fin 0, z⟩, true⟩

/-- The sector around the origin from 90 to 180 degrees. -/
noncomputable def Spec.northWest : Sector SZ :=
  ⟨⟨⟨fin 0, false⟩, ⟨fin 0, false⟩, true⟩, ⟨fin 0, false⟩, ⟨fin 10, false⟩, ⟨⟨fin 90, false⟩⟩, ⟨⟨fin 180, false⟩⟩⟩

theorem west_EPSILON : fin (-1) ≤ -(EPSILON : Ieee) := by
  rw [ieee_le_neg_EPSILON]
  have := fp_EPSILON.2
  have : (2 : ℝ) ^ (-18 : ℤ) ≤ 1 := by norm_num
  linarith

theorem west_val (z : Bool) : val ((west z).sub northWest.center) = ⟨fin (-1), fin 0, true⟩ := by
  change (⟨ofReal (-1 + -0), ofReal (0 + -0), true⟩ : Vec Ieee) = _
  rw [neg_zero, add_zero, add_zero, ieee_ofReal_zero, Ieee.ofReal_of_le (n := 0) (by norm_num) (by norm_num),
    show (-1 : ℝ) = ((-1 : ℤ) : ℝ) by norm_num, rne_int (by norm_num)]

theorem west_below : FromBelow ((west true).sub northWest.center) := by
  refine ⟨(C178_sub _ _ ?_ ?_).mpr ⟨⟨rfl, rfl⟩, rfl, rfl⟩, ?_⟩
  · intro x h
    have h : fin 0 = fin x := h
    rw [← Ieee.fin.inj h]; simpa using isDouble_nat (n := 0) (by norm_num)
  · intro x h
    have h : fin 0 = fin x := h
    rw [← Ieee.fin.inj h]; simpa using isDouble_nat (n := 0) (by norm_num)
  · have := congrArg Vec.x (west_val true)
    change ((west true).sub northWest.center).x.v = fin (-1) at this
    rw [this]
    exact west_EPSILON

theorem west_th : (⟨fin (-1), fin 0, true⟩ : Vec Ieee).th = ⟨fin 180⟩ := by
  rw [← west_val true]; exact (C178_th_below _ west_below).2

theorem west_r2 : (⟨fin (-1), fin 0, true⟩ : Vec Ieee).r2 = fin 1 := by
  change Ieee.add (ofReal (-1 * -1)) (ofReal (0 * 0)) = _
  rw [mul_zero, ieee_ofReal_zero, show (-1 * -1 : ℝ) = ((1 : ℤ) : ℝ) by norm_num, Ieee.ofReal_of_le (n := 0) (by norm_num) (by norm_num),
    rne_int (by norm_num)]
  change ofReal (((1 : ℤ) : ℝ) + 0) = _
  rw [add_zero, Ieee.ofReal_of_le (n := 0) (by norm_num) (by norm_num), rne_int (by norm_num)]
  norm_num

/-- **C178** (the unrestricted statement is false) The sector from 90 to 180 degrees contains the point `(-1, 0.0)` and does not
contain `(-1, -0.0)`. -/
theorem C178_refuted : val (west false) = val (west true) ∧ northWest.contains (west false) = true ∧ northWest.contains (west true) = false := by
  have hr : ∀ z, ((west z).sub northWest.center).r2.v = fin 1 := fun z => by
    have := sz_Vec_r2 ((west z).sub northWest.center)
    rw [west_val z, west_r2] at this
    exact this
  have hw : ∀ z, northWest.contains (west z) = AngleDeg.isWithin (val ((west z).sub northWest.center).th) ⟨fin 90⟩ ⟨fin 180⟩ := by
    intro z
    have e1 : northWest.minR * northWest.minR ≤ ((west z).sub northWest.center).r2 := by
      change ofReal (0 * 0) ≤ ((west z).sub northWest.center).r2.v
      rw [hr, mul_zero, ieee_ofReal_zero]
      exact zero_le_one (α := ℝ)
    have e2 : ((west z).sub northWest.center).r2 ≤ northWest.maxR * northWest.maxR := by
      change ((west z).sub northWest.center).r2.v ≤ ofReal (10 * 10)
      rw [hr, show (10 * 10 : ℝ) = ((100 : ℤ) : ℝ) by norm_num, Ieee.ofReal_of_le (n := 7) (by norm_num) (by norm_num [abs_of_pos]),
        rne_int (by norm_num)]
      change (1 : ℝ) ≤ ((100 : ℤ) : ℝ)
      norm_num
    unfold Sector.contains
    simp only [decide_eq_true e1, decide_eq_true e2, Bool.true_and]
    rw [sz_AngleDeg_isWithin]; rfl
  refine ⟨rfl, ?_, ?_⟩
  · rw [hw, C178_th_partial, west_val, west_th]
    · exact ieee_isWithin_180.1
    · rintro ⟨h, -⟩
      have := h.2
      change (SZ.sgn _ && SZ.sgn _) = true at this
      rw [Bool.and_eq_true] at this
      have h1 := this.1
      unfold SZ.sgn at h1
      simp [west] at h1
  · rw [hw, (C178_th_below _ west_below).1]
    exact ieee_isWithin_180.2

/-- Negating `0.0` gives `-0.0`: the reverse of `(1, 0.0)` has the direction -180, although `(-1, 0.0)` has the direction 180. -/
theorem C178_reverse_refuted : val (Vec.reverse ⟨⟨fin 1, false⟩, ⟨fin 0, false⟩, true⟩ : Vec SZ) = val (west false) ∧
    val (Vec.reverse ⟨⟨fin 1, false⟩, ⟨fin 0, false⟩, true⟩ : Vec SZ).th = ⟨fin (-180)⟩ ∧ val (west false).th = ⟨fin 180⟩ := by
  have m1 : (-(num 1) : SZ).v = fin (-1) := by
    change -(num 1 : Ieee) = _
    rw [num_ieee (by norm_num)]
    change fin (-((1 : ℕ) : ℝ)) = _
    norm_num
  have e1 : ((⟨fin 1, false⟩ : SZ) * -(num 1)).v = fin (-1) := by
    change fin 1 * (-(num 1) : SZ).v = _
    rw [m1]
    change ofReal (1 * -1) = _
    rw [show (1 * -1 : ℝ) = ((-1 : ℤ) : ℝ) by norm_num, Ieee.ofReal_of_le (n := 0) (by norm_num) (by norm_num), rne_int (by norm_num)]
    norm_num
  have e2 : ((⟨fin 0, false⟩ : SZ) * -(num 1)).v = fin 0 := by
    change fin 0 * (-(num 1) : SZ).v = _
    rw [m1]
    change ofReal (0 * -1) = _
    rw [zero_mul, ieee_ofReal_zero]
  have hb : FromBelow (Vec.reverse ⟨⟨fin 1, false⟩, ⟨fin 0, false⟩, true⟩ : Vec SZ) := by
    refine ⟨⟨e2, ?_⟩, ?_⟩
    · change (SZ.sgn ⟨fin 0, false⟩ != SZ.sgn (-(num 1))) = true
      rw [sgn_fin m1 (by norm_num), decide_eq_true (by norm_num)]
      simp [SZ.sgn]
    · change ((⟨fin 1, false⟩ : SZ) * -(num 1)).v ≤ _
      rw [e1]; exact west_EPSILON
  refine ⟨?_, (C178_th_below _ hb).1, ?_⟩
  · change (⟨((⟨fin 1, false⟩ : SZ) * -(num 1)).v, ((⟨fin 0, false⟩ : SZ) * -(num 1)).v, true⟩ : Vec Ieee) = _
    rw [e1, e2]; rfl
  · rw [C178_th_partial]
    · exact west_th
    · rintro ⟨h, -⟩
      exact absurd h.2 (by simp [west])

/-- The direction of `(-1, -0.0)` is compared below. -/
example : ¬ FromBelow (west false) ∧ FromBelow (west true) := by
  refine ⟨?_, ⟨rfl, rfl⟩, west_EPSILON⟩
  rintro ⟨h, -⟩
  exact absurd h.2 (by simp [west])

end PyrusGeom
