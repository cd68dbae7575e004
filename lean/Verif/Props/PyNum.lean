import Verif.Lemmas.PyNumPoly
import Verif.Props.FloatRange

/-!
# C187: `3` or `3.0` makes no difference

The numbers of the model are Python numbers, `int` or `float`. A computation with integral coordinates up to 1024 given as `int`s
(any of them, mixed with arbitrary `float`s) has the same outcome as the computation with all of them converted to `float`: results
of equal value, the same booleans, the same exceptions; whichever `math` library, and however the literals of the source are spelled.
-/

namespace PyrusGeom

set_option linter.unusedVariables false

/-- The same up to the types of the numbers. `same_num`, `same_vec` and `same_except` say what that is. -/
def SameVal {α β : Type} [NumSim α β] (a : α) (x : β) : Prop := ∃ k, sim k a x

variable {lit : Bool} {k : ℕ}

theorem same_num (a : PyNum lit) (x : FP double) : SameVal a x ↔ a.rv = x.val := by
  refine ⟨fun ⟨k, h⟩ => PyNum.NumSim.rv h, fun h => ?_⟩
  cases a with
  | int n => exact ⟨n.natAbs, h, by rw [Int.abs_eq_natAbs]; exact_mod_cast Nat.lt_two_pow_self.le⟩
  | flt y => exact ⟨0, FP.ext h⟩

theorem same_bool (a b : Bool) : SameVal a b ↔ a = b := ⟨fun ⟨_, h⟩ => h, fun h => ⟨0, h⟩⟩

theorem same_vec (v : Vec (PyNum lit)) (w : Vec (FP double)) : SameVal v w ↔ v.x.rv = w.x.val ∧ v.y.rv = w.y.val ∧ v.valid = w.valid := by
  rw [← same_num, ← same_num]
  refine ⟨fun ⟨k, h⟩ => ⟨⟨k, h.1⟩, ⟨k, h.2.1⟩, h.2.2⟩, fun ⟨⟨k, h⟩, ⟨l, h'⟩, h2⟩ => ?_⟩
  exact ⟨max k l, NumSim.mono h (le_max_left _ _), NumSim.mono h' (le_max_right _ _), h2⟩

theorem same_except {α β : Type} [NumSim α β] (a : Except PyErr α) (x : Except PyErr β) :
    SameVal a x ↔ (∃ b y, a = .ok b ∧ x = .ok y ∧ SameVal b y) ∨ ∃ e, a = .error e ∧ x = .error e := by
  constructor
  · rintro ⟨k, h⟩
    cases h with
    | ok h => exact .inl ⟨_, _, rfl, rfl, k, h⟩
    | error e => exact .inr ⟨e, rfl, rfl⟩
  · rintro (⟨b, y, rfl, rfl, k, h⟩ | ⟨e, rfl, rfl⟩)
    · exact ⟨k, .ok h⟩
    · exact ⟨0, .error e⟩

/-- `float(n)` -/
noncomputable def toFloat (n : ℤ) : FP double := ⟨rne n⟩

/-- An `int` and the same number as a `float`. -/
theorem sim_int {n : ℤ} (h : |n| ≤ 2 ^ k) (hk : k ≤ 53) : sim k (.int n : PyNum lit) (toFloat n) :=
  ⟨(PyNum.rne_small h hk).symm, h⟩

variable [m : PyMath (FP double)]

/-- `Vector2D` -/
theorem C187_vector
    {a : PyNum lit} {a' : FP double} (ha : sim 10 a a')
    {b : PyNum lit} {b' : FP double} (hb : sim 10 b b')
    {v : Vec (PyNum lit)} {v' : Vec (FP double)} (hv : sim 10 v v')
    {w : Vec (PyNum lit)} {w' : Vec (FP double)} (hw : sim 10 w w')
    {s : AngleDeg (PyNum lit)} {s' : AngleDeg (FP double)} (hs : sim 12 s s') :
    SameVal (Vec.ofXY a b) (Vec.ofXY a' b') ∧ SameVal (Vec.zero : Vec (PyNum lit)) (Vec.zero : Vec (FP double)) ∧ SameVal (Vec.ofVec v) (Vec.ofVec v') ∧
    SameVal (Vec.copy v) (Vec.copy v') ∧ SameVal (Vec.assign v a b) (Vec.assign v' a' b') ∧ SameVal (Vec.setX v a) (Vec.setX v' a') ∧
    SameVal (Vec.setY v a) (Vec.setY v' a') ∧ SameVal (Vec.setVector v w) (Vec.setVector v' w') ∧ SameVal (Vec.setPolar v a s) (Vec.setPolar v' a' s') ∧
    SameVal (Vec.validate v) (Vec.validate v') ∧ SameVal (Vec.invalidate v) (Vec.invalidate v') ∧ SameVal (Vec.isValid v) (Vec.isValid v') ∧
    SameVal (Vec.r2 v) (Vec.r2 v') ∧ SameVal (Vec.r v) (Vec.r v') ∧ SameVal (Vec.th v) (Vec.th v') ∧ SameVal (Vec.abs v) (Vec.abs v') ∧
    SameVal (Vec.absX v) (Vec.absX v') ∧ SameVal (Vec.absY v) (Vec.absY v') ∧ SameVal (Vec.addIn v w) (Vec.addIn v' w') ∧
    SameVal (Vec.addXY v a b) (Vec.addXY v' a' b') ∧ SameVal (Vec.addX v a) (Vec.addX v' a') ∧ SameVal (Vec.addY v a) (Vec.addY v' a') ∧
    SameVal (Vec.subIn v w) (Vec.subIn v' w') ∧ SameVal (Vec.subXY v a b) (Vec.subXY v' a' b') ∧ SameVal (Vec.subX v a) (Vec.subX v' a') ∧
    SameVal (Vec.subY v a) (Vec.subY v' a') ∧ SameVal (Vec.scale v a) (Vec.scale v' a') ∧ SameVal (Vec.dist2 v w) (Vec.dist2 v' w') ∧
    SameVal (Vec.dist v w) (Vec.dist v' w') ∧ SameVal (Vec.reverse v) (Vec.reverse v') ∧ SameVal (Vec.reverseVector v) (Vec.reverseVector v') ∧
    SameVal (Vec.setLength v a) (Vec.setLength v' a') ∧ SameVal (Vec.setLengthVector v a) (Vec.setLengthVector v' a') ∧
    SameVal (Vec.normalize v) (Vec.normalize v') ∧ SameVal (Vec.normalizeVector v) (Vec.normalizeVector v') ∧
    SameVal (Vec.innerProduct v w) (Vec.innerProduct v' w') ∧ SameVal (Vec.outerProduct v w) (Vec.outerProduct v' w') ∧
    SameVal (Vec.equals v w) (Vec.equals v' w') ∧ SameVal (Vec.equalsWeakly v w) (Vec.equalsWeakly v' w') ∧ SameVal (Vec.rotate v a) (Vec.rotate v' a') ∧
    SameVal (Vec.rotatedVector v a) (Vec.rotatedVector v' a') ∧ SameVal (Vec.setDir v s) (Vec.setDir v' s') ∧ SameVal (Vec.eq v w) (Vec.eq v' w') ∧
    SameVal (Vec.add v w) (Vec.add v' w') ∧ SameVal (Vec.sub v w) (Vec.sub v' w') ∧ SameVal (Vec.truediv v a) (Vec.truediv v' a') ∧
    SameVal (Vec.mul v a) (Vec.mul v' a') ∧ SameVal (Vec.iadd v w) (Vec.iadd v' w') ∧ SameVal (Vec.isub v w) (Vec.isub v' w') ∧
    SameVal (Vec.imul v a) (Vec.imul v' a') ∧ SameVal (Vec.invalid : Vec (PyNum lit)) (Vec.invalid : Vec (FP double)) ∧
    SameVal (Vec.fromPolar a s) (Vec.fromPolar a' s') ∧ SameVal (Vec.ofRA a s) (Vec.ofRA a' s') := by
  exact ⟨⟨_, sim_Vec_ofXY ha hb⟩,
    ⟨_, sim_Vec_zero⟩,
    ⟨_, sim_Vec_ofVec hv⟩,
    ⟨_, sim_Vec_copy hv⟩,
    ⟨_, sim_Vec_assign hv ha hb⟩,
    ⟨_, sim_Vec_setX hv ha⟩,
    ⟨_, sim_Vec_setY hv ha⟩,
    ⟨_, sim_Vec_setVector hv hw⟩,
    ⟨_, sim_Vec_setPolar hv ha hs (by norm_num)⟩,
    ⟨_, sim_Vec_validate hv⟩,
    ⟨_, sim_Vec_invalidate hv⟩,
    ⟨_, sim_Vec_isValid hv⟩,
    ⟨_, sim_Vec_r2 hv (by norm_num)⟩,
    ⟨_, sim_Vec_r hv (by norm_num)⟩,
    ⟨_, sim_Vec_th hv (by norm_num)⟩,
    ⟨_, sim_Vec_abs hv⟩,
    ⟨_, sim_Vec_absX hv⟩,
    ⟨_, sim_Vec_absY hv⟩,
    ⟨_, sim_Vec_addIn hv hw (by norm_num)⟩,
    ⟨_, sim_Vec_addXY hv ha hb (by norm_num)⟩,
    ⟨_, sim_Vec_addX hv ha (by norm_num)⟩,
    ⟨_, sim_Vec_addY hv ha (by norm_num)⟩,
    ⟨_, sim_Vec_subIn hv hw (by norm_num)⟩,
    ⟨_, sim_Vec_subXY hv ha hb (by norm_num)⟩,
    ⟨_, sim_Vec_subX hv ha (by norm_num)⟩,
    ⟨_, sim_Vec_subY hv ha (by norm_num)⟩,
    ⟨_, sim_Vec_scale hv ha (by norm_num)⟩,
    ⟨_, sim_Vec_dist2 hv hw (by norm_num)⟩,
    ⟨_, sim_Vec_dist hv hw (by norm_num)⟩,
    ⟨_, sim_Vec_reverse hv (by norm_num)⟩,
    ⟨_, sim_Vec_reverseVector hv (by norm_num)⟩,
    ⟨_, sim_Vec_setLength hv ha (by norm_num)⟩,
    ⟨_, sim_Vec_setLengthVector hv ha (by norm_num)⟩,
    ⟨_, sim_Vec_normalize hv (by norm_num)⟩,
    ⟨_, sim_Vec_normalizeVector hv (by norm_num)⟩,
    ⟨_, sim_Vec_innerProduct hv hw (by norm_num)⟩,
    ⟨_, sim_Vec_outerProduct hv hw (by norm_num)⟩,
    ⟨_, sim_Vec_equals hv hw⟩,
    ⟨_, sim_Vec_equalsWeakly hv hw (by norm_num)⟩,
    ⟨_, sim_Vec_rotate hv ha (by norm_num)⟩,
    ⟨_, sim_Vec_rotatedVector hv ha (by norm_num)⟩,
    ⟨_, sim_Vec_setDir hv hs (by norm_num)⟩,
    ⟨_, sim_Vec_eq hv hw⟩,
    ⟨_, sim_Vec_add hv hw (by norm_num)⟩,
    ⟨_, sim_Vec_sub hv hw (by norm_num)⟩,
    ⟨_, sim_Vec_truediv hv ha (by norm_num)⟩,
    ⟨_, sim_Vec_mul hv ha (by norm_num)⟩,
    ⟨_, sim_Vec_iadd hv hw (by norm_num)⟩,
    ⟨_, sim_Vec_isub hv hw (by norm_num)⟩,
    ⟨_, sim_Vec_imul hv ha (by norm_num)⟩,
    ⟨_, sim_Vec_invalid⟩,
    ⟨_, sim_Vec_fromPolar ha hs (by norm_num)⟩,
    ⟨_, sim_Vec_ofRA ha hs (by norm_num)⟩⟩

/-- `AngleDeg` -/
theorem C187_angle
    {a : PyNum lit} {a' : FP double} (ha : sim 10 a a')
    {s : AngleDeg (PyNum lit)} {s' : AngleDeg (FP double)} (hs : sim 12 s s')
    {t : AngleDeg (PyNum lit)} {t' : AngleDeg (FP double)} (ht : sim 12 t t')
    {r : AngleDeg (PyNum lit)} {r' : AngleDeg (FP double)} (hr : sim 12 r r')
    {b : PyNum lit} {b' : FP double} (hb : sim 10 b b') :
    SameVal (AngleDeg.ofNum a) (AngleDeg.ofNum a') ∧ SameVal (AngleDeg.default : AngleDeg (PyNum lit)) (AngleDeg.default : AngleDeg (FP double)) ∧
    SameVal (AngleDeg.degree s) (AngleDeg.degree s') ∧ SameVal (AngleDeg.degree_ s) (AngleDeg.degree_ s') ∧
    SameVal (AngleDeg.ofAngle s) (AngleDeg.ofAngle s') ∧ SameVal (AngleDeg.setDegree s a) (AngleDeg.setDegree s' a') ∧
    SameVal (AngleDeg.setAngle s t) (AngleDeg.setAngle s' t') ∧ SameVal (AngleDeg.abs s) (AngleDeg.abs s') ∧ SameVal (AngleDeg.radian s) (AngleDeg.radian s') ∧
    SameVal (AngleDeg.copy s) (AngleDeg.copy s') ∧ SameVal (AngleDeg.reverse s) (AngleDeg.reverse s') ∧
    SameVal (AngleDeg.reverseAngle s) (AngleDeg.reverseAngle s') ∧ SameVal (AngleDeg.getNormalized s) (AngleDeg.getNormalized s') ∧
    SameVal (AngleDeg.isLeftOf s t) (AngleDeg.isLeftOf s' t') ∧ SameVal (AngleDeg.isRightOf s t) (AngleDeg.isRightOf s' t') ∧
    SameVal (AngleDeg.isLeftEqualOf s t) (AngleDeg.isLeftEqualOf s' t') ∧ SameVal (AngleDeg.isRightEqualOf s t) (AngleDeg.isRightEqualOf s' t') ∧
    SameVal (AngleDeg.isWithin s t r) (AngleDeg.isWithin s' t' r') ∧ SameVal (AngleDeg.iaddNum s a) (AngleDeg.iaddNum s' a') ∧
    SameVal (AngleDeg.iadd s t) (AngleDeg.iadd s' t') ∧ SameVal (AngleDeg.isubNum s a) (AngleDeg.isubNum s' a') ∧
    SameVal (AngleDeg.isub s t) (AngleDeg.isub s' t') ∧ SameVal (AngleDeg.imul s a) (AngleDeg.imul s' a') ∧ SameVal (AngleDeg.idiv s a) (AngleDeg.idiv s' a') ∧
    SameVal (AngleDeg.add s t) (AngleDeg.add s' t') ∧ SameVal (AngleDeg.addNum s a) (AngleDeg.addNum s' a') ∧ SameVal (AngleDeg.sub s t) (AngleDeg.sub s' t') ∧
    SameVal (AngleDeg.subNum s a) (AngleDeg.subNum s' a') ∧ SameVal (AngleDeg.mul s a) (AngleDeg.mul s' a') ∧
    SameVal (AngleDeg.floordiv s a) (AngleDeg.floordiv s' a') ∧ SameVal (AngleDeg.neg s) (AngleDeg.neg s') ∧
    SameVal (AngleDeg.eqNum s a) (AngleDeg.eqNum s' a') ∧ SameVal (AngleDeg.eq s t) (AngleDeg.eq s' t') ∧ SameVal (AngleDeg.cos s) (AngleDeg.cos s') ∧
    SameVal (AngleDeg.sin s) (AngleDeg.sin s') ∧ SameVal (AngleDeg.tan s) (AngleDeg.tan s') ∧ SameVal (AngleDeg.rad2deg a) (AngleDeg.rad2deg a') ∧
    SameVal (AngleDeg.deg2rad a) (AngleDeg.deg2rad a') ∧ SameVal (AngleDeg.cosDeg a) (AngleDeg.cosDeg a') ∧ SameVal (AngleDeg.sinDeg a) (AngleDeg.sinDeg a') ∧
    SameVal (AngleDeg.tanDeg a) (AngleDeg.tanDeg a') ∧ SameVal (AngleDeg.mathAcos a) (AngleDeg.mathAcos a') ∧
    SameVal (AngleDeg.mathAsin a) (AngleDeg.mathAsin a') ∧ SameVal (AngleDeg.acosDeg a) (AngleDeg.acosDeg a') ∧
    SameVal (AngleDeg.asinDeg a) (AngleDeg.asinDeg a') ∧ SameVal (AngleDeg.atanDeg a) (AngleDeg.atanDeg a') ∧
    SameVal (AngleDeg.atan2Deg a b) (AngleDeg.atan2Deg a' b') ∧ SameVal (AngleDeg.bisect a b) (AngleDeg.bisect a' b') := by
  exact ⟨⟨_, sim_AngleDeg_ofNum ha (by norm_num)⟩,
    ⟨_, sim_AngleDeg_default⟩,
    ⟨_, sim_AngleDeg_degree hs (by norm_num)⟩,
    ⟨_, sim_AngleDeg_degree_ hs⟩,
    ⟨_, sim_AngleDeg_ofAngle hs (by norm_num)⟩,
    ⟨_, sim_AngleDeg_setDegree hs ha (by norm_num)⟩,
    ⟨_, sim_AngleDeg_setAngle hs ht (by norm_num)⟩,
    ⟨_, sim_AngleDeg_abs hs (by norm_num)⟩,
    ⟨_, sim_AngleDeg_radian hs (by norm_num)⟩,
    ⟨_, sim_AngleDeg_copy hs (by norm_num)⟩,
    ⟨_, sim_AngleDeg_reverse hs (by norm_num)⟩,
    ⟨_, sim_AngleDeg_reverseAngle hs (by norm_num)⟩,
    ⟨_, sim_AngleDeg_getNormalized hs (by norm_num)⟩,
    ⟨_, sim_AngleDeg_isLeftOf hs ht (by norm_num)⟩,
    ⟨_, sim_AngleDeg_isRightOf hs ht (by norm_num)⟩,
    ⟨_, sim_AngleDeg_isLeftEqualOf hs ht (by norm_num)⟩,
    ⟨_, sim_AngleDeg_isRightEqualOf hs ht (by norm_num)⟩,
    ⟨_, sim_AngleDeg_isWithin hs ht hr (by norm_num)⟩,
    ⟨_, sim_AngleDeg_iaddNum hs ha (by norm_num)⟩,
    ⟨_, sim_AngleDeg_iadd hs ht (by norm_num)⟩,
    ⟨_, sim_AngleDeg_isubNum hs ha (by norm_num)⟩,
    ⟨_, sim_AngleDeg_isub hs ht (by norm_num)⟩,
    ⟨_, sim_AngleDeg_imul hs ha (by norm_num)⟩,
    ⟨_, sim_AngleDeg_idiv hs ha (by norm_num)⟩,
    ⟨_, sim_AngleDeg_add hs ht (by norm_num)⟩,
    ⟨_, sim_AngleDeg_addNum hs ha (by norm_num)⟩,
    ⟨_, sim_AngleDeg_sub hs ht (by norm_num)⟩,
    ⟨_, sim_AngleDeg_subNum hs ha (by norm_num)⟩,
    ⟨_, sim_AngleDeg_mul hs ha (by norm_num)⟩,
    ⟨_, sim_AngleDeg_floordiv hs ha (by norm_num)⟩,
    ⟨_, sim_AngleDeg_neg hs (by norm_num)⟩,
    ⟨_, sim_AngleDeg_eqNum hs ha (by norm_num)⟩,
    ⟨_, sim_AngleDeg_eq hs ht (by norm_num)⟩,
    ⟨_, sim_AngleDeg_cos hs (by norm_num)⟩,
    ⟨_, sim_AngleDeg_sin hs (by norm_num)⟩,
    ⟨_, sim_AngleDeg_tan hs (by norm_num)⟩,
    ⟨_, sim_AngleDeg_rad2deg ha (by norm_num)⟩,
    ⟨_, sim_AngleDeg_deg2rad ha (by norm_num)⟩,
    ⟨_, sim_AngleDeg_cosDeg ha (by norm_num)⟩,
    ⟨_, sim_AngleDeg_sinDeg ha (by norm_num)⟩,
    ⟨_, sim_AngleDeg_tanDeg ha (by norm_num)⟩,
    ⟨_, sim_AngleDeg_mathAcos ha (by norm_num)⟩,
    ⟨_, sim_AngleDeg_mathAsin ha (by norm_num)⟩,
    ⟨_, sim_AngleDeg_acosDeg ha (by norm_num)⟩,
    ⟨_, sim_AngleDeg_asinDeg ha (by norm_num)⟩,
    ⟨_, sim_AngleDeg_atanDeg ha (by norm_num)⟩,
    ⟨_, sim_AngleDeg_atan2Deg ha hb (by norm_num)⟩,
    ⟨_, sim_AngleDeg_bisect ha hb (by norm_num)⟩⟩

/-- `Line2D` -/
theorem C187_line
    {a : PyNum lit} {a' : FP double} (ha : sim 10 a a')
    {b : PyNum lit} {b' : FP double} (hb : sim 10 b b')
    {c : PyNum lit} {c' : FP double} (hc : sim 10 c c')
    {v : Vec (PyNum lit)} {v' : Vec (FP double)} (hv : sim 10 v v')
    {s : AngleDeg (PyNum lit)} {s' : AngleDeg (FP double)} (hs : sim 12 s s')
    {w : Vec (PyNum lit)} {w' : Vec (FP double)} (hw : sim 10 w w')
    {l1 : Line (PyNum lit)} {l1' : Line (FP double)} (hl1 : sim 10 l1 l1')
    {l2 : Line (PyNum lit)} {l2' : Line (FP double)} (hl2 : sim 10 l2 l2')
    {t : AngleDeg (PyNum lit)} {t' : AngleDeg (FP double)} (ht : sim 12 t t') :
    SameVal (Line.ofABC a b c) (Line.ofABC a' b' c') ∧ SameVal (Line.ofAngle v s) (Line.ofAngle v' s') ∧ SameVal (Line.ofPoints v w) (Line.ofPoints v' w') ∧
    SameVal (Line.getX l1 a) (Line.getX l1' a') ∧ SameVal (Line.getY l1 a) (Line.getY l1' a') ∧ SameVal (Line.dist l1 v) (Line.dist l1' v') ∧
    SameVal (Line.dist2 l1 v) (Line.dist2 l1' v') ∧ SameVal (Line.isParallel l1 l2) (Line.isParallel l1' l2') ∧
    SameVal (Line.intersection l1 l2) (Line.intersection l1' l2') ∧ SameVal (Line.perpendicular l1 v) (Line.perpendicular l1' v') ∧
    SameVal (Line.projection l1 v) (Line.projection l1' v') ∧ SameVal (Line.angleBisector v s t) (Line.angleBisector v' s' t') ∧
    SameVal (Line.perpendicularBisector v w) (Line.perpendicularBisector v' w') ∧ SameVal (Line.eq l1 l2) (Line.eq l1' l2') := by
  exact ⟨⟨_, sim_Line_ofABC ha hb hc⟩,
    ⟨_, sim_Line_ofAngle hv hs (by norm_num)⟩,
    ⟨_, sim_Line_ofPoints hv hw (by norm_num)⟩,
    ⟨_, sim_Line_getX hl1 ha (by norm_num)⟩,
    ⟨_, sim_Line_getY hl1 ha (by norm_num)⟩,
    ⟨_, sim_Line_dist hl1 hv (by norm_num)⟩,
    ⟨_, sim_Line_dist2 hl1 hv (by norm_num)⟩,
    ⟨_, sim_Line_isParallel hl1 hl2 (by norm_num)⟩,
    ⟨_, sim_Line_intersection hl1 hl2 (by norm_num)⟩,
    ⟨_, sim_Line_perpendicular hl1 hv (by norm_num)⟩,
    ⟨_, sim_Line_projection hl1 hv (by norm_num)⟩,
    ⟨_, sim_Line_angleBisector hv hs ht (by norm_num)⟩,
    ⟨_, sim_Line_perpendicularBisector hv hw (by norm_num)⟩,
    ⟨_, sim_Line_eq hl1 hl2 (by norm_num)⟩⟩

/-- `Segment2D` -/
theorem C187_segment
    {v : Vec (PyNum lit)} {v' : Vec (FP double)} (hv : sim 10 v v')
    {w : Vec (PyNum lit)} {w' : Vec (FP double)} (hw : sim 10 w w')
    {a : PyNum lit} {a' : FP double} (ha : sim 10 a a')
    {s : AngleDeg (PyNum lit)} {s' : AngleDeg (FP double)} (hs : sim 12 s s')
    {b : PyNum lit} {b' : FP double} (hb : sim 10 b b')
    {c : PyNum lit} {c' : FP double} (hc : sim 10 c c')
    {d : PyNum lit} {d' : FP double} (hd : sim 10 d d')
    {s1 : Seg (PyNum lit)} {s1' : Seg (FP double)} (hs1 : sim 10 s1 s1')
    {s2 : Seg (PyNum lit)} {s2' : Seg (FP double)} (hs2 : sim 10 s2 s2')
    {l1 : Line (PyNum lit)} {l1' : Line (FP double)} (hl1 : sim 10 l1 l1')
    (bo : Bool) :
    SameVal (Seg.ofPoints v w) (Seg.ofPoints v' w') ∧ SameVal (Seg.ofPolar v a s) (Seg.ofPolar v' a' s') ∧
    SameVal (Seg.ofXYXY a b c d) (Seg.ofXYXY a' b' c' d') ∧ SameVal (Seg.isValid s1) (Seg.isValid s1') ∧ SameVal (Seg.line s1) (Seg.line s1') ∧
    SameVal (Seg.length s1) (Seg.length s1') ∧ SameVal (Seg.direction s1) (Seg.direction s1') ∧ SameVal (Seg.swap s1) (Seg.swap s1') ∧
    SameVal (Seg.reversedSegment s1) (Seg.reversedSegment s1') ∧ SameVal (Seg.perpendicularBisector s1) (Seg.perpendicularBisector s1') ∧
    SameVal (Seg.contains s1 v) (Seg.contains s1' v') ∧ SameVal (Seg.eq s1 s2) (Seg.eq s1' s2') ∧ SameVal (Seg.equalsWeakly s1 s2) (Seg.equalsWeakly s1' s2') ∧
    SameVal (Seg.projection s1 v) (Seg.projection s1' v') ∧ SameVal (Seg.checkIntersectsOnLine s1 v) (Seg.checkIntersectsOnLine s1' v') ∧
    SameVal (Seg.existIntersection s1 s2) (Seg.existIntersection s1' s2') ∧ SameVal (Seg.existIntersectionLine s1 l1) (Seg.existIntersectionLine s1' l1') ∧
    SameVal (Seg.existIntersectionExceptEndpoint s1 s2) (Seg.existIntersectionExceptEndpoint s1' s2') ∧
    SameVal (Seg.intersectionLine s1 l1) (Seg.intersectionLine s1' l1') ∧ SameVal (Seg.intersectionSeg s1 s2 bo) (Seg.intersectionSeg s1' s2' bo) ∧
    SameVal (Seg.nearestPoint s1 v) (Seg.nearestPoint s1' v') ∧ SameVal (Seg.distPoint s1 v) (Seg.distPoint s1' v') ∧
    SameVal (Seg.distSeg s1 s2) (Seg.distSeg s1' s2') ∧ SameVal (Seg.farthestDist s1 v) (Seg.farthestDist s1' v') ∧
    SameVal (Seg.onSegment s1 v) (Seg.onSegment s1' v') ∧ SameVal (Seg.onSegmentWeakly s1 v) (Seg.onSegmentWeakly s1' v') := by
  exact ⟨⟨_, sim_Seg_ofPoints hv hw⟩,
    ⟨_, sim_Seg_ofPolar hv ha hs (by norm_num)⟩,
    ⟨_, sim_Seg_ofXYXY ha hb hc hd⟩,
    ⟨_, sim_Seg_isValid hs1 (by norm_num)⟩,
    ⟨_, sim_Seg_line hs1 (by norm_num)⟩,
    ⟨_, sim_Seg_length hs1 (by norm_num)⟩,
    ⟨_, sim_Seg_direction hs1 (by norm_num)⟩,
    ⟨_, sim_Seg_swap hs1⟩,
    ⟨_, sim_Seg_reversedSegment hs1⟩,
    ⟨_, sim_Seg_perpendicularBisector hs1 (by norm_num)⟩,
    ⟨_, sim_Seg_contains hs1 hv (by norm_num)⟩,
    ⟨_, sim_Seg_eq hs1 hs2⟩,
    ⟨_, sim_Seg_equalsWeakly hs1 hs2 (by norm_num)⟩,
    ⟨_, sim_Seg_projection hs1 hv (by norm_num)⟩,
    ⟨_, sim_Seg_checkIntersectsOnLine hs1 hv⟩,
    ⟨_, sim_Seg_existIntersection hs1 hs2 (by norm_num)⟩,
    ⟨_, sim_Seg_existIntersectionLine hs1 hl1 (by norm_num)⟩,
    ⟨_, sim_Seg_existIntersectionExceptEndpoint hs1 hs2 (by norm_num)⟩,
    ⟨_, sim_Seg_intersectionLine hs1 hl1 (by norm_num)⟩,
    ⟨_, sim_Seg_intersectionSeg hs1 hs2 bo (by norm_num)⟩,
    ⟨_, sim_Seg_nearestPoint hs1 hv (by norm_num)⟩,
    ⟨_, sim_Seg_distPoint hs1 hv (by norm_num)⟩,
    ⟨_, sim_Seg_distSeg hs1 hs2 (by norm_num)⟩,
    ⟨_, sim_Seg_farthestDist hs1 hv (by norm_num)⟩,
    ⟨_, sim_Seg_onSegment hs1 hv (by norm_num)⟩,
    ⟨_, sim_Seg_onSegmentWeakly hs1 hv (by norm_num)⟩⟩

/-- `Ray2D` -/
theorem C187_ray
    {v : Vec (PyNum lit)} {v' : Vec (FP double)} (hv : sim 10 v v')
    {s : AngleDeg (PyNum lit)} {s' : AngleDeg (FP double)} (hs : sim 12 s s')
    {w : Vec (PyNum lit)} {w' : Vec (FP double)} (hw : sim 10 w w')
    {r1 : Ray (PyNum lit)} {r1' : Ray (FP double)} (hr1 : sim 12 r1 r1')
    {a : PyNum lit} {a' : FP double} (ha : sim 10 a a')
    {l1 : Line (PyNum lit)} {l1' : Line (FP double)} (hl1 : sim 10 l1 l1')
    {r2 : Ray (PyNum lit)} {r2' : Ray (FP double)} (hr2 : sim 12 r2 r2') :
    SameVal (Ray.ofAngle v s) (Ray.ofAngle v' s') ∧ SameVal (Ray.ofPoint v w) (Ray.ofPoint v' w') ∧ SameVal (Ray.line r1) (Ray.line r1') ∧
    SameVal (Ray.inRightDir r1 v a) (Ray.inRightDir r1' v' a') ∧ SameVal (Ray.intersectionLine r1 l1) (Ray.intersectionLine r1' l1') ∧
    SameVal (Ray.intersectionRay r1 r2) (Ray.intersectionRay r1' r2') ∧ SameVal (Ray.eq r1 r2) (Ray.eq r1' r2') := by
  exact ⟨⟨_, sim_Ray_ofAngle hv hs (by norm_num)⟩,
    ⟨_, sim_Ray_ofPoint hv hw (by norm_num)⟩,
    ⟨_, sim_Ray_line hr1 (by norm_num)⟩,
    ⟨_, sim_Ray_inRightDir hr1 hv ha (by norm_num)⟩,
    ⟨_, sim_Ray_intersectionLine hr1 hl1 (by norm_num)⟩,
    ⟨_, sim_Ray_intersectionRay hr1 hr2 (by norm_num)⟩,
    ⟨_, sim_Ray_eq hr1 hr2 (by norm_num)⟩⟩

/-- `Triangle2D` -/
theorem C187_triangle
    {v : Vec (PyNum lit)} {v' : Vec (FP double)} (hv : sim 10 v v')
    {w : Vec (PyNum lit)} {w' : Vec (FP double)} (hw : sim 10 w w')
    {u : Vec (PyNum lit)} {u' : Vec (FP double)} (hu : sim 10 u u')
    {s1 : Seg (PyNum lit)} {s1' : Seg (FP double)} (hs1 : sim 10 s1 s1')
    {t1 : Tri (PyNum lit)} {t1' : Tri (FP double)} (ht1 : sim 10 t1 t1')
    {q : Vec (PyNum lit)} {q' : Vec (FP double)} (hq : sim 10 q q')
    {l1 : Line (PyNum lit)} {l1' : Line (FP double)} (hl1 : sim 10 l1 l1')
    {r1 : Ray (PyNum lit)} {r1' : Ray (FP double)} (hr1 : sim 12 r1 r1') :
    SameVal (Tri.dsa v w u) (Tri.dsa v' w' u') ∧ SameVal (Tri.signedArea v w u) (Tri.signedArea v' w' u') ∧ SameVal (Tri.ccw v w u) (Tri.ccw v' w' u') ∧
    SameVal (Tri.ofPoints v w u) (Tri.ofPoints v' w' u') ∧ SameVal (Tri.ofSeg s1 v) (Tri.ofSeg s1' v') ∧ SameVal (Tri.isValid t1) (Tri.isValid t1') ∧
    SameVal (Tri.area t1) (Tri.area t1') ∧ SameVal (Tri.triContains v w u q) (Tri.triContains v' w' u' q') ∧
    SameVal (Tri.contains t1 v) (Tri.contains t1' v') ∧ SameVal (Tri.triCentroid v w u) (Tri.triCentroid v' w' u') ∧
    SameVal (Tri.triIncenter v w u) (Tri.triIncenter v' w' u') ∧ SameVal (Tri.triCircumcenter v w u) (Tri.triCircumcenter v' w' u') ∧
    SameVal (Tri.intersectionLine t1 l1) (Tri.intersectionLine t1' l1') ∧ SameVal (Tri.intersectionRay t1 r1) (Tri.intersectionRay t1' r1') := by
  exact ⟨⟨_, sim_Tri_dsa hv hw hu (by norm_num)⟩,
    ⟨_, sim_Tri_signedArea hv hw hu (by norm_num)⟩,
    ⟨_, sim_Tri_ccw hv hw hu (by norm_num)⟩,
    ⟨_, sim_Tri_ofPoints hv hw hu⟩,
    ⟨_, sim_Tri_ofSeg hs1 hv⟩,
    ⟨_, sim_Tri_isValid ht1⟩,
    ⟨_, sim_Tri_area ht1 (by norm_num)⟩,
    ⟨_, sim_Tri_triContains hv hw hu hq (by norm_num)⟩,
    ⟨_, sim_Tri_contains ht1 hv (by norm_num)⟩,
    ⟨_, sim_Tri_triCentroid hv hw hu⟩,
    ⟨_, sim_Tri_triIncenter hv hw hu (by norm_num)⟩,
    ⟨_, sim_Tri_triCircumcenter hv hw hu (by norm_num)⟩,
    ⟨_, sim_Tri_intersectionLine ht1 hl1 (by norm_num)⟩,
    ⟨_, sim_Tri_intersectionRay ht1 hr1 (by norm_num)⟩⟩

/-- `Circle2D` -/
theorem C187_circle
    {v : Vec (PyNum lit)} {v' : Vec (FP double)} (hv : sim 10 v v')
    {a : PyNum lit} {a' : FP double} (ha : sim 10 a a')
    {c1 : Circle (PyNum lit)} {c1' : Circle (FP double)} (hc1 : sim 10 c1 c1')
    {l1 : Line (PyNum lit)} {l1' : Line (FP double)} (hl1 : sim 10 l1 l1')
    {r1 : Ray (PyNum lit)} {r1' : Ray (FP double)} (hr1 : sim 12 r1 r1')
    {s1 : Seg (PyNum lit)} {s1' : Seg (FP double)} (hs1 : sim 10 s1 s1')
    {c2 : Circle (PyNum lit)} {c2' : Circle (FP double)} (hc2 : sim 10 c2 c2')
    {w : Vec (PyNum lit)} {w' : Vec (FP double)} (hw : sim 10 w w')
    {u : Vec (PyNum lit)} {u' : Vec (FP double)} (hu : sim 10 u u')
    {q : Vec (PyNum lit)} {q' : Vec (FP double)} (hq : sim 10 q q') :
    SameVal (Circle.ofCR v a) (Circle.ofCR v' a') ∧ SameVal (Circle.default : Circle (PyNum lit)) (Circle.default : Circle (FP double)) ∧
    SameVal (Circle.area c1) (Circle.area c1') ∧ SameVal (Circle.contains c1 v) (Circle.contains c1' v') ∧
    SameVal (Circle.intersectionLine c1 l1) (Circle.intersectionLine c1' l1') ∧ SameVal (Circle.intersectionRay c1 r1) (Circle.intersectionRay c1' r1') ∧
    SameVal (Circle.intersectionSeg c1 s1) (Circle.intersectionSeg c1' s1') ∧
    SameVal (Circle.intersectionCircle c1 c2) (Circle.intersectionCircle c1' c2') ∧ SameVal (Circle.circumCircle v w u) (Circle.circumCircle v' w' u') ∧
    SameVal (Circle.circumCircleContains v w u q) (Circle.circumCircleContains v' w' u' q') := by
  exact ⟨⟨_, sim_Circle_ofCR hv ha⟩,
    ⟨_, sim_Circle_default⟩,
    ⟨_, sim_Circle_area hc1 (by norm_num)⟩,
    ⟨_, sim_Circle_contains hc1 hv (by norm_num)⟩,
    ⟨_, sim_Circle_intersectionLine hc1 hl1 (by norm_num)⟩,
    ⟨_, sim_Circle_intersectionRay hc1 hr1 (by norm_num)⟩,
    ⟨_, sim_Circle_intersectionSeg hc1 hs1 (by norm_num)⟩,
    ⟨_, sim_Circle_intersectionCircle hc1 hc2 (by norm_num)⟩,
    ⟨_, sim_Circle_circumCircle hv hw hu (by norm_num)⟩,
    ⟨_, sim_Circle_circumCircleContains hv hw hu hq (by norm_num)⟩⟩

/-- `Size2D` -/
theorem C187_size
    {a : PyNum lit} {a' : FP double} (ha : sim 10 a a')
    {b : PyNum lit} {b' : FP double} (hb : sim 10 b b')
    {z1 : Size (PyNum lit)} {z1' : Size (FP double)} (hz1 : sim 10 z1 z1')
    {z2 : Size (PyNum lit)} {z2' : Size (FP double)} (hz2 : sim 10 z2 z2') :
    SameVal (Size.ofLW a b) (Size.ofLW a' b') ∧ SameVal (Size.setLength z1 a) (Size.setLength z1' a') ∧ SameVal (Size.setWidth z1 a) (Size.setWidth z1' a') ∧
    SameVal (Size.diagonal z1) (Size.diagonal z1') ∧ SameVal (Size.isValid z1) (Size.isValid z1') ∧ SameVal (Size.eq z1 z2) (Size.eq z1' z2') := by
  exact ⟨⟨_, sim_Size_ofLW ha hb⟩,
    ⟨_, sim_Size_setLength hz1 ha⟩,
    ⟨_, sim_Size_setWidth hz1 ha⟩,
    ⟨_, sim_Size_diagonal hz1 (by norm_num)⟩,
    ⟨_, sim_Size_isValid hz1⟩,
    ⟨_, sim_Size_eq hz1 hz2 (by norm_num)⟩⟩

/-- `Rect2D` -/
theorem C187_rectangle
    {e1 : Rect (PyNum lit)} {e1' : Rect (FP double)} (he1 : sim 10 e1 e1')
    {a : PyNum lit} {a' : FP double} (ha : sim 10 a a')
    {b : PyNum lit} {b' : FP double} (hb : sim 10 b b')
    {c : PyNum lit} {c' : FP double} (hc : sim 10 c c')
    {d : PyNum lit} {d' : FP double} (hd : sim 10 d d')
    {v : Vec (PyNum lit)} {v' : Vec (FP double)} (hv : sim 10 v v')
    {w : Vec (PyNum lit)} {w' : Vec (FP double)} (hw : sim 10 w w')
    {z1 : Size (PyNum lit)} {z1' : Size (FP double)} (hz1 : sim 10 z1 z1')
    {l1 : Line (PyNum lit)} {l1' : Line (FP double)} (hl1 : sim 10 l1 l1')
    {r1 : Ray (PyNum lit)} {r1' : Ray (FP double)} (hr1 : sim 12 r1 r1')
    {s1 : Seg (PyNum lit)} {s1' : Seg (FP double)} (hs1 : sim 10 s1 s1')
    {e2 : Rect (PyNum lit)} {e2' : Rect (FP double)} (he2 : sim 10 e2 e2') :
    SameVal (Rect.left e1) (Rect.left e1') ∧ SameVal (Rect.top e1) (Rect.top e1') ∧ SameVal (Rect.right e1) (Rect.right e1') ∧
    SameVal (Rect.bottom e1) (Rect.bottom e1') ∧ SameVal (Rect.ofLTLW a b c d) (Rect.ofLTLW a' b' c' d') ∧
    SameVal (Rect.ofPointLW v a b) (Rect.ofPointLW v' a' b') ∧ SameVal (Rect.ofCorners v w) (Rect.ofCorners v' w') ∧
    SameVal (Rect.ofPointSize v z1) (Rect.ofPointSize v' z1') ∧ SameVal (Rect.ofRect e1) (Rect.ofRect e1') ∧
    SameVal (Rect.assign4 e1 a b c d) (Rect.assign4 e1' a' b' c' d') ∧ SameVal (Rect.assign3 e1 v a b) (Rect.assign3 e1' v' a' b') ∧
    SameVal (Rect.moveCenter e1 v) (Rect.moveCenter e1' v') ∧ SameVal (Rect.moveTopLeft e1 v) (Rect.moveTopLeft e1' v') ∧
    SameVal (Rect.moveBottomRight e1 v) (Rect.moveBottomRight e1' v') ∧ SameVal (Rect.moveLeft e1 a) (Rect.moveLeft e1' a') ∧
    SameVal (Rect.moveRight e1 a) (Rect.moveRight e1' a') ∧ SameVal (Rect.moveTop e1 a) (Rect.moveTop e1' a') ∧
    SameVal (Rect.moveBottom e1 a) (Rect.moveBottom e1' a') ∧ SameVal (Rect.setTopLeft e1 a b) (Rect.setTopLeft e1' a' b') ∧
    SameVal (Rect.setBottomRight e1 a b) (Rect.setBottomRight e1' a' b') ∧ SameVal (Rect.setLeft e1 a) (Rect.setLeft e1' a') ∧
    SameVal (Rect.setRight e1 a) (Rect.setRight e1' a') ∧ SameVal (Rect.setTop e1 a) (Rect.setTop e1' a') ∧
    SameVal (Rect.setBottom e1 a) (Rect.setBottom e1' a') ∧ SameVal (Rect.setLength e1 a) (Rect.setLength e1' a') ∧
    SameVal (Rect.setWidth e1 a) (Rect.setWidth e1' a') ∧ SameVal (Rect.setSize e1 a b) (Rect.setSize e1' a' b') ∧
    SameVal (Rect.isValid e1) (Rect.isValid e1') ∧ SameVal (Rect.area e1) (Rect.area e1') ∧ SameVal (Rect.contains e1 v) (Rect.contains e1' v') ∧
    SameVal (Rect.center e1) (Rect.center e1') ∧ SameVal (Rect.getTopLeft e1) (Rect.getTopLeft e1') ∧ SameVal (Rect.topRight e1) (Rect.topRight e1') ∧
    SameVal (Rect.bottomLeft e1) (Rect.bottomLeft e1') ∧ SameVal (Rect.bottomRight e1) (Rect.bottomRight e1') ∧
    SameVal (Rect.leftEdge e1) (Rect.leftEdge e1') ∧ SameVal (Rect.rightEdge e1) (Rect.rightEdge e1') ∧ SameVal (Rect.topEdge e1) (Rect.topEdge e1') ∧
    SameVal (Rect.bottomEdge e1) (Rect.bottomEdge e1') ∧ SameVal (Rect.intersectionLine e1 l1) (Rect.intersectionLine e1' l1') ∧
    SameVal (Rect.intersectionRay e1 r1) (Rect.intersectionRay e1' r1') ∧ SameVal (Rect.intersectionSeg e1 s1) (Rect.intersectionSeg e1' s1') ∧
    SameVal (Rect.intersected e1 e2) (Rect.intersected e1' e2') ∧ SameVal (Rect.united e1 e2) (Rect.united e1' e2') ∧
    SameVal (Rect.fromCenter4 a b c d) (Rect.fromCenter4 a' b' c' d') := by
  exact ⟨⟨_, sim_Rect_left he1⟩,
    ⟨_, sim_Rect_top he1⟩,
    ⟨_, sim_Rect_right he1 (by norm_num)⟩,
    ⟨_, sim_Rect_bottom he1 (by norm_num)⟩,
    ⟨_, sim_Rect_ofLTLW ha hb hc hd⟩,
    ⟨_, sim_Rect_ofPointLW hv ha hb⟩,
    ⟨_, sim_Rect_ofCorners hv hw (by norm_num)⟩,
    ⟨_, sim_Rect_ofPointSize hv hz1⟩,
    ⟨_, sim_Rect_ofRect he1⟩,
    ⟨_, sim_Rect_assign4 he1 ha hb hc hd⟩,
    ⟨_, sim_Rect_assign3 he1 hv ha hb⟩,
    ⟨_, sim_Rect_moveCenter he1 hv (by norm_num)⟩,
    ⟨_, sim_Rect_moveTopLeft he1 hv⟩,
    ⟨_, sim_Rect_moveBottomRight he1 hv (by norm_num)⟩,
    ⟨_, sim_Rect_moveLeft he1 ha⟩,
    ⟨_, sim_Rect_moveRight he1 ha (by norm_num)⟩,
    ⟨_, sim_Rect_moveTop he1 ha⟩,
    ⟨_, sim_Rect_moveBottom he1 ha (by norm_num)⟩,
    ⟨_, sim_Rect_setTopLeft he1 ha hb (by norm_num)⟩,
    ⟨_, sim_Rect_setBottomRight he1 ha hb (by norm_num)⟩,
    ⟨_, sim_Rect_setLeft he1 ha (by norm_num)⟩,
    ⟨_, sim_Rect_setRight he1 ha (by norm_num)⟩,
    ⟨_, sim_Rect_setTop he1 ha (by norm_num)⟩,
    ⟨_, sim_Rect_setBottom he1 ha (by norm_num)⟩,
    ⟨_, sim_Rect_setLength he1 ha⟩,
    ⟨_, sim_Rect_setWidth he1 ha⟩,
    ⟨_, sim_Rect_setSize he1 ha hb⟩,
    ⟨_, sim_Rect_isValid he1⟩,
    ⟨_, sim_Rect_area he1 (by norm_num)⟩,
    ⟨_, sim_Rect_contains he1 hv (by norm_num)⟩,
    ⟨_, sim_Rect_center he1 (by norm_num)⟩,
    ⟨_, sim_Rect_getTopLeft he1⟩,
    ⟨_, sim_Rect_topRight he1 (by norm_num)⟩,
    ⟨_, sim_Rect_bottomLeft he1 (by norm_num)⟩,
    ⟨_, sim_Rect_bottomRight he1 (by norm_num)⟩,
    ⟨_, sim_Rect_leftEdge he1 (by norm_num)⟩,
    ⟨_, sim_Rect_rightEdge he1 (by norm_num)⟩,
    ⟨_, sim_Rect_topEdge he1 (by norm_num)⟩,
    ⟨_, sim_Rect_bottomEdge he1 (by norm_num)⟩,
    ⟨_, sim_Rect_intersectionLine he1 hl1 (by norm_num)⟩,
    ⟨_, sim_Rect_intersectionRay he1 hr1 (by norm_num)⟩,
    ⟨_, sim_Rect_intersectionSeg he1 hs1 (by norm_num)⟩,
    ⟨_, sim_Rect_intersected he1 he2 (by norm_num)⟩,
    ⟨_, sim_Rect_united he1 he2 (by norm_num)⟩,
    ⟨_, sim_Rect_fromCenter4 ha hb hc hd (by norm_num)⟩⟩

/-- `Matrix2D` -/
theorem C187_matrix
    {m1 : Mat (PyNum lit)} {m1' : Mat (FP double)} (hm1 : sim 10 m1 m1')
    {a : PyNum lit} {a' : FP double} (ha : sim 10 a a')
    {b : PyNum lit} {b' : FP double} (hb : sim 10 b b')
    {s : AngleDeg (PyNum lit)} {s' : AngleDeg (FP double)} (hs : sim 12 s s')
    {v : Vec (PyNum lit)} {v' : Vec (FP double)} (hv : sim 10 v v')
    {m2 : Mat (PyNum lit)} {m2' : Mat (FP double)} (hm2 : sim 10 m2 m2') :
    SameVal (Mat.identity : Mat (PyNum lit)) (Mat.identity : Mat (FP double)) ∧ SameVal (Mat.det m1) (Mat.det m1') ∧
    SameVal (Mat.invertible m1) (Mat.invertible m1') ∧ SameVal (Mat.inverted m1) (Mat.inverted m1') ∧
    SameVal (Mat.translate m1 a b) (Mat.translate m1' a' b') ∧ SameVal (Mat.scale m1 a b) (Mat.scale m1' a' b') ∧
    SameVal (Mat.rotate m1 s) (Mat.rotate m1' s') ∧ SameVal (Mat.transformXY m1 a b) (Mat.transformXY m1' a' b') ∧
    SameVal (Mat.transform m1 v) (Mat.transform m1' v') ∧ SameVal (Mat.transformVec m1 v) (Mat.transformVec m1' v') ∧
    SameVal (Mat.makeTranslation a b) (Mat.makeTranslation a' b') ∧ SameVal (Mat.makeScaling a b) (Mat.makeScaling a' b') ∧
    SameVal (Mat.makeRotation s) (Mat.makeRotation s') ∧ SameVal (Mat.mul m1 m2) (Mat.mul m1' m2') ∧ SameVal (Mat.eq m1 m2) (Mat.eq m1' m2') := by
  exact ⟨⟨_, sim_Mat_identity⟩,
    ⟨_, sim_Mat_det hm1 (by norm_num)⟩,
    ⟨_, sim_Mat_invertible hm1 (by norm_num)⟩,
    ⟨_, sim_Mat_inverted hm1 (by norm_num)⟩,
    ⟨_, sim_Mat_translate hm1 ha hb (by norm_num)⟩,
    ⟨_, sim_Mat_scale hm1 ha hb (by norm_num)⟩,
    ⟨_, sim_Mat_rotate hm1 hs (by norm_num)⟩,
    ⟨_, sim_Mat_transformXY hm1 ha hb (by norm_num)⟩,
    ⟨_, sim_Mat_transform hm1 hv (by norm_num)⟩,
    ⟨_, sim_Mat_transformVec hm1 hv (by norm_num)⟩,
    ⟨_, sim_Mat_makeTranslation ha hb⟩,
    ⟨_, sim_Mat_makeScaling ha hb⟩,
    ⟨_, sim_Mat_makeRotation hs (by norm_num)⟩,
    ⟨_, sim_Mat_mul hm1 hm2 (by norm_num)⟩,
    ⟨_, sim_Mat_eq hm1 hm2⟩⟩

/-- `Sector2D` -/
theorem C187_sector
    {v : Vec (PyNum lit)} {v' : Vec (FP double)} (hv : sim 10 v v')
    {a : PyNum lit} {a' : FP double} (ha : sim 10 a a')
    {b : PyNum lit} {b' : FP double} (hb : sim 10 b b')
    {s : AngleDeg (PyNum lit)} {s' : AngleDeg (FP double)} (hs : sim 12 s s')
    {t : AngleDeg (PyNum lit)} {t' : AngleDeg (FP double)} (ht : sim 12 t t')
    {k1 : Sector (PyNum lit)} {k1' : Sector (FP double)} (hk1 : sim 12 k1 k1')
    {k2 : Sector (PyNum lit)} {k2' : Sector (FP double)} (hk2 : sim 12 k2 k2') :
    SameVal (Sector.ofArgs v a b s t) (Sector.ofArgs v' a' b' s' t') ∧ SameVal (Sector.radiusMin k1) (Sector.radiusMin k1') ∧
    SameVal (Sector.radiusMax k1) (Sector.radiusMax k1') ∧ SameVal (Sector.arcDeg k1) (Sector.arcDeg k1') ∧ SameVal (Sector.area k1) (Sector.area k1') ∧
    SameVal (Sector.contains k1 v) (Sector.contains k1' v') ∧ SameVal (Sector.circumferenceMin k1) (Sector.circumferenceMin k1') ∧
    SameVal (Sector.circumferenceMax k1) (Sector.circumferenceMax k1') ∧ SameVal (Sector.eq k1 k2) (Sector.eq k1' k2') := by
  exact ⟨⟨_, sim_Sector_ofArgs hv ha hb hs ht (by norm_num)⟩,
    ⟨_, sim_Sector_radiusMin hk1⟩,
    ⟨_, sim_Sector_radiusMax hk1⟩,
    ⟨_, sim_Sector_arcDeg hk1 (by norm_num)⟩,
    ⟨_, sim_Sector_area hk1 (by norm_num)⟩,
    ⟨_, sim_Sector_contains hk1 hv (by norm_num)⟩,
    ⟨_, sim_Sector_circumferenceMin hk1 (by norm_num)⟩,
    ⟨_, sim_Sector_circumferenceMax hk1 (by norm_num)⟩,
    ⟨_, sim_Sector_eq hk1 hk2 (by norm_num)⟩⟩

/-- `soccer_math` -/
theorem C187_soccer_math
    {a : PyNum lit} {a' : FP double} (ha : sim 10 a a')
    {b : PyNum lit} {b' : FP double} (hb : sim 10 b b')
    {c : PyNum lit} {c' : FP double} (hc : sim 10 c c')
    {d : PyNum lit} {d' : FP double} (hd : sim 10 d d')
    {e : PyNum lit} {e' : FP double} (he : sim 10 e e')
    {f : PyNum lit} {f' : FP double} (hf : sim 10 f f')
    (n : ℤ)
    {v : Vec (PyNum lit)} {v' : Vec (FP double)} (hv : sim 10 v v')
    {w : Vec (PyNum lit)} {w' : Vec (FP double)} (hw : sim 10 w w') :
    SameVal (SoccerMath.SERVER_EPS : PyNum lit) (SoccerMath.SERVER_EPS : FP double) ∧
    SameVal (SoccerMath.kickRate a b c d e f) (SoccerMath.kickRate a' b' c' d' e' f') ∧ SameVal (SoccerMath.dirRate a b c) (SoccerMath.dirRate a' b' c') ∧
    SameVal (SoccerMath.effectiveTurn a b c) (SoccerMath.effectiveTurn a' b' c') ∧
    SameVal (SoccerMath.finalSpeed a b c d) (SoccerMath.finalSpeed a' b' c' d') ∧
    SameVal (SoccerMath.canOverSpeedMax a b c d e) (SoccerMath.canOverSpeedMax a' b' c' d' e') ∧
    SameVal (SoccerMath.mathPow a n) (SoccerMath.mathPow a' n) ∧ SameVal (SoccerMath.mathLog a) (SoccerMath.mathLog a') ∧
    SameVal (SoccerMath.inertiaNStepTravel v n a) (SoccerMath.inertiaNStepTravel v' n a') ∧
    SameVal (SoccerMath.inertiaNStepPoint v w n a) (SoccerMath.inertiaNStepPoint v' w' n a') ∧
    SameVal (SoccerMath.inertiaNStepDistance a n b) (SoccerMath.inertiaNStepDistance a' n b') ∧
    SameVal (SoccerMath.inertiaFinalTravel v a) (SoccerMath.inertiaFinalTravel v' a') ∧
    SameVal (SoccerMath.inertiaFinalPoint v w a) (SoccerMath.inertiaFinalPoint v' w' a') ∧
    SameVal (SoccerMath.inertiaFinalDistance a b) (SoccerMath.inertiaFinalDistance a' b') ∧
    SameVal (SoccerMath.calcLengthGeomSeries a b c) (SoccerMath.calcLengthGeomSeries a' b' c') ∧
    SameVal (SoccerMath.calcFirstTermGeomSeries a b n) (SoccerMath.calcFirstTermGeomSeries a' b' n) ∧
    SameVal (SoccerMath.bound a b c) (SoccerMath.bound a' b' c') ∧ SameVal (SoccerMath.minMax a b c) (SoccerMath.minMax a' b' c') ∧
    SameVal (SoccerMath.windEffect a b c d e f v) (SoccerMath.windEffect a' b' c' d' e' f' v') := by
  exact ⟨⟨_, sim_SoccerMath_SERVER_EPS⟩,
    ⟨_, sim_SoccerMath_kickRate ha hb hc hd he hf (by norm_num)⟩,
    ⟨_, sim_SoccerMath_dirRate ha hb hc (by norm_num)⟩,
    ⟨_, sim_SoccerMath_effectiveTurn ha hb hc (by norm_num)⟩,
    ⟨_, sim_SoccerMath_finalSpeed ha hb hc hd (by norm_num)⟩,
    ⟨_, sim_SoccerMath_canOverSpeedMax ha hb hc hd he (by norm_num)⟩,
    ⟨_, sim_SoccerMath_mathPow ha n (by norm_num)⟩,
    ⟨_, sim_SoccerMath_mathLog ha (by norm_num)⟩,
    ⟨_, sim_SoccerMath_inertiaNStepTravel hv n ha (by norm_num)⟩,
    ⟨_, sim_SoccerMath_inertiaNStepPoint hv hw n ha (by norm_num)⟩,
    ⟨_, sim_SoccerMath_inertiaNStepDistance ha n hb (by norm_num)⟩,
    ⟨_, sim_SoccerMath_inertiaFinalTravel hv ha (by norm_num)⟩,
    ⟨_, sim_SoccerMath_inertiaFinalPoint hv hw ha (by norm_num)⟩,
    ⟨_, sim_SoccerMath_inertiaFinalDistance ha hb (by norm_num)⟩,
    ⟨_, sim_SoccerMath_calcLengthGeomSeries ha hb hc (by norm_num)⟩,
    ⟨_, sim_SoccerMath_calcFirstTermGeomSeries ha hb n (by norm_num)⟩,
    ⟨_, sim_SoccerMath_bound ha hb hc⟩,
    ⟨_, sim_SoccerMath_minMax ha hb hc⟩,
    ⟨_, sim_SoccerMath_windEffect ha hb hc hd he hf hv (by norm_num)⟩⟩

/-- The orthocenter, for coordinates up to 128 -/
theorem C187_orthocenter {v w u : Vec (PyNum lit)} {v' w' u' : Vec (FP double)} (hv : sim 7 v v') (hw : sim 7 w w') (hu : sim 7 u u') :
    SameVal (Tri.triOrthocenter v w u) (Tri.triOrthocenter v' w' u') := ⟨_, sim_Tri_triOrthocenter hv hw hu (by norm_num)⟩

/-- `Polygon2D` -/
theorem C187_polygon {p1 : Poly (PyNum lit)} {p1' : Poly (FP double)} (hp : sim 10 p1 p1') {v : Vec (PyNum lit)} {v' : Vec (FP double)} (hv : sim 10 v v')
    {e1 : Rect (PyNum lit)} {e1' : Rect (FP double)} (he : sim 10 e1 e1') (bo : Bool) :
    SameVal (p1.addVertex v) (p1'.addVertex v') ∧ SameVal p1.boundingBox p1'.boundingBox ∧ SameVal (p1.contains v bo) (p1'.contains v' bo) ∧
    SameVal (p1.dist v bo) (p1'.dist v' bo) ∧ SameVal (p1.rectClipped e1) (p1'.rectClipped e1') :=
  ⟨⟨_, sim_Poly_addVertex hp hv⟩, ⟨_, sim_Poly_boundingBox hp (by norm_num)⟩, ⟨_, sim_Poly_contains hp hv bo (by norm_num)⟩,
    ⟨_, sim_Poly_dist hp hv bo (by norm_num)⟩, ⟨_, sim_Poly_rectClipped hp he (by norm_num)⟩⟩

/-- The area and the orientation of a polygon with at most `2 ^ 32` vertices -/
theorem C187_polygon_area {p1 : Poly (PyNum lit)} {p1' : Poly (FP double)} (hp : sim 10 p1 p1') (hn : p1.vertices.length ≤ 2 ^ 32) :
    SameVal p1.doubleSignedArea p1'.doubleSignedArea ∧ SameVal p1.area p1'.area ∧ SameVal p1.isCounterClockwise p1'.isCounterClockwise ∧
    SameVal p1.isClockwise p1'.isClockwise := by
  have h : p1.vertices.length * 2 ^ (2 * 10 + 1) ≤ 2 ^ 53 := by omega
  exact ⟨⟨_, sim_Poly_doubleSignedArea hp h⟩, ⟨_, sim_Poly_area hp h⟩, ⟨_, sim_Poly_isCounterClockwise hp h⟩, ⟨_, sim_Poly_isClockwise hp h⟩⟩

/-- `ConvexHull`, all three methods, the sort being a stable merge sort by the comparison -/
theorem C187_hull {s : List (Vec (PyNum lit))} {t : List (Vec (FP double))} (h : sim 10 s t) (mt : Hull.Method) :
    SameVal (Hull.compute (fun lt s => s.mergeSort fun a b => !lt b a) (Hull.Obj.ofList s) mt)
      (Hull.compute (fun lt s => s.mergeSort fun a b => !lt b a) (Hull.Obj.ofList t) mt) :=
  ⟨_, Hull.sim_compute Hull.sortRel_mergeSort (Hull.sim_ofList h) (by norm_num) mt⟩

omit m in
/-- Some bound is needed: the points `(2 ^ 53 + 1, 0)` and `(2 ^ 53, 0)` are different as `int`s and equal as `float`s. -/
theorem C187_bound_needed : Vec.eq (⟨.int (2 ^ 53 + 1), .int 0, true⟩ : Vec (PyNum lit)) ⟨.int (2 ^ 53), .int 0, true⟩ = false ∧
    Vec.eq (⟨toFloat (2 ^ 53 + 1), toFloat 0, true⟩ : Vec (FP double)) ⟨toFloat (2 ^ 53), toFloat 0, true⟩ = true := by
  have e1 : rne ((2 ^ 53 + 1 : ℤ) : ℝ) = 2 ^ 53 := by
    rw [rne_eq_even 53 (2 ^ 52) (by norm_num) (by norm_num) (by norm_num) (by norm_num) (by decide)]
    norm_num
  have e2 : rne ((2 ^ 53 : ℤ) : ℝ) = 2 ^ 53 := by
    rw [rne_of_isDouble (isDouble_int (by norm_num))]
    norm_num
  constructor
  · change (decide (((2 ^ 53 + 1 : ℤ) : ℝ) = ((2 ^ 53 : ℤ) : ℝ)) && _) = false
    rw [decide_eq_false (by norm_num), Bool.false_and]
  · change (decide (rne ((2 ^ 53 + 1 : ℤ) : ℝ) = rne ((2 ^ 53 : ℤ) : ℝ)) && decide (rne _ = rne _)) = true
    rw [e1, e2, decide_eq_true rfl, decide_eq_true rfl, Bool.and_self]

/-- The distance of `(3, 4)` and `(0, 0)`, from `int`s and from `float`s -/
example : ((⟨.int 3, .flt (toFloat 4), true⟩ : Vec (PyNum lit)).dist ⟨.int 0, .int 0, true⟩).rv =
    ((⟨toFloat 3, toFloat 4, true⟩ : Vec (FP double)).dist ⟨toFloat 0, toFloat 0, true⟩).val := by
  refine (same_num _ _).mp ⟨_, sim_Vec_dist (k := 10) (l := 10) ⟨sim_int (by norm_num) (by norm_num), PyNum.sim_flt _, rfl⟩
    ⟨sim_int (by norm_num) (by norm_num), sim_int (by norm_num) (by norm_num), rfl⟩ (by norm_num)⟩

end PyrusGeom
