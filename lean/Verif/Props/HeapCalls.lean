import Verif.Model.HeapProg
import Verif.Props.Angle

/-! # C158: what the calls of a program do to the value of their receiver -/

namespace PyrusGeom
open Spec

/-- Direction `d` degrees as cosine and sine. -/
noncomputable def Spec.cosd (d : ℝ) : ℝ := Real.cos (d * (Real.pi / 180))
noncomputable def Spec.sind (d : ℝ) : ℝ := Real.sin (d * (Real.pi / 180))

theorem deg2rad_real : (DEG2RAD : ℝ) = Real.pi / 180 := by
  have := cosDeg_real
  unfold DEG2RAD
  rw [num_real]
  norm_num [PyMath.pi]

theorem epsilon_real : (EPSILON : ℝ) = 1 / 1000000 := by unfold EPSILON; rw [num_real, num_real]; norm_num

/-- The coordinates and the flag each in-place method of `Vector2D` leaves. -/
noncomputable def Spec.vecCall (v : Vec ℝ) : VecCall ℝ → ℝ × ℝ × Bool
  | .assign x y => (x, y, v.valid)
  | .setX x => (x, v.y, v.valid)
  | .setY y => (v.x, y, v.valid)
  | .setXY x y => (x, y, v.valid)
  | .setPolar r t => (r * cosd t, r * sind t, v.valid)
  | .validate => (v.x, v.y, true)
  | .invalidate => (v.x, v.y, false)
  | .add x y => (v.x + x, v.y + y, v.valid)
  | .addX x => (v.x + x, v.y, v.valid)
  | .addY y => (v.x, v.y + y, v.valid)
  | .sub x y => (v.x - x, v.y - y, v.valid)
  | .subX x => (v.x - x, v.y, v.valid)
  | .subY y => (v.x, v.y - y, v.valid)
  | .scale c => (c * v.x, c * v.y, v.valid)
  | .reverse => (-v.x, -v.y, v.valid)
  | .setLength l => if √(v.x ^ 2 + v.y ^ 2) ≤ 1 / 1000000 then (v.x, v.y, v.valid)
      else (l * (v.x / √(v.x ^ 2 + v.y ^ 2)), l * (v.y / √(v.x ^ 2 + v.y ^ 2)), v.valid)
  | .normalize => if √(v.x ^ 2 + v.y ^ 2) ≤ 1 / 1000000 then (v.x, v.y, v.valid)
      else (v.x / √(v.x ^ 2 + v.y ^ 2), v.y / √(v.x ^ 2 + v.y ^ 2), v.valid)
  | .rotate d => (cosd d * v.x - sind d * v.y, sind d * v.x + cosd d * v.y, v.valid)
  | .setDir d => (√(v.x ^ 2 + v.y ^ 2) * cosd d, √(v.x ^ 2 + v.y ^ 2) * sind d, v.valid)
  | .imul c => (c * v.x, c * v.y, v.valid)

theorem cos_ofNum (d : ℝ) : (AngleDeg.ofNum d).cos = cosd d := by
  rw [cos_real]; exact cos_deg_congr (AngleDeg.ofNum_angleEq d)

theorem sin_ofNum (d : ℝ) : (AngleDeg.ofNum d).sin = sind d := by
  rw [sin_real]; exact sin_deg_congr (AngleDeg.ofNum_angleEq d)

theorem vec_r_real (v : Vec ℝ) : v.r = √(v.x ^ 2 + v.y ^ 2) := by
  change √(v.x * v.x + v.y * v.y) = _
  rw [pow_two, pow_two]

theorem setLength_real (v : Vec ℝ) (l : ℝ) : ((v.setLength l).x, (v.setLength l).y, (v.setLength l).valid) =
    if √(v.x ^ 2 + v.y ^ 2) ≤ 1 / 1000000 then (v.x, v.y, v.valid)
      else (l * (v.x / √(v.x ^ 2 + v.y ^ 2)), l * (v.y / √(v.x ^ 2 + v.y ^ 2)), v.valid) := by
  unfold Vec.setLength
  dsimp only
  rw [vec_r_real, epsilon_real]
  split
  · rename_i h
    rw [if_neg (not_le.mpr h)]
    unfold Vec.scale
    simp only [Prod.mk.injEq, and_true]
    constructor <;> ring
  · rename_i h
    rw [if_pos (not_lt.mp h)]

theorem rotate_real (v : Vec ℝ) (d : ℝ) : v.rotate d = ⟨cosd d * v.x - sind d * v.y, sind d * v.x + cosd d * v.y, v.valid⟩ := by
  unfold Vec.rotate Vec.assign cosd sind
  simp only [deg2rad_real]
  change Vec.mk (v.x * Real.cos _ - v.y * Real.sin _) (v.x * Real.sin _ + v.y * Real.cos _) _ = _
  congr 1 <;> ring

/-- **C158** The in-place methods of a vector. -/
theorem C158_vector_calls (v : Vec ℝ) (op : VecCall ℝ) : ((op.value v).x, (op.value v).y, (op.value v).valid) = vecCall v op := by
  cases op with
  | assign x y => rfl
  | setX x => rfl
  | setY y => rfl
  | setXY x y => rfl
  | setPolar r t => simp only [VecCall.value, Vec.setPolar, cos_ofNum, sin_ofNum, vecCall]
  | validate => rfl
  | invalidate => rfl
  | add x y => rfl
  | addX x => rfl
  | addY y => rfl
  | sub x y => rfl
  | subX x => rfl
  | subY y => rfl
  | scale c => simp only [VecCall.value, Vec.scale, vecCall, mul_comm]
  | reverse => simp [VecCall.value, Vec.reverse, vecCall, num_real]
  | setLength l => exact setLength_real v l
  | normalize =>
    refine (setLength_real v (num 1)).trans ?_
    simp only [vecCall, num_real]
    norm_num
  | rotate d => simp only [VecCall.value, rotate_real, vecCall]
  | setDir d => simp only [VecCall.value, Vec.setDir, cos_ofNum, sin_ofNum, vec_r_real, vecCall]
  | imul c => simp only [VecCall.value, Vec.imul, vecCall, mul_comm]

/-- `Vector2D(3, 4).set_length(10)` leaves (6, 8). -/
example : (VecCall.setLength 10).value (⟨3, 4, true⟩ : Vec ℝ) = ⟨6, 8, true⟩ := by
  have := C158_vector_calls (⟨3, 4, true⟩ : Vec ℝ) (.setLength 10)
  have e : √((3 : ℝ) ^ 2 + 4 ^ 2) = 5 := by rw [Real.sqrt_eq_iff_mul_self_eq_of_pos] <;> norm_num
  simp only [vecCall, e, Prod.mk.injEq] at this
  norm_num at this
  exact Vec.ext this.1 this.2.1 this.2.2

/-- **C158** The in-place methods of a vector with a vector or an angle as argument. -/
theorem C158_vector_calls2 (v w : Vec ℝ) (t : AngleDeg ℝ) (r : ℝ) :
    VecCall2.setVector.value v w = w ∧
    (VecCall2.add.value v w = ⟨v.x + w.x, v.y + w.y, v.valid⟩ ∧ VecCall2.iadd.value v w = ⟨v.x + w.x, v.y + w.y, v.valid⟩) ∧
    (VecCall2.sub.value v w = ⟨v.x - w.x, v.y - w.y, v.valid⟩ ∧ VecCall2.isub.value v w = ⟨v.x - w.x, v.y - w.y, v.valid⟩) ∧
    (VecCallA.setPolar r).value v t = ⟨r * cosd t.deg, r * sind t.deg, v.valid⟩ ∧
    VecCallA.rotate.value v t = ⟨cosd t.deg * v.x - sind t.deg * v.y, sind t.deg * v.x + cosd t.deg * v.y, v.valid⟩ ∧
    VecCallA.setDir.value v t = ⟨√(v.x ^ 2 + v.y ^ 2) * cosd t.deg, √(v.x ^ 2 + v.y ^ 2) * sind t.deg, v.valid⟩ := by
  refine ⟨rfl, ⟨rfl, rfl⟩, ⟨rfl, rfl⟩, ?_, ?_, ?_⟩
  · simp only [VecCallA.value, Vec.setPolar, cos_real, sin_real, cosd, sind]
  · simp only [VecCallA.value, rotate_real]
    rw [show cosd t.degree = cosd t.deg from cos_deg_congr (AngleDeg.degree_angleEq t),
      show sind t.degree = sind t.deg from sin_deg_congr (AngleDeg.degree_angleEq t)]
  · simp only [VecCallA.value, Vec.setDir, cos_real, sin_real, cosd, sind, vec_r_real]

/-- The new vector each method returns (always valid). -/
noncomputable def Spec.vecFn (v : Vec ℝ) : VecFn ℝ → Except PyErr (ℝ × ℝ)
  | .copy => .ok (v.x, v.y)
  | .construct => .ok (v.x, v.y)
  | .abs => .ok (|v.x|, |v.y|)
  | .reverseVector => .ok (-v.x, -v.y)
  | .setLengthVector l => if √(v.x ^ 2 + v.y ^ 2) ≤ 1 / 1000000 then .ok (v.x, v.y)
      else .ok (l * (v.x / √(v.x ^ 2 + v.y ^ 2)), l * (v.y / √(v.x ^ 2 + v.y ^ 2)))
  | .normalizeVector => if √(v.x ^ 2 + v.y ^ 2) ≤ 1 / 1000000 then .ok (v.x, v.y)
      else .ok (v.x / √(v.x ^ 2 + v.y ^ 2), v.y / √(v.x ^ 2 + v.y ^ 2))
  | .rotatedVector d => .ok (cosd d * v.x - sind d * v.y, sind d * v.x + cosd d * v.y)
  | .mul c => .ok (c * v.x, c * v.y)
  | .truediv c => if c = 0 then .error .zeroDivision else .ok (v.x / c, v.y / c)

/-- **C158** The methods of a vector that return a new one. -/
theorem C158_vector_functions (v : Vec ℝ) (f : VecFn ℝ) : f.value v = (vecFn v f).map fun p => ⟨p.1, p.2, true⟩ := by
  have sl : ∀ l : ℝ, (Vec.ofXY v.x v.y).setLength l = if √(v.x ^ 2 + v.y ^ 2) ≤ 1 / 1000000 then ⟨v.x, v.y, true⟩ else
      ⟨l * (v.x / √(v.x ^ 2 + v.y ^ 2)), l * (v.y / √(v.x ^ 2 + v.y ^ 2)), true⟩ := fun l => by
    have := setLength_real (Vec.ofXY v.x v.y) l
    change _ = if √(v.x ^ 2 + v.y ^ 2) ≤ 1 / 1000000 then (v.x, v.y, true) else
      (l * (v.x / √(v.x ^ 2 + v.y ^ 2)), l * (v.y / √(v.x ^ 2 + v.y ^ 2)), true) at this
    split at this <;> rename_i h <;> simp only [Prod.mk.injEq] at this <;> [rw [if_pos h]; rw [if_neg h]] <;> exact Vec.ext this.1 this.2.1 this.2.2
  cases f with
  | copy => rfl
  | construct => rfl
  | abs => simp only [VecFn.value, Vec.abs, Vec.ofXY, vecFn, fabs_real, Except.map]
  | reverseVector => simp [VecFn.value, Vec.reverseVector, Vec.reverse, Vec.ofXY, vecFn, num_real, Except.map]
  | setLengthVector l =>
    simp only [VecFn.value, Vec.setLengthVector, sl, vecFn]
    split <;> rfl
  | normalizeVector =>
    simp only [VecFn.value, Vec.normalizeVector, sl, vecFn, num_real, Nat.cast_one, one_mul]
    split <;> rfl
  | rotatedVector d => simp only [VecFn.value, Vec.rotatedVector, rotate_real, Vec.ofXY, vecFn, Except.map]
  | mul c => simp only [VecFn.value, Vec.mul, Vec.ofXY, vecFn, Except.map, mul_comm]
  | truediv c =>
    simp only [VecFn.value, Vec.truediv, pyDiv, vecFn, num_real]
    by_cases h : c = 0
    · simp [h, Except.map, bind, Except.bind]
    · simp [h, Except.map, bind, Except.bind, pure, Except.pure, Vec.ofXY]

/-- **C158** The in-place methods of an angle leave a normal angle, congruent to the expected one. -/
theorem C158_angle_calls (a b : AngleDeg ℝ) (ha : AngleDeg.Normal a) (hb : AngleDeg.Normal b) (d : ℝ) :
    (AngleDeg.Normal ((AngCall.setDegree d).value a) ∧ AngleEq ((AngCall.setDegree d).value a).deg d) ∧
    (AngleDeg.Normal (AngCall.reverse.value a) ∧ AngleEq (AngCall.reverse.value a).deg (a.deg + 180)) ∧
    (AngleDeg.Normal ((AngCall.iadd d).value a) ∧ AngleEq ((AngCall.iadd d).value a).deg (a.deg + d)) ∧
    (AngleDeg.Normal ((AngCall.isub d).value a) ∧ AngleEq ((AngCall.isub d).value a).deg (a.deg - d)) ∧
    (AngleDeg.Normal ((AngCall.imul d).value a) ∧ AngleEq ((AngCall.imul d).value a).deg (a.deg * d)) ∧
    AngCall2.setAngle.value a b = b ∧
    (AngleDeg.Normal (AngCall2.iadd.value a b) ∧ AngleEq (AngCall2.iadd.value a b).deg (a.deg + b.deg)) ∧
    (AngleDeg.Normal (AngCall2.isub.value a b) ∧ AngleEq (AngCall2.isub.value a b).deg (a.deg - b.deg)) := by
  have n := fun x => AngleDeg.normalDeg_spec x
  have db := AngleDeg.degree_of_normal hb
  refine ⟨⟨(n d).1, (n d).2.1⟩, ?_, ⟨(n _).1, (n _).2.1⟩, ⟨(n _).1, (n _).2.1⟩, ⟨(n _).1, (n _).2.1⟩, ?_, ?_, ?_⟩
  · change AngleDeg.Normal a.reverse ∧ AngleEq a.reverse.deg _
    obtain ⟨h1, h2⟩ := ha
    unfold AngleDeg.reverse AngleDeg.Normal
    simp only [num_real]
    split
    · rename_i h
      refine ⟨by push_cast at *; constructor <;> linarith, -1, ?_⟩
      push_cast
      ring
    · rename_i h
      refine ⟨by push_cast at *; constructor <;> linarith, 0, ?_⟩
      push_cast
      ring
  · change (⟨b.degree⟩ : AngleDeg ℝ) = b
    rw [db]
  · change AngleDeg.Normal ⟨AngleDeg.normalDeg (a.deg + b.degree)⟩ ∧ _
    rw [db]
    refine ⟨(n _).1, ?_⟩
    change AngleEq (AngleDeg.normalDeg (a.deg + b.degree)) _
    rw [db]
    exact (n _).2.1
  · change AngleDeg.Normal ⟨AngleDeg.normalDeg (a.deg - b.degree)⟩ ∧ _
    rw [db]
    refine ⟨(n _).1, ?_⟩
    change AngleEq (AngleDeg.normalDeg (a.deg - b.degree)) _
    rw [db]
    exact (n _).2.1

/-- The angle each method of `AngleDeg` returns, up to full turns. -/
noncomputable def Spec.angFn (a : ℝ) : AngFn ℝ → Except PyErr ℝ
  | .construct => .ok a
  | .copy => .ok a
  | .reverseAngle => .ok (a + 180)
  | .add d => .ok (a + d)
  | .sub d => .ok (a - d)
  | .mul c => .ok (c * a)
  | .floordiv c => if c = 0 then .error .zeroDivision else .ok (a / c)
  | .neg => .ok (-a)

/-- **C158** The methods of an angle that return a new one. -/
theorem C158_angle_functions (a : AngleDeg ℝ) (f : AngFn ℝ) :
    match angFn a.deg f with
    | .ok d => ∃ b, f.value a = .ok b ∧ AngleDeg.Normal b ∧ AngleEq b.deg d
    | .error e => f.value a = .error e := by
  have n := fun x => AngleDeg.normalDeg_spec x
  cases f with
  | construct => exact ⟨_, rfl, (n _).1, ((n _).2.1).trans (n _).2.1⟩
  | copy => exact ⟨_, rfl, (n _).1, (n _).2.1⟩
  | reverseAngle =>
    refine ⟨_, rfl, ?_⟩
    have h := (C158_angle_calls (AngleDeg.ofNum a.degree) (AngleDeg.ofNum 0) (AngleDeg.ofNum_normal _) (AngleDeg.ofNum_normal _) 0).2.1
    exact ⟨h.1, h.2.trans ((((n _).2.1).trans (n _).2.1).add (AngleEq.refl 180))⟩
  | add d => exact ⟨_, rfl, (n _).1, (n _).2.1⟩
  | sub d => exact ⟨_, rfl, (n _).1, (n _).2.1⟩
  | mul c => exact ⟨_, rfl, (n _).1, by have := (n (a.deg * c)).2.1; rwa [mul_comm c]⟩
  | neg => exact ⟨_, rfl, (n _).1, (n _).2.1⟩
  | floordiv c =>
    simp only [AngFn.value, AngleDeg.floordiv, pyDiv, angFn, num_real]
    by_cases h : c = 0
    · simp [h, bind, Except.bind]
    · simp only [h, if_false]
      refine ⟨AngleDeg.ofNum (a.deg / c), ?_, (n _).1, (n _).2.1⟩
      simp [h, bind, Except.bind, pure, Except.pure]

/-- **C158** The in-place methods of sizes and matrices. -/
theorem C158_size_matrix_calls (s : Size ℝ) (m : Mat ℝ) (l w a b c d x y : ℝ) :
    (SizeCall.assign l w).value s = ⟨|l|, |w|⟩ ∧ (SizeCall.setLength l).value s = ⟨|l|, s.width⟩ ∧
    (SizeCall.setWidth w).value s = ⟨s.length, |w|⟩ ∧
    (MatCall.assign a b c d x y).value m = ⟨a, b, c, d, x, y⟩ ∧
    (MatCall.translate x y).value m = ⟨m.m11, m.m12, m.m21, m.m22, m.dx + x, m.dy + y⟩ ∧
    (MatCall.scale x y).value m = ⟨x * m.m11, x * m.m12, y * m.m21, y * m.m22, x * m.dx, y * m.dy⟩ := by
  refine ⟨?_, ?_, ?_, rfl, rfl, ?_⟩
  · simp only [SizeCall.value, Size.ofLW, fabs_real]
  · simp only [SizeCall.value, Size.setLength, fabs_real]
  · simp only [SizeCall.value, Size.setWidth, fabs_real]
  · simp only [MatCall.value, Mat.scale, mul_comm]

end PyrusGeom
