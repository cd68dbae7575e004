import Verif.Props.Vector
import Verif.Model.Matrix

/-! # Properties C66, C68, C69, C70: `Matrix2D` (values; object identity is in the heap model, C67) -/

namespace PyrusGeom
open Spec

/-- The affine map `z ↦ (a x + b y + p, c x + d y + q)`. -/
def Spec.affine (a b c d p q : ℝ) (z : Pt) : Pt := (a * z.1 + b * z.2 + p, c * z.1 + d * z.2 + q)

theorem Mat.identity_real : (Mat.identity : Mat ℝ) = ⟨1, 0, 0, 1, 0, 0⟩ := by simp [Mat.identity]

/-! ## C66 -/

/-- **C66.** -/
theorem C66_product (A B C : Mat ℝ) (v : Vec ℝ) :
    (∀ x y : ℝ, (A.transformXY x y).pt = affine A.m11 A.m12 A.m21 A.m22 A.dx A.dy (x, y)) ∧
    ((A.mul B).transform v).pt = (A.transform (B.transform v)).pt ∧
    (A.mul B).mul C = A.mul (B.mul C) ∧ Mat.identity.mul A = A ∧ A.mul Mat.identity = A ∧
    (Mat.identity.transform v).pt = v.pt ∧ (A.mul B).det = A.det * B.det ∧
    A.transform v = A.transformXY v.x v.y ∧ (A.transformVec v).pt = (A.transform v).pt := by
  refine ⟨fun x y => rfl, ?_, ?_, ?_, ?_, ?_, ?_, rfl, rfl⟩
  · refine Prod.ext ?_ ?_ <;> simp [Mat.transform, Mat.mul] <;> ring
  · ext <;> simp [Mat.mul] <;> ring
  · rw [Mat.identity_real]; ext <;> simp [Mat.mul]
  · rw [Mat.identity_real]; ext <;> simp [Mat.mul]
  · rw [Mat.identity_real]; refine Prod.ext ?_ ?_ <;> simp [Mat.transform]
  · simp only [Mat.det, Mat.mul]; ring

/-- The product is not commutative, so the order in C66 matters. -/
example : (Mat.mul ⟨1, 1, 0, 1, 0, 0⟩ ⟨1, 0, 1, 1, 0, 0⟩ : Mat ℝ) ≠ Mat.mul ⟨1, 0, 1, 1, 0, 0⟩ ⟨1, 1, 0, 1, 0, 0⟩ := by
  intro h
  have := congrArg Mat.m11 h
  norm_num [Mat.mul] at this

/-! ## C68 -/

theorem Mat.inverted_of (M : Mat ℝ) (k : ℝ) (hk : M.det * k = 1) : M.inverted =
    ⟨M.m22 * k, -M.m12 * k, -M.m21 * k, M.m11 * k, (M.m12 * M.dy - M.dx * M.m22) * k,
      (M.dx * M.m21 - M.m11 * M.dy) * k⟩ := by
  have hd : M.det ≠ 0 := by intro h; rw [h, zero_mul] at hk; exact zero_ne_one hk
  have : (1:ℝ) / M.det = k := by field_simp; linarith
  simp [Mat.inverted, hd, this]

/-- **C68**, invertible matrices. -/
theorem C68_inverse (M : Mat ℝ) (h : M.det ≠ 0) (v : Vec ℝ) :
    (M.inverted.transform (M.transform v)).pt = v.pt ∧ (M.transform (M.inverted.transform v)).pt = v.pt ∧
    M.inverted.mul M = Mat.identity ∧ M.mul M.inverted = Mat.identity ∧
    M.inverted.inverted = M ∧ M.inverted.det = 1 / M.det := by
  obtain ⟨k, hk⟩ : ∃ k, M.det * k = 1 := ⟨1 / M.det, by field_simp⟩
  have hi := Mat.inverted_of M k hk
  have hk' : (M.m11 * M.m22 - M.m12 * M.m21) * k = 1 := hk
  have hdet : M.inverted.det = k := by
    rw [hi]; simp only [Mat.det]; linear_combination k * hk'
  have hk2 : M.inverted.det * M.det = 1 := by rw [hdet, mul_comm]; exact hk
  have h1 : M.inverted.mul M = Mat.identity := by
    rw [hi, Mat.identity_real]
    ext <;> simp only [Mat.mul]
    · linear_combination hk'
    · ring
    · ring
    · linear_combination hk'
    · ring
    · ring
  have h2 : M.mul M.inverted = Mat.identity := by
    rw [hi, Mat.identity_real]
    ext <;> simp only [Mat.mul]
    · linear_combination hk'
    · ring
    · ring
    · linear_combination hk'
    · linear_combination -M.dx * hk'
    · linear_combination -M.dy * hk'
  refine ⟨?_, ?_, h1, h2, ?_, ?_⟩
  · rw [← (C66_product _ _ Mat.identity v).2.1, h1, (C66_product Mat.identity Mat.identity Mat.identity v).2.2.2.2.2.1]
  · rw [← (C66_product _ _ Mat.identity v).2.1, h2, (C66_product Mat.identity Mat.identity Mat.identity v).2.2.2.2.2.1]
  · rw [Mat.inverted_of M.inverted M.det hk2, hi]
    have e : M.det = M.m11 * M.m22 - M.m12 * M.m21 := rfl
    ext <;> simp only [e]
    · linear_combination M.m11 * hk'
    · linear_combination M.m12 * hk'
    · linear_combination M.m21 * hk'
    · linear_combination M.m22 * hk'
    · linear_combination M.dx * (M.m11 * M.m22 - M.m12 * M.m21) * k * hk' + M.dx * hk'
    · linear_combination M.dy * (M.m11 * M.m22 - M.m12 * M.m21) * k * hk' + M.dy * hk'
  · rw [hdet]; field_simp; linarith

/-- **C68**, singular matrices. -/
theorem C68_singular (M : Mat ℝ) (h : M.det = 0) : M.inverted = Mat.identity := by
  simp [Mat.inverted, h]

/-- **C68**, `invertible` answers with the tolerance EPSILON, and then the inverse exists. -/
theorem C68_invertible (M : Mat ℝ) : (M.invertible = true ↔ EPSILON < |M.det|) ∧ (M.invertible = true → M.det ≠ 0) := by
  have h : M.invertible = true ↔ EPSILON < |M.det| := by simp [Mat.invertible, fabs_real]
  refine ⟨h, fun hi h0 => ?_⟩
  rw [h, h0, abs_zero] at hi
  linarith [EPSILON_pos]

/-- Non-vacuity of C68. -/
example : (Mat.mk 2 0 0 (1/2) 3 4 : Mat ℝ).det ≠ 0 := by norm_num [Mat.det]

/-! ## C69 -/

/-- One in-place operation. -/
inductive MatOp
  | translate (x y : ℝ) | scale (x y : ℝ) | rotate (a : AngleDeg ℝ)

/-- Effect of an operation on the receiver. -/
noncomputable def MatOp.apply (M : Mat ℝ) : MatOp → Mat ℝ
  | .translate x y => M.translate x y
  | .scale x y => M.scale x y
  | .rotate a => M.rotate a

/-- The matrix made by the corresponding factory function. -/
noncomputable def MatOp.make : MatOp → Mat ℝ
  | .translate x y => Mat.makeTranslation x y
  | .scale x y => Mat.makeScaling x y
  | .rotate a => Mat.makeRotation a

/-- What the operation does to a point. -/
noncomputable def MatOp.move (z : Pt) : MatOp → Pt
  | .translate x y => (z.1 + x, z.2 + y)
  | .scale x y => (x * z.1, y * z.2)
  | .rotate a => (z.1 * (unit a.deg).1 - z.2 * (unit a.deg).2, z.1 * (unit a.deg).2 + z.2 * (unit a.deg).1)

theorem MatOp.apply_eq (M : Mat ℝ) (op : MatOp) : op.apply M = op.make.mul M := by
  cases op
  · ext <;> simp [MatOp.apply, MatOp.make, Mat.translate, Mat.makeTranslation, Mat.mul]
  · ext <;> simp [MatOp.apply, MatOp.make, Mat.scale, Mat.makeScaling, Mat.mul] <;> ring
  · ext <;> simp [MatOp.apply, MatOp.make, Mat.rotate, Mat.makeRotation, Mat.mul] <;> ring

theorem MatOp.make_transform (op : MatOp) (v : Vec ℝ) : (op.make.transform v).pt = op.move v.pt := by
  cases op
  · refine Prod.ext ?_ ?_ <;> simp [MatOp.make, MatOp.move, Mat.transform, Mat.makeTranslation]
  · refine Prod.ext ?_ ?_ <;> simp [MatOp.make, MatOp.move, Mat.transform, Mat.makeScaling]
  · refine Prod.ext ?_ ?_ <;>
    simp [MatOp.make, MatOp.move, Mat.transform, Mat.makeRotation, cosA_real, sinA_real] <;> ring

/-- **C69**: any sequence of in-place calls multiplies from the left by the product of the factory matrices, and its
transform is the transform of the original matrix followed by the elementary moves in call order. -/
theorem C69_history (ops : List MatOp) (M : Mat ℝ) (v : Vec ℝ) :
    ops.foldl MatOp.apply M = (ops.foldl (fun P op => op.make.mul P) Mat.identity).mul M ∧
    ((ops.foldl MatOp.apply M).transform v).pt = ops.foldl MatOp.move (M.transform v).pt := by
  have comp := fun (A B : Mat ℝ) (v : Vec ℝ) => (C66_product A B Mat.identity v).2.1
  constructor
  · have : ∀ P Q : Mat ℝ, Q = P.mul M →
        ops.foldl MatOp.apply Q = (ops.foldl (fun P op => op.make.mul P) P).mul M := by
      induction ops with
      | nil => intro P Q h; exact h
      | cons op ops ih =>
        intro P Q h
        refine ih _ _ ?_
        rw [MatOp.apply_eq, h, (C66_product op.make P M v).2.2.1]
    exact this _ _ (C66_product M M M v).2.2.2.1.symm
  · induction ops generalizing M with
    | nil => rfl
    | cons op ops ih =>
      rw [List.foldl_cons, List.foldl_cons, ih, MatOp.apply_eq, comp, MatOp.make_transform]

/-- **C69**, rotations: determinant 1, distances preserved; `rotate` preserves the determinant. -/
theorem C69_rotation (a : AngleDeg ℝ) (M : Mat ℝ) (v w : Vec ℝ) :
    (Mat.makeRotation a).det = 1 ∧ (M.rotate a).det = M.det ∧
    d ((Mat.makeRotation a).transform v).pt ((Mat.makeRotation a).transform w).pt = d v.pt w.pt := by
  have hu := unit_sq a.deg
  have hdet : (Mat.makeRotation a).det = 1 := by
    simp only [Mat.det, Mat.makeRotation, cosA_real, sinA_real]; linarith
  refine ⟨hdet, ?_, ?_⟩
  · have := MatOp.apply_eq M (.rotate a)
    simp only [MatOp.apply, MatOp.make] at this
    rw [this, (C66_product _ _ M v).2.2.2.2.2.2.1, hdet, one_mul]
  · unfold d
    congr 1
    simp only [Mat.transform, Mat.makeRotation, cosA_real, sinA_real, Vec.pt_ofXY, Vec.pt_fst, Vec.pt_snd,
      Nat.cast_zero]
    linear_combination ((v.x - w.x) ^ 2 + (v.y - w.y) ^ 2) * hu

/-- Non-vacuity of C69: a history with all three operations moves (1,0) to (0,5). -/
example : [MatOp.scale 2 2, .translate 3 0, .rotate ⟨90⟩].foldl MatOp.move (1, 0) = (0, 5) := by
  have h : (90:ℝ) * (Real.pi / 180) = Real.pi / 2 := by ring
  refine Prod.ext ?_ ?_ <;> simp [MatOp.move, unit, h]
  norm_num

/-! ## C70 -/

/-- **C70**, what `==` decides: the receiver's horizontal offset is compared with the vertical offset of the
argument. -/
theorem C70_eq_partial (A B : Mat ℝ) : A.eq B = true ↔
    A.m11 = B.m11 ∧ A.m12 = B.m12 ∧ A.m21 = B.m21 ∧ A.m22 = B.m22 ∧ A.dx = B.dy ∧ A.dy = B.dy := by
  simp [Mat.eq, and_assoc]

/-- **C70**, the part that holds: for matrices whose offsets all agree. -/
theorem C70_offset_partial (A B : Mat ℝ) (hA : A.dx = A.dy) (hB : B.dx = B.dy) : A.eq B = true ↔ A = B := by
  rw [C70_eq_partial, Mat.ext_iff, ← hA, ← hB]

/-- **C70** is false: A == A exactly when its two offsets are equal. -/
theorem C70_refuted_refl (A : Mat ℝ) : A.eq A = true ↔ A.dx = A.dy := by
  rw [C70_eq_partial]; simp

/-- **C70** is false in the other direction as well: different matrices compare equal. -/
theorem C70_refuted_distinct : ∃ A B : Mat ℝ, A ≠ B ∧ A.eq B = true := by
  refine ⟨⟨1, 0, 0, 1, 2, 2⟩, ⟨1, 0, 0, 1, 5, 2⟩, ?_, by simp [Mat.eq]⟩
  intro h; have := congrArg Mat.dx h; norm_num at this

/-- Non-vacuity of C70: a translation by (3, 4) does not equal itself. -/
example : (Mat.makeTranslation (3:ℝ) 4).eq (Mat.makeTranslation 3 4) = false := by
  rw [← Bool.not_eq_true, C70_refuted_refl]; norm_num [Mat.makeTranslation]

end PyrusGeom
