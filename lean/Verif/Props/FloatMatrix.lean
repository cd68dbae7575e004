import Verif.Props.FloatRates
import Verif.Props.FloatVec
import Verif.Model.Matrix

/-! # C185: matrices in double precision -/

namespace PyrusGeom
open Spec

/-- Absolute value with an offset that absorbs underflow. -/
noncomputable def Spec.mag (x : ℝ) : ℝ := |x| + (2 : ℝ) ^ (-200 : ℤ)

theorem mag_pos (x : ℝ) : 0 < mag x := by unfold mag; positivity

theorem abs_le_mag (x : ℝ) : |x| ≤ mag x := by
  unfold mag
  have : (0 : ℝ) < (2 : ℝ) ^ (-200 : ℤ) := by positivity
  linarith

theorem two_200_mag (x : ℝ) : (2 : ℝ) ^ (-200 : ℤ) ≤ mag x := by
  unfold mag
  have := abs_nonneg x
  linarith

theorem rounded_mag (x : ℝ) : Rounded 0 x x (mag x) :=
  rounded_exact (abs_le_mag x) (two_1000_le (n := -200) (by norm_num) (two_200_mag x))

theorem two_400_mag (x y : ℝ) : (2 : ℝ) ^ (-400 : ℤ) ≤ mag x * mag y := by
  rw [show (-400 : ℤ) = -200 + -200 by norm_num, zpow_add₀ two_ne_zero]
  exact mul_le_mul (two_200_mag x) (two_200_mag y) (by positivity) (mag_pos x).le

theorem two_600_mag {M : ℝ} (x : ℝ) (h : (2 : ℝ) ^ (-400 : ℤ) ≤ M) : (2 : ℝ) ^ (-600 : ℤ) ≤ mag x * M := by
  rw [show (-600 : ℤ) = -200 + -400 by norm_num, zpow_add₀ two_ne_zero]
  exact mul_le_mul (two_200_mag x) h (by positivity) (mag_pos x).le

theorem rounded_prod (x y : ℝ) : Rounded 3 (rne (x * y)) (x * y) (mag x * mag y) :=
  ((rounded_mag x).mul (rounded_mag y) le_rfl le_rfl (by norm_num) (two_1000_le (n := -400) (by norm_num) (two_400_mag x y))).mono
    (by norm_num) (by norm_num) le_rfl

/-- A rounded linear form. -/
theorem rounded_lin (a x b y c : ℝ) : Rounded 7 (rne (rne (rne (a * x) + rne (b * y)) + c)) (a * x + b * y + c)
    (mag a * mag x + mag b * mag y + mag c) :=
  ((((rounded_prod a x).add (rounded_prod b y) (by norm_num) (by norm_num) (by norm_num)).add (rounded_mag c) (by norm_num) le_rfl
    (by norm_num))).mono (by norm_num) (by norm_num) le_rfl

namespace Mat

/-- The exact determinant and the size of its terms. -/
def exactDet (m : Mat (FP double)) : ℝ := m.m11.val * m.m22.val - m.m12.val * m.m21.val

noncomputable def detMag (m : Mat (FP double)) : ℝ := mag m.m11.val * mag m.m22.val + mag m.m12.val * mag m.m21.val

/-- The sizes of the terms of the two coordinates of the image of `(x, y)`. -/
noncomputable def magX (m : Mat (FP double)) (x y : ℝ) : ℝ := mag m.m11.val * mag x + mag m.m12.val * mag y + mag m.dx.val

noncomputable def magY (m : Mat (FP double)) (x y : ℝ) : ℝ := mag m.m21.val * mag x + mag m.m22.val * mag y + mag m.dy.val

end Mat

theorem rounded_det (m : Mat (FP double)) : Rounded 5 m.det.val m.exactDet m.detMag := by
  have := (rounded_prod m.m11.val m.m22.val).sub (rounded_prod m.m12.val m.m21.val) (by norm_num) (by norm_num) (by norm_num)
  exact this.mono (by norm_num) (by norm_num) le_rfl

/-- **C185** The determinant and the test `invertible`; a singular matrix is always recognised and its `inverted` is the identity. -/
theorem C185_det (m : Mat (FP double)) :
    |m.det.val - m.exactDet| ≤ (2 : ℝ) ^ (-50 : ℤ) * m.detMag ∧
    ((EPSILON : FP double).val + (2 : ℝ) ^ (-50 : ℤ) * m.detMag < |m.exactDet| → m.invertible = true) ∧
    (|m.exactDet| + (2 : ℝ) ^ (-50 : ℤ) * m.detMag ≤ (EPSILON : FP double).val → m.invertible = false) ∧
    (m.exactDet = 0 → m.det.val = 0 ∧ m.invertible = false ∧ m.inverted = Mat.identity) := by
  have h := (rounded_det m).final (ε := (2 : ℝ) ^ (-50 : ℤ)) (by norm_num)
  have g := abs_abs_sub_abs_le m.det.val m.exactDet
  have g1 := abs_le.mp (g.trans h)
  have inv : m.invertible = true ↔ (EPSILON : FP double).val < |m.det.val| := by
    unfold Mat.invertible
    rw [decide_eq_true_iff, FP.lt_def, fp_fabs_val]
  refine ⟨h, fun k => inv.mpr (by linarith), fun k => ?_, fun k => ?_⟩
  · rw [Bool.eq_false_iff, Ne, inv]
    push Not
    linarith
  · have z : m.det.val = 0 := by
      have : m.m11.val * m.m22.val = m.m12.val * m.m21.val := by unfold Mat.exactDet at k; linarith
      change rne (rne (m.m11.val * m.m22.val) - rne (m.m12.val * m.m21.val)) = 0
      rw [this, sub_self, rne_of_isDouble isDouble_zero]
    refine ⟨z, ?_, ?_⟩
    · rw [Bool.eq_false_iff, Ne, inv, z, abs_zero]
      have := fp_EPSILON.1
      linarith
    · unfold Mat.inverted
      dsimp only
      rw [if_pos ((fp_beq_zero _).mpr z)]

theorem fp_inverted (m : Mat (FP double)) (h : m.det.val ≠ 0) : m.inverted =
    ⟨m.m22 * (num 1 / m.det), -m.m12 * (num 1 / m.det), -m.m21 * (num 1 / m.det), m.m11 * (num 1 / m.det),
      (m.m12 * m.dy - m.dx * m.m22) * (num 1 / m.det), (m.dx * m.m21 - m.m11 * m.dy) * (num 1 / m.det)⟩ := by
  unfold Mat.inverted
  dsimp only
  rw [if_neg (fun k => h ((fp_beq_zero _).mp k))]

/-- Multiplication by the rounded inverse of `d`. -/
theorem rounded_over {e a x M d : ℝ} (h : Rounded e a x M) (he : 0 ≤ e) (he2 : e ≤ 500) (hM : (2 : ℝ) ^ (-600 : ℤ) ≤ M) (hd : d ≠ 0)
    (hd2 : |d| ≤ (2 : ℝ) ^ (400 : ℤ)) : Rounded (e + 6) (rne (a * rne (1 / d))) (x / d) (M / |d|) := by
  have d0 : 0 < |d| := abs_pos.mpr hd
  have big : ∀ N : ℝ, (2 : ℝ) ^ (-600 : ℤ) ≤ N → (2 : ℝ) ^ (-1000 : ℤ) ≤ N / |d| := fun N hN => by
    rw [le_div_iff₀ d0]
    refine le_trans ?_ hN
    rw [show (-600 : ℤ) = -1000 + 400 by norm_num, zpow_add₀ two_ne_zero]
    exact mul_le_mul_of_nonneg_left hd2 (by positivity)
  have k := (rounded_one.div (b := d) (y := d) (f := 0) (by rw [sub_self, abs_zero, zero_mul, zero_mul]) hd le_rfl le_rfl (by norm_num)
    (big 1 (zpow_le_one_of_nonpos₀ one_le_two (by norm_num)))).2
  have k2 := h.mul k he (by norm_num) (by linarith) (by rw [mul_one_div]; exact big M hM)
  rw [mul_one_div, mul_one_div] at k2
  exact k2.mono (by linarith) (by linarith) le_rfl

/-- The computed inverse, entry by entry. -/
theorem inverted_rounded (m : Mat (FP double)) (h : m.det.val ≠ 0) (h2 : |m.det.val| ≤ (2 : ℝ) ^ (400 : ℤ)) :
    Rounded 6 m.inverted.m11.val (m.m22.val / m.det.val) (mag m.m22.val / |m.det.val|) ∧
    Rounded 6 m.inverted.m12.val (-m.m12.val / m.det.val) (mag m.m12.val / |m.det.val|) ∧
    Rounded 6 m.inverted.m21.val (-m.m21.val / m.det.val) (mag m.m21.val / |m.det.val|) ∧
    Rounded 6 m.inverted.m22.val (m.m11.val / m.det.val) (mag m.m11.val / |m.det.val|) ∧
    Rounded 11 m.inverted.dx.val ((m.m12.val * m.dy.val - m.dx.val * m.m22.val) / m.det.val)
      ((mag m.m12.val * mag m.dy.val + mag m.dx.val * mag m.m22.val) / |m.det.val|) ∧
    Rounded 11 m.inverted.dy.val ((m.dx.val * m.m21.val - m.m11.val * m.dy.val) / m.det.val)
      ((mag m.dx.val * mag m.m21.val + mag m.m11.val * mag m.dy.val) / |m.det.val|) := by
  have e1 : (num 1 : FP double).val = 1 := (double.int 1 (by norm_num)).trans (by norm_num)
  have b200 : ∀ x : ℝ, (2 : ℝ) ^ (-600 : ℤ) ≤ mag x := fun x =>
    (zpow_le_zpow_right₀ one_le_two (by norm_num)).trans (two_200_mag x)
  have b400 : ∀ x y z w : ℝ, (2 : ℝ) ^ (-600 : ℤ) ≤ mag x * mag y + mag z * mag w := fun x y z w => by
    have := mul_pos (mag_pos z) (mag_pos w)
    have h6 : (2 : ℝ) ^ (-600 : ℤ) ≤ (2 : ℝ) ^ (-400 : ℤ) := zpow_le_zpow_right₀ one_le_two (by norm_num)
    have := two_400_mag x y
    linarith
  have one : ∀ x : ℝ, Rounded 6 (rne (x * rne (1 / m.det.val))) (x / m.det.val) (mag x / |m.det.val|) := fun x =>
    (rounded_over (rounded_mag x) le_rfl (by norm_num) (b200 x) h h2).mono (by norm_num) (by norm_num) le_rfl
  have neg : ∀ x : ℝ, Rounded 6 (rne (-x * rne (1 / m.det.val))) (-x / m.det.val) (mag x / |m.det.val|) := fun x => by
    have := one (-x)
    rwa [show mag (-x) = mag x by unfold mag; rw [abs_neg]] at this
  have two : ∀ x y z w : ℝ, Rounded 11 (rne (rne (rne (x * y) - rne (z * w)) * rne (1 / m.det.val))) ((x * y - z * w) / m.det.val)
      ((mag x * mag y + mag z * mag w) / |m.det.val|) := fun x y z w =>
    (rounded_over ((rounded_prod x y).sub (rounded_prod z w) (by norm_num) (by norm_num) (by norm_num)) (by norm_num) (by norm_num)
      (b400 x y z w) h h2).mono (by norm_num) (by norm_num) le_rfl
  rw [fp_inverted m h]
  have q : (num 1 / m.det : FP double).val = rne (1 / m.det.val) := by rw [FP.div_val, e1]; rfl
  refine ⟨?_, ?_, ?_, ?_, ?_, ?_⟩
  · rw [FP.mul_val, q]; exact one _
  · rw [FP.mul_val, q]; exact neg _
  · rw [FP.mul_val, q]; exact neg _
  · rw [FP.mul_val, q]; exact one _
  · rw [FP.mul_val, q]; exact two _ _ _ _
  · rw [FP.mul_val, q]; exact two _ _ _ _

/-- **C185** The computed inverse undoes the computed transform. -/
theorem C185_undo (m : Mat (FP double)) (v : Vec (FP double)) (h : m.det.val ≠ 0) (h2 : |m.det.val| ≤ (2 : ℝ) ^ (400 : ℤ)) :
    |(m.inverted.transform (m.transform v)).x.val - v.x.val| ≤ (2 : ℝ) ^ (-47 : ℤ) *
      ((mag m.m22.val * m.magX v.x.val v.y.val + mag m.m12.val * m.magY v.x.val v.y.val) / |m.det.val|) ∧
    |(m.inverted.transform (m.transform v)).y.val - v.y.val| ≤ (2 : ℝ) ^ (-47 : ℤ) *
      ((mag m.m21.val * m.magX v.x.val v.y.val + mag m.m11.val * m.magY v.x.val v.y.val) / |m.det.val|) := by
  obtain ⟨i11, i12, i21, i22, idx, idy⟩ := inverted_rounded m h h2
  have hX : Rounded 7 (m.transform v).x.val (m.m11.val * v.x.val + m.m12.val * v.y.val + m.dx.val) (m.magX v.x.val v.y.val) :=
    rounded_lin _ _ _ _ _
  have hY : Rounded 7 (m.transform v).y.val (m.m21.val * v.x.val + m.m22.val * v.y.val + m.dy.val) (m.magY v.x.val v.y.val) :=
    rounded_lin _ _ _ _ _
  have d0 : 0 < |m.det.val| := abs_pos.mpr h
  have X2 : (2 : ℝ) ^ (-400 : ℤ) ≤ m.magX v.x.val v.y.val := by
    unfold Mat.magX
    have := two_400_mag m.m11.val v.x.val
    have := mul_pos (mag_pos m.m12.val) (mag_pos v.y.val)
    have := mag_pos m.dx.val
    linarith
  have Y2 : (2 : ℝ) ^ (-400 : ℤ) ≤ m.magY v.x.val v.y.val := by
    unfold Mat.magY
    have := two_400_mag m.m21.val v.x.val
    have := mul_pos (mag_pos m.m22.val) (mag_pos v.y.val)
    have := mag_pos m.dy.val
    linarith
  have big : ∀ x M : ℝ, (2 : ℝ) ^ (-400 : ℤ) ≤ M → (2 : ℝ) ^ (-1000 : ℤ) ≤ mag x / |m.det.val| * M := fun x M hM => by
    rw [div_mul_eq_mul_div, le_div_iff₀ d0]
    refine le_trans ?_ (two_600_mag x hM)
    rw [show (-600 : ℤ) = -1000 + 400 by norm_num, zpow_add₀ two_ne_zero]
    exact mul_le_mul_of_nonneg_left h2 (by positivity)
  have dd := (rounded_det m).err
  unfold Mat.exactDet Mat.detMag at dd
  have fin : ∀ {x' x t Q P : ℝ}, Rounded 20 x' (t / m.det.val) (2 * Q) → t = (m.m11.val * m.m22.val - m.m12.val * m.m21.val) * x → 
      |x| * (mag m.m11.val * mag m.m22.val + mag m.m12.val * mag m.m21.val) ≤ Q * |m.det.val| → |x' - x| ≤ (2 : ℝ) ^ (-47 : ℤ) * Q := by
    intro x' x t Q P k ht hQ
    have k1 := k.err
    have k2 : |t / m.det.val - x| ≤ 5 * (2 : ℝ) ^ (-53 : ℤ) * Q := by
      rw [ht, div_sub' h, abs_div, div_le_iff₀ d0, mul_comm m.det.val x, mul_comm _ x, ← mul_sub, abs_mul, abs_sub_comm]
      have := mul_le_mul_of_nonneg_left dd (abs_nonneg x)
      refine this.trans ?_
      have := mul_le_mul_of_nonneg_left hQ (show (0 : ℝ) ≤ 5 * (2 : ℝ) ^ (-53 : ℤ) by positivity)
      refine le_trans (le_of_eq (by ring)) (this.trans (le_of_eq (by ring)))
    refine (abs_sub_le x' (t / m.det.val) x).trans ((add_le_add k1 k2).trans ?_)
    have Q0 := k.pos
    rw [show (2 : ℝ) ^ (-47 : ℤ) = 64 * (2 : ℝ) ^ (-53 : ℤ) by norm_num]
    have : 0 < (2 : ℝ) ^ (-53 : ℤ) * Q := mul_pos (by positivity) (by linarith)
    nlinarith
  have p11 := mag_pos m.m11.val
  have p12 := mag_pos m.m12.val
  have p21 := mag_pos m.m21.val
  have p22 := mag_pos m.m22.val
  have px := mag_pos v.x.val
  have py := mag_pos v.y.val
  have pdx := mag_pos m.dx.val
  have pdy := mag_pos m.dy.val
  have ax := abs_le_mag v.x.val
  have ay := abs_le_mag v.y.val
  constructor
  · have k := (((i11.mul hX (by norm_num) (by norm_num) (by norm_num) (big _ _ X2)).add (i12.mul hY (by norm_num) (by norm_num) (by norm_num)
      (big _ _ Y2)) (by norm_num) (by norm_num) (by norm_num)).add idx (by norm_num) (by norm_num) (by norm_num)).mono (f := 20)
      (N := 2 * ((mag m.m22.val * m.magX v.x.val v.y.val + mag m.m12.val * m.magY v.x.val v.y.val) / |m.det.val|))
      (by norm_num) (by norm_num) (by
        rw [div_mul_eq_mul_div, div_mul_eq_mul_div, ← add_div, ← add_div, ← mul_div_assoc]
        refine div_le_div_of_nonneg_right ?_ d0.le
        unfold Mat.magX Mat.magY
        nlinarith [mul_pos p22 p11, mul_pos p22 p12, mul_pos p12 p21, mul_pos (mul_pos p22 p11) px, mul_pos (mul_pos p22 p12) py,
          mul_pos (mul_pos p12 p21) px, mul_pos (mul_pos p12 p22) py, mul_pos p22 pdx, mul_pos p12 pdy])
    rw [show m.m22.val / m.det.val * (m.m11.val * v.x.val + m.m12.val * v.y.val + m.dx.val) +
      -m.m12.val / m.det.val * (m.m21.val * v.x.val + m.m22.val * v.y.val + m.dy.val) +
      (m.m12.val * m.dy.val - m.dx.val * m.m22.val) / m.det.val =
      ((m.m11.val * m.m22.val - m.m12.val * m.m21.val) * v.x.val) / m.det.val by ring] at k
    refine fin (P := 0) k rfl ?_
    rw [div_mul_cancel₀ _ d0.ne']
    unfold Mat.magX Mat.magY
    have := mul_le_mul_of_nonneg_right ax (show 0 ≤ mag m.m11.val * mag m.m22.val + mag m.m12.val * mag m.m21.val by positivity)
    refine this.trans ?_
    nlinarith [mul_pos (mul_pos p22 p12) py, mul_pos (mul_pos p12 p22) py, mul_pos p22 pdx, mul_pos p12 pdy]
  · have k := (((i21.mul hX (by norm_num) (by norm_num) (by norm_num) (big _ _ X2)).add (i22.mul hY (by norm_num) (by norm_num) (by norm_num)
      (big _ _ Y2)) (by norm_num) (by norm_num) (by norm_num)).add idy (by norm_num) (by norm_num) (by norm_num)).mono (f := 20)
      (N := 2 * ((mag m.m21.val * m.magX v.x.val v.y.val + mag m.m11.val * m.magY v.x.val v.y.val) / |m.det.val|))
      (by norm_num) (by norm_num) (by
        rw [div_mul_eq_mul_div, div_mul_eq_mul_div, ← add_div, ← add_div, ← mul_div_assoc]
        refine div_le_div_of_nonneg_right ?_ d0.le
        unfold Mat.magX Mat.magY
        nlinarith [mul_pos p22 p11, mul_pos p22 p12, mul_pos p12 p21, mul_pos (mul_pos p21 p11) px, mul_pos (mul_pos p21 p12) py,
          mul_pos (mul_pos p11 p21) px, mul_pos (mul_pos p11 p22) py, mul_pos p21 pdx, mul_pos p11 pdy])
    rw [show -m.m21.val / m.det.val * (m.m11.val * v.x.val + m.m12.val * v.y.val + m.dx.val) +
      m.m11.val / m.det.val * (m.m21.val * v.x.val + m.m22.val * v.y.val + m.dy.val) +
      (m.dx.val * m.m21.val - m.m11.val * m.dy.val) / m.det.val =
      ((m.m11.val * m.m22.val - m.m12.val * m.m21.val) * v.y.val) / m.det.val by ring] at k
    refine fin (P := 0) k rfl ?_
    rw [div_mul_cancel₀ _ d0.ne']
    unfold Mat.magX Mat.magY
    have := mul_le_mul_of_nonneg_right ay (show 0 ≤ mag m.m11.val * mag m.m22.val + mag m.m12.val * mag m.m21.val by positivity)
    refine this.trans ?_
    nlinarith [mul_pos (mul_pos p21 p11) px, mul_pos (mul_pos p11 p21) px, mul_pos p21 pdx, mul_pos p11 pdy]

/-- **C185** The computed product followed by a transform, and the two transforms one after the other, both agree with the exact
composition. -/
theorem C185_product (m o : Mat (FP double)) (v : Vec (FP double)) :
    let X := o.m11.val * v.x.val + o.m12.val * v.y.val + o.dx.val
    let Y := o.m21.val * v.x.val + o.m22.val * v.y.val + o.dy.val
    let MX := mag m.m11.val * o.magX v.x.val v.y.val + mag m.m12.val * o.magY v.x.val v.y.val + mag m.dx.val
    let MY := mag m.m21.val * o.magX v.x.val v.y.val + mag m.m22.val * o.magY v.x.val v.y.val + mag m.dy.val
    (|((m.mul o).transform v).x.val - (m.m11.val * X + m.m12.val * Y + m.dx.val)| ≤ (2 : ℝ) ^ (-49 : ℤ) * MX ∧
      |((m.mul o).transform v).y.val - (m.m21.val * X + m.m22.val * Y + m.dy.val)| ≤ (2 : ℝ) ^ (-49 : ℤ) * MY) ∧
    (|(m.transform (o.transform v)).x.val - (m.m11.val * X + m.m12.val * Y + m.dx.val)| ≤ (2 : ℝ) ^ (-49 : ℤ) * MX ∧
      |(m.transform (o.transform v)).y.val - (m.m21.val * X + m.m22.val * Y + m.dy.val)| ≤ (2 : ℝ) ^ (-49 : ℤ) * MY) := by
  intro X Y MX MY
  have hX : Rounded 7 (o.transform v).x.val X (o.magX v.x.val v.y.val) := rounded_lin _ _ _ _ _
  have hY : Rounded 7 (o.transform v).y.val Y (o.magY v.x.val v.y.val) := rounded_lin _ _ _ _ _
  have X2 : (2 : ℝ) ^ (-400 : ℤ) ≤ o.magX v.x.val v.y.val := by
    unfold Mat.magX
    have := two_400_mag o.m11.val v.x.val
    have := mul_pos (mag_pos o.m12.val) (mag_pos v.y.val)
    have := mag_pos o.dx.val
    linarith
  have Y2 : (2 : ℝ) ^ (-400 : ℤ) ≤ o.magY v.x.val v.y.val := by
    unfold Mat.magY
    have := two_400_mag o.m21.val v.x.val
    have := mul_pos (mag_pos o.m22.val) (mag_pos v.y.val)
    have := mag_pos o.dy.val
    linarith
  have b6 : ∀ x M : ℝ, (2 : ℝ) ^ (-400 : ℤ) ≤ M → (2 : ℝ) ^ (-1000 : ℤ) ≤ mag x * M := fun x M h =>
    two_1000_le (n := -600) (by norm_num) (two_600_mag x h)
  have seq : ∀ a b c : ℝ, |rne (rne (rne (a * (o.transform v).x.val) + rne (b * (o.transform v).y.val)) + c) - (a * X + b * Y + c)| ≤
      (2 : ℝ) ^ (-49 : ℤ) * (mag a * o.magX v.x.val v.y.val + mag b * o.magY v.x.val v.y.val + mag c) := fun a b c => by
    have k := ((((rounded_mag a).mul hX le_rfl (by norm_num) (by norm_num) (b6 _ _ X2)).add ((rounded_mag b).mul hY le_rfl (by norm_num)
      (by norm_num) (b6 _ _ Y2)) (by norm_num) (by norm_num) (by norm_num)).add (rounded_mag c) (by norm_num) le_rfl (by norm_num))
    exact k.final (by norm_num)
  have prod : ∀ a b c : ℝ, |rne (rne (rne (rne (rne (a * o.m11.val) + rne (b * o.m21.val)) * v.x.val) +
      rne (rne (rne (a * o.m12.val) + rne (b * o.m22.val)) * v.y.val)) + rne (rne (rne (a * o.dx.val) + rne (b * o.dy.val)) + c)) -
      (a * X + b * Y + c)| ≤ (2 : ℝ) ^ (-49 : ℤ) * (mag a * o.magX v.x.val v.y.val + mag b * o.magY v.x.val v.y.val + mag c) := fun a b c => by
    have k1 := (rounded_prod a o.m11.val).add (rounded_prod b o.m21.val) (by norm_num) (by norm_num) (by norm_num)
    have k2 := (rounded_prod a o.m12.val).add (rounded_prod b o.m22.val) (by norm_num) (by norm_num) (by norm_num)
    have bb : ∀ x y z w u : ℝ, (2 : ℝ) ^ (-1000 : ℤ) ≤ (mag x * mag y + mag z * mag w) * mag u := fun x y z w u => by
      rw [mul_comm]
      refine b6 _ _ ?_
      have := two_400_mag x y
      have := mul_pos (mag_pos z) (mag_pos w)
      linarith
    have k3 := k1.mul (rounded_mag v.x.val) (by norm_num) le_rfl (by norm_num) (bb _ _ _ _ _)
    have k4 := k2.mul (rounded_mag v.y.val) (by norm_num) le_rfl (by norm_num) (bb _ _ _ _ _)
    have k5 := (k3.add k4 (by norm_num) (by norm_num) (by norm_num)).add (rounded_lin a o.dx.val b o.dy.val c) (by norm_num) (by norm_num)
      (by norm_num)
    have k6 := k5.final (ε := (2 : ℝ) ^ (-49 : ℤ)) (by norm_num)
    rw [show (a * o.m11.val + b * o.m21.val) * v.x.val + (a * o.m12.val + b * o.m22.val) * v.y.val + (a * o.dx.val + b * o.dy.val + c) =
      a * X + b * Y + c by simp only [X, Y]; ring] at k6
    refine k6.trans (le_of_eq ?_)
    unfold Mat.magX Mat.magY
    ring
  exact ⟨⟨prod _ _ _, prod _ _ _⟩, ⟨seq _ _ _, seq _ _ _⟩⟩

/-- The hypotheses are met: `[[2, 1], [1, 1]]` with shift `(3, 4)` takes `(5, 7)` to `(20, 16)`; the computed inverse takes it back up to
`10 ^ -11`. -/
example : |((⟨⟨2⟩, ⟨1⟩, ⟨1⟩, ⟨1⟩, ⟨3⟩, ⟨4⟩⟩ : Mat (FP double)).inverted.transform
    ((⟨⟨2⟩, ⟨1⟩, ⟨1⟩, ⟨1⟩, ⟨3⟩, ⟨4⟩⟩ : Mat (FP double)).transform (Vec.ofXY ⟨5⟩ ⟨7⟩))).x.val - 5| ≤ 1 / 10 ^ 11 := by
  have d : (⟨⟨2⟩, ⟨1⟩, ⟨1⟩, ⟨1⟩, ⟨3⟩, ⟨4⟩⟩ : Mat (FP double)).det.val = 1 := by
    change rne (rne (2 * 1) - rne (1 * 1)) = 1
    rw [mul_one, mul_one, rne_of_isDouble (x := 2) ⟨2, 0, by norm_num, by norm_num, by norm_num⟩, rne_of_isDouble isDouble_one,
      show (2 : ℝ) - 1 = 1 by norm_num, rne_of_isDouble isDouble_one]
  have h := (C185_undo ⟨⟨2⟩, ⟨1⟩, ⟨1⟩, ⟨1⟩, ⟨3⟩, ⟨4⟩⟩ (Vec.ofXY ⟨5⟩ ⟨7⟩) (by rw [d]; exact one_ne_zero) (by
    rw [d, abs_one]; exact one_le_zpow₀ one_le_two (by norm_num))).1
  refine h.trans ?_
  rw [d, abs_one, div_one]
  have T : (2 : ℝ) ^ (-200 : ℤ) ≤ 1 := zpow_le_one_of_nonpos₀ one_le_two (by norm_num)
  have b : ∀ x : ℝ, 0 ≤ x → mag x ≤ x + 1 := fun x hx => by unfold mag; rw [abs_of_nonneg hx]; linarith
  have p := mag_pos
  unfold Mat.magX Mat.magY
  change _ * (mag 1 * (mag 2 * mag 5 + mag 1 * mag 7 + mag 3) + mag 1 * (mag 1 * mag 5 + mag 1 * mag 7 + mag 4)) ≤ _
  have m : mag 1 * (mag 2 * mag 5 + mag 1 * mag 7 + mag 3) + mag 1 * (mag 1 * mag 5 + mag 1 * mag 7 + mag 4) ≤
      2 * (3 * 6 + 2 * 8 + 4) + 2 * (2 * 6 + 2 * 8 + 5) := by
    have := (p 1).le
    have := (p 2).le
    have := (p 3).le
    have := (p 4).le
    have := (p 5).le
    have := (p 7).le
    gcongr
    all_goals exact (b _ (by norm_num)).trans (by norm_num)
  refine (mul_le_mul_of_nonneg_left m (by positivity)).trans ?_
  norm_num

/-- **C185** The matrix of a rotation and `rotate` compute exactly the same doubles, whatever the math library. -/
theorem C185_rotation [m : PyMath (FP double)] (a : AngleDeg (FP double)) (v : Vec (FP double)) :
    ((Mat.makeRotation a).transform v).x = (v.rotate a.deg).x ∧ ((Mat.makeRotation a).transform v).y = (v.rotate a.deg).y := by
  have z : (num 0 : FP double).val = 0 := fp_zero
  constructor
  · refine FP.ext ?_
    change rne (rne (rne (a.cos.val * v.x.val) + rne (-a.sin.val * v.y.val)) + (num 0 : FP double).val) =
      rne (rne (v.x.val * a.cos.val) - rne (v.y.val * a.sin.val))
    rw [z, add_zero, rne_of_isDouble (isDouble_rne _), neg_mul, rne_neg, mul_comm a.cos.val, mul_comm a.sin.val, ← sub_eq_add_neg]
  · refine FP.ext ?_
    change rne (rne (rne (a.sin.val * v.x.val) + rne (a.cos.val * v.y.val)) + (num 0 : FP double).val) =
      rne (rne (v.x.val * a.sin.val) + rne (v.y.val * a.cos.val))
    rw [z, add_zero, rne_of_isDouble (isDouble_rne _), mul_comm a.cos.val, mul_comm a.sin.val]

/-- **C185** An invertible matrix whose computed determinant is zero: `inverted` silently returns the identity. -/
theorem C185_refuted : ∃ m : Mat (FP double), IsDouble m.m11.val ∧ IsDouble m.m12.val ∧ IsDouble m.m21.val ∧ IsDouble m.m22.val ∧
    m.exactDet ≠ 0 ∧ m.inverted = Mat.identity ∧
    (m.inverted.transform (m.transform (Vec.ofXY ⟨0⟩ ⟨1⟩))).x.val = 1 := by
  have r1 : rne 1 = 1 := rne_of_isDouble isDouble_one
  have r0 : rne 0 = 0 := rne_of_isDouble isDouble_zero
  have z : (num 0 : FP double).val = 0 := fp_zero
  have e1 : (num 1 : FP double).val = 1 := (double.int 1 (by norm_num)).trans (by norm_num)
  have id : (⟨⟨1 + 1 / 2 ^ 30⟩, ⟨1⟩, ⟨1⟩, ⟨1 - 1 / 2 ^ 30⟩, ⟨0⟩, ⟨0⟩⟩ : Mat (FP double)).inverted = Mat.identity := by
    unfold Mat.inverted
    dsimp only
    rw [if_pos ((fp_beq_zero _).mpr ?_)]
    change rne (rne ((1 + 1 / 2 ^ 30) * (1 - 1 / 2 ^ 30)) - rne (1 * 1)) = 0
    rw [show rne ((1 + 1 / 2 ^ 30) * (1 - 1 / 2 ^ 30)) = 1 from ?_, mul_one, r1, sub_self, r0]
    rw [rne_eq (-1) (2 ^ 53) (by norm_num) (by norm_num [abs_of_pos]) (by norm_num [abs_of_pos]) (by norm_num [abs_lt])]; norm_num
  refine ⟨⟨⟨1 + 1 / 2 ^ 30⟩, ⟨1⟩, ⟨1⟩, ⟨1 - 1 / 2 ^ 30⟩, ⟨0⟩, ⟨0⟩⟩, ⟨2 ^ 30 + 1, -30, by norm_num, by norm_num, by norm_num⟩, isDouble_one, isDouble_one,
    ⟨2 ^ 30 - 1, -30, by norm_num, by norm_num, by norm_num⟩, ?_, id, ?_⟩
  · unfold Mat.exactDet
    norm_num
  · rw [id]
    have X : ((⟨⟨1 + 1 / 2 ^ 30⟩, ⟨1⟩, ⟨1⟩, ⟨1 - 1 / 2 ^ 30⟩, ⟨0⟩, ⟨0⟩⟩ : Mat (FP double)).transform (Vec.ofXY ⟨0⟩ ⟨1⟩)).x.val = 1 := by
      change rne (rne (rne ((1 + 1 / 2 ^ 30) * 0) + rne (1 * 1)) + 0) = 1
      rw [mul_zero, r0, mul_one, r1, zero_add, r1, add_zero, r1]
    generalize (⟨⟨1 + 1 / 2 ^ 30⟩, ⟨1⟩, ⟨1⟩, ⟨1 - 1 / 2 ^ 30⟩, ⟨0⟩, ⟨0⟩⟩ : Mat (FP double)).transform (Vec.ofXY ⟨0⟩ ⟨1⟩) = w at *
    change rne (rne (rne ((num 1 : FP double).val * w.x.val) + rne ((num 0 : FP double).val * w.y.val)) + (num 0 : FP double).val) = 1
    rw [z, e1, X, zero_mul, r0, mul_one, r1, add_zero, add_zero, r1, r1]

end PyrusGeom
