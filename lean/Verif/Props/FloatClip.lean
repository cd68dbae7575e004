import Verif.Props.FloatMatrix
import Verif.Props.FloatTrig
import Verif.Props.FloatLine
import Verif.Props.ClipArea

/-! # C186: intersections of lines and clipping in double precision -/

namespace PyrusGeom
open Spec

theorem rounded_divd {e a x M d : ℝ} (h : Rounded e a x M) (he : 0 ≤ e) (he2 : e ≤ 500) (hM : (2 : ℝ) ^ (-600 : ℤ) ≤ M) (hd : d ≠ 0)
    (hd2 : |d| ≤ (2 : ℝ) ^ (400 : ℤ)) : Rounded (e + 3) (rne (a / d)) (x / d) (M / |d|) := by
  have d0 : 0 < |d| := abs_pos.mpr hd
  have := (h.div (b := d) (y := d) (f := 0) (by rw [sub_self, abs_zero, zero_mul, zero_mul]) hd he le_rfl (by linarith) (by
    rw [le_div_iff₀ d0]
    refine le_trans ?_ hM
    rw [show (-600 : ℤ) = -1000 + 400 by norm_num, zpow_add₀ two_ne_zero]
    exact mul_le_mul_of_nonneg_left hd2 (by positivity))).2
  rwa [add_zero] at this

namespace Line

/-- The computed determinant. -/
noncomputable def cdet (l o : Line (FP double)) : ℝ := (l.a * o.b - l.b * o.a : FP double).val

/-- The sizes of the terms of the determinant and of the two numerators. -/
noncomputable def magT (l o : Line (FP double)) : ℝ := mag l.a.val * mag o.b.val + mag l.b.val * mag o.a.val
noncomputable def magU (l o : Line (FP double)) : ℝ := mag l.b.val * mag o.c.val + mag o.b.val * mag l.c.val
noncomputable def magV (l o : Line (FP double)) : ℝ := mag o.a.val * mag l.c.val + mag l.a.val * mag o.c.val

end Line

theorem fp_intersection_valid (l o : Line (FP double)) : (l.intersection o).valid = true ↔ (EPSILON : FP double).val ≤ |l.cdet o| := by
  constructor
  · intro h
    by_contra k
    unfold Line.intersection at h
    dsimp only at h
    rw [if_pos (by rw [FP.lt_def, fp_fabs_val]; exact not_le.mp k)] at h
    exact absurd h (by decide)
  · intro h
    rw [fp_line_intersection l o h]
    rfl

/-- The computed intersection is close to the quotients with the computed determinant. -/
theorem meet_rounded (l o : Line (FP double)) (h : (l.intersection o).valid = true) (h2 : |l.cdet o| ≤ (2 : ℝ) ^ (400 : ℤ)) :
    (2 : ℝ) ^ (-20 : ℤ) ≤ |l.cdet o| ∧ Rounded 5 (l.cdet o) (l.fdet o) (l.magT o) ∧
    Rounded 8 (l.intersection o).x.val ((l.b.val * o.c.val - o.b.val * l.c.val) / l.cdet o) (l.magU o / |l.cdet o|) ∧
    Rounded 8 (l.intersection o).y.val ((o.a.val * l.c.val - l.a.val * o.c.val) / l.cdet o) (l.magV o / |l.cdet o|) := by
  have hE := (fp_intersection_valid l o).mp h
  have hT := fp_EPSILON_ge.trans hE
  have t0 : l.cdet o ≠ 0 := abs_pos.mp (lt_of_lt_of_le (by positivity) hT)
  have sub : ∀ x y z w : ℝ, Rounded 5 (rne (rne (x * y) - rne (z * w))) (x * y - z * w) (mag x * mag y + mag z * mag w) := fun x y z w =>
    ((rounded_prod x y).sub (rounded_prod z w) (by norm_num) (by norm_num) (by norm_num)).mono (by norm_num) (by norm_num) le_rfl
  have b6 : ∀ x y z w : ℝ, (2 : ℝ) ^ (-600 : ℤ) ≤ mag x * mag y + mag z * mag w := fun x y z w => by
    have := mul_pos (mag_pos z) (mag_pos w)
    have h6 : (2 : ℝ) ^ (-600 : ℤ) ≤ (2 : ℝ) ^ (-400 : ℤ) := zpow_le_zpow_right₀ one_le_two (by norm_num)
    have := two_400_mag x y
    linarith
  refine ⟨hT, sub _ _ _ _, ?_, ?_⟩
  · rw [fp_line_intersection l o hE]
    exact (rounded_divd (sub _ _ _ _) (by norm_num) (by norm_num) (b6 _ _ _ _) t0 h2).mono (by norm_num) (by norm_num) le_rfl
  · rw [fp_line_intersection l o hE]
    exact (rounded_divd (sub _ _ _ _) (by norm_num) (by norm_num) (b6 _ _ _ _) t0 h2).mono (by norm_num) (by norm_num) le_rfl

/-- Putting the computed point into the equation of a line. -/
theorem residual_core {X Y p q T D a b c u MU MV MT : ℝ} (u0 : 0 ≤ u) (hT : T ≠ 0) (hX : |X - p / T| ≤ 8 * u * (MU / |T|))
    (hY : |Y - q / T| ≤ 8 * u * (MV / |T|)) (hD : |T - D| ≤ 5 * u * MT) (hMT : 0 ≤ MT) (e : a * p + b * q + c * D = 0) {A B C : ℝ} (hA : |a| ≤ A) (hB : |b| ≤ B)
    (hC : |c| ≤ C) : |a * X + b * Y + c| ≤ 8 * u * ((A * MU + B * MV + C * MT) / |T|) := by
  have t0 : 0 < |T| := abs_pos.mpr hT
  have k : a * X + b * Y + c = a * (X - p / T) + b * (Y - q / T) + c * (T - D) / T := by
    field_simp
    linear_combination e
  rw [k]
  refine (abs_add_three _ _ _).trans ?_
  rw [abs_mul, abs_mul, abs_div, abs_mul]
  have m1 := mul_le_mul hA hX (abs_nonneg _) ((abs_nonneg a).trans hA)
  have m2 := mul_le_mul hB hY (abs_nonneg _) ((abs_nonneg b).trans hB)
  have m3 := mul_le_mul hC hD (abs_nonneg _) ((abs_nonneg c).trans hC)
  have m4 := div_le_div_of_nonneg_right m3 t0.le
  have m5 : C * (5 * u * MT) / |T| ≤ C * (8 * u * MT) / |T| := by
    refine div_le_div_of_nonneg_right (mul_le_mul_of_nonneg_left ?_ ((abs_nonneg c).trans hC)) t0.le
    nlinarith [mul_nonneg u0 hMT]
  calc _ ≤ A * (8 * u * (MU / |T|)) + B * (8 * u * (MV / |T|)) + C * (8 * u * MT) / |T| := add_le_add (add_le_add m1 m2) (m4.trans m5)
    _ = _ := by field_simp

/-- **C186** Whenever an intersection is reported, the computed point nearly satisfies both equations; no assumption on the angle of the
lines. -/
theorem C186_residual (l o : Line (FP double)) (h : (l.intersection o).valid = true) (h2 : |l.cdet o| ≤ (2 : ℝ) ^ (400 : ℤ)) :
    |l.a.val * (l.intersection o).x.val + l.b.val * (l.intersection o).y.val + l.c.val| ≤ (2 : ℝ) ^ (-50 : ℤ) *
      ((mag l.a.val * l.magU o + mag l.b.val * l.magV o + mag l.c.val * l.magT o) / |l.cdet o|) ∧
    |o.a.val * (l.intersection o).x.val + o.b.val * (l.intersection o).y.val + o.c.val| ≤ (2 : ℝ) ^ (-50 : ℤ) *
      ((mag o.a.val * l.magU o + mag o.b.val * l.magV o + mag o.c.val * l.magT o) / |l.cdet o|) := by
  obtain ⟨hT, rt, rx, ry⟩ := meet_rounded l o h h2
  have t0 : l.cdet o ≠ 0 := abs_pos.mp (lt_of_lt_of_le (by positivity) hT)
  have e : (2 : ℝ) ^ (-50 : ℤ) = 8 * (2 : ℝ) ^ (-53 : ℤ) := by norm_num
  rw [e]
  constructor
  · exact residual_core (by positivity) t0 rx.err ry.err rt.err rt.pos.le (by unfold Line.fdet; ring) (abs_le_mag _) (abs_le_mag _) (abs_le_mag _)
  · exact residual_core (by positivity) t0 rx.err ry.err rt.err rt.pos.le (by unfold Line.fdet; ring) (abs_le_mag _) (abs_le_mag _) (abs_le_mag _)

/-! ## The cut of an edge by an axis-parallel line -/

set_option maxHeartbeats 1000000 in
/-- The real-number part of the estimate. -/
theorem clip_core {a b c X0 B px py qx qy A D C T X Y ys : ℝ} (hB1 : 1 ≤ B) (hB2 : B ≤ 1048576)
    (hpx : |px| ≤ B) (hpy : |py| ≤ B) (hqx : |qx| ≤ B) (hqy : |qy| ≤ B) (hX0 : |X0| ≤ B) (hys : |ys| ≤ B)
    (ha1 : 3 / 4 ≤ |a|) (ha2 : |a| ≤ 5 / 4) (hb : |b| ≤ 1 / 1125899906842624) (hc : |c + a * X0| ≤ 1 / 1125899906842624 * B)
    (hA : |A + (qy - py)| ≤ 1 / 2251799813685248 * B) (hD : |D - (qx - px)| ≤ 1 / 2251799813685248 * B) (hC : |C + A * px + D * py| ≤ 1 / 562949953421312 * B ^ 2)
    (hT0 : 1 / 1048576 ≤ |T|) (hT : |T - (a * D - b * A)| ≤ 1 / 1125899906842624 * (2 * |D| + 1 / 1048576))
    (hX : |X - (b * C - D * c) / T| ≤ 1 / 1125899906842624 * ((mag b * mag C + mag D * mag c) / |T|))
    (hY : |Y - (A * c - a * C) / T| ≤ 1 / 1125899906842624 * ((mag A * mag c + mag a * mag C) / |T|))
    (hx : |X0 - px| ≤ |qx - px|) (he : (qx - px) * (ys - py) = (X0 - px) * (qy - py)) :
    |X - X0| ≤ 1 / 35184372088832 * B ∧ |Y - ys| * |qx - px| ≤ 1 / 8796093022208 * B ^ 2 := by
  have tp : 0 < |T| := lt_of_lt_of_le (by norm_num) hT0
  have tn : T ≠ 0 := abs_pos.mp tp
  have η : (2 : ℝ) ^ (-200 : ℤ) ≤ 1 / 1152921504606846976 := by
    rw [show (1 / 1152921504606846976 : ℝ) = (2 : ℝ) ^ (-60 : ℤ) by norm_num]; exact zpow_le_zpow_right₀ one_le_two (by norm_num)
  have ηp : (0 : ℝ) < (2 : ℝ) ^ (-200 : ℤ) := by positivity
  unfold mag at *
  generalize (2 : ℝ) ^ (-200 : ℤ) = s at *
  have tri := fun x y : ℝ => abs_add_le x y
  have BB : B ≤ B ^ 2 := by nlinarith
  have A3 : |A| ≤ 3 * B := by
    have h1 := abs_sub_abs_le_abs_sub A (-(qy - py))
    rw [sub_neg_eq_add, abs_neg] at h1
    have h2 := abs_sub qy py
    linarith
  have D3 : |D| ≤ 3 * B := by
    have h1 := abs_sub_abs_le_abs_sub D (qx - px)
    have h2 := abs_sub qx px
    linarith
  have c2 : |c| ≤ 2 * B := by
    have h1 := abs_sub_abs_le_abs_sub c (-(a * X0))
    rw [sub_neg_eq_add, abs_neg, abs_mul] at h1
    have h2 := mul_le_mul ha2 hX0 (abs_nonneg _) (by norm_num)
    linarith
  have C7 : |C| ≤ 7 * B ^ 2 := by
    have h1 := abs_sub_abs_le_abs_sub C (-(A * px + D * py))
    rw [sub_neg_eq_add, abs_neg, ← add_assoc] at h1
    have h2 := tri (A * px) (D * py)
    rw [abs_mul, abs_mul] at h2
    have h3 := mul_le_mul A3 hpx (abs_nonneg _) (by positivity)
    have h4 := mul_le_mul D3 hpy (abs_nonneg _) (by positivity)
    nlinarith
  have bA : |b * A| ≤ 1 / 1125899906842624 * (3 * B) := by
    rw [abs_mul]; exact mul_le_mul hb A3 (abs_nonneg _) (by norm_num)
  have Dt : |D| ≤ 3 / 2 * |T| := by
    have h1 := abs_sub_abs_le_abs_sub (a * D) (b * A)
    have h2 := abs_sub_abs_le_abs_sub (a * D - b * A) T
    rw [abs_sub_comm (a * D - b * A)] at h2
    rw [abs_mul] at h1
    have h3 := mul_le_mul_of_nonneg_right ha1 (abs_nonneg D)
    linarith
  have T4 : |T| ≤ 4 * B := by
    have h1 := abs_sub_abs_le_abs_sub T (a * D - b * A)
    have h2 := abs_sub (a * D) (b * A)
    rw [abs_mul] at h2
    have h3 := mul_le_mul ha2 D3 (abs_nonneg _) (by norm_num)
    linarith
  have dx : |qx - px| ≤ |D| + 1 / 2251799813685248 * B := by
    have h1 := abs_sub_abs_le_abs_sub (qx - px) D
    rw [abs_sub_comm (qx - px) D] at h1
    linarith
  have dx2 : |qx - px| ≤ 2 * |T| := by
    linarith
  have E1 : |C + A * X0| ≤ 6 * (B * |T|) + 1 / 281474976710656 * B ^ 2 := by
    rw [show C + A * X0 = (C + A * px + D * py) + A * (X0 - px) + -(D * py) by ring]
    refine (abs_add_three _ _ _).trans ?_
    rw [abs_neg, abs_mul, abs_mul]
    have h1 := mul_le_mul A3 (hx.trans dx) (abs_nonneg _) (by positivity)
    have h2 := mul_le_mul_of_nonneg_left hpy (abs_nonneg D)
    have h3 := mul_le_mul_of_nonneg_right Dt (show 0 ≤ B by linarith)
    nlinarith
  have E2 : |C + A * X0 + D * ys| ≤ 1 / 281474976710656 * B ^ 2 := by
    rw [show C + A * X0 + D * ys = (C + A * px + D * py) + (A + (qy - py)) * (X0 - px) + (D - (qx - px)) * (ys - py) by
      linear_combination he]
    refine (abs_add_three _ _ _).trans ?_
    rw [abs_mul, abs_mul]
    have h0 : |X0 - px| ≤ 2 * B := (abs_sub _ _).trans (by linarith)
    have h1 : |ys - py| ≤ 2 * B := (abs_sub _ _).trans (by linarith)
    have h2 := mul_le_mul hA h0 (abs_nonneg _) (by positivity)
    have h3 := mul_le_mul hD h1 (abs_nonneg _) (by positivity)
    nlinarith
  have hTc : |a * D - b * A - T| ≤ 1 / 1125899906842624 * (4 * |T|) := by
    rw [abs_sub_comm]
    linarith
  have Tt : 1 ≤ 1048576 * |T| := by linarith
  have B2T : B ^ 2 ≤ 1099511627776 * (B * |T|) := by
    have h1 := mul_le_mul_of_nonneg_left hB2 (show 0 ≤ B by linarith)
    have h2 := mul_le_mul_of_nonneg_left Tt (show 0 ≤ B * 1048576 by linarith)
    rw [pow_two]
    refine h1.trans ?_
    linarith
  have BT0 : 0 < B * |T| := mul_pos (by linarith) tp
  constructor
  · have n1 : |(b * C - D * c) / T - X0| ≤ 1 / 1125899906842624 * (15 * B) := by
      rw [div_sub' tn, abs_div, div_le_iff₀ tp,
        show b * C - D * c - T * X0 = b * (C + A * X0) + -(D * (c + a * X0)) + X0 * (a * D - b * A - T) by ring]
      refine (abs_add_three _ _ _).trans ?_
      rw [abs_neg, abs_mul, abs_mul, abs_mul]
      have h1 := mul_le_mul hb E1 (abs_nonneg _) (by norm_num)
      have h2 := mul_le_mul Dt hc (abs_nonneg _) (by positivity)
      have h3 := mul_le_mul hX0 hTc (abs_nonneg _) (by linarith)
      nlinarith
    have n2 : ((|b| + s) * (|C| + s) + (|D| + s) * (|c| + s)) / |T| ≤ 8 * B := by
      rw [div_le_iff₀ tp]
      have h1 := mul_le_mul (show |b| + s ≤ 1 / 562949953421312 by linarith) (show |C| + s ≤ 8 * B ^ 2 by nlinarith)
        (by positivity) (by norm_num)
      have h2 := mul_le_mul (show |D| + s ≤ 2 * |T| by linarith) (show |c| + s ≤ 3 * B by linarith)
        (by positivity) (by positivity)
      nlinarith
    have n3 := abs_sub_le X ((b * C - D * c) / T) X0
    have n4 := hX.trans (mul_le_mul_of_nonneg_left n2 (by norm_num))
    linarith
  · have n1 : |(A * c - a * C) / T - ys| * |T| ≤ 1 / 1125899906842624 * (32 * B ^ 2) := by
      rw [div_sub' tn, abs_div, div_mul_cancel₀ _ tp.ne',
        show A * c - a * C - T * ys = A * (c + a * X0) + -(a * (C + A * X0 + D * ys)) + (ys * (a * D - b * A - T) + ys * (b * A)) by ring]
      refine (abs_add_three _ _ _).trans ?_
      have h0 := tri (ys * (a * D - b * A - T)) (ys * (b * A))
      rw [abs_mul, abs_mul] at h0
      rw [abs_neg, abs_mul, abs_mul]
      have h1 := mul_le_mul A3 hc (abs_nonneg _) (by positivity)
      have h2 := mul_le_mul ha2 E2 (abs_nonneg _) (by positivity)
      have h3 := mul_le_mul hys hTc (abs_nonneg _) (by linarith)
      have h4 := mul_le_mul hys bA (abs_nonneg _) (by linarith)
      have h5 := mul_le_mul_of_nonneg_left T4 (show 0 ≤ B by linarith)
      nlinarith
    have n2 : (|A| + s) * (|c| + s) + (|a| + s) * (|C| + s) ≤ 32 * B ^ 2 := by
      have h1 := mul_le_mul (show |A| + s ≤ 4 * B by linarith) (show |c| + s ≤ 3 * B by linarith)
        (by positivity) (by positivity)
      have h2 := mul_le_mul (show |a| + s ≤ 2 by linarith) (show |C| + s ≤ 8 * B ^ 2 by nlinarith)
        (by positivity) (by norm_num)
      nlinarith
    have n3 := mul_le_mul_of_nonneg_right (abs_sub_le Y ((A * c - a * C) / T) ys) (abs_nonneg T)
    have n4 : |Y - (A * c - a * C) / T| * |T| ≤ 1 / 1125899906842624 * (32 * B ^ 2) := by
      rw [← mul_div_assoc, le_div_iff₀ tp] at hY
      exact hY.trans (mul_le_mul_of_nonneg_left n2 (by norm_num))
    have n5 := mul_le_mul_of_nonneg_left dx2 (abs_nonneg (Y - ys))
    nlinarith

end PyrusGeom
