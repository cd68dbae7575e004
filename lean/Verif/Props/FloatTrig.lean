import Verif.Props.Signed
import Verif.Props.FloatVec
import Mathlib.Analysis.SpecialFunctions.Complex.LogBounds
import Mathlib.Analysis.SpecialFunctions.Trigonometric.Bounds

/-!
# C179: directions, rotations and polar coordinates in double precision

The elementary functions are those of any mathematical library with errors of at most one unit in the last place (`Spec.Accurate`): the
instance `m` of `PyMath` is a parameter here. The correctly rounded functions of `FP double` are one such library (`accurate_double`).
-/

namespace PyrusGeom
open Spec AngleDeg

/-- A mathematical library: `sqrt` and `fmod` are exact as IEEE 754 requires, `pi` is the nearest double, the other functions used here
are wrong by at most one unit in the last place. -/
structure Spec.Accurate (m : PyMath (FP double)) : Prop where
  sqrt : ∀ x, (m.sqrt x).val = rne √x.val
  fmod : ∀ x y, (m.fmod x y).val = PyMath.fmod x.val y.val
  pi : m.pi.val = rne Real.pi
  sin : ∀ x, |(m.sin x).val - Real.sin x.val| ≤ ulp (Real.sin x.val)
  cos : ∀ x, |(m.cos x).val - Real.cos x.val| ≤ ulp (Real.cos x.val)
  atan2 : ∀ y x, |(m.atan2 y x).val - Complex.arg ⟨x.val, y.val⟩| ≤ ulp (Complex.arg ⟨x.val, y.val⟩)

theorem accurate_double : Accurate (inferInstance : PyMath (FP double)) := by
  have h : ∀ x : ℝ, |rne x - x| ≤ ulp x := fun x => (rne_error x).trans (by have := ulp_pos x; linarith)
  exact ⟨fun _ => rfl, fun _ _ => rfl, rfl, fun _ => h _, fun _ => h _, fun _ _ => h _⟩

theorem ulp_le_of_le {x : ℝ} {n : ℤ} (hn : 0 ≤ n) (h : |x| < (2 : ℝ) ^ (n + 1)) : ulp x ≤ (2 : ℝ) ^ (n - 52) := by
  unfold ulp
  refine zpow_le_zpow_right₀ one_le_two ?_
  have : max (Int.log 2 |x|) (-1022) ≤ n := by
    refine max_le ?_ (by omega)
    rcases eq_or_ne x 0 with rfl | hx
    · rw [abs_zero, Int.log_zero_right]; exact hn
    · have := (Int.lt_zpow_iff_log_lt (b := 2) (by norm_num) (abs_pos.mpr hx) (x := n + 1)).mp (by exact_mod_cast h)
      omega
  omega

section
variable [m : PyMath (FP double)]

/-- The error of `math.sin` and `math.cos`. -/
theorem Spec.Accurate.sin_error (h : Accurate m) (x : FP double) : |(PyMath.sin x).val - Real.sin x.val| ≤ (2 : ℝ) ^ (-52 : ℤ) :=
  (h.sin x).trans (ulp_le_of_le (n := 0) le_rfl (by norm_num; exact (Real.abs_sin_le_one _).trans_lt one_lt_two))

theorem Spec.Accurate.cos_error (h : Accurate m) (x : FP double) : |(PyMath.cos x).val - Real.cos x.val| ≤ (2 : ℝ) ^ (-52 : ℤ) :=
  (h.cos x).trans (ulp_le_of_le (n := 0) le_rfl (by norm_num; exact (Real.abs_cos_le_one _).trans_lt one_lt_two))

theorem Spec.Accurate.atan2_error (h : Accurate m) (y x : FP double) :
    |(PyMath.atan2 y x).val - Complex.arg ⟨x.val, y.val⟩| ≤ (2 : ℝ) ^ (-51 : ℤ) :=
  (h.atan2 y x).trans (ulp_le_of_le (n := 1) zero_le_one (by
    norm_num
    exact (Complex.abs_arg_le_pi _).trans_lt (by have := Real.pi_lt_d2; linarith)))

/-! ## Degrees and radians -/

theorem Spec.Accurate.pi_val (h : Accurate m) : (PyMath.pi : FP double).val = 884279719003555 / 281474976710656 := h.pi.trans rne_pi

theorem Spec.Accurate.DEG2RAD_val (h : Accurate m) : (DEG2RAD : FP double).val = 5030569068109113 / 288230376151711744 := by
  unfold DEG2RAD
  rw [FP.div_val, h.pi_val, FP.cast_val]
  change rne (_ / rne ((180 : ℕ) : ℝ)) = _
  rw [rne_of_isDouble (isDouble_nat (n := 180) (by norm_num)),
    rne_eq (-6) 5030569068109113 (by norm_num) (by norm_num [abs_of_pos]) (by norm_num [abs_of_pos]) (by norm_num [abs_lt])]
  norm_num

theorem Spec.Accurate.RAD2DEG_val (h : Accurate m) : (RAD2DEG : FP double).val = 1007958012753983 / 17592186044416 := by
  unfold RAD2DEG
  rw [FP.div_val, h.pi_val, FP.cast_val]
  change rne (rne ((180 : ℕ) : ℝ) / _) = _
  rw [rne_of_isDouble (isDouble_nat (n := 180) (by norm_num)),
    rne_eq 5 8063664102031864 (by norm_num) (by norm_num [abs_of_pos]) (by norm_num [abs_of_pos]) (by norm_num [abs_lt])]
  norm_num

theorem Spec.Accurate.DEG2RAD_error (h : Accurate m) : |(DEG2RAD : FP double).val - Real.pi / 180| ≤ (2 : ℝ) ^ (-61 : ℤ) := by
  rw [h.DEG2RAD_val, abs_le]
  have h1 := Real.pi_gt_d20
  have h2 := Real.pi_lt_d20
  constructor
  · norm_num; linarith
  · norm_num; linarith

theorem Spec.Accurate.RAD2DEG_error (h : Accurate m) : |(RAD2DEG : FP double).val - 180 / Real.pi| ≤ (2 : ℝ) ^ (-48 : ℤ) := by
  rw [h.RAD2DEG_val, abs_le]
  have h1 := Real.pi_gt_d20
  have h2 := Real.pi_lt_d20
  have hp := Real.pi_pos
  constructor
  · rw [neg_le_sub_iff_le_add, div_le_iff₀ hp]
    norm_num; linarith
  · rw [sub_le_iff_le_add, ← sub_le_iff_le_add', le_div_iff₀ hp]
    norm_num; linarith

/-- **C179** Converting degrees to radians: a relative error of about `2 ** -52`. -/
theorem C179_deg2rad (h : Accurate m) (d : FP double) :
    |(deg2rad d).val - d.val * (Real.pi / 180)| ≤ (2 : ℝ) ^ (-58 : ℤ) * |d.val| + (2 : ℝ) ^ (-1075 : ℤ) := by
  unfold deg2rad
  rw [FP.mul_val]
  change |rne _ - _| ≤ _
  have h1 := rne_error_mixed (d.val * (DEG2RAD : FP double).val)
  have h2 := h.DEG2RAD_error
  have h3 : |d.val * (DEG2RAD : FP double).val - d.val * (Real.pi / 180)| ≤ (2 : ℝ) ^ (-61 : ℤ) * |d.val| := by
    rw [← mul_sub, abs_mul, mul_comm]
    exact mul_le_mul_of_nonneg_right h2 (abs_nonneg _)
  have h4 : |d.val * (DEG2RAD : FP double).val| = |d.val| * (5030569068109113 / 288230376151711744) := by
    rw [abs_mul, h.DEG2RAD_val]; norm_num [abs_of_pos]
  rw [h4] at h1
  have h5 := abs_sub_le (rne (d.val * (DEG2RAD : FP double).val)) (d.val * (DEG2RAD : FP double).val) (d.val * (Real.pi / 180))
  have h6 := abs_nonneg d.val
  generalize (2 : ℝ) ^ (-1075 : ℤ) = t at *
  norm_num at h1 h3 ⊢
  linarith

/-- **C179** Sine and cosine of a number of degrees. -/
theorem C179_sin_deg (h : Accurate m) (d : FP double) :
    |(sinDeg d).val - Real.sin (d.val * (Real.pi / 180))| ≤ (2 : ℝ) ^ (-58 : ℤ) * |d.val| + (2 : ℝ) ^ (-51 : ℤ) ∧
    |(cosDeg d).val - Real.cos (d.val * (Real.pi / 180))| ≤ (2 : ℝ) ^ (-58 : ℤ) * |d.val| + (2 : ℝ) ^ (-51 : ℤ) := by
  have h1 := C179_deg2rad h d
  have ht : (2 : ℝ) ^ (-1075 : ℤ) ≤ (2 : ℝ) ^ (-52 : ℤ) := zpow_le_zpow_right₀ one_le_two (by norm_num)
  have e2 : (2 : ℝ) ^ (-51 : ℤ) = (2 : ℝ) ^ (-52 : ℤ) + (2 : ℝ) ^ (-52 : ℤ) := by norm_num
  constructor
  · have h2 := h.sin_error (deg2rad d)
    have h3 := Real.abs_sin_sub_sin_le (deg2rad d).val (d.val * (Real.pi / 180))
    have h4 := abs_sub_le (sinDeg d).val (Real.sin (deg2rad d).val) (Real.sin (d.val * (Real.pi / 180)))
    unfold sinDeg at *
    exact h4.trans ((add_le_add h2 (h3.trans h1)).trans (by rw [e2]; linarith only [ht]))
  · have h2 := h.cos_error (deg2rad d)
    have h3 := Real.abs_cos_sub_cos_le (deg2rad d).val (d.val * (Real.pi / 180))
    have h4 := abs_sub_le (cosDeg d).val (Real.cos (deg2rad d).val) (Real.cos (d.val * (Real.pi / 180)))
    unfold cosDeg at *
    exact h4.trans ((add_le_add h2 (h3.trans h1)).trans (by rw [e2]; linarith only [ht]))

/-! ## Rotation -/

omit m in
/-- `x * c - y * s` with inexact `c` and `s`. -/
theorem fp_rot {x y c s c' s' e : ℝ} (hc : |c - c'| ≤ e) (hs : |s - s'| ≤ e) (hc1 : |c'| ≤ 1) (hs1 : |s'| ≤ 1) :
    |rne (rne (x * c) + rne (y * s)) - (x * c' + y * s')| ≤ ((2 : ℝ) ^ (-51 : ℤ) + 2 * e) * (|x| + |y|) + (2 : ℝ) ^ (-1073 : ℤ) := by
  have h0 := fp_sum_prod (a := x) (x := c) (b := y) (y := s)
  have e2 : (2 : ℝ) ^ (-1074 : ℤ) * 2 = (2 : ℝ) ^ (-1073 : ℤ) := by rw [← zpow_add_one₀ two_ne_zero]; norm_num
  rw [e2] at h0
  have he : 0 ≤ e := (abs_nonneg _).trans hc
  have hx := abs_nonneg x
  have hy := abs_nonneg y
  have k1 : |x * c - x * c'| ≤ |x| * e := by rw [← mul_sub, abs_mul]; exact mul_le_mul_of_nonneg_left hc hx
  have k2 : |y * s - y * s'| ≤ |y| * e := by rw [← mul_sub, abs_mul]; exact mul_le_mul_of_nonneg_left hs hy
  have k3 : |x * c| ≤ |x| * (1 + e) := by
    rw [abs_mul]
    refine mul_le_mul_of_nonneg_left ?_ hx
    have := abs_sub_abs_le_abs_sub c c'
    linarith
  have k4 : |y * s| ≤ |y| * (1 + e) := by
    rw [abs_mul]
    refine mul_le_mul_of_nonneg_left ?_ hy
    have := abs_sub_abs_le_abs_sub s s'
    linarith
  have k5 := abs_add_le (x * c - x * c') (y * s - y * s')
  have k6 := abs_add_le (rne (rne (x * c) + rne (y * s)) - (x * c + y * s)) (x * c - x * c' + (y * s - y * s'))
  rw [show rne (rne (x * c) + rne (y * s)) - (x * c + y * s) + (x * c - x * c' + (y * s - y * s')) =
    rne (rne (x * c) + rne (y * s)) - (x * c' + y * s') by ring] at k6
  have k7 : (2 : ℝ) ^ (-51 : ℤ) * (|x * c| + |y * s|) ≤ (2 : ℝ) ^ (-51 : ℤ) * (|x| + |y|) + e * (|x| + |y|) := by
    have : (2 : ℝ) ^ (-51 : ℤ) ≤ 1 := by norm_num
    have p51 : (0 : ℝ) < (2 : ℝ) ^ (-51 : ℤ) := by positivity
    have : (2 : ℝ) ^ (-51 : ℤ) * (e * (|x| + |y|)) ≤ e * (|x| + |y|) :=
      mul_le_of_le_one_left (by positivity) this
    nlinarith
  generalize (2 : ℝ) ^ (-1073 : ℤ) = t at *
  nlinarith

/-- **C179** `rotate` and `rotated_vector`: each coordinate is wrong by at most `(2 ** -57 * |deg| + 2 ** -49) * (|x| + |y|)`, plus underflow. -/
theorem C179_rotate (h : Accurate m) (v : Vec (FP double)) (d : FP double) :
    |(v.rotate d).x.val - (v.x.val * Real.cos (d.val * (Real.pi / 180)) - v.y.val * Real.sin (d.val * (Real.pi / 180)))| ≤
      ((2 : ℝ) ^ (-57 : ℤ) * |d.val| + (2 : ℝ) ^ (-49 : ℤ)) * (|v.x.val| + |v.y.val|) + (2 : ℝ) ^ (-1073 : ℤ) ∧
    |(v.rotate d).y.val - (v.x.val * Real.sin (d.val * (Real.pi / 180)) + v.y.val * Real.cos (d.val * (Real.pi / 180)))| ≤
      ((2 : ℝ) ^ (-57 : ℤ) * |d.val| + (2 : ℝ) ^ (-49 : ℤ)) * (|v.x.val| + |v.y.val|) + (2 : ℝ) ^ (-1073 : ℤ) := by
  have ⟨hs, hc⟩ := C179_sin_deg h d
  have s1 := Real.abs_sin_le_one (d.val * (Real.pi / 180))
  have c1 := Real.abs_cos_le_one (d.val * (Real.pi / 180))
  have k : ((2 : ℝ) ^ (-51 : ℤ) + 2 * ((2 : ℝ) ^ (-58 : ℤ) * |d.val| + (2 : ℝ) ^ (-51 : ℤ))) * (|v.x.val| + |v.y.val|) ≤
      ((2 : ℝ) ^ (-57 : ℤ) * |d.val| + (2 : ℝ) ^ (-49 : ℤ)) * (|v.x.val| + |v.y.val|) := by
    refine mul_le_mul_of_nonneg_right ?_ (by positivity)
    norm_num
    linarith [abs_nonneg d.val]
  have hs' : |-(sinDeg d).val - -Real.sin (d.val * (Real.pi / 180))| ≤ (2 : ℝ) ^ (-58 : ℤ) * |d.val| + (2 : ℝ) ^ (-51 : ℤ) := by
    rw [neg_sub_neg, abs_sub_comm]; exact hs
  constructor
  · have := fp_rot (x := v.x.val) (y := v.y.val) hc hs' c1 (by rwa [abs_neg])
    rw [mul_neg, mul_neg, rne_neg, ← sub_eq_add_neg, ← sub_eq_add_neg] at this
    exact this.trans (by gcongr)
  · have := fp_rot (x := v.x.val) (y := v.y.val) hs hc s1 c1
    exact this.trans (by gcongr)

/-! ## Polar coordinates -/

omit m in
/-- `r * c` with inexact `c`. -/
theorem fp_pol {r c c' e : ℝ} (hc : |c - c'| ≤ e) (hc1 : |c'| ≤ 1) :
    |rne (r * c) - r * c'| ≤ ((2 : ℝ) ^ (-53 : ℤ) + 2 * e) * |r| + (2 : ℝ) ^ (-1075 : ℤ) := by
  have h0 := rne_error_mixed (r * c)
  have he : 0 ≤ e := (abs_nonneg _).trans hc
  have hr := abs_nonneg r
  have k1 : |r * c - r * c'| ≤ e * |r| := by rw [← mul_sub, abs_mul, mul_comm]; exact mul_le_mul_of_nonneg_right hc hr
  have k3 : |r * c| ≤ |r| * (1 + e) := by
    rw [abs_mul]
    refine mul_le_mul_of_nonneg_left ?_ hr
    have := abs_sub_abs_le_abs_sub c c'
    linarith
  have k6 := abs_sub_le (rne (r * c)) (r * c) (r * c')
  have k7 : (2 : ℝ) ^ (-53 : ℤ) * |r * c| ≤ (2 : ℝ) ^ (-53 : ℤ) * |r| + e * |r| := by
    have : (2 : ℝ) ^ (-53 : ℤ) ≤ 1 := by norm_num
    have p : (0 : ℝ) < (2 : ℝ) ^ (-53 : ℤ) := by positivity
    have : (2 : ℝ) ^ (-53 : ℤ) * (e * |r|) ≤ e * |r| := mul_le_of_le_one_left (by positivity) this
    nlinarith
  generalize (2 : ℝ) ^ (-1075 : ℤ) = t at *
  nlinarith

/-- **C179** `from_polar` / `polar2vector`, and in the same way `set_polar` and `set_dir`. -/
theorem C179_fromPolar (h : Accurate m) (r : FP double) (a : AngleDeg (FP double)) (ha : |a.deg.val| ≤ 180) :
    |(Vec.fromPolar r a).x.val - r.val * Real.cos (a.deg.val * (Real.pi / 180))| ≤ (2 : ℝ) ^ (-48 : ℤ) * |r.val| + (2 : ℝ) ^ (-1075 : ℤ) ∧
    |(Vec.fromPolar r a).y.val - r.val * Real.sin (a.deg.val * (Real.pi / 180))| ≤ (2 : ℝ) ^ (-48 : ℤ) * |r.val| + (2 : ℝ) ^ (-1075 : ℤ) := by
  have ⟨hs, hc⟩ := C179_sin_deg h a.deg
  have k : (2 : ℝ) ^ (-53 : ℤ) + 2 * ((2 : ℝ) ^ (-58 : ℤ) * |a.deg.val| + (2 : ℝ) ^ (-51 : ℤ)) ≤ (2 : ℝ) ^ (-48 : ℤ) := by
    norm_num; linarith
  exact ⟨(fp_pol hc (Real.abs_cos_le_one _)).trans (by gcongr), (fp_pol hs (Real.abs_sin_le_one _)).trans (by gcongr)⟩

/-- **C179** `set_polar` and `set_dir` compute the same numbers as `from_polar`. -/
theorem C179_setPolar (v : Vec (FP double)) (r : FP double) (a : AngleDeg (FP double)) :
    (v.setPolar r a).x = (Vec.fromPolar r a).x ∧ (v.setPolar r a).y = (Vec.fromPolar r a).y ∧
    (v.setDir a).x = (Vec.fromPolar v.r a).x ∧ (v.setDir a).y = (Vec.fromPolar v.r a).y := ⟨rfl, rfl, rfl, rfl⟩

/-! ## Directions -/

/-- The direction of a vector in degrees, in `(-180, 180]`. -/
noncomputable def Spec.direction (x y : ℝ) : ℝ := Complex.arg ⟨x, y⟩ * (180 / Real.pi)

theorem Spec.Accurate.normalDeg (h : Accurate m) {x : FP double} (hx : IsDouble x.val) :
    (AngleDeg.normalDeg x).val = AngleDeg.normalDeg x.val ∧ IsDouble (AngleDeg.normalDeg x.val) := by
  have h0 := C96_double_exact hx
  rw [fp_normalDeg] at h0
  refine ⟨?_, h0.2⟩
  rw [← h0.1]
  have e180 : (num 180 : FP double).val = 180 := (double.int 180 (by norm_num)).trans (by norm_num)
  have e360 : (num 360 : FP double).val = 360 := (double.int 360 (by norm_num)).trans (by norm_num)
  have ef : (PyMath.fmod x (num 360 : FP double)).val = PyMath.fmod x.val 360 := by
    rw [h.fmod, e360]
  have e1 : ((if x.val < -360 ∨ 360 < x.val then PyMath.fmod x (num 360) else x : FP double)).val =
      if x.val < -360 ∨ 360 < x.val then PyMath.fmod x.val 360 else x.val := by
    split_ifs
    · exact ef
    · rfl
  unfold AngleDeg.normalDeg
  simp only [FP.lt_def, FP.neg_val, e180, e360]
  rw [← e1]
  generalize (if x.val < -360 ∨ 360 < x.val then PyMath.fmod x (num 360) else x : FP double) = y
  have e2 : ((if y.val < -180 then y + num 360 else y : FP double)).val = if y.val < -180 then double.f (y.val + 360) else y.val := by
    split_ifs
    · rw [FP.add_val, e360]
    · rfl
  rw [← e2]
  generalize (if y.val < -180 then y + num 360 else y : FP double) = z
  split_ifs
  · rw [FP.sub_val, e360]
  · rfl

theorem Spec.Accurate.rad2deg_atan2 (h : Accurate m) (y x : FP double) :
    |(rad2deg (PyMath.atan2 y x)).val - direction x.val y.val| ≤ (2 : ℝ) ^ (-44 : ℤ) := by
  unfold rad2deg direction
  rw [FP.mul_val]
  change |rne _ - _| ≤ _
  have h1 := h.atan2_error y x
  have h2 := h.RAD2DEG_error
  have h3 := h.RAD2DEG_val
  have h4 := Complex.abs_arg_le_pi ⟨x.val, y.val⟩
  generalize (PyMath.atan2 y x).val = A at *
  generalize Complex.arg ⟨x.val, y.val⟩ = t at *
  have hp := Real.pi_lt_d6
  have k0 : |A| ≤ 3.141593 + (2 : ℝ) ^ (-51 : ℤ) := by
    have := abs_sub_abs_le_abs_sub A t
    generalize (2 : ℝ) ^ (-51 : ℤ) = e at *
    linarith
  have k1 := rne_error_mixed (A * (RAD2DEG : FP double).val)
  have ht : (2 : ℝ) ^ (-1075 : ℤ) ≤ (2 : ℝ) ^ (-80 : ℤ) := zpow_le_zpow_right₀ one_le_two (by norm_num)
  have k2 : |A * (RAD2DEG : FP double).val| = |A| * (1007958012753983 / 17592186044416) := by
    rw [abs_mul, h3]; norm_num [abs_of_pos]
  have k3 : |A * (RAD2DEG : FP double).val - t * (RAD2DEG : FP double).val| ≤ (2 : ℝ) ^ (-51 : ℤ) * (1007958012753983 / 17592186044416) := by
    rw [← sub_mul, abs_mul, h3, abs_of_pos (show (0 : ℝ) < 1007958012753983 / 17592186044416 by norm_num)]
    exact mul_le_mul_of_nonneg_right h1 (by norm_num)
  have k4 : |t * (RAD2DEG : FP double).val - t * (180 / Real.pi)| ≤ 3.141593 * (2 : ℝ) ^ (-48 : ℤ) := by
    rw [← mul_sub, abs_mul]
    exact mul_le_mul (h4.trans hp.le) h2 (abs_nonneg _) (by norm_num)
  have k5 := abs_sub_le (rne (A * (RAD2DEG : FP double).val)) (A * (RAD2DEG : FP double).val) (t * (RAD2DEG : FP double).val)
  have k6 := abs_sub_le (rne (A * (RAD2DEG : FP double).val)) (t * (RAD2DEG : FP double).val) (t * (180 / Real.pi))
  rw [k2] at k1
  generalize (2 : ℝ) ^ (-1075 : ℤ) = z at *
  generalize |rne (A * (RAD2DEG : FP double).val) - A * (RAD2DEG : FP double).val| = q1 at *
  generalize |A * (RAD2DEG : FP double).val - t * (RAD2DEG : FP double).val| = q2 at *
  generalize |t * (RAD2DEG : FP double).val - t * (180 / Real.pi)| = q3 at *
  generalize |rne (A * (RAD2DEG : FP double).val) - t * (180 / Real.pi)| = q4 at *
  norm_num at *
  linarith

omit m in
theorem angle_periods {a b c e : ℝ} {k : ℤ} (h1 : |a - b| ≤ e) (h2 : c - a = 360 * k) : |c - b - 360 * k| ≤ e := by
  rwa [show c - b - 360 * k = a - b by linarith]

omit m in
theorem Spec.normalDeg_period (x : ℝ) : ∃ k : ℤ, AngleDeg.normalDeg x - x = 360 * k := by
  obtain ⟨k, hk⟩ := ofNum_angleEq x
  exact ⟨k, hk⟩

/-- **C179** The direction of a vector outside the `EPSILON` box is right, modulo 360, up to `2 ** -44` degrees; inside the box it is 0. -/
theorem C179_th (h : Accurate m) (v : Vec (FP double)) :
    (¬ (|v.x.val| < (EPSILON : FP double).val ∧ |v.y.val| < (EPSILON : FP double).val) →
      ∃ k : ℤ, |v.th.deg.val - direction v.x.val v.y.val - 360 * k| ≤ (2 : ℝ) ^ (-44 : ℤ)) ∧
    (|v.x.val| < (EPSILON : FP double).val ∧ |v.y.val| < (EPSILON : FP double).val → v.th.deg.val = 0) ∧
    -180 ≤ v.th.deg.val ∧ v.th.deg.val ≤ 180 := by
  have ha : ∀ x : FP double, (fabs x).val = |x.val| := fp_fabs_val
  have d0 : IsDouble (atan2Deg v.y v.x).val := by
    unfold atan2Deg
    split_ifs
    · exact fp_num0
    · exact fp_mul_double _ _
  have hn := (h.normalDeg d0).1
  refine ⟨fun hb => ?_, fun hb => ?_, ?_⟩
  · have e : atan2Deg v.y v.x = rad2deg (PyMath.atan2 v.y v.x) := by
      unfold atan2Deg
      rw [if_neg]
      rwa [FP.lt_def, FP.lt_def, ha, ha]
    obtain ⟨k, hk⟩ := normalDeg_period (atan2Deg v.y v.x).val
    refine ⟨k, ?_⟩
    change |(AngleDeg.normalDeg (atan2Deg v.y v.x)).val - _ - _| ≤ _
    rw [hn]
    refine angle_periods ?_ hk
    rw [e]
    exact h.rad2deg_atan2 v.y v.x
  · have e : atan2Deg v.y v.x = num 0 := by
      unfold atan2Deg
      rw [if_pos]
      rwa [FP.lt_def, FP.lt_def, ha, ha]
    change (AngleDeg.normalDeg (atan2Deg v.y v.x)).val = _
    rw [hn, e, fp_zero]
    exact normalDeg_of_mem (by norm_num) (by norm_num)
  · change -180 ≤ (AngleDeg.normalDeg (atan2Deg v.y v.x)).val ∧ (AngleDeg.normalDeg (atan2Deg v.y v.x)).val ≤ 180
    rw [hn]
    have := C96_normal double (⟨(atan2Deg v.y v.x).val⟩ : FP double)
    rwa [(C96_double_exact d0).1] at this

/-! ## Going round -/

omit m in
/-- A small relative change of a vector turns it by a small angle. -/
theorem arg_near {z w : ℂ} {e : ℝ} (hz : z ≠ 0) (h : ‖w - z‖ ≤ e * ‖z‖) (he : e ≤ 1 / 2) :
    ∃ k : ℤ, |w.arg - z.arg - 2 * Real.pi * k| ≤ 3 / 2 * e := by
  have hz' : 0 < ‖z‖ := norm_pos_iff.mpr hz
  set d := (w - z) / z with hd
  have h1 : ‖d‖ ≤ e := by rw [hd, norm_div, div_le_iff₀ hz']; exact h
  have hw : w = z * (1 + d) := by rw [hd]; field_simp; ring
  have h2 : (1 + d : ℂ) ≠ 0 := by
    intro h0
    have : d = -1 := by linear_combination h0
    rw [this, norm_neg, norm_one] at h1
    linarith
  have h3 : (w.arg : Real.Angle) = ((z.arg + (1 + d).arg : ℝ) : Real.Angle) := by
    rw [hw, Complex.arg_mul_coe_angle hz h2, Real.Angle.coe_add]
  obtain ⟨k, hk⟩ := Real.Angle.angle_eq_iff_two_pi_dvd_sub.mp h3
  refine ⟨k, ?_⟩
  rw [show w.arg - z.arg - 2 * Real.pi * k = (1 + d).arg by linarith]
  have h4 := Complex.norm_log_one_add_half_le_self (h1.trans he)
  have h5 := Complex.abs_im_le_norm (Complex.log (1 + d))
  rw [Complex.log_im] at h5
  linarith

omit m in
theorem direction_near {z w : ℂ} {e : ℝ} (hz : z ≠ 0) (h : ‖w - z‖ ≤ e * ‖z‖) (he : e ≤ 1 / 2) :
    ∃ k : ℤ, |direction w.re w.im - direction z.re z.im - 360 * k| ≤ 86 * e := by
  obtain ⟨k, hk⟩ := arg_near hz h he
  refine ⟨k, ?_⟩
  have hp := Real.pi_pos
  have e0 : 0 ≤ e := by
    have := (norm_nonneg _).trans h
    exact nonneg_of_mul_nonneg_left this (norm_pos_iff.mpr hz)
  have e1 : direction w.re w.im - direction z.re z.im - 360 * k = (w.arg - z.arg - 2 * Real.pi * k) * (180 / Real.pi) := by
    unfold direction
    change w.arg * _ - z.arg * _ - _ = _
    field_simp; ring
  rw [e1, abs_mul, abs_of_pos (show 0 < 180 / Real.pi by positivity)]
  have h2 : 180 / Real.pi ≤ 57.3 := by
    rw [div_le_iff₀ hp]; have := Real.pi_gt_d6; linarith
  calc _ ≤ 3 / 2 * e * 57.3 := mul_le_mul hk h2 (by positivity) (by positivity)
    _ ≤ 86 * e := by linarith

/-- The direction computed for an inexact vector. -/
theorem Spec.Accurate.th_near (h : Accurate m) (v : Vec (FP double)) {z : ℂ} {e : ℝ} (hw : ‖(⟨v.x.val, v.y.val⟩ : ℂ) - z‖ ≤ e * ‖z‖)
    (he : e ≤ 1 / 8) (hz : 2 * (EPSILON : FP double).val ≤ ‖z‖) :
    ∃ k : ℤ, |v.th.deg.val - direction z.re z.im - 360 * k| ≤ 86 * e + (2 : ℝ) ^ (-44 : ℤ) := by
  have hE := fp_EPSILON.1
  have z0 : z ≠ 0 := by
    rintro rfl
    rw [norm_zero] at hz
    linarith
  have hb : ¬ (|v.x.val| < (EPSILON : FP double).val ∧ |v.y.val| < (EPSILON : FP double).val) := by
    rintro ⟨h1, h2⟩
    have n1 : ‖(⟨v.x.val, v.y.val⟩ : ℂ)‖ ^ 2 = v.x.val ^ 2 + v.y.val ^ 2 := by
      rw [Complex.sq_norm, Complex.normSq_mk]; ring
    have h3 : v.x.val ^ 2 < (EPSILON : FP double).val ^ 2 := sq_lt_sq' (by linarith [(abs_lt.mp h1).1]) (abs_lt.mp h1).2
    have h4 : v.y.val ^ 2 < (EPSILON : FP double).val ^ 2 := sq_lt_sq' (by linarith [(abs_lt.mp h2).1]) (abs_lt.mp h2).2
    have n2 : ‖z‖ - ‖(⟨v.x.val, v.y.val⟩ : ℂ)‖ ≤ ‖(⟨v.x.val, v.y.val⟩ : ℂ) - z‖ := by
      rw [← norm_neg (_ - _), neg_sub]
      exact norm_sub_norm_le _ _
    have n3 : e * ‖z‖ ≤ 1 / 8 * ‖z‖ := mul_le_mul_of_nonneg_right he (norm_nonneg _)
    have n4 : 7 / 4 * (EPSILON : FP double).val ≤ ‖(⟨v.x.val, v.y.val⟩ : ℂ)‖ := by linarith
    have n5 := pow_le_pow_left₀ (by positivity) n4 2
    rw [n1] at n5
    nlinarith
  obtain ⟨k, hk⟩ := (C179_th h v).1 hb
  obtain ⟨l, hl⟩ := direction_near z0 hw (he.trans (by norm_num))
  refine ⟨k + l, ?_⟩
  change |direction v.x.val v.y.val - _ - _| ≤ _ at hl
  have := abs_add_le (v.th.deg.val - direction v.x.val v.y.val - 360 * k) (direction v.x.val v.y.val - direction z.re z.im - 360 * l)
  rw [show v.th.deg.val - direction v.x.val v.y.val - 360 * k + (direction v.x.val v.y.val - direction z.re z.im - 360 * l) =
    v.th.deg.val - direction z.re z.im - 360 * ((k + l : ℤ) : ℝ) by push_cast; ring] at this
  linarith

omit m in
/-- The direction of a vector given by polar coordinates. -/
theorem direction_polar {r : ℝ} (hr : 0 < r) (a : ℝ) :
    ∃ k : ℤ, direction (r * Real.cos (a * (Real.pi / 180))) (r * Real.sin (a * (Real.pi / 180))) - a = 360 * k := by
  have h1 := Complex.arg_mul_cos_add_sin_mul_I_coe_angle hr ((a * (Real.pi / 180) : ℝ) : Real.Angle)
  have e1 : (r * (Real.Angle.cos ((a * (Real.pi / 180) : ℝ) : Real.Angle) + Real.Angle.sin ((a * (Real.pi / 180) : ℝ) : Real.Angle) * Complex.I) : ℂ) =
      ⟨r * Real.cos (a * (Real.pi / 180)), r * Real.sin (a * (Real.pi / 180))⟩ := by
    rw [Real.Angle.cos_coe, Real.Angle.sin_coe]
    generalize Real.cos (a * (Real.pi / 180)) = c
    generalize Real.sin (a * (Real.pi / 180)) = s
    apply Complex.ext <;> simp
  rw [e1] at h1
  obtain ⟨k, hk⟩ := Real.Angle.angle_eq_iff_two_pi_dvd_sub.mp h1
  refine ⟨k, ?_⟩
  unfold direction
  have hp := Real.pi_pos
  rw [show Complex.arg ⟨r * Real.cos (a * (Real.pi / 180)), r * Real.sin (a * (Real.pi / 180))⟩ =
    a * (Real.pi / 180) + 2 * Real.pi * k by linarith]
  field_simp; ring

omit m in
theorem norm_le_of_coords {a b t : ℝ} (h1 : |a| ≤ t) (h2 : |b| ≤ t) : ‖(⟨a, b⟩ : ℂ)‖ ≤ 3 / 2 * t := by
  have t0 : 0 ≤ t := (abs_nonneg _).trans h1
  have n1 : ‖(⟨a, b⟩ : ℂ)‖ ^ 2 = a ^ 2 + b ^ 2 := by rw [Complex.sq_norm, Complex.normSq_mk]; ring
  have h3 := sq_le_sq' (by linarith [(abs_le.mp h1).1]) (abs_le.mp h1).2
  have h4 := sq_le_sq' (by linarith [(abs_le.mp h2).1]) (abs_le.mp h2).2
  refine le_of_sq_le_sq ?_ (by positivity)
  nlinarith

omit m in
theorem small_le_EPSILON : (2 : ℝ) ^ (-1073 : ℤ) ≤ (2 : ℝ) ^ (-60 : ℤ) * (EPSILON : FP double).val := by
  refine le_trans ?_ (mul_le_mul_of_nonneg_left fp_EPSILON_ge (by positivity))
  rw [← zpow_add₀ two_ne_zero]
  exact zpow_le_zpow_right₀ one_le_two (by norm_num)

/-- **C179** Polar coordinates and back: for a length of at least twice `EPSILON` the direction of `from_polar(r, a)` is `a`, modulo 360, up to
`2 ** -39` degrees. -/
theorem C179_polar_th (h : Accurate m) (r : FP double) (a : AngleDeg (FP double)) (ha : |a.deg.val| ≤ 180)
    (hr : 2 * (EPSILON : FP double).val ≤ r.val) :
    ∃ k : ℤ, |(Vec.fromPolar r a).th.deg.val - a.deg.val - 360 * k| ≤ (2 : ℝ) ^ (-39 : ℤ) := by
  have hE := fp_EPSILON.1
  have r0 : 0 < r.val := by linarith
  have ⟨hx, hy⟩ := C179_fromPolar h r a ha
  rw [abs_of_pos r0] at hx hy
  have ht : (2 : ℝ) ^ (-1075 : ℤ) ≤ (2 : ℝ) ^ (-60 : ℤ) * r.val := by
    have h1 : (2 : ℝ) ^ (-1075 : ℤ) ≤ (2 : ℝ) ^ (-1073 : ℤ) := zpow_le_zpow_right₀ one_le_two (by norm_num)
    refine h1.trans (small_le_EPSILON.trans (mul_le_mul_of_nonneg_left (by linarith) (by positivity)))
  set z : ℂ := ⟨r.val * Real.cos (a.deg.val * (Real.pi / 180)), r.val * Real.sin (a.deg.val * (Real.pi / 180))⟩ with hz
  have nz : ‖z‖ = r.val := by
    have : ‖z‖ ^ 2 = r.val ^ 2 := by
      rw [Complex.sq_norm, hz, Complex.normSq_mk]
      nlinarith [Real.sin_sq_add_cos_sq (a.deg.val * (Real.pi / 180))]
    exact (sq_eq_sq₀ (norm_nonneg _) r0.le).mp this
  have hw : ‖(⟨(Vec.fromPolar r a).x.val, (Vec.fromPolar r a).y.val⟩ : ℂ) - z‖ ≤ (2 : ℝ) ^ (-47 : ℤ) * ‖z‖ := by
    rw [nz]
    have := norm_le_of_coords hx hy
    refine le_trans this ?_
    generalize (2 : ℝ) ^ (-1075 : ℤ) = t at *
    norm_num at ht ⊢
    linarith
  obtain ⟨k, hk⟩ := h.th_near _ hw (by norm_num) (by rw [nz]; exact hr)
  obtain ⟨l, hl⟩ := direction_polar r0 a.deg.val
  refine ⟨k + l, ?_⟩
  rw [show (Vec.fromPolar r a).th.deg.val - a.deg.val - 360 * ((k + l : ℤ) : ℝ) =
    (Vec.fromPolar r a).th.deg.val - direction z.re z.im - 360 * k + (direction z.re z.im - a.deg.val - 360 * l) by push_cast; ring,
    show direction z.re z.im - a.deg.val - 360 * l = 0 from sub_eq_zero.mpr hl, add_zero]
  refine hk.trans ?_
  norm_num

/-! ## Turning -/

/-- The vector as a complex number. -/
noncomputable def Vec.fcx (v : Vec (FP double)) : ℂ := ⟨v.x.val, v.y.val⟩

omit m in
theorem Vec.norm_fcx (v : Vec (FP double)) : ‖v.fcx‖ = v.flen := by
  unfold Vec.fcx Vec.flen
  rw [Complex.norm_def, Complex.normSq_mk, pow_two, pow_two]

omit m in
theorem Vec.sum_le_flen (v : Vec (FP double)) : |v.x.val| + |v.y.val| ≤ 3 / 2 * v.flen := by
  have h := Real.sq_sqrt (show 0 ≤ v.x.val ^ 2 + v.y.val ^ 2 by positivity)
  change v.flen ^ 2 = _ at h
  rw [← sq_abs v.x.val, ← sq_abs v.y.val] at h
  refine le_of_sq_le_sq ?_ (by have := v.flen_nonneg; positivity)
  nlinarith [sq_nonneg (|v.x.val| - |v.y.val|)]

/-- The unit vector of a direction. -/
noncomputable def Spec.cis (a : ℝ) : ℂ := ⟨Real.cos (a * (Real.pi / 180)), Real.sin (a * (Real.pi / 180))⟩

omit m in
theorem norm_cis (a : ℝ) : ‖cis a‖ = 1 := by
  unfold cis
  rw [Complex.norm_def, Complex.normSq_mk, ← pow_two, ← pow_two, Real.cos_sq_add_sin_sq, Real.sqrt_one]

omit m in
theorem cis_mul_neg (a : ℝ) : cis a * cis (-a) = 1 := by
  unfold cis
  rw [neg_mul, Real.cos_neg, Real.sin_neg]
  apply Complex.ext
  · simp only [Complex.mul_re, Complex.one_re]
    nlinarith [Real.sin_sq_add_cos_sq (a * (Real.pi / 180))]
  · simp only [Complex.mul_im, Complex.one_im]; ring

theorem Spec.Accurate.rotate_near (h : Accurate m) (v : Vec (FP double)) (d : FP double) :
    ‖(v.rotate d).fcx - v.fcx * cis d.val‖ ≤ ((2 : ℝ) ^ (-55 : ℤ) * |d.val| + (2 : ℝ) ^ (-47 : ℤ)) * v.flen + (2 : ℝ) ^ (-1072 : ℤ) := by
  have ⟨h1, h2⟩ := C179_rotate h v d
  have e : (v.rotate d).fcx - v.fcx * cis d.val =
      ⟨(v.rotate d).x.val - (v.x.val * Real.cos (d.val * (Real.pi / 180)) - v.y.val * Real.sin (d.val * (Real.pi / 180))),
       (v.rotate d).y.val - (v.x.val * Real.sin (d.val * (Real.pi / 180)) + v.y.val * Real.cos (d.val * (Real.pi / 180)))⟩ := by
    apply Complex.ext <;> simp [Vec.fcx, cis]
  rw [e]
  refine (norm_le_of_coords h1 h2).trans ?_
  have e2 : (2 : ℝ) ^ (-1072 : ℤ) = 2 * (2 : ℝ) ^ (-1073 : ℤ) := by rw [← zpow_one_add₀ two_ne_zero]; norm_num
  have p : 0 ≤ (2 : ℝ) ^ (-1073 : ℤ) := by positivity
  rw [e2]
  have k := v.sum_le_flen
  have k2 : ((2 : ℝ) ^ (-57 : ℤ) * |d.val| + (2 : ℝ) ^ (-49 : ℤ)) * (|v.x.val| + |v.y.val|) ≤
      ((2 : ℝ) ^ (-57 : ℤ) * |d.val| + (2 : ℝ) ^ (-49 : ℤ)) * (3 / 2 * v.flen) := by gcongr
  have k3 : (2 : ℝ) ^ (-55 : ℤ) * |d.val| + (2 : ℝ) ^ (-47 : ℤ) = 4 * ((2 : ℝ) ^ (-57 : ℤ) * |d.val| + (2 : ℝ) ^ (-49 : ℤ)) := by
    norm_num; ring
  rw [k3]
  have k4 : 0 ≤ ((2 : ℝ) ^ (-57 : ℤ) * |d.val| + (2 : ℝ) ^ (-49 : ℤ)) * v.flen := by have := v.flen_nonneg; positivity
  generalize (2 : ℝ) ^ (-1073 : ℤ) = t at *
  generalize (2 : ℝ) ^ (-57 : ℤ) * |d.val| + (2 : ℝ) ^ (-49 : ℤ) = q at *
  linarith

/-- **C179** Rotation keeps the length up to a relative error of `2 ** -55 * |deg| + 2 ** -47`, plus underflow. -/
theorem C179_rotate_length (h : Accurate m) (v : Vec (FP double)) (d : FP double) :
    |(v.rotate d).flen - v.flen| ≤ ((2 : ℝ) ^ (-55 : ℤ) * |d.val| + (2 : ℝ) ^ (-47 : ℤ)) * v.flen + (2 : ℝ) ^ (-1072 : ℤ) := by
  have h1 := h.rotate_near v d
  have h2 := abs_norm_sub_norm_le (v.rotate d).fcx (v.fcx * cis d.val)
  rw [norm_mul, norm_cis, mul_one, Vec.norm_fcx, Vec.norm_fcx] at h2
  exact h2.trans h1

/-- **C179** Rotating back gives the vector again, up to a relative error of `2 ** -53 * |deg| + 2 ** -45`, plus underflow. -/
theorem C179_rotate_back (h : Accurate m) (v : Vec (FP double)) (d : FP double) (hd : |d.val| ≤ 2 ^ 40) :
    |((v.rotate d).rotate (-d)).x.val - v.x.val| ≤ ((2 : ℝ) ^ (-53 : ℤ) * |d.val| + (2 : ℝ) ^ (-45 : ℤ)) * v.flen + (2 : ℝ) ^ (-1070 : ℤ) ∧
    |((v.rotate d).rotate (-d)).y.val - v.y.val| ≤ ((2 : ℝ) ^ (-53 : ℤ) * |d.val| + (2 : ℝ) ^ (-45 : ℤ)) * v.flen + (2 : ℝ) ^ (-1070 : ℤ) := by
  have h1 := h.rotate_near v d
  have h2 := h.rotate_near (v.rotate d) (-d)
  have h3 := C179_rotate_length h v d
  rw [FP.neg_val, abs_neg] at h2
  have e1 : ((v.rotate d).rotate (-d)).fcx - v.fcx = ((v.rotate d).rotate (-d)).fcx - (v.rotate d).fcx * cis (-d.val) +
      ((v.rotate d).fcx - v.fcx * cis d.val) * cis (-d.val) := by
    linear_combination v.fcx * (cis_mul_neg d.val)
  have h4 := norm_add_le (((v.rotate d).rotate (-d)).fcx - (v.rotate d).fcx * cis (-d.val)) (((v.rotate d).fcx - v.fcx * cis d.val) * cis (-d.val))
  rw [← e1, norm_mul, norm_cis, mul_one] at h4
  have k0 := v.flen_nonneg
  have k1 := (abs_le.mp h3).2
  have e2 : (2 : ℝ) ^ (-1070 : ℤ) = 4 * (2 : ℝ) ^ (-1072 : ℤ) := by
    rw [show (4 : ℝ) = (2 : ℝ) ^ (2 : ℤ) by norm_num, ← zpow_add₀ two_ne_zero]; norm_num
  have p : 0 ≤ (2 : ℝ) ^ (-1072 : ℤ) := by positivity
  have hq : (2 : ℝ) ^ (-55 : ℤ) * |d.val| + (2 : ℝ) ^ (-47 : ℤ) ≤ 1 := by norm_num at hd ⊢; linarith
  have q0 : 0 ≤ (2 : ℝ) ^ (-55 : ℤ) * |d.val| + (2 : ℝ) ^ (-47 : ℤ) := by positivity
  have k3 : (2 : ℝ) ^ (-53 : ℤ) * |d.val| + (2 : ℝ) ^ (-45 : ℤ) = 4 * ((2 : ℝ) ^ (-55 : ℤ) * |d.val| + (2 : ℝ) ^ (-47 : ℤ)) := by
    norm_num; ring
  rw [e2, k3]
  have h5 : ‖((v.rotate d).rotate (-d)).fcx - v.fcx‖ ≤
      4 * ((2 : ℝ) ^ (-55 : ℤ) * |d.val| + (2 : ℝ) ^ (-47 : ℤ)) * v.flen + 4 * (2 : ℝ) ^ (-1072 : ℤ) := by
    generalize (2 : ℝ) ^ (-1072 : ℤ) = t at *
    generalize (2 : ℝ) ^ (-55 : ℤ) * |d.val| + (2 : ℝ) ^ (-47 : ℤ) = q at *
    have i1 : q * (v.rotate d).flen ≤ q * (v.flen + (q * v.flen + t)) := mul_le_mul_of_nonneg_left (by linarith) q0
    have i2 : q * (q * v.flen) ≤ q * v.flen := mul_le_of_le_one_left (by positivity) hq
    have i3 : q * t ≤ t := mul_le_of_le_one_left p hq
    nlinarith
  exact ⟨(Complex.abs_re_le_norm _).trans h5, (Complex.abs_im_le_norm _).trans h5⟩

omit m in
theorem direction_turn {z : ℂ} (hz : z ≠ 0) (a : ℝ) :
    ∃ k : ℤ, direction (z * cis a).re (z * cis a).im - direction z.re z.im - a = 360 * k := by
  obtain ⟨l, hl⟩ := direction_polar one_pos a
  have c0 : cis a ≠ 0 := by rw [← norm_pos_iff, norm_cis]; exact one_pos
  obtain ⟨k, hk⟩ := Real.Angle.angle_eq_iff_two_pi_dvd_sub.mp
    ((Complex.arg_mul_coe_angle hz c0).trans (Real.Angle.coe_add _ _).symm)
  refine ⟨k + l, ?_⟩
  rw [one_mul, one_mul] at hl
  have hp := Real.pi_pos
  have e1 : direction (z * cis a).re (z * cis a).im = direction z.re z.im + direction (cis a).re (cis a).im + 360 * k := by
    unfold direction
    change (z * cis a).arg * _ = z.arg * _ + (cis a).arg * _ + _
    rw [show (z * cis a).arg = z.arg + (cis a).arg + 2 * Real.pi * k by linarith]
    field_simp; ring
  have e2 : direction (cis a).re (cis a).im - a = 360 * l := hl
  rw [e1]; push_cast; linarith

/-- **C179** Rotating by `deg` adds `deg` to the direction, modulo 360, up to `2 ** -48 * |deg| + 2 ** -40` degrees, for vectors at least twice
`EPSILON` long. -/
theorem C179_rotate_th (h : Accurate m) (v : Vec (FP double)) (d : FP double) (hd : |d.val| ≤ 2 ^ 40) (hv : 2 * (EPSILON : FP double).val ≤ v.flen) :
    ∃ k : ℤ, |(v.rotate d).th.deg.val - (v.th.deg.val + d.val) - 360 * k| ≤ (2 : ℝ) ^ (-48 : ℤ) * |d.val| + (2 : ℝ) ^ (-40 : ℤ) := by
  have hE := fp_EPSILON.1
  have h1 := h.rotate_near v d
  have nz : ‖v.fcx * cis d.val‖ = v.flen := by rw [norm_mul, norm_cis, mul_one, Vec.norm_fcx]
  have v0 : v.fcx ≠ 0 := by rw [← norm_pos_iff, Vec.norm_fcx]; linarith
  have ht : (2 : ℝ) ^ (-1072 : ℤ) ≤ (2 : ℝ) ^ (-60 : ℤ) * v.flen := by
    have e2 : (2 : ℝ) ^ (-1072 : ℤ) = 2 * (2 : ℝ) ^ (-1073 : ℤ) := by rw [← zpow_one_add₀ two_ne_zero]; norm_num
    rw [e2]
    refine (mul_le_mul_of_nonneg_left small_le_EPSILON (by norm_num)).trans ?_
    rw [← mul_assoc, mul_comm (2 : ℝ), mul_assoc]
    exact mul_le_mul_of_nonneg_left hv (by positivity)
  have hw : ‖(⟨(v.rotate d).x.val, (v.rotate d).y.val⟩ : ℂ) - v.fcx * cis d.val‖ ≤
      ((2 : ℝ) ^ (-55 : ℤ) * |d.val| + (2 : ℝ) ^ (-47 : ℤ) + (2 : ℝ) ^ (-60 : ℤ)) * ‖v.fcx * cis d.val‖ := by
    rw [nz, add_mul]
    refine h1.trans (by linarith)
  obtain ⟨k, hk⟩ := h.th_near _ hw (by norm_num at hd ⊢; linarith) (by rw [nz]; exact hv)
  obtain ⟨l, hl⟩ := direction_turn v0 d.val
  have hw0 : ‖(⟨v.x.val, v.y.val⟩ : ℂ) - v.fcx‖ ≤ 0 * ‖v.fcx‖ := by simp [Vec.fcx]
  obtain ⟨j, hj⟩ := h.th_near v hw0 (by norm_num) (by rw [Vec.norm_fcx]; exact hv)
  refine ⟨k + l - j, ?_⟩
  have e : (v.rotate d).th.deg.val - (v.th.deg.val + d.val) - 360 * ((k + l - j : ℤ) : ℝ) =
      (v.rotate d).th.deg.val - direction (v.fcx * cis d.val).re (v.fcx * cis d.val).im - 360 * k -
      (v.th.deg.val - direction v.fcx.re v.fcx.im - 360 * j) := by
    push_cast; linarith
  rw [e]
  refine (abs_sub _ _).trans ((add_le_add hk hj).trans ?_)
  norm_num
  linarith [abs_nonneg d.val]

end

/-! ## Examples -/

/-- Turning (1, 0) by 90 degrees: the first coordinate is not 0 but tiny. -/
example : |((Vec.ofXY ⟨1⟩ ⟨0⟩ : Vec (FP double)).rotate ⟨90⟩).x.val| ≤ (2 : ℝ) ^ (-47 : ℤ) := by
  have h := (C179_rotate accurate_double (Vec.ofXY ⟨1⟩ ⟨0⟩) ⟨90⟩).1
  have e : Real.cos (90 * (Real.pi / 180)) = 0 := by rw [show 90 * (Real.pi / 180) = Real.pi / 2 by ring, Real.cos_pi_div_two]
  simp only [Vec.ofXY, e, mul_zero, zero_mul, sub_zero, abs_one, abs_zero, add_zero, mul_one] at h
  refine h.trans ?_
  have ht : (2 : ℝ) ^ (-1073 : ℤ) ≤ (2 : ℝ) ^ (-60 : ℤ) := zpow_le_zpow_right₀ one_le_two (by norm_num)
  refine (add_le_add le_rfl ht).trans ?_
  rw [abs_of_pos (by norm_num)]
  norm_num

/-- The hypotheses are met: length 1, direction 45. -/
example : ∃ k : ℤ, |(Vec.fromPolar (⟨1⟩ : FP double) ⟨⟨45⟩⟩).th.deg.val - 45 - 360 * k| ≤ (2 : ℝ) ^ (-39 : ℤ) := by
  refine C179_polar_th accurate_double ⟨1⟩ ⟨⟨45⟩⟩ (by norm_num [abs_of_pos]) ?_
  have := fp_EPSILON.2.trans (show (2 : ℝ) ^ (-18 : ℤ) ≤ 1 / 2 by norm_num)
  change 2 * _ ≤ (1 : ℝ)
  linarith

end PyrusGeom
