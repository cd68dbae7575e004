import Verif.Props.FloatSegDist
import Verif.Props.FloatRobustHull
import Verif.Model.Matrix

/-!
# C173: rounding errors of vector products, lengths, `set_length`, `normalize` and affine transforms

IEEE binary64 without overflow (`FP double`); underflow is included.
-/

namespace PyrusGeom
open Spec

/-- The sum of two rounded products. -/
theorem fp_sum_prod {a x b y : ℝ} : |rne (rne (a * x) + rne (b * y)) - (a * x + b * y)| ≤
    (2 : ℝ) ^ (-51 : ℤ) * (|a * x| + |b * y|) + (2 : ℝ) ^ (-1074 : ℤ) * 2 := by
  have h1 := rne_error_mixed (a * x)
  have h2 := rne_error_mixed (b * y)
  have h3 := fp_sum_grid (isDouble_rne (a * x)) (isDouble_rne (b * y))
  have e2 : (2 : ℝ) ^ (-1074 : ℤ) = 2 * (2 : ℝ) ^ (-1075 : ℤ) := by
    rw [← zpow_one_add₀ two_ne_zero]; norm_num
  rw [e2]
  have e5 : (0 : ℝ) < (2 : ℝ) ^ (-1075 : ℤ) := by positivity
  generalize (2 : ℝ) ^ (-1075 : ℤ) = t at *
  generalize rne (a * x) = P at *
  generalize rne (b * y) = Q at *
  generalize rne (P + Q) = R at *
  generalize a * x = u at *
  generalize b * y = v at *
  have i1 : |P| ≤ |u| + |P - u| := by have := abs_sub_abs_le_abs_sub P u; linarith
  have i2 : |Q| ≤ |v| + |Q - v| := by have := abs_sub_abs_le_abs_sub Q v; linarith
  have i3 := abs_add_le P Q
  have i6 : |R - (u + v)| ≤ |R - (P + Q)| + (|P - u| + |Q - v|) := by
    have := abs_add_le (R - (P + Q)) (P - u + (Q - v))
    have := abs_add_le (P - u) (Q - v)
    rw [show R - (u + v) = R - (P + Q) + (P - u + (Q - v)) by ring]
    linarith
  have u0 := abs_nonneg u
  have v0 := abs_nonneg v
  generalize |P - u| = A at *
  generalize |Q - v| = B at *
  generalize |R - (P + Q)| = C at *
  generalize |R - (u + v)| = D at *
  generalize |P + Q| = E at *
  generalize |P| = F at *
  generalize |Q| = G at *
  generalize |u| = U at *
  generalize |v| = V at *
  norm_num only at *
  linarith

theorem fp_sub_prod {a x b y : ℝ} : |rne (rne (a * x) - rne (b * y)) - (a * x - b * y)| ≤
    (2 : ℝ) ^ (-51 : ℤ) * (|a * x| + |b * y|) + (2 : ℝ) ^ (-1074 : ℤ) * 2 := by
  have h := fp_sum_prod (a := a) (x := x) (b := -b) (y := y)
  rwa [neg_mul, rne_neg, ← sub_eq_add_neg, ← sub_eq_add_neg, abs_neg] at h

/-- **C173** The inner and outer product: the error is at most `2 ** -51` times the sum of the sizes of the two terms, plus `2 ** -1073`
for underflow. -/
theorem C173_products (v w : Vec (FP double)) :
    |(v.innerProduct w).val - (v.x.val * w.x.val + v.y.val * w.y.val)| ≤
      (2 : ℝ) ^ (-51 : ℤ) * (|v.x.val * w.x.val| + |v.y.val * w.y.val|) + (2 : ℝ) ^ (-1074 : ℤ) * 2 ∧
    |(v.outerProduct w).val - (v.x.val * w.y.val - v.y.val * w.x.val)| ≤
      (2 : ℝ) ^ (-51 : ℤ) * (|v.x.val * w.y.val| + |v.y.val * w.x.val|) + (2 : ℝ) ^ (-1074 : ℤ) * 2 :=
  ⟨fp_sum_prod, fp_sub_prod⟩

/-- **C173** An affine transform: each coordinate has an error of at most `2 ** -50` times the sum of the sizes of its three terms, plus
`2 ** -1073` for underflow; `transform`, `transform_vec` and `transform(x, y)` give the same numbers. -/
theorem C173_transform (m : Mat (FP double)) (v : Vec (FP double)) (hx : IsDouble m.dx.val) (hy : IsDouble m.dy.val) :
    |(m.transform v).x.val - (m.m11.val * v.x.val + m.m12.val * v.y.val + m.dx.val)| ≤
      (2 : ℝ) ^ (-50 : ℤ) * (|m.m11.val * v.x.val| + |m.m12.val * v.y.val| + |m.dx.val|) + (2 : ℝ) ^ (-1073 : ℤ) ∧
    |(m.transform v).y.val - (m.m21.val * v.x.val + m.m22.val * v.y.val + m.dy.val)| ≤
      (2 : ℝ) ^ (-50 : ℤ) * (|m.m21.val * v.x.val| + |m.m22.val * v.y.val| + |m.dy.val|) + (2 : ℝ) ^ (-1073 : ℤ) ∧
    ((m.transformVec v).x = (m.transform v).x ∧ (m.transformVec v).y = (m.transform v).y) ∧
    m.transformXY v.x v.y = m.transform v :=
  ⟨fp_lin_error hx, fp_lin_error hy, ⟨rfl, rfl⟩, rfl⟩

/-- The exact length. -/
noncomputable def Vec.flen (v : Vec (FP double)) : ℝ := √(v.x.val ^ 2 + v.y.val ^ 2)

theorem Vec.flen_nonneg (v : Vec (FP double)) : 0 ≤ v.flen := Real.sqrt_nonneg _

/-- **C173** The computed length of a vector of at least `2 ** -500` has a relative error of at most `2 ** -49`. -/
theorem C173_length (v : Vec (FP double)) (hv : v.FOk) (hd : (2 : ℝ) ^ (-500 : ℤ) ≤ v.flen) :
    |v.r.val - v.flen| ≤ (2 : ℝ) ^ (-49 : ℤ) * v.flen := by
  have e : d (Vec.fpt ⟨v.x, v.y, true⟩) (Vec.fpt ⟨⟨0⟩, ⟨0⟩, true⟩) = v.flen := by
    simp only [d, Vec.fpt, sub_zero, Vec.flen]
  have h2 := C104_error_partial ⟨v.x, v.y, true⟩ ⟨⟨0⟩, ⟨0⟩, true⟩ hv ⟨isDouble_zero, isDouble_zero⟩ (by rw [e]; exact hd)
  rw [e, fp_dist, fp_dist2] at h2
  change |rne √(rne (rne (rne (v.x.val - 0) * rne (v.x.val - 0)) + rne (rne (v.y.val - 0) * rne (v.y.val - 0)))) - _| ≤ _ at h2
  rw [sub_zero, sub_zero, rne_of_isDouble hv.1, rne_of_isDouble hv.2] at h2
  exact h2

/-- A computed length above `2 ** -498` means an exact length of at least `2 ** -500`. -/
theorem Vec.flen_of_r (v : Vec (FP double)) (h : (2 : ℝ) ^ (-498 : ℤ) < v.r.val) : (2 : ℝ) ^ (-500 : ℤ) ≤ v.flen := by
  by_contra hc
  push Not at hc
  have h1 := fp_sum_prod (a := v.x.val) (x := v.x.val) (b := v.y.val) (y := v.y.val)
  have hr : v.r.val = rne √(rne (rne (v.x.val * v.x.val) + rne (v.y.val * v.y.val))) := rfl
  have e1 : |v.x.val * v.x.val| + |v.y.val * v.y.val| = v.flen ^ 2 := by
    rw [abs_mul_self, abs_mul_self, Vec.flen, Real.sq_sqrt (by positivity)]; ring
  have e2 : v.x.val * v.x.val + v.y.val * v.y.val = v.flen ^ 2 := by rw [← e1, abs_mul_self, abs_mul_self]
  rw [e1, e2] at h1
  have h2 : v.flen ^ 2 ≤ (2 : ℝ) ^ (-1000 : ℤ) := by
    rw [show (2 : ℝ) ^ (-1000 : ℤ) = ((2 : ℝ) ^ (-500 : ℤ)) ^ 2 by rw [← zpow_natCast, ← zpow_mul]; norm_num]
    exact pow_le_pow_left₀ v.flen_nonneg hc.le 2
  have h3 : rne (rne (v.x.val * v.x.val) + rne (v.y.val * v.y.val)) ≤ ((2 : ℝ) ^ (-498 : ℤ)) ^ 2 := by
    have e3 : ((2 : ℝ) ^ (-498 : ℤ)) ^ 2 = 16 * (2 : ℝ) ^ (-1000 : ℤ) := by
      rw [← zpow_natCast, ← zpow_mul, show (16 : ℝ) = (2 : ℝ) ^ (4 : ℤ) by norm_num, ← zpow_add₀ two_ne_zero]; norm_num
    have e4 : (2 : ℝ) ^ (-1074 : ℤ) ≤ (2 : ℝ) ^ (-1000 : ℤ) := zpow_le_zpow_right₀ one_le_two (by norm_num)
    have e5 : (2 : ℝ) ^ (-51 : ℤ) ≤ 1 := by norm_num
    rw [e3]
    have := (abs_le.mp h1).2
    have hf : (0 : ℝ) ≤ v.flen ^ 2 := by positivity
    have h5 := mul_le_mul_of_nonneg_right e5 hf
    generalize (2 : ℝ) ^ (-1074 : ℤ) = t1 at *
    generalize (2 : ℝ) ^ (-1000 : ℤ) = t2 at *
    linarith
  have h4 : √(rne (rne (v.x.val * v.x.val) + rne (v.y.val * v.y.val))) ≤ (2 : ℝ) ^ (-498 : ℤ) := by
    rw [Real.sqrt_le_left (by positivity)]; exact h3
  have h5 := double.mono h4
  have hd : IsDouble ((2 : ℝ) ^ (-498 : ℤ)) := ⟨1, -498, by norm_num, by norm_num, by simp⟩
  change rne _ ≤ rne _ at h5
  rw [rne_of_isDouble hd, ← hr] at h5
  linarith

theorem fp_EPSILON_ge : (2 : ℝ) ^ (-20 : ℤ) ≤ (EPSILON : FP double).val := by
  have e : (EPSILON : FP double).val = rne (1 / 1000000) := by
    change rne (rne ((1 : ℕ) : ℝ) / rne ((1000000 : ℕ) : ℝ)) = _
    rw [rne_of_isDouble (isDouble_nat (n := 1) (by norm_num)), rne_of_isDouble (isDouble_nat (n := 1000000) (by norm_num))]
    norm_num
  rw [e]
  have := rne_mono (show (2 : ℝ) ^ (-20 : ℤ) ≤ 1 / 1000000 by norm_num)
  rwa [rne_of_isDouble (isDouble_pow (-20) (by norm_num))] at this

theorem scaled_near {x k X q e t : ℝ} (he0 : 0 < e) (he : e ≤ 1 / 1000) (ht : 0 ≤ t) (h1 : |k - q| ≤ 8 * e * |q| + t)
    (h2 : |X - x * k| ≤ e * |x * k| + t) : |X - x * q| ≤ 16 * e * |x * q| + 2 * t * (1 + |x|) := by
  have hx := abs_nonneg x
  have hq := abs_nonneg q
  have h3 : |x * k - x * q| ≤ |x| * (8 * e * |q| + t) := by
    rw [← mul_sub, abs_mul]; exact mul_le_mul_of_nonneg_left h1 hx
  have h4 : |x * k| ≤ |x * k - x * q| + |x * q| := by
    have := abs_add_le (x * k - x * q) (x * q); rwa [sub_add_cancel] at this
  have h5 : |X - x * q| ≤ |X - x * k| + |x * k - x * q| := abs_sub_le _ _ _
  rw [abs_mul x q] at *
  have h6 : e * |x * k| ≤ e * (|x| * (8 * e * |q| + t) + |x| * |q|) := mul_le_mul_of_nonneg_left (h4.trans (by linarith)) he0.le
  have hxq := mul_nonneg hx hq
  have hxt := mul_nonneg hx ht
  have h7 : e * (|x| * t) ≤ 1 / 1000 * (|x| * t) := mul_le_mul_of_nonneg_right he hxt
  have h8 : e * (e * (|x| * |q|)) ≤ 1 / 1000 * (e * (|x| * |q|)) := mul_le_mul_of_nonneg_right he (by positivity)
  have h9 : 0 ≤ e * (|x| * |q|) := by positivity
  nlinarith

theorem fp_setLength (v : Vec (FP double)) (L : FP double) (h : (EPSILON : FP double).val < v.r.val) :
    (v.setLength L).x.val = rne (v.x.val * rne (L.val / v.r.val)) ∧ (v.setLength L).y.val = rne (v.y.val * rne (L.val / v.r.val)) ∧
    (v.setLength L).valid = v.valid := by
  have : (EPSILON : FP double) < v.r := h
  unfold Vec.setLength
  simp only
  rw [if_pos this]
  exact ⟨rfl, rfl, rfl⟩

/-- **C173** `set_length`: a vector whose computed length is not above EPSILON is left alone; otherwise each coordinate of the result is
the exact one with a relative error of at most `2 ** -46`, plus `2 ** -1074 * (1 + |coordinate|)` for underflow. -/
theorem C173_set_length (v : Vec (FP double)) (L : FP double) (hv : v.FOk) :
    (v.r.val ≤ (EPSILON : FP double).val → v.setLength L = v) ∧
    ((EPSILON : FP double).val < v.r.val →
      |(v.setLength L).x.val - v.x.val * (L.val / v.flen)| ≤
        (2 : ℝ) ^ (-46 : ℤ) * |v.x.val * (L.val / v.flen)| + (2 : ℝ) ^ (-1074 : ℤ) * (1 + |v.x.val|) ∧
      |(v.setLength L).y.val - v.y.val * (L.val / v.flen)| ≤
        (2 : ℝ) ^ (-46 : ℤ) * |v.y.val * (L.val / v.flen)| + (2 : ℝ) ^ (-1074 : ℤ) * (1 + |v.y.val|)) := by
  constructor
  · intro h
    have : ¬ (EPSILON : FP double) < v.r := not_lt.mpr h
    unfold Vec.setLength
    simp only
    rw [if_neg this]
  · intro h
    obtain ⟨ex, ey, -⟩ := fp_setLength v L h
    have hE : (2 : ℝ) ^ (-498 : ℤ) < (EPSILON : FP double).val :=
      lt_of_lt_of_le (zpow_lt_zpow_right₀ one_lt_two (by norm_num)) fp_EPSILON_ge
    have hN := v.flen_of_r (hE.trans h)
    have hN0 : 0 < v.flen := lt_of_lt_of_le (by positivity) hN
    have h2 := C173_length v hv hN
    have k1 : (2 : ℝ) ^ (-49 : ℤ) = 2 * (2 : ℝ) ^ (-50 : ℤ) := by norm_num
    have k3 : (2 : ℝ) ^ (-53 : ℤ) ≤ (2 : ℝ) ^ (-50 : ℤ) := by norm_num
    have he0 : (0 : ℝ) < (2 : ℝ) ^ (-50 : ℤ) := by positivity
    have he : (2 : ℝ) ^ (-50 : ℤ) ≤ 1 / 1000 := by norm_num
    rw [k1] at h2
    have hq := (rne_error_mixed (L.val / v.r.val)).trans (add_le_add (mul_le_mul_of_nonneg_right k3 (abs_nonneg _)) le_rfl)
    have hk := quot_near (s := L.val) (c := L.val) (T := |L.val|) (r := 0) he0 he hN0 le_rfl (by simp) le_rfl h2 hq
    have hk' : |rne (L.val / v.r.val) - L.val / v.flen| ≤ 8 * (2 : ℝ) ^ (-50 : ℤ) * |L.val / v.flen| + (2 : ℝ) ^ (-1075 : ℤ) := by
      rw [abs_div, abs_of_pos hN0]; rwa [zero_div, mul_zero, add_zero] at hk
    have k2 : (2 : ℝ) ^ (-46 : ℤ) = 16 * (2 : ℝ) ^ (-50 : ℤ) := by norm_num
    have k4 : (2 : ℝ) ^ (-1074 : ℤ) = 2 * (2 : ℝ) ^ (-1075 : ℤ) := by
      rw [← zpow_one_add₀ two_ne_zero]; norm_num
    rw [ex, ey, k2, k4]
    exact ⟨scaled_near he0 he (by positivity) hk' ((rne_error_mixed _).trans (add_le_add (mul_le_mul_of_nonneg_right k3 (abs_nonneg _)) le_rfl)),
      scaled_near he0 he (by positivity) hk' ((rne_error_mixed _).trans (add_le_add (mul_le_mul_of_nonneg_right k3 (abs_nonneg _)) le_rfl))⟩

/-- **C173** The length of the result of `set_length`. -/
theorem C173_set_length_length (v : Vec (FP double)) (L : FP double) (hv : v.FOk) (h : (EPSILON : FP double).val < v.r.val) :
    |(v.setLength L).flen - abs L.val| ≤ (2 : ℝ) ^ (-45 : ℤ) * |L.val| + (2 : ℝ) ^ (-1073 : ℤ) * (1 + v.flen) := by
  obtain ⟨hx, hy⟩ := (C173_set_length v L hv).2 h
  have hN := v.flen_of_r (lt_of_lt_of_le (zpow_lt_zpow_right₀ one_lt_two (by norm_num)) fp_EPSILON_ge |>.trans h)
  have hN0 : 0 < v.flen := lt_of_lt_of_le (by positivity) hN
  have hsq : v.flen ^ 2 = v.x.val ^ 2 + v.y.val ^ 2 := Real.sq_sqrt (by positivity)
  generalize v.setLength L = w at *
  have bx : |v.x.val| ≤ v.flen := abs_le_of_sq_le_sq (by nlinarith [sq_nonneg v.y.val]) hN0.le
  have bz : |v.y.val| ≤ v.flen := abs_le_of_sq_le_sq (by nlinarith [sq_nonneg v.x.val]) hN0.le
  have eL : d (v.x.val * (L.val / v.flen), v.y.val * (L.val / v.flen)) (0, 0) = |L.val| := by
    simp only [d, sub_zero]
    rw [show (v.x.val * (L.val / v.flen)) ^ 2 + (v.y.val * (L.val / v.flen)) ^ 2 = L.val ^ 2 by
      rw [show (v.x.val * (L.val / v.flen)) ^ 2 + (v.y.val * (L.val / v.flen)) ^ 2 = (v.x.val ^ 2 + v.y.val ^ 2) * (L.val / v.flen) ^ 2 by ring,
        ← hsq]
      field_simp]
    exact Real.sqrt_sq_eq_abs _
  have ew : d (w.x.val, w.y.val) (0, 0) = w.flen := by simp only [d, sub_zero, Vec.flen]
  have t1 := d_triangle (w.x.val, w.y.val) (v.x.val * (L.val / v.flen), v.y.val * (L.val / v.flen)) (0, 0)
  have t2 := d_triangle (v.x.val * (L.val / v.flen), v.y.val * (L.val / v.flen)) (w.x.val, w.y.val) (0, 0)
  rw [eL, ew] at t1 t2
  rw [d_comm (v.x.val * (L.val / v.flen), v.y.val * (L.val / v.flen)) (w.x.val, w.y.val)] at t2
  have t3 : d (w.x.val, w.y.val) (v.x.val * (L.val / v.flen), v.y.val * (L.val / v.flen)) ≤
      |w.x.val - v.x.val * (L.val / v.flen)| + |w.y.val - v.y.val * (L.val / v.flen)| := by
    simp only [d]
    rw [Real.sqrt_le_left (by positivity), add_sq, sq_abs, sq_abs]
    nlinarith [mul_nonneg (abs_nonneg (w.x.val - v.x.val * (L.val / v.flen))) (abs_nonneg (w.y.val - v.y.val * (L.val / v.flen)))]
  have q : ∀ z, |z| ≤ v.flen → |z * (L.val / v.flen)| ≤ |L.val| := by
    intro z hz
    rw [abs_mul, abs_div, abs_of_pos hN0, ← mul_div_assoc, div_le_iff₀ hN0, mul_comm]
    exact mul_le_mul_of_nonneg_left hz (abs_nonneg _)
  have q1 := q _ bx
  have q2 := q _ bz
  have k2 : (2 : ℝ) ^ (-45 : ℤ) = 2 * (2 : ℝ) ^ (-46 : ℤ) := by norm_num
  have k4 : (2 : ℝ) ^ (-1073 : ℤ) = 2 * (2 : ℝ) ^ (-1074 : ℤ) := by
    rw [← zpow_one_add₀ two_ne_zero]; norm_num
  have p1 := mul_le_mul_of_nonneg_left q1 (show (0 : ℝ) ≤ (2 : ℝ) ^ (-46 : ℤ) by positivity)
  have p2 := mul_le_mul_of_nonneg_left q2 (show (0 : ℝ) ≤ (2 : ℝ) ^ (-46 : ℤ) by positivity)
  have p3 := mul_le_mul_of_nonneg_left bx (show (0 : ℝ) ≤ (2 : ℝ) ^ (-1074 : ℤ) by positivity)
  have p4 := mul_le_mul_of_nonneg_left bz (show (0 : ℝ) ≤ (2 : ℝ) ^ (-1074 : ℤ) by positivity)
  rw [k2, k4]
  generalize (2 : ℝ) ^ (-46 : ℤ) = e at *
  generalize (2 : ℝ) ^ (-1074 : ℤ) = t at *
  rw [abs_le]
  constructor <;> linarith

/-- **C173** `normalize`: a vector shorter than `2 ** 1000` whose computed length is above EPSILON gets a length within `2 ** -44` of 1. -/
theorem C173_normalize (v : Vec (FP double)) (hv : v.FOk) (h : (EPSILON : FP double).val < v.r.val) (hb : v.flen ≤ (2 : ℝ) ^ (1000 : ℤ)) :
    |v.normalize.flen - 1| ≤ (2 : ℝ) ^ (-44 : ℤ) ∧ v.normalizeVector.flen = v.normalize.flen := by
  refine ⟨?_, ?_⟩
  · have e1 : (num 1 : FP double).val = 1 := by
      change rne ((1 : ℕ) : ℝ) = _
      rw [rne_of_isDouble (isDouble_nat (n := 1) (by norm_num))]; norm_num
    have h1 := C173_set_length_length v (num 1) hv h
    rw [e1, abs_one] at h1
    refine h1.trans ?_
    have b1 : (2 : ℝ) ^ (-1073 : ℤ) * (1 + v.flen) ≤ (2 : ℝ) ^ (-1073 : ℤ) * (2 * (2 : ℝ) ^ (1000 : ℤ)) := by
      refine mul_le_mul_of_nonneg_left ?_ (by positivity)
      have : (1 : ℝ) ≤ (2 : ℝ) ^ (1000 : ℤ) := one_le_zpow₀ one_le_two (by norm_num)
      calc 1 + v.flen ≤ (2 : ℝ) ^ (1000 : ℤ) + (2 : ℝ) ^ (1000 : ℤ) := add_le_add this hb
        _ = _ := (two_mul _).symm
    have b2 : (2 : ℝ) ^ (-1073 : ℤ) * (2 * (2 : ℝ) ^ (1000 : ℤ)) = (2 : ℝ) ^ (-72 : ℤ) := by
      rw [← zpow_one_add₀ two_ne_zero, ← zpow_add₀ two_ne_zero]; norm_num
    rw [b2] at b1
    generalize (2 : ℝ) ^ (-1073 : ℤ) * (1 + v.flen) = z at *
    norm_num only at *
    linarith
  · have e : (Vec.ofXY v.x v.y).r = v.r := rfl
    unfold Vec.normalizeVector Vec.normalize Vec.setLength
    simp only [e]
    split_ifs <;> rfl

/-- Non-vacuity: the vector (3, 4). -/
example : ∃ v : Vec (FP double), v.FOk ∧ (EPSILON : FP double).val < v.r.val ∧ v.flen = 5 := by
  have h3 : IsDouble 3 := by simpa using isDouble_nat (n := 3) (by norm_num)
  have h4 : IsDouble 4 := by simpa using isDouble_nat (n := 4) (by norm_num)
  have hf : (Vec.mk (⟨3⟩ : FP double) ⟨4⟩ true).flen = 5 := by
    simp only [Vec.flen]; rw [show (3 : ℝ) ^ 2 + 4 ^ 2 = 5 ^ 2 by norm_num]; exact Real.sqrt_sq (by norm_num)
  refine ⟨⟨⟨3⟩, ⟨4⟩, true⟩, ⟨h3, h4⟩, ?_, hf⟩
  have h := C173_length (Vec.mk (⟨3⟩ : FP double) ⟨4⟩ true) ⟨h3, h4⟩ (by
    rw [hf]; exact le_trans (zpow_le_one_of_nonpos₀ one_le_two (by norm_num)) (by norm_num))
  rw [hf] at h
  have := (abs_le.mp h).1
  have := fp_EPSILON_le
  norm_num only at *
  linarith

end PyrusGeom
