import Verif.Props.FloatVec

/-!
# C174: intersection points and projections in double precision

The exact intersection is the solution by Cramer's rule; the error bound is proportional to the condition number of the pair of lines.
-/

namespace PyrusGeom
open Spec

theorem quot_near_signed {s c n N e T r X t : ℝ} (he0 : 0 < e) (he : e ≤ 1 / 1000) (hN : N ≠ 0) (hr : 0 ≤ r)
    (h1 : |s - c| ≤ e * T + r) (hT : |c| ≤ T) (h2 : |n - N| ≤ 2 * e * |N|) (h3 : |X - s / n| ≤ e * |s / n| + t) :
    |X - c / N| ≤ 8 * e * (T / |N|) + 3 * (r / |N|) + t := by
  rcases lt_or_gt_of_ne hN with h | h
  · rw [abs_of_neg h] at *
    have := quot_near (s := -s) (c := -c) (n := -n) (N := -N) he0 he (by linarith) hr
      (by rw [show -s - -c = -(s - c) by ring, abs_neg]; exact h1) (by rwa [abs_neg])
      (by rw [show -n - -N = -(n - N) by ring, abs_neg]; exact h2) (X := X) (t := t) (by rwa [neg_div_neg_eq])
    rwa [neg_div_neg_eq] at this
  · rw [abs_of_pos h] at *
    exact quot_near he0 he h hr h1 hT h2 h3

theorem fp_quot_of_prods {a b c e f g h k K : ℝ} (hK : |a * b| + |c * e| ≤ K * |a * b - c * e|) (hK1 : K ≤ (2 : ℝ) ^ (40 : ℤ))
    (hT : (2 : ℝ) ^ (-18 : ℤ) ≤ |a * b - c * e|) :
    |rne (rne (rne (f * g) - rne (h * k)) / rne (rne (a * b) - rne (c * e))) - (f * g - h * k) / (a * b - c * e)| ≤
      (2 : ℝ) ^ (-47 : ℤ) * K * ((|f * g| + |h * k|) / |a * b - c * e|) + (2 : ℝ) ^ (-1050 : ℤ) := by
  have h0 : (0 : ℝ) < (2 : ℝ) ^ (-18 : ℤ) := by positivity
  have hTp : 0 < |a * b - c * e| := lt_of_lt_of_le h0 hT
  have hN : a * b - c * e ≠ 0 := abs_pos.mp hTp
  have hK0 : 1 ≤ K := by
    by_contra hc
    push Not at hc
    have := abs_sub (a * b) (c * e)
    have : K * |a * b - c * e| < 1 * |a * b - c * e| := mul_lt_mul_of_pos_right hc hTp
    linarith
  have e1 := fp_sub_prod (a := f) (x := g) (b := h) (y := k)
  have e2 := fp_sub_prod (a := a) (x := b) (b := c) (y := e)
  have e3 := rne_error_mixed (rne (rne (f * g) - rne (h * k)) / rne (rne (a * b) - rne (c * e)))
  have t0 : (2 : ℝ) ^ (-1074 : ℤ) * 2 = (2 : ℝ) ^ (-1073 : ℤ) := by
    rw [← zpow_add_one₀ two_ne_zero]; norm_num
  rw [t0] at e1 e2
  have q0 : (0 : ℝ) < (2 : ℝ) ^ (-50 : ℤ) := by positivity
  have p1 : (2 : ℝ) ^ (-51 : ℤ) ≤ (2 : ℝ) ^ (-50 : ℤ) * K := by
    calc (2 : ℝ) ^ (-51 : ℤ) ≤ (2 : ℝ) ^ (-50 : ℤ) * 1 := by norm_num
      _ ≤ _ := mul_le_mul_of_nonneg_left hK0 q0.le
  have p2 : (2 : ℝ) ^ (-53 : ℤ) ≤ (2 : ℝ) ^ (-50 : ℤ) * K := le_trans (by norm_num) p1
  have p3 : (2 : ℝ) ^ (-50 : ℤ) * K ≤ 1 / 1000 :=
    (mul_le_mul_of_nonneg_left hK1 q0.le).trans (by norm_num)
  have p4 : 0 < (2 : ℝ) ^ (-50 : ℤ) * K := by positivity
  have d1 : |rne (rne (a * b) - rne (c * e)) - (a * b - c * e)| ≤ 2 * ((2 : ℝ) ^ (-50 : ℤ) * K) * |a * b - c * e| := by
    refine e2.trans ?_
    have s1 : (2 : ℝ) ^ (-51 : ℤ) * (|a * b| + |c * e|) ≤ (2 : ℝ) ^ (-51 : ℤ) * (K * |a * b - c * e|) :=
      mul_le_mul_of_nonneg_left hK (by positivity)
    have s2 : (2 : ℝ) ^ (-1073 : ℤ) ≤ (2 : ℝ) ^ (-50 : ℤ) * (1 * |a * b - c * e|) := by
      rw [one_mul]
      refine le_trans ?_ (mul_le_mul_of_nonneg_left hT q0.le)
      rw [← zpow_add₀ two_ne_zero]; exact zpow_le_zpow_right₀ one_le_two (by norm_num)
    have s3 : (2 : ℝ) ^ (-50 : ℤ) * (1 * |a * b - c * e|) ≤ (2 : ℝ) ^ (-50 : ℤ) * (K * |a * b - c * e|) :=
      mul_le_mul_of_nonneg_left (mul_le_mul_of_nonneg_right hK0 hTp.le) q0.le
    have s4 : (2 : ℝ) ^ (-51 : ℤ) * (K * |a * b - c * e|) ≤ (2 : ℝ) ^ (-50 : ℤ) * (K * |a * b - c * e|) :=
      mul_le_mul_of_nonneg_right (by norm_num) (by positivity)
    linarith
  have r := quot_near_signed (s := rne (rne (f * g) - rne (h * k))) (c := f * g - h * k)
    (n := rne (rne (a * b) - rne (c * e))) (T := |f * g| + |h * k|) (r := (2 : ℝ) ^ (-1073 : ℤ)) (t := (2 : ℝ) ^ (-1075 : ℤ))
    p4 p3 hN (by positivity) (e1.trans (add_le_add (mul_le_mul_of_nonneg_right p1 (by positivity)) le_rfl)) (abs_sub _ _) d1
    (e3.trans (add_le_add (mul_le_mul_of_nonneg_right p2 (abs_nonneg _)) le_rfl))
  refine r.trans ?_
  have k1 : 8 * ((2 : ℝ) ^ (-50 : ℤ) * K) = (2 : ℝ) ^ (-47 : ℤ) * K := by
    rw [← mul_assoc]; norm_num
  rw [k1, add_assoc]
  refine add_le_add le_rfl ?_
  have s1 : (2 : ℝ) ^ (-1073 : ℤ) / |a * b - c * e| ≤ (2 : ℝ) ^ (-1055 : ℤ) := by
    rw [div_le_iff₀ hTp]
    refine le_trans (le_of_eq ?_) (mul_le_mul_of_nonneg_left hT (by positivity))
    rw [← zpow_add₀ two_ne_zero]; norm_num
  have s2 : (2 : ℝ) ^ (-1075 : ℤ) ≤ (2 : ℝ) ^ (-1055 : ℤ) := zpow_le_zpow_right₀ one_le_two (by norm_num)
  have s3 : 4 * (2 : ℝ) ^ (-1055 : ℤ) ≤ (2 : ℝ) ^ (-1050 : ℤ) := by
    rw [show (4 : ℝ) = (2 : ℝ) ^ (2 : ℤ) by norm_num, ← zpow_add₀ two_ne_zero]
    exact zpow_le_zpow_right₀ one_le_two (by norm_num)
  generalize (2 : ℝ) ^ (-1055 : ℤ) = z at *
  generalize (2 : ℝ) ^ (-1050 : ℤ) = w at *
  generalize (2 : ℝ) ^ (-1075 : ℤ) = y at *
  linarith only [s1, s2, s3]

/-- The exact determinant of the two lines. -/
def Line.fdet (l o : Line (FP double)) : ℝ := l.a.val * o.b.val - l.b.val * o.a.val

/-- The exact intersection point of the two lines (Cramer's rule). -/
noncomputable def Line.fmeet (l o : Line (FP double)) : Pt :=
  ((l.b.val * o.c.val - o.b.val * l.c.val) / l.fdet o, (o.a.val * l.c.val - l.a.val * o.c.val) / l.fdet o)

/-- It is the only common point. -/
theorem Line.fmeet_unique (l o : Line (FP double)) (h : l.fdet o ≠ 0) (z : Pt) :
    (l.a.val * z.1 + l.b.val * z.2 + l.c.val = 0 ∧ o.a.val * z.1 + o.b.val * z.2 + o.c.val = 0) ↔ z = l.fmeet o := by
  have hd : l.a.val * o.b.val - l.b.val * o.a.val ≠ 0 := h
  constructor
  · rintro ⟨h1, h2⟩
    refine Prod.ext ?_ ?_
    · simp only [Line.fmeet, Line.fdet]
      rw [eq_div_iff hd]; linear_combination o.b.val * h1 - l.b.val * h2
    · simp only [Line.fmeet, Line.fdet]
      rw [eq_div_iff hd]; linear_combination l.a.val * h2 - o.a.val * h1
  · rintro rfl
    have e1 : (l.fmeet o).1 * (l.a.val * o.b.val - l.b.val * o.a.val) = l.b.val * o.c.val - o.b.val * l.c.val := div_mul_cancel₀ _ hd
    have e2 : (l.fmeet o).2 * (l.a.val * o.b.val - l.b.val * o.a.val) = o.a.val * l.c.val - l.a.val * o.c.val := div_mul_cancel₀ _ hd
    constructor
    · refine (mul_eq_zero.mp ?_).resolve_right hd
      linear_combination l.a.val * e1 + l.b.val * e2
    · refine (mul_eq_zero.mp ?_).resolve_right hd
      linear_combination o.a.val * e1 + o.b.val * e2

theorem fp_line_intersection (l o : Line (FP double)) (h : (EPSILON : FP double).val ≤ |(l.a * o.b - l.b * o.a : FP double).val|) :
    l.intersection o = Vec.ofXY ((l.b * o.c - o.b * l.c) / (l.a * o.b - l.b * o.a)) ((o.a * l.c - l.a * o.c) / (l.a * o.b - l.b * o.a)) := by
  unfold Line.intersection
  simp only
  rw [if_neg]
  rw [FP.lt_def, fp_fabs_val]; exact not_lt.mpr h

/-- **C174** If the determinant of the lines is at least `2 ** -18` and at least `1 / K` times the sizes of its two products, then the
intersection is found, and its error is at most `2 ** -47 * K` times the sizes of the products of the numerators divided by the
determinant (plus `2 ** -1050` for underflow). -/
theorem C174_intersection (l o : Line (FP double)) (K : ℝ) (hK : |l.a.val * o.b.val| + |l.b.val * o.a.val| ≤ K * |l.fdet o|)
    (hK1 : K ≤ (2 : ℝ) ^ (40 : ℤ)) (hT : (2 : ℝ) ^ (-18 : ℤ) ≤ |l.fdet o|) :
    (l.intersection o).valid = true ∧
    |(l.intersection o).x.val - (l.fmeet o).1| ≤
      (2 : ℝ) ^ (-47 : ℤ) * K * ((|l.b.val * o.c.val| + |o.b.val * l.c.val|) / |l.fdet o|) + (2 : ℝ) ^ (-1050 : ℤ) ∧
    |(l.intersection o).y.val - (l.fmeet o).2| ≤
      (2 : ℝ) ^ (-47 : ℤ) * K * ((|o.a.val * l.c.val| + |l.a.val * o.c.val|) / |l.fdet o|) + (2 : ℝ) ^ (-1050 : ℤ) := by
  have e2 := fp_sub_prod (a := l.a.val) (x := o.b.val) (b := l.b.val) (y := o.a.val)
  have h : (EPSILON : FP double).val ≤ |(l.a * o.b - l.b * o.a : FP double).val| := by
    change _ ≤ |rne (rne (l.a.val * o.b.val) - rne (l.b.val * o.a.val))|
    have hE := fp_EPSILON_le
    have t0 : (2 : ℝ) ^ (-1074 : ℤ) * 2 ≤ (2 : ℝ) ^ (-30 : ℤ) := by
      rw [← zpow_add_one₀ two_ne_zero]; exact zpow_le_zpow_right₀ one_le_two (by norm_num)
    have s1 : (2 : ℝ) ^ (-51 : ℤ) * (|l.a.val * o.b.val| + |l.b.val * o.a.val|) ≤ (2 : ℝ) ^ (-11 : ℤ) * |l.fdet o| := by
      refine (mul_le_mul_of_nonneg_left (hK.trans (mul_le_mul_of_nonneg_right hK1 (abs_nonneg _))) (by positivity)).trans (le_of_eq ?_)
      rw [← mul_assoc, ← zpow_add₀ two_ne_zero]; norm_num
    have s2 := abs_sub_abs_le_abs_sub (l.fdet o) (rne (rne (l.a.val * o.b.val) - rne (l.b.val * o.a.val)))
    rw [abs_sub_comm] at s2
    change |_ - l.fdet o| ≤ _ at e2
    generalize (2 : ℝ) ^ (-1074 : ℤ) * 2 = z at *
    generalize (2 : ℝ) ^ (-51 : ℤ) * (|l.a.val * o.b.val| + |l.b.val * o.a.val|) = y at *
    generalize |rne (rne (l.a.val * o.b.val) - rne (l.b.val * o.a.val)) - l.fdet o| = x at *
    generalize |rne (rne (l.a.val * o.b.val) - rne (l.b.val * o.a.val))| = w at *
    generalize |l.fdet o| = D at *
    norm_num only at *
    linarith
  rw [fp_line_intersection l o h]
  exact ⟨rfl, fp_quot_of_prods hK hK1 hT, fp_quot_of_prods hK hK1 hT⟩

/-- The exact foot of the perpendicular from `p`. -/
noncomputable def Line.ffoot (l : Line (FP double)) (p : Vec (FP double)) : Pt :=
  let t := (l.a.val * p.x.val + l.b.val * p.y.val + l.c.val) / (l.a.val ^ 2 + l.b.val ^ 2)
  (p.x.val - t * l.a.val, p.y.val - t * l.b.val)

/-- It is on the line, and the nearest point of it. -/
theorem Line.ffoot_nearest (l : Line (FP double)) (p : Vec (FP double)) (h : 0 < l.a.val ^ 2 + l.b.val ^ 2) :
    (l.a.val * (l.ffoot p).1 + l.b.val * (l.ffoot p).2 + l.c.val = 0) ∧
    ∀ z : Pt, l.a.val * z.1 + l.b.val * z.2 + l.c.val = 0 → d p.fpt (l.ffoot p) ≤ d p.fpt z := by
  have h0 : l.a.val * (l.ffoot p).1 + l.b.val * (l.ffoot p).2 + l.c.val = 0 := by
    simp only [Line.ffoot]; field_simp; ring
  refine ⟨h0, fun z hz => ?_⟩
  unfold d
  refine Real.sqrt_le_sqrt ?_
  set t := (l.a.val * p.x.val + l.b.val * p.y.val + l.c.val) / (l.a.val ^ 2 + l.b.val ^ 2) with ht
  have e1 : (l.ffoot p).1 = p.x.val - t * l.a.val := rfl
  have e2 : (l.ffoot p).2 = p.y.val - t * l.b.val := rfl
  simp only [Vec.fpt]
  rw [e1, e2] at h0 ⊢
  have key : (p.x.val - (p.x.val - t * l.a.val)) * (z.1 - (p.x.val - t * l.a.val)) +
      (p.y.val - (p.y.val - t * l.b.val)) * (z.2 - (p.y.val - t * l.b.val)) = 0 := by
    linear_combination t * (hz - h0)
  nlinarith [sq_nonneg (z.1 - (p.x.val - t * l.a.val)), sq_nonneg (z.2 - (p.y.val - t * l.b.val))]

theorem foot_shift {N B C C0 P X x0 e t u q r : ℝ} (he : 0 < e) (he1 : e ≤ 1 / 1000) (hN : 0 < N) (hP : 0 ≤ P) (hq : 0 ≤ q)
    (hC : |C - C0| ≤ e * P + t) (hC0 : |C0| ≤ P) (ht : 0 ≤ t) (hX : |X - x0| ≤ 16 * e * ((|B * C| + q) / N) + u)
    (hB : |B| / N * t ≤ r) : |X - (x0 + B * (C0 - C) / N)| ≤ 64 * e * ((|B| * P + q) / N) + 2 * r + u := by
  have hB0 := abs_nonneg B
  have hCa : |C| ≤ 2 * P + t := by
    have := abs_sub_abs_le_abs_sub C C0
    have := mul_le_mul_of_nonneg_right he1 hP
    linarith
  have b1 : |B * C| ≤ |B| * (2 * P + t) := by rw [abs_mul]; exact mul_le_mul_of_nonneg_left hCa hB0
  have b2 : |B * (C0 - C) / N| ≤ |B| * (e * P + t) / N := by
    rw [abs_div, abs_mul, abs_of_pos hN, abs_sub_comm]
    exact div_le_div_of_nonneg_right (mul_le_mul_of_nonneg_left hC hB0) hN.le
  have b3 : |X - (x0 + B * (C0 - C) / N)| ≤ |X - x0| + |B * (C0 - C) / N| := by
    rw [← sub_sub]; exact abs_sub _ _
  have b4 : (|B * C| + q) / N ≤ (|B| * (2 * P + t) + q) / N := div_le_div_of_nonneg_right (by linarith) hN.le
  have b5 := mul_le_mul_of_nonneg_left b4 (show 0 ≤ 16 * e by positivity)
  have x1 : (|B| * (2 * P + t) + q) / N = 2 * (|B| * P / N) + |B| / N * t + q / N := by field_simp
  have x2 : |B| * (e * P + t) / N = e * (|B| * P / N) + |B| / N * t := by field_simp
  have x3 : (|B| * P + q) / N = |B| * P / N + q / N := by rw [add_div]
  rw [x1] at b5
  rw [x2] at b2
  rw [x3]
  have y1 : 0 ≤ |B| * P / N := by positivity
  have y2 : 0 ≤ q / N := by positivity
  have y3 : 0 ≤ |B| / N * t := by positivity
  have y4 : e * (|B| / N * t) ≤ 1 / 1000 * (|B| / N * t) := mul_le_mul_of_nonneg_right he1 y3
  have y5 : 0 ≤ e * (|B| * P / N) := by positivity
  have y6 : 0 ≤ e * (q / N) := by positivity
  nlinarith

/-- **C174** The projection onto a line whose normal vector has at least the squared length `2 ** -18` is found, and its error is at most
`2 ** -45` times the sizes of the products that occur, divided by the squared length (plus `2 ** -1000` for underflow). -/
theorem C174_projection (l : Line (FP double)) (p : Vec (FP double)) (hN : (2 : ℝ) ^ (-18 : ℤ) ≤ l.a.val ^ 2 + l.b.val ^ 2) :
    (l.projection p).valid = true ∧
    |(l.projection p).x.val - (l.ffoot p).1| ≤ (2 : ℝ) ^ (-45 : ℤ) *
      ((|l.b.val| * (|l.a.val * p.y.val| + |l.b.val * p.x.val|) + |l.a.val * l.c.val|) / (l.a.val ^ 2 + l.b.val ^ 2)) +
      (2 : ℝ) ^ (-1000 : ℤ) ∧
    |(l.projection p).y.val - (l.ffoot p).2| ≤ (2 : ℝ) ^ (-45 : ℤ) *
      ((|l.a.val| * (|l.a.val * p.y.val| + |l.b.val * p.x.val|) + |l.b.val * l.c.val|) / (l.a.val ^ 2 + l.b.val ^ 2)) +
      (2 : ℝ) ^ (-1000 : ℤ) := by
  have h0 : (0 : ℝ) < (2 : ℝ) ^ (-18 : ℤ) := by positivity
  have hNp := lt_of_lt_of_le h0 hN
  set C := (l.a * p.y - l.b * p.x : FP double) with hC
  have hCe := fp_sub_prod (a := l.a.val) (x := p.y.val) (b := l.b.val) (y := p.x.val)
  change |C.val - _| ≤ _ at hCe
  set o := l.perpendicular p with ho
  have oa : o.a.val = l.b.val := rfl
  have ob : o.b.val = -l.a.val := rfl
  have oc : o.c.val = C.val := rfl
  have hdet : l.fdet o = -(l.a.val ^ 2 + l.b.val ^ 2) := by
    simp only [Line.fdet, oa, ob]; ring
  have hadet : |l.fdet o| = l.a.val ^ 2 + l.b.val ^ 2 := by rw [hdet, abs_neg, abs_of_pos hNp]
  obtain ⟨v1, v2, v3⟩ := C174_intersection l o 1
    (by rw [hadet, oa, ob, abs_mul, abs_mul, abs_neg, ← abs_mul, ← abs_mul, abs_mul_self, abs_mul_self]; apply le_of_eq; ring)
    (by norm_num) (by rw [hadet]; exact hN)
  rw [hadet] at v2 v3
  rw [ob, oc] at v2
  rw [oa, oc] at v3
  have fx : (l.ffoot p).1 = (l.fmeet o).1 + -l.b.val * ((l.a.val * p.y.val - l.b.val * p.x.val) - C.val) / (l.a.val ^ 2 + l.b.val ^ 2) := by
    simp only [Line.ffoot, Line.fmeet, hdet, oa, ob, oc]; field_simp; ring
  have fy : (l.ffoot p).2 = (l.fmeet o).2 + l.a.val * ((l.a.val * p.y.val - l.b.val * p.x.val) - C.val) / (l.a.val ^ 2 + l.b.val ^ 2) := by
    simp only [Line.ffoot, Line.fmeet, hdet, oa, ob, oc]; field_simp; ring
  have k1 : (2 : ℝ) ^ (-47 : ℤ) * 1 = 16 * (2 : ℝ) ^ (-51 : ℤ) := by norm_num
  have k2 : (2 : ℝ) ^ (-45 : ℤ) = 64 * (2 : ℝ) ^ (-51 : ℤ) := by norm_num
  rw [k1] at v2 v3
  have small : ∀ z : ℝ, z ^ 2 ≤ l.a.val ^ 2 + l.b.val ^ 2 →
      |z| / (l.a.val ^ 2 + l.b.val ^ 2) * ((2 : ℝ) ^ (-1074 : ℤ) * 2) ≤ (2 : ℝ) ^ (-1050 : ℤ) := by
    intro z hz
    have q : |z| / (l.a.val ^ 2 + l.b.val ^ 2) ≤ (2 : ℝ) ^ (9 : ℤ) := by
      rw [div_le_iff₀ hNp]
      refine abs_le_of_sq_le_sq ?_ (by positivity)
      generalize l.a.val ^ 2 + l.b.val ^ 2 = M at *
      have : (1 : ℝ) ≤ (2 : ℝ) ^ (18 : ℤ) * M := by
        have := mul_le_mul_of_nonneg_left hN (show (0 : ℝ) ≤ (2 : ℝ) ^ (18 : ℤ) by positivity)
        rw [← zpow_add₀ two_ne_zero] at this
        norm_num at this ⊢
        linarith
      have e : ((2 : ℝ) ^ (9 : ℤ) * M) ^ 2 = (2 : ℝ) ^ (18 : ℤ) * M * M := by norm_num; ring
      rw [e]
      nlinarith
    refine (mul_le_mul_of_nonneg_right q (by positivity)).trans ?_
    rw [← zpow_add_one₀ two_ne_zero, ← zpow_add₀ two_ne_zero]
    exact zpow_le_zpow_right₀ one_le_two (by norm_num)
  have tail : 2 * (2 : ℝ) ^ (-1050 : ℤ) + (2 : ℝ) ^ (-1050 : ℤ) ≤ (2 : ℝ) ^ (-1000 : ℤ) := by
    have : 4 * (2 : ℝ) ^ (-1050 : ℤ) ≤ (2 : ℝ) ^ (-1000 : ℤ) := by
      rw [show (4 : ℝ) = (2 : ℝ) ^ (2 : ℤ) by norm_num, ← zpow_add₀ two_ne_zero]
      exact zpow_le_zpow_right₀ one_le_two (by norm_num)
    have h1 : (0 : ℝ) < (2 : ℝ) ^ (-1050 : ℤ) := by positivity
    generalize (2 : ℝ) ^ (-1050 : ℤ) = z at *
    generalize (2 : ℝ) ^ (-1000 : ℤ) = w at *
    linarith
  have he0 : (0 : ℝ) < (2 : ℝ) ^ (-51 : ℤ) := by positivity
  have he1 : (2 : ℝ) ^ (-51 : ℤ) ≤ 1 / 1000 := by norm_num
  refine ⟨v1, ?_, ?_⟩
  · have := foot_shift (B := -l.b.val) (q := |l.a.val * l.c.val|) he0 he1 hNp (by positivity) (abs_nonneg _) hCe (abs_sub _ _) (by positivity)
      (X := (l.intersection o).x.val) (x0 := (l.fmeet o).1) (u := (2 : ℝ) ^ (-1050 : ℤ))
      (by rw [neg_mul, abs_neg]; rwa [neg_mul, abs_neg] at v2)
      (small (-l.b.val) (by rw [neg_sq]; exact le_add_of_nonneg_left (sq_nonneg _)))
    rw [← fx, abs_neg, ← k2, add_assoc] at this
    exact this.trans (add_le_add le_rfl tail)
  · have := foot_shift (B := l.a.val) (q := |l.b.val * l.c.val|) he0 he1 hNp (by positivity) (abs_nonneg _) hCe (abs_sub _ _) (by positivity)
      (X := (l.intersection o).y.val) (x0 := (l.fmeet o).2) (u := (2 : ℝ) ^ (-1050 : ℤ))
      (by rwa [add_comm |l.b.val * l.c.val|] at v3)
      (small l.a.val (le_add_of_nonneg_right (sq_nonneg _)))
    rw [← fy, ← k2, add_assoc] at this
    exact this.trans (add_le_add le_rfl tail)

/-- Non-vacuity: the lines x + y = 1 and x - y = 0 meet the guard with K = 1. -/
example : ∃ l o : Line (FP double), |l.a.val * o.b.val| + |l.b.val * o.a.val| ≤ 1 * |l.fdet o| ∧ (2 : ℝ) ^ (-18 : ℤ) ≤ |l.fdet o| ∧
    l.fmeet o = (1 / 2, 1 / 2) := by
  refine ⟨⟨⟨1⟩, ⟨1⟩, ⟨-1⟩⟩, ⟨⟨1⟩, ⟨-1⟩, ⟨0⟩⟩, ?_, ?_, ?_⟩ <;> norm_num [Line.fdet, Line.fmeet]

/-! ## C165 for polygons -/

/-- The edges that `Polygon2D.dist` looks at, in every number type. -/
theorem Poly.dist_edges {K : Type} [Add K] [Sub K] [Mul K] [Div K] [Neg K] [NatCast K] [LT K] [LE K] [DecidableLT K] [DecidableLE K]
    [BEq K] [PyMath K] (poly : Poly K) (p : Vec K) (h : 2 ≤ poly.vertices.length) :
    ∃ E : List (Vec K × Vec K), E ≠ [] ∧ (∀ e ∈ E, e ∈ cyclicPairs poly.vertices) ∧
      (∀ e ∈ cyclicPairs poly.vertices, e ∈ E ∨ (e.2, e.1) ∈ E) ∧ poly.dist p false = E.foldl (Poly.distStep p) none := by
  unfold Poly.dist
  rcases hv : poly.vertices with _ | ⟨v0, _ | ⟨v1, _ | ⟨v2, rest⟩⟩⟩
  · rw [hv] at h; simp at h
  · rw [hv] at h; simp at h
  · simp only [Bool.false_and, Bool.false_eq_true, if_false]
    refine ⟨chainPairs [v0, v1], by simp, ?_, ?_, rfl⟩
    · simp [cyclicPairs]
    · simp [cyclicPairs]
  · simp only [Bool.false_and, Bool.false_eq_true, if_false]
    refine ⟨cyclicPairs (v0 :: v1 :: v2 :: rest), by simp [cyclicPairs], fun e he => he, fun e he => Or.inl he, ?_⟩
    rw [cyclicPairs_eq_chain]
    set last := (v2 :: rest).getLast (List.cons_ne_nil _ _) with hl
    have hs : v2 :: rest = (v2 :: rest).dropLast ++ [last] := (List.dropLast_append_getLast _).symm
    have e1 : v0 :: (v1 :: v2 :: rest ++ [v0]) = (v0 :: v1 :: (v2 :: rest).dropLast) ++ last :: [v0] := by
      rw [show (v0 :: v1 :: (v2 :: rest).dropLast) ++ last :: [v0] =
        v0 :: v1 :: (((v2 :: rest).dropLast ++ [last]) ++ [v0]) by simp, ← hs]
      rfl
    have e2 : v0 :: v1 :: v2 :: rest = (v0 :: v1 :: (v2 :: rest).dropLast) ++ [last] := by
      rw [List.cons_append, List.cons_append, ← hs]
    rw [e1, chainPairs_append, ← e2, List.foldl_append]
    rfl

theorem fp_foldl_dist (p : Vec (FP double)) (E : List (Vec (FP double) × Vec (FP double))) (hE : E ≠ []) :
    ∃ m, E.foldl (Poly.distStep p) none = some m ∧ (∃ e ∈ E, m = (Seg.ofPoints e.1 e.2).distPoint p) ∧
      ∀ e ∈ E, m.val ≤ ((Seg.ofPoints e.1 e.2).distPoint p).val := by
  have key : ∀ (E : List (Vec (FP double) × Vec (FP double))) (m : Option (FP double)),
      E.foldl (Poly.distStep p) m = (E.map (fun e => (Seg.ofPoints e.1 e.2).distPoint p)).foldl Poly.updMin m := by
    intro E
    induction E with
    | nil => intro m; rfl
    | cons e E ih => intro m; rw [List.foldl_cons, ih]; rfl
  cases E with
  | nil => exact absurd rfl hE
  | cons e E =>
    obtain ⟨r, h1, h2, h3, h4⟩ := fp_foldl_updMin (E.map (fun e => (Seg.ofPoints e.1 e.2).distPoint p)) ((Seg.ofPoints e.1 e.2).distPoint p)
    refine ⟨r, by rw [key]; exact h1, ?_, ?_⟩
    · rcases h2 with rfl | h2
      · exact ⟨e, by simp, rfl⟩
      · obtain ⟨f, hf, rfl⟩ := List.mem_map.mp h2
        exact ⟨f, List.mem_cons_of_mem _ hf, rfl⟩
    · intro f hf
      rcases List.mem_cons.mp hf with rfl | hf
      · exact h3
      · exact h4 _ (List.mem_map_of_mem hf)

/-- **C165** for `Polygon2D.dist(p, False)`: if all edges have at least the length `2 ** -400` and `M` bounds the square of the sum of the
distances of the point from the ends of an edge divided by the length of the edge, then the error is at most `2 ** -45 * M`. -/
theorem C165_polygon_partial (poly : Poly (FP double)) (p : Vec (FP double)) (hv : ∀ v ∈ poly.vertices, v.FOk) (hp : p.FOk)
    (h2 : 2 ≤ poly.vertices.length) (M : ℝ)
    (hE : ∀ e ∈ cyclicPairs poly.vertices, (2 : ℝ) ^ (-400 : ℤ) ≤ d e.1.fpt e.2.fpt ∧
      (d e.1.fpt p.fpt + d e.2.fpt p.fpt) ^ 2 / d e.1.fpt e.2.fpt ≤ M) (D : ℝ)
    (hD : IsMinDist (outline (poly.vertices.map Vec.fpt)) p.fpt D) :
    ∃ m, poly.dist p false = some m ∧ |m.val - D| ≤ (2 : ℝ) ^ (-45 : ℤ) * M := by
  obtain ⟨E, hne, hsub, hsup, hdist⟩ := poly.dist_edges p h2
  obtain ⟨m, h1, ⟨e, he, rfl⟩, hmin⟩ := fp_foldl_dist p E hne
  have hout : ∀ z, z ∈ outline (poly.vertices.map Vec.fpt) ↔ ∃ e ∈ cyclicPairs poly.vertices, z ∈ segment ℝ e.1.fpt e.2.fpt := by
    intro z
    unfold outline
    rw [cyclicPairs_map]
    constructor
    · rintro ⟨e, he, hz⟩
      obtain ⟨f, hf, rfl⟩ := List.mem_map.mp he
      exact ⟨f, hf, hz⟩
    · rintro ⟨e, he, hz⟩
      exact ⟨_, List.mem_map_of_mem he, hz⟩
  have edge : ∀ e ∈ cyclicPairs poly.vertices, ∃ De, IsMinDist (segment ℝ e.1.fpt e.2.fpt) p.fpt De ∧
      |((Seg.ofPoints e.1 e.2).distPoint p).val - De| ≤ (2 : ℝ) ^ (-45 : ℤ) * M := by
    intro e he
    obtain ⟨k1, k2⟩ := hE e he
    have hDe : IsMinDist (segment ℝ e.1.fpt e.2.fpt) p.fpt ((Seg.ofPoints e.1.exact e.2.exact).distPoint p.exact) :=
      (C34_dist_point (Seg.ofPoints e.1.exact e.2.exact) p.exact).1
    refine ⟨_, hDe, ?_⟩
    exact (C165_segment_partial (Seg.ofPoints e.1 e.2) p (hv e.1 (fst_mem_of_cyclicPairs he)) (hv e.2 (snd_mem_of_cyclicPairs he)) hp k1 _
      hDe).trans (mul_le_mul_of_nonneg_left k2 (by positivity))
  refine ⟨_, hdist.trans h1, ?_⟩
  obtain ⟨De, d1, d2⟩ := edge e (hsub e he)
  have lo : D ≤ De := by
    obtain ⟨q, hq, rfl⟩ := d1.1
    exact hD.2 q ((hout q).mpr ⟨e, hsub e he, hq⟩)
  obtain ⟨q, hq, hqd⟩ := hD.1
  obtain ⟨f, hf, hqf⟩ := (hout q).mp hq
  have hi : ∃ f ∈ E, q ∈ segment ℝ f.1.fpt f.2.fpt := by
    rcases hsup f hf with g | g
    · exact ⟨f, g, hqf⟩
    · exact ⟨_, g, by rw [segment_symm]; exact hqf⟩
  obtain ⟨f, hf, hqf⟩ := hi
  obtain ⟨Df, d3, d4⟩ := edge f (hsub f hf)
  have hi2 : Df ≤ D := by rw [← hqd]; exact d3.2 q hqf
  have := hmin f hf
  have a1 := abs_le.mp d2
  have a2 := abs_le.mp d4
  generalize (2 : ℝ) ^ (-45 : ℤ) * M = B at *
  rw [abs_le]
  constructor <;> linarith

end PyrusGeom
