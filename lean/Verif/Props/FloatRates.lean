import Verif.Props.FloatInertia

/-! # C183: the kick, dash and turn formulas in double precision -/

namespace PyrusGeom
open Spec SoccerMath

/-- `a` differs from `x` by at most `e` units of `2 ^ -53` times `M`, and `M` bounds `x`. -/
structure Rounded (e a x M : ℝ) : Prop where
  err : |a - x| ≤ e * (2 : ℝ) ^ (-53 : ℤ) * M
  le : |x| ≤ M
  big : (2 : ℝ) ^ (-1000 : ℤ) ≤ M

theorem Rounded.pos {e a x M : ℝ} (h : Rounded e a x M) : 0 < M := lt_of_lt_of_le (by positivity) h.big

theorem Rounded.mono {e f a x M N : ℝ} (h : Rounded e a x M) (hf : e ≤ f) (he : 0 ≤ e) (hM : M ≤ N) : Rounded f a x N := by
  refine ⟨h.err.trans ?_, h.le.trans hM, h.big.trans hM⟩
  have := h.pos
  have hf0 : 0 ≤ f * (2 : ℝ) ^ (-53 : ℤ) := mul_nonneg (he.trans hf) (by positivity)
  gcongr

theorem rounded_exact {x M : ℝ} (h : |x| ≤ M) (hM : (2 : ℝ) ^ (-1000 : ℤ) ≤ M) : Rounded 0 x x M :=
  ⟨by rw [sub_self, abs_zero, zero_mul, zero_mul], h, hM⟩

theorem Rounded.abs_le {e a x M : ℝ} (h : Rounded e a x M) (he : e ≤ 1000) : |a| ≤ 1.1 * M := by
  have h1 := h.err
  have h2 := h.le
  have h3 := abs_sub_abs_le_abs_sub a x
  have h4 : e * (2 : ℝ) ^ (-53 : ℤ) * M ≤ 0.1 * M := by
    refine mul_le_mul_of_nonneg_right ?_ h.pos.le
    have : e * (2 : ℝ) ^ (-53 : ℤ) ≤ 1000 * (2 : ℝ) ^ (-53 : ℤ) := mul_le_mul_of_nonneg_right he (by positivity)
    refine this.trans (by norm_num)
  have h5 := h1.trans h4
  linarith

/-- Rounding a number adds two units. -/
theorem rounded_round {e z x M : ℝ} (h1 : |z - x| ≤ e * (2 : ℝ) ^ (-53 : ℤ) * M) (h2 : |x| ≤ M) (h3 : (2 : ℝ) ^ (-1000 : ℤ) ≤ M)
    (he : e ≤ 1000) : Rounded (e + 2) (rne z) x M := by
  have hM : 0 < M := lt_of_lt_of_le (by positivity) h3
  have hz := (⟨h1, h2, h3⟩ : Rounded e z x M).abs_le he
  refine ⟨?_, h2, h3⟩
  have r := rne_error_mixed z
  have a1 := abs_sub_le (rne z) z x
  have t1 : (2 : ℝ) ^ (-1075 : ℤ) ≤ (2 : ℝ) ^ (-55 : ℤ) * (2 : ℝ) ^ (-1000 : ℤ) := by
    rw [← zpow_add₀ two_ne_zero]; exact zpow_le_zpow_right₀ one_le_two (by norm_num)
  have t2 := mul_le_mul_of_nonneg_left h3 (show (0 : ℝ) ≤ (2 : ℝ) ^ (-55 : ℤ) by positivity)
  have t3 := mul_le_mul_of_nonneg_left hz (show (0 : ℝ) ≤ (2 : ℝ) ^ (-53 : ℤ) by positivity)
  have t4 : (2 : ℝ) ^ (-55 : ℤ) * M ≤ 0.25 * (2 : ℝ) ^ (-53 : ℤ) * M := mul_le_mul_of_nonneg_right (by norm_num) hM.le
  have u0 : (0 : ℝ) < (2 : ℝ) ^ (-53 : ℤ) := by positivity
  have t5 := mul_pos u0 hM
  generalize (2 : ℝ) ^ (-1075 : ℤ) = η at *
  generalize (2 : ℝ) ^ (-1000 : ℤ) = θ at *
  generalize (2 : ℝ) ^ (-55 : ℤ) = w at *
  generalize (2 : ℝ) ^ (-53 : ℤ) = u at *
  nlinarith

theorem Rounded.add {e f a b x y M N : ℝ} (h : Rounded e a x M) (g : Rounded f b y N) (he : 0 ≤ e) (hf : 0 ≤ f) (hef : max e f ≤ 1000) :
    Rounded (max e f + 2) (rne (a + b)) (x + y) (M + N) := by
  refine rounded_round ?_ ((abs_add_le _ _).trans (add_le_add h.le g.le)) (h.big.trans (by have := g.pos; linarith)) hef
  have h1 := (h.mono (le_max_left e f) he le_rfl).err
  have h2 := (g.mono (le_max_right e f) hf le_rfl).err
  rw [show a + b - (x + y) = (a - x) + (b - y) by ring, mul_add]
  exact (abs_add_le _ _).trans (add_le_add h1 h2)

theorem Rounded.neg {e a x M : ℝ} (h : Rounded e a x M) : Rounded e (-a) (-x) M :=
  ⟨by rw [neg_sub_neg, abs_sub_comm]; exact h.err, by rw [abs_neg]; exact h.le, h.big⟩

theorem Rounded.sub {e f a b x y M N : ℝ} (h : Rounded e a x M) (g : Rounded f b y N) (he : 0 ≤ e) (hf : 0 ≤ f) (hef : max e f ≤ 1000) :
    Rounded (max e f + 2) (rne (a - b)) (x - y) (M + N) := by
  have := h.add g.neg he hf hef
  rwa [← sub_eq_add_neg, ← sub_eq_add_neg] at this

theorem Rounded.abs {e a x M : ℝ} (h : Rounded e a x M) : Rounded e |a| |x| M :=
  ⟨(abs_abs_sub_abs_le _ _).trans h.err, by rw [abs_abs]; exact h.le, h.big⟩

theorem Rounded.mul {e f a b x y M N : ℝ} (h : Rounded e a x M) (g : Rounded f b y N) (he : 0 ≤ e) (hf : 0 ≤ f) (hef : e + f ≤ 900)
    (hMN : (2 : ℝ) ^ (-1000 : ℤ) ≤ M * N) : Rounded (e + f + 3) (rne (a * b)) (x * y) (M * N) := by
  have hM := h.pos
  have hN := g.pos
  have key := rounded_round (e := e + f + 1) (z := a * b) (x := x * y) ?_
    (by rw [abs_mul]; exact mul_le_mul h.le g.le (abs_nonneg _) hM.le) hMN (by linarith)
  · exact key.mono (by linarith) (by linarith) le_rfl
  · have b1 := g.abs_le (by linarith)
    rw [show a * b - x * y = (a - x) * (b - y) + (a - x) * y + x * (b - y) by ring]
    have c1 := mul_le_mul h.err g.err (abs_nonneg _) (by positivity)
    have c2 := mul_le_mul h.err g.le (abs_nonneg _) (by positivity)
    have c3 := mul_le_mul h.le g.err (abs_nonneg _) (by positivity)
    rw [← abs_mul] at c1 c2 c3
    refine (abs_add_three _ _ _).trans ?_
    have c4 : e * f ≤ 900 * 900 := mul_le_mul (by linarith) (by linarith) hf (by norm_num)
    have c5 : e * (2 : ℝ) ^ (-53 : ℤ) * M * (f * (2 : ℝ) ^ (-53 : ℤ) * N) ≤ (2 : ℝ) ^ (-53 : ℤ) * (M * N) := by
      have : e * f * (2 : ℝ) ^ (-53 : ℤ) ≤ 1 :=
        (mul_le_mul_of_nonneg_right c4 (by positivity)).trans (by norm_num)
      have := mul_le_mul_of_nonneg_right this (show 0 ≤ (2 : ℝ) ^ (-53 : ℤ) * (M * N) by positivity)
      rw [one_mul] at this
      refine le_trans (le_of_eq (by ring)) this
    calc _ ≤ _ := add_le_add (add_le_add (c1.trans c5) c2) c3
      _ = _ := by ring

/-- Division by a number known up to a relative error. -/
theorem Rounded.div {e f a b x y M : ℝ} (h : Rounded e a x M) (g : |b - y| ≤ f * (2 : ℝ) ^ (-53 : ℤ) * |y|) (hy : y ≠ 0) (he : 0 ≤ e)
    (hf : 0 ≤ f) (hef : e + f ≤ 900) (hMN : (2 : ℝ) ^ (-1000 : ℤ) ≤ M / |y|) :
    b ≠ 0 ∧ Rounded (e + f + 3) (rne (a / b)) (x / y) (M / |y|) := by
  have hM := h.pos
  have hY : 0 < |y| := abs_pos.mpr hy
  have s1 : f * (2 : ℝ) ^ (-53 : ℤ) ≤ 1 / 2000 :=
    (mul_le_mul_of_nonneg_right (show f ≤ 900 by linarith) (by positivity)).trans (by norm_num)
  have hb : (1 - 1 / 2000) * |y| ≤ |b| := by
    have := abs_sub_abs_le_abs_sub y b
    rw [abs_sub_comm] at this
    have := g.trans (mul_le_mul_of_nonneg_right s1 hY.le)
    linarith
  have hb0 : 0 < |b| := lt_of_lt_of_le (mul_pos (by norm_num) hY) hb
  have hbn : b ≠ 0 := abs_pos.mp hb0
  refine ⟨hbn, ?_⟩
  have key := rounded_round (e := e + f + 1) (z := a / b) (x := x / y) (M := M / |y|) ?_ ?_ hMN (by linarith)
  · exact key.mono (by linarith) (by linarith) le_rfl
  · have c0 : a / b - x / y = ((a - x) + x / y * (y - b)) / b := by field_simp; ring
    rw [c0, abs_div, div_le_iff₀ hb0]
    refine (abs_add_le _ _).trans ?_
    rw [abs_mul, abs_div, abs_sub_comm y b]
    have c1 := h.err
    have c2 : |x| / |y| * |b - y| ≤ M * (f * (2 : ℝ) ^ (-53 : ℤ)) := by
      have := mul_le_mul (div_le_div_of_nonneg_right h.le hY.le) g (abs_nonneg _) (by positivity)
      refine this.trans (le_of_eq ?_)
      field_simp
    have c3 : (e + f + 1) * (2 : ℝ) ^ (-53 : ℤ) * (M / |y|) * ((1 - 1 / 2000) * |y|) ≤ (e + f + 1) * (2 : ℝ) ^ (-53 : ℤ) * (M / |y|) * |b| :=
      mul_le_mul_of_nonneg_left hb (by positivity)
    refine le_trans ?_ c3
    have c4 : (e + f + 1) * (2 : ℝ) ^ (-53 : ℤ) * (M / |y|) * ((1 - 1 / 2000) * |y|) = (1 - 1 / 2000) * (e + f + 1) * ((2 : ℝ) ^ (-53 : ℤ) * M) := by
      field_simp
    rw [c4]
    have u0 : (0 : ℝ) < (2 : ℝ) ^ (-53 : ℤ) * M := by positivity
    have c5 : (e + f) * ((2 : ℝ) ^ (-53 : ℤ) * M) ≤ (1 - 1 / 2000) * (e + f + 1) * ((2 : ℝ) ^ (-53 : ℤ) * M) :=
      mul_le_mul_of_nonneg_right (by linarith) u0.le
    refine (add_le_add c1 c2).trans (le_trans (le_of_eq ?_) c5)
    ring
  · rw [abs_div]; exact div_le_div_of_nonneg_right h.le hY.le

theorem Rounded.final {e a x M ε : ℝ} (h : Rounded e a x M) (he : e * (2 : ℝ) ^ (-53 : ℤ) ≤ ε) : |a - x| ≤ ε * M :=
  h.err.trans (mul_le_mul_of_nonneg_right he h.pos.le)

theorem two_300 : (2 : ℝ) ^ (-1000 : ℤ) ≤ (2 : ℝ) ^ (-300 : ℤ) := zpow_le_zpow_right₀ one_le_two (by norm_num)

theorem two_300_le : (2 : ℝ) ^ (-300 : ℤ) ≤ (2 : ℝ) ^ (-100 : ℤ) := zpow_le_zpow_right₀ one_le_two (by norm_num)

/-- A given number. -/
theorem rounded_num (x : ℝ) : Rounded 0 x x (|x| + (2 : ℝ) ^ (-300 : ℤ)) := by
  refine rounded_exact ?_ ?_
  · have : (0 : ℝ) < (2 : ℝ) ^ (-300 : ℤ) := by positivity
    linarith
  · have := abs_nonneg x
    have := two_300
    linarith

/-- A constant. -/
theorem rounded_const {x : ℝ} (hx : (2 : ℝ) ^ (-1000 : ℤ) ≤ |x|) : Rounded 0 x x |x| := rounded_exact le_rfl hx

theorem two_1000_le {x : ℝ} {n : ℤ} (hn : -1000 ≤ n) (h : (2 : ℝ) ^ n ≤ x) : (2 : ℝ) ^ (-1000 : ℤ) ≤ x :=
  (zpow_le_zpow_right₀ one_le_two hn).trans h

theorem fp_quarter : ((num 1 / num 4 : FP double)).val = 1 / 4 := by
  have e1 : (num 1 : FP double).val = 1 := (double.int 1 (by norm_num)).trans (by norm_num)
  have e4 : (num 4 : FP double).val = 4 := (double.int 4 (by norm_num)).trans (by norm_num)
  rw [FP.div_val, e1, e4]
  exact rne_of_isDouble ⟨1, -2, by norm_num, by norm_num, by norm_num⟩

/-- **C183** `kick_rate` in double precision. -/
theorem C183_kick (dist dirDiff power ballSize playerSize margin : FP double) (h1 : (2 : ℝ) ^ (-200 : ℤ) ≤ |margin.val|)
    (h2 : |margin.val| ≤ (2 : ℝ) ^ (300 : ℤ)) : ∃ r, kickRate dist dirDiff power ballSize playerSize margin = .ok r ∧
      |r.val - power.val * (1 - |dirDiff.val| / 720 - (dist.val - ballSize.val - playerSize.val) / (4 * margin.val))| ≤
        (2 : ℝ) ^ (-49 : ℤ) * ((|power.val| + (2 : ℝ) ^ (-300 : ℤ)) *
          (2 + |dirDiff.val| / 720 + (|dist.val| + |ballSize.val| + |playerSize.val|) / (4 * |margin.val|))) := by
  have e1 : (num 1 : FP double).val = 1 := (double.int 1 (by norm_num)).trans (by norm_num)
  have e180 : (num 180 : FP double).val = 180 := (double.int 180 (by norm_num)).trans (by norm_num)
  have hm0 : 0 < |margin.val| := lt_of_lt_of_le (by positivity) h1
  have hm : margin.val ≠ 0 := abs_pos.mp hm0
  have T0 : (0 : ℝ) < (2 : ℝ) ^ (-300 : ℤ) := by positivity
  have T1 : (2 : ℝ) ^ (-300 : ℤ) ≤ (2 : ℝ) ^ (-100 : ℤ) * (2 : ℝ) ^ (-200 : ℤ) := by rw [← zpow_add₀ two_ne_zero]; norm_num
  obtain ⟨L, hL⟩ : ∃ L, L = |dist.val| + (2 : ℝ) ^ (-300 : ℤ) + (|ballSize.val| + (2 : ℝ) ^ (-300 : ℤ)) +
    (|playerSize.val| + (2 : ℝ) ^ (-300 : ℤ)) := ⟨_, rfl⟩
  obtain ⟨E, hE⟩ : ∃ E, E = |dirDiff.val| + (2 : ℝ) ^ (-300 : ℤ) := ⟨_, rfl⟩
  have a1 := abs_nonneg dist.val
  have a2 := abs_nonneg ballSize.val
  have a3 := abs_nonneg playerSize.val
  have a4 := abs_nonneg dirDiff.val
  have hL1 : (2 : ℝ) ^ (-300 : ℤ) ≤ L := by linarith
  have hE1 : (2 : ℝ) ^ (-300 : ℤ) ≤ E := by linarith
  have s1 : Rounded 2 (rne (dist.val - ballSize.val)) _ _ :=
    ((rounded_num dist.val).sub (rounded_num ballSize.val) le_rfl le_rfl (by norm_num)).mono (by norm_num) (by norm_num) le_rfl
  have s2 : Rounded 4 (rne (rne (dist.val - ballSize.val) - playerSize.val)) _ L :=
    (s1.sub (rounded_num playerSize.val) (by norm_num) le_rfl (by norm_num)).mono (by norm_num) (by norm_num) (le_of_eq hL.symm)
  have q4 : |(1 / 4 : ℝ)| = 1 / 4 := abs_of_pos (by norm_num)
  have k4 : (2 : ℝ) ^ (-1000 : ℤ) ≤ |(1 / 4 : ℝ)| := two_1000_le (n := -2) (by norm_num) (by rw [q4]; norm_num)
  have s3 : Rounded 7 (rne (1 / 4 * rne (rne (dist.val - ballSize.val) - playerSize.val))) (1 / 4 * (dist.val - ballSize.val - playerSize.val)) (1 / 4 * L) := by
    have := (rounded_const k4).mul s2 le_rfl (by norm_num) (by norm_num) (by
      rw [q4]; refine two_1000_le (n := -302) (by norm_num) ?_
      rw [show (-302 : ℤ) = -2 + -300 by norm_num, zpow_add₀ two_ne_zero]
      exact mul_le_mul (by norm_num) hL1 T0.le (by norm_num))
    rw [q4] at this
    exact this.mono (by norm_num) (by norm_num) le_rfl
  obtain ⟨_, s4⟩ := s3.div (b := margin.val) (f := 0) (by rw [sub_self, abs_zero, zero_mul, zero_mul]) hm (by norm_num) le_rfl (by norm_num) (by
    refine two_1000_le (n := -602) (by norm_num) ?_
    rw [le_div_iff₀ hm0]
    refine (mul_le_mul_of_nonneg_left h2 (by positivity)).trans ?_
    rw [← zpow_add₀ two_ne_zero, show (-602 + 300 : ℤ) = -2 + -300 by norm_num, zpow_add₀ two_ne_zero]
    exact mul_le_mul (by norm_num) hL1 T0.le (by norm_num))
  have s5 : Rounded 3 (rne (1 / 4 * |dirDiff.val|)) (1 / 4 * |dirDiff.val|) (1 / 4 * E) := by
    have := (rounded_const k4).mul (rounded_num dirDiff.val).abs le_rfl (by norm_num) (by norm_num) (by
      rw [q4, ← hE]; refine two_1000_le (n := -302) (by norm_num) ?_
      rw [show (-302 : ℤ) = -2 + -300 by norm_num, zpow_add₀ two_ne_zero]
      exact mul_le_mul (by norm_num) hE1 T0.le (by norm_num))
    rw [q4, ← hE] at this
    exact this.mono (by norm_num) (by norm_num) le_rfl
  obtain ⟨_, s6⟩ := s5.div (b := 180) (y := 180) (f := 0) (by rw [sub_self, abs_zero, zero_mul, zero_mul]) (by norm_num) (by norm_num) le_rfl
    (by norm_num) (by
      rw [abs_of_pos (by norm_num)]
      refine two_1000_le (n := -312) (by norm_num) ?_
      rw [le_div_iff₀ (by norm_num)]
      have : (2 : ℝ) ^ (-312 : ℤ) * 180 ≤ 1 / 4 * (2 : ℝ) ^ (-300 : ℤ) := by
        rw [show (-312 : ℤ) = -12 + -300 by norm_num, zpow_add₀ two_ne_zero]
        have : (2 : ℝ) ^ (-12 : ℤ) * 180 ≤ 1 / 4 := by norm_num
        have := mul_le_mul_of_nonneg_right this T0.le
        linarith
      linarith)
  rw [abs_of_pos (by norm_num : (0 : ℝ) < 180)] at s6
  have one1 : Rounded 0 1 1 1 := by
    have := rounded_const (x := 1) (two_1000_le (n := 0) (by norm_num) (by rw [abs_one]; norm_num))
    rwa [abs_one] at this
  have s7 : Rounded 8 (rne (1 - rne (rne (1 / 4 * |dirDiff.val|) / 180))) _ _ :=
    (one1.sub s6 le_rfl (by norm_num) (by norm_num)).mono (by norm_num) (by norm_num) le_rfl
  have s8 : Rounded 12 _ _ _ := (s7.sub s4 (by norm_num) (by norm_num) (by norm_num)).mono (by norm_num) (by norm_num) le_rfl
  have hQ : 0 ≤ 1 / 4 * L / |margin.val| := by have : 0 ≤ L := T0.le.trans hL1; positivity
  have hEE : 0 ≤ 1 / 4 * E / 180 := by have : 0 ≤ E := T0.le.trans hE1; positivity
  have s9 := (rounded_num power.val).mul s8 le_rfl (by norm_num) (by norm_num) (by
    refine two_1000_le (n := -300) (by norm_num) ?_
    have := abs_nonneg power.val
    nlinarith)
  refine ⟨⟨rne (power.val * rne (rne (1 - rne (rne (1 / 4 * |dirDiff.val|) / 180)) -
    rne (rne (1 / 4 * rne (rne (dist.val - ballSize.val) - playerSize.val)) / margin.val)))⟩, ?_, ?_⟩
  · have hd : pyDiv ((num 1 / num 4) * (dist - ballSize - playerSize)) margin =
        .ok ⟨rne (rne (1 / 4 * rne (rne (dist.val - ballSize.val) - playerSize.val)) / margin.val)⟩ := by
      rw [← fp_quarter]
      exact fp_pyDiv _ hm
    unfold kickRate
    rw [hd]
    simp only [bind, Except.bind, pure, Except.pure, Except.ok.injEq]
    apply FP.ext
    rw [FP.mul_val, FP.sub_val, FP.sub_val, FP.div_val, FP.mul_val, fp_quarter, fp_fabs_val, e1, e180]
    rfl
  · have f := s9.final (ε := (2 : ℝ) ^ (-49 : ℤ)) (by norm_num)
    have ex : power.val * (1 - 1 / 4 * |dirDiff.val| / 180 - 1 / 4 * (dist.val - ballSize.val - playerSize.val) / margin.val) =
        power.val * (1 - |dirDiff.val| / 720 - (dist.val - ballSize.val - playerSize.val) / (4 * margin.val)) := by
      field_simp; ring
    rw [ex] at f
    refine f.trans (mul_le_mul_of_nonneg_left (mul_le_mul_of_nonneg_left ?_ (by positivity)) (by positivity))
    have z1 : 1 / 4 * L / |margin.val| ≤ (|dist.val| + |ballSize.val| + |playerSize.val|) / (4 * |margin.val|) + 1 / 2 := by
      have : (2 : ℝ) ^ (-300 : ℤ) ≤ (2 : ℝ) ^ (-100 : ℤ) * |margin.val| :=
        T1.trans (mul_le_mul_of_nonneg_left h1 (by positivity))
      have t2 : (2 : ℝ) ^ (-100 : ℤ) * |margin.val| ≤ 1 / 2 * |margin.val| := mul_le_mul_of_nonneg_right (by norm_num) hm0.le
      rw [div_add' _ _ _ (by positivity), div_le_div_iff₀ hm0 (by positivity), hL]
      have t3 := this.trans t2
      nlinarith
    have z2 : 1 / 4 * E / 180 ≤ |dirDiff.val| / 720 + 1 / 2 := by
      have := two_300_le
      have t : (2 : ℝ) ^ (-100 : ℤ) ≤ 1 := by norm_num
      rw [hE]; linarith
    linarith

theorem rounded_one : Rounded 0 1 1 1 := by
  have := rounded_const (x := 1) (two_1000_le (n := 0) (by norm_num) (by rw [abs_one]; norm_num))
  rwa [abs_one] at this

/-- Products with a factor of at least one. -/
theorem big_mul {M N : ℝ} (hM : (2 : ℝ) ^ (-1000 : ℤ) ≤ M) (hN : 1 ≤ N) : (2 : ℝ) ^ (-1000 : ℤ) ≤ M * N := by
  have h0 : 0 ≤ M := le_trans (by positivity) hM
  exact hM.trans (le_mul_of_one_le_right h0 hN)

/-- **C183** `dir_rate` in double precision. -/
theorem C183_dash (dir back side : FP double) :
    |(dirRate dir back side).val - dirRate dir.val back.val side.val| ≤
      (2 : ℝ) ^ (-49 : ℤ) * ((|back.val| + |side.val| + 2) * (4 + |dir.val| / 90)) := by
  have e1 : (num 1 : FP double).val = 1 := (double.int 1 (by norm_num)).trans (by norm_num)
  have e90 : (num 90 : FP double).val = 90 := (double.int 90 (by norm_num)).trans (by norm_num)
  have d0 := abs_nonneg dir.val
  have b0 := abs_nonneg back.val
  have s0 := abs_nonneg side.val
  have T0 : (0 : ℝ) < (2 : ℝ) ^ (-300 : ℤ) := by positivity
  have T1 : (2 : ℝ) ^ (-300 : ℤ) ≤ 1 / 4 := two_300_le.trans (by norm_num)
  have rd := (rounded_num dir.val).abs
  have rb := rounded_num back.val
  have rs := rounded_num side.val
  have n90 : |(90 : ℝ)| = 90 := abs_of_pos (by norm_num)
  have k90 : Rounded 0 90 90 90 := by
    have := rounded_const (x := 90) (two_1000_le (n := 0) (by norm_num) (by rw [n90]; norm_num))
    rwa [n90] at this
  have g90 : |(90 : ℝ) - 90| ≤ 0 * (2 : ℝ) ^ (-53 : ℤ) * |(90 : ℝ)| := by rw [sub_self, abs_zero, zero_mul, zero_mul]
  have t90 : ∀ M, (2 : ℝ) ^ (-300 : ℤ) ≤ M → (2 : ℝ) ^ (-1000 : ℤ) ≤ M / |(90 : ℝ)| := by
    intro M hM
    refine two_1000_le (n := -308) (by norm_num) ?_
    rw [n90, le_div_iff₀ (by norm_num)]
    refine le_trans ?_ hM
    rw [show (-308 : ℤ) = -8 + -300 by norm_num, zpow_add₀ two_ne_zero]
    have := mul_le_mul_of_nonneg_right (show (2 : ℝ) ^ (-8 : ℤ) * 90 ≤ 1 by norm_num) T0.le
    linarith
  have m90 : (num 90 : ℝ) = 90 := by rw [num_real]; norm_num
  have m1 : (num 1 : ℝ) = 1 := by rw [num_real]; norm_num
  have hc : (num 90 < fabs dir) ↔ (num 90 : ℝ) < fabs dir.val := by
    change (num 90 : FP double).val < (fabs dir).val ↔ _
    rw [fp_fabs_val, e90, m90, fabs_real]
  by_cases h : (num 90 : ℝ) < fabs dir.val
  · rw [dirRate, if_pos (hc.mpr h), dirRate, if_pos h]
    rw [FP.sub_val, FP.mul_val, FP.sub_val, FP.sub_val, FP.div_val, FP.sub_val, fp_fabs_val, e1, e90]
    have a1 := rd.sub k90 le_rfl le_rfl (by norm_num)
    obtain ⟨_, a2⟩ := (a1.mono (f := 2) (by norm_num) (by norm_num) le_rfl).div g90 (by norm_num) (by norm_num) le_rfl (by norm_num)
      (t90 _ (by linarith))
    have a3 := (rounded_one.sub a2 le_rfl (by norm_num) (by norm_num)).mono (f := 7) (by norm_num) (by norm_num) le_rfl
    have a4 := (rb.sub rs le_rfl le_rfl (by norm_num)).mono (f := 2) (by norm_num) (by norm_num) le_rfl
    have a5 := a4.mul a3 (by norm_num) (by norm_num) (by norm_num) (big_mul a4.big (by
      have : 0 ≤ (|dir.val| + (2 : ℝ) ^ (-300 : ℤ) + 90) / |(90 : ℝ)| := by positivity
      linarith))
    have a6 := (rb.sub a5 le_rfl (by norm_num) (by norm_num)).mono (f := 14) (by norm_num) (by norm_num) le_rfl
    have f := a6.final (ε := (2 : ℝ) ^ (-49 : ℤ)) (by norm_num)
    rw [m90, m1, fabs_real]
    refine (le_of_eq ?_).trans (f.trans (mul_le_mul_of_nonneg_left ?_ (by positivity)))
    · rfl
    · rw [n90]
      have : (|dir.val| + (2 : ℝ) ^ (-300 : ℤ) + 90) / 90 ≤ |dir.val| / 90 + 1.1 := by
        rw [div_add' _ _ _ (by norm_num), div_le_div_iff_of_pos_right (by norm_num)]; linarith
      have hd : 0 ≤ |dir.val| / 90 := by positivity
      generalize |dir.val| / 90 = D at *
      have q1 : (|back.val| + (2 : ℝ) ^ (-300 : ℤ) + (|side.val| + (2 : ℝ) ^ (-300 : ℤ))) * (1 + (|dir.val| + (2 : ℝ) ^ (-300 : ℤ) + 90) / 90) ≤
          (|back.val| + |side.val| + 1 / 2) * (1 + (D + 1.1)) :=
        mul_le_mul (by linarith) (by linarith) (by positivity) (by positivity)
      nlinarith
  · rw [dirRate, if_neg (fun h' => h (hc.mp h')), dirRate, if_neg h]
    rw [FP.add_val, FP.mul_val, FP.sub_val, FP.sub_val, FP.div_val, fp_fabs_val, e1, e90]
    obtain ⟨_, a2⟩ := rd.div g90 (by norm_num) le_rfl le_rfl (by norm_num) (t90 _ (by linarith))
    have a3 := (rounded_one.sub a2 le_rfl (by norm_num) (by norm_num)).mono (f := 5) (by norm_num) (by norm_num) le_rfl
    have a4 := (rounded_one.sub rs le_rfl le_rfl (by norm_num)).mono (f := 2) (by norm_num) (by norm_num) le_rfl
    have a5 := a4.mul a3 (by norm_num) (by norm_num) (by norm_num) (big_mul a4.big (by
      have : 0 ≤ (|dir.val| + (2 : ℝ) ^ (-300 : ℤ)) / |(90 : ℝ)| := by positivity
      linarith))
    have a6 := (rs.add a5 le_rfl (by norm_num) (by norm_num)).mono (f := 12) (by norm_num) (by norm_num) le_rfl
    have f := a6.final (ε := (2 : ℝ) ^ (-49 : ℤ)) (by norm_num)
    rw [m90, m1, fabs_real]
    refine (le_of_eq ?_).trans (f.trans (mul_le_mul_of_nonneg_left ?_ (by positivity)))
    · rfl
    · rw [n90]
      have : (|dir.val| + (2 : ℝ) ^ (-300 : ℤ)) / 90 ≤ |dir.val| / 90 + 0.1 := by
        rw [div_add' _ _ _ (by norm_num), div_le_div_iff_of_pos_right (by norm_num)]; linarith
      have hd : 0 ≤ |dir.val| / 90 := by positivity
      generalize |dir.val| / 90 = D at *
      have q1 : (1 + (|side.val| + (2 : ℝ) ^ (-300 : ℤ))) * (1 + (|dir.val| + (2 : ℝ) ^ (-300 : ℤ)) / 90) ≤
          (|side.val| + 3 / 2) * (1 + (D + 0.1)) :=
        mul_le_mul (by linarith) (by linarith) (by positivity) (by positivity)
      nlinarith

/-- **C183** `effective_turn` in double precision. -/
theorem C183_turn (moment speed inertia : FP double) (h : 0 ≤ inertia.val * speed.val) (h2 : inertia.val * speed.val ≤ (2 : ℝ) ^ (500 : ℤ)) :
    ∃ r, effectiveTurn moment speed inertia = .ok r ∧ |r.val - moment.val / (1 + inertia.val * speed.val)| ≤
      (2 : ℝ) ^ (-50 : ℤ) * ((|moment.val| + (2 : ℝ) ^ (-300 : ℤ)) / (1 + inertia.val * speed.val)) := by
  have e1 : (num 1 : FP double).val = 1 := (double.int 1 (by norm_num)).trans (by norm_num)
  obtain ⟨z, hz⟩ : ∃ z, z = inertia.val * speed.val := ⟨_, rfl⟩
  rw [← hz] at h h2 ⊢
  have z1 : (0 : ℝ) < 1 + z := by linarith
  have r1 : |1 + rne z - (1 + z)| ≤ 1 * (2 : ℝ) ^ (-53 : ℤ) * (1 + z) := by
    have r := rne_error_mixed z
    rw [abs_of_nonneg h] at r
    have : (2 : ℝ) ^ (-1075 : ℤ) ≤ (2 : ℝ) ^ (-53 : ℤ) := zpow_le_zpow_right₀ one_le_two (by norm_num)
    rw [add_sub_add_left_eq_sub, one_mul, mul_add, mul_one]
    generalize (2 : ℝ) ^ (-1075 : ℤ) = η at *
    linarith
  have r2 := rounded_round r1 (le_of_eq (abs_of_pos z1)) (two_1000_le (n := 0) (by norm_num) (by norm_num; exact h)) (by norm_num)
  have r3 := r2.err
  have r3' : |rne (1 + rne z) - (1 + z)| ≤ 3 * (2 : ℝ) ^ (-53 : ℤ) * |1 + z| := by
    rw [abs_of_pos z1]; exact r3.trans (le_of_eq (by norm_num))
  obtain ⟨nz, r4⟩ := (rounded_num moment.val).div r3' z1.ne' le_rfl (by norm_num) (by norm_num) (by
    rw [abs_of_pos z1]
    refine two_1000_le (n := -802) (by norm_num) ?_
    rw [le_div_iff₀ z1]
    have k : 1 + z ≤ (2 : ℝ) ^ (501 : ℤ) := by
      have : (1 : ℝ) ≤ (2 : ℝ) ^ (500 : ℤ) := one_le_zpow₀ one_le_two (by norm_num)
      rw [show (501 : ℤ) = 500 + 1 by norm_num, zpow_add₀ two_ne_zero, zpow_one]
      generalize (2 : ℝ) ^ (500 : ℤ) = w at *
      linarith
    refine (mul_le_mul_of_nonneg_left k (by positivity)).trans ?_
    rw [← zpow_add₀ two_ne_zero]
    have := abs_nonneg moment.val
    have : (2 : ℝ) ^ (-802 + 501 : ℤ) ≤ (2 : ℝ) ^ (-300 : ℤ) := zpow_le_zpow_right₀ one_le_two (by norm_num)
    linarith)
  have hv : (num 1 + inertia * speed : FP double).val = rne (1 + rne z) := by rw [FP.add_val, FP.mul_val, e1, hz]; rfl
  rw [abs_of_pos z1] at r4
  refine ⟨⟨rne (moment.val / rne (1 + rne z))⟩, ?_, r4.final (by norm_num)⟩
  rw [effectiveTurn, ← hv]
  have nz' : (num 1 + inertia * speed : FP double).val ≠ 0 := by rw [hv]; exact nz
  exact fp_pyDiv _ nz'

/-- The product that the speed formulas start from. -/
theorem rounded_power (power rate effort : FP double) :
    Rounded 6 (fabs power * rate * effort).val (|power.val| * rate.val * effort.val)
      ((|power.val| + (2 : ℝ) ^ (-300 : ℤ)) * (|rate.val| + (2 : ℝ) ^ (-300 : ℤ)) * (|effort.val| + (2 : ℝ) ^ (-300 : ℤ))) := by
  have T0 : (0 : ℝ) < (2 : ℝ) ^ (-300 : ℤ) := by positivity
  have b2 : (2 : ℝ) ^ (-600 : ℤ) ≤ (|power.val| + (2 : ℝ) ^ (-300 : ℤ)) * (|rate.val| + (2 : ℝ) ^ (-300 : ℤ)) := by
    rw [show (-600 : ℤ) = -300 + -300 by norm_num, zpow_add₀ two_ne_zero]
    exact mul_le_mul (by have := abs_nonneg power.val; linarith) (by have := abs_nonneg rate.val; linarith) T0.le (by positivity)
  have b3 : (2 : ℝ) ^ (-900 : ℤ) ≤ (|power.val| + (2 : ℝ) ^ (-300 : ℤ)) * (|rate.val| + (2 : ℝ) ^ (-300 : ℤ)) *
      (|effort.val| + (2 : ℝ) ^ (-300 : ℤ)) := by
    rw [show (-900 : ℤ) = -600 + -300 by norm_num, zpow_add₀ two_ne_zero]
    exact mul_le_mul b2 (by have := abs_nonneg effort.val; linarith) T0.le (by positivity)
  have a1 := (rounded_num power.val).abs.mul (rounded_num rate.val) le_rfl le_rfl (by norm_num) (two_1000_le (by norm_num) b2)
  have a2 := a1.mul (rounded_num effort.val) (by norm_num) le_rfl (by norm_num) (two_1000_le (by norm_num) b3)
  rw [FP.mul_val, FP.mul_val, fp_fabs_val]
  exact a2.mono (by norm_num) (by norm_num) le_rfl

/-- **C183** `final_speed` in double precision. -/
theorem C183_speed (power rate effort decay : FP double) (hd : IsDouble decay.val) (h0 : 0 ≤ decay.val) (h1 : decay.val < 1) :
    ∃ r, finalSpeed power rate effort decay = .ok r ∧ |r.val - |power.val| * rate.val * effort.val / (1 - decay.val)| ≤
      (2 : ℝ) ^ (-49 : ℤ) * ((|power.val| + (2 : ℝ) ^ (-300 : ℤ)) * (|rate.val| + (2 : ℝ) ^ (-300 : ℤ)) *
        (|effort.val| + (2 : ℝ) ^ (-300 : ℤ)) / (1 - decay.val)) := by
  have hδ : 0 < 1 - decay.val := by linarith
  have one : (num 1 : FP double).val = 1 := (double.int 1 (by norm_num)).trans (by norm_num)
  have hD : |(num 1 - decay).val - (1 - decay.val)| ≤ 1 * (2 : ℝ) ^ (-53 : ℤ) * |1 - decay.val| := by
    have := fp_sum_grid isDouble_one hd.neg
    rw [← sub_eq_add_neg] at this
    rw [FP.sub_val, one, one_mul]; exact this
  have a := rounded_power power rate effort
  obtain ⟨d0, q⟩ := a.div hD hδ.ne' (by norm_num) (by norm_num) (by norm_num) (by
    rw [abs_of_pos hδ, le_div_iff₀ hδ]
    refine le_trans ?_ a.big
    have : (2 : ℝ) ^ (-1000 : ℤ) * (1 - decay.val) ≤ (2 : ℝ) ^ (-1000 : ℤ) * 1 := mul_le_mul_of_nonneg_left (by linarith) (by positivity)
    rwa [mul_one] at this)
  rw [abs_of_pos hδ] at q
  exact ⟨⟨rne ((fabs power * rate * effort).val / (num 1 - decay).val)⟩, fp_pyDiv _ d0, q.final (by norm_num)⟩

/-- **C183** `can_over_speed_max` in double precision is right unless both sides of its test are almost equal. -/
theorem C183_over (power rate effort decay speedMax : FP double)
    (h : (2 : ℝ) ^ (-50 : ℤ) * ((|speedMax.val| + (2 : ℝ) ^ (-300 : ℤ)) * (1 + (|decay.val| + (2 : ℝ) ^ (-300 : ℤ))) +
        (|power.val| + (2 : ℝ) ^ (-300 : ℤ)) * (|rate.val| + (2 : ℝ) ^ (-300 : ℤ)) * (|effort.val| + (2 : ℝ) ^ (-300 : ℤ))) <
      |speedMax.val * (1 - decay.val) - |power.val| * rate.val * effort.val|) :
    canOverSpeedMax power rate effort decay speedMax = true ↔ speedMax.val * (1 - decay.val) < |power.val| * rate.val * effort.val := by
  have one : (num 1 : FP double).val = 1 := (double.int 1 (by norm_num)).trans (by norm_num)
  have a := rounded_power power rate effort
  have b1 := (rounded_one.sub (rounded_num decay.val) le_rfl le_rfl (by norm_num)).mono (f := 2) (by norm_num) (by norm_num) le_rfl
  have b2 := (rounded_num speedMax.val).mul b1 le_rfl (by norm_num) (by norm_num) (big_mul (rounded_num speedMax.val).big (by
    have := abs_nonneg decay.val
    have T0 : (0 : ℝ) < (2 : ℝ) ^ (-300 : ℤ) := by positivity
    linarith))
  have f1 := a.final (ε := (2 : ℝ) ^ (-50 : ℤ)) (by norm_num)
  have f2 := b2.final (ε := (2 : ℝ) ^ (-50 : ℤ)) (by norm_num)
  have hv : (speedMax * (num 1 - decay) : FP double).val = rne (speedMax.val * rne (1 - decay.val)) := by rw [FP.mul_val, FP.sub_val, one]; rfl
  rw [← hv] at f2
  rw [canOverSpeedMax, decide_eq_true_iff]
  change (speedMax * (num 1 - decay)).val < (fabs power * rate * effort).val ↔ _
  rw [mul_add] at h
  obtain ⟨f1a, f1b⟩ := abs_le.mp f1
  obtain ⟨f2a, f2b⟩ := abs_le.mp f2
  rcases lt_abs.mp h with h | h <;> constructor <;> intro g <;> linarith

section
variable [m : PyMath (FP double)]

/-- **C183** `calc_first_term_geom_series` in double precision. -/
theorem C183_first (hm : AccuratePow m) (sums ratio : FP double) (hd : IsDouble ratio.val) (h0 : 0 ≤ ratio.val)
    (h1 : (2 : ℝ) ^ (-7 : ℤ) ≤ 1 - ratio.val) {n : ℕ} (hn : n ≠ 0) : ∃ r, calcFirstTermGeomSeries sums ratio n = .ok r ∧
      |r.val - sums.val * (1 - ratio.val) / (1 - ratio.val ^ n)| ≤
        (2 : ℝ) ^ (-49 : ℤ) * ((|sums.val| + (2 : ℝ) ^ (-300 : ℤ)) * (1 - ratio.val) / (1 - ratio.val ^ n) ^ 2) := by
  have hp : (0 : ℝ) < (2 : ℝ) ^ (-7 : ℤ) := by positivity
  have hδ : 0 < 1 - ratio.val := by linarith
  have one : (num 1 : FP double).val = 1 := (double.int 1 (by norm_num)).trans (by norm_num)
  have hpow : ratio.val ^ n ≤ ratio.val := pow_le_of_le_one h0 (by linarith) hn
  have hpow0 : 0 ≤ ratio.val ^ n := pow_nonneg h0 n
  obtain ⟨p, q, hp1, _, _, hp2, hp3, _⟩ := hm.factor hd h0 (by linarith) n
  obtain ⟨w, hw⟩ : ∃ w, w = 1 - ratio.val ^ n := ⟨_, rfl⟩
  rw [← hw] at hp2 ⊢
  have w7 : (2 : ℝ) ^ (-7 : ℤ) ≤ w := by linarith
  have w0 : 0 < w := by linarith
  have w1 : w ≤ 1 := by linarith
  have T0 : (0 : ℝ) < (2 : ℝ) ^ (-300 : ℤ) := by positivity
  have a1 : Rounded 1 (num 1 - ratio : FP double).val (1 - ratio.val) (1 - ratio.val) :=
    ⟨by rw [one_mul]; exact hp3, le_of_eq (abs_of_pos hδ), two_1000_le (n := -7) (by norm_num) h1⟩
  have b1 : (2 : ℝ) ^ (-307 : ℤ) ≤ (|sums.val| + (2 : ℝ) ^ (-300 : ℤ)) * (1 - ratio.val) := by
    rw [show (-307 : ℤ) = -300 + -7 by norm_num, zpow_add₀ two_ne_zero]
    exact mul_le_mul (by have := abs_nonneg sums.val; linarith) h1 hp.le (by positivity)
  have a2 := (rounded_num sums.val).mul a1 le_rfl (by norm_num) (by norm_num) (two_1000_le (by norm_num) b1)
  have hv : (sums * (num 1 - ratio) : FP double).val = rne (sums.val * (num 1 - ratio : FP double).val) := rfl
  rw [← hv] at a2
  have c1 : |(num 1 - p : FP double).val - w| ≤ 4 / w * (2 : ℝ) ^ (-53 : ℤ) * |w| := by
    refine hp2.trans (le_of_eq ?_)
    rw [abs_of_pos w0]
    field_simp
    norm_num
  have i1 : 1 ≤ 1 / w := by rw [le_div_iff₀ w0]; linarith
  have i2 : 4 / w ≤ 512 := by
    rw [div_le_iff₀ w0]
    have := mul_le_mul_of_nonneg_left w7 (show (0 : ℝ) ≤ 512 by norm_num)
    refine le_trans (by norm_num) this
  obtain ⟨d0, a3⟩ := a2.div c1 w0.ne' (by norm_num) (by positivity) (by linarith) (by
    rw [abs_of_pos w0, le_div_iff₀ w0]
    refine le_trans ?_ a2.big
    have : (2 : ℝ) ^ (-1000 : ℤ) * w ≤ (2 : ℝ) ^ (-1000 : ℤ) * 1 := mul_le_mul_of_nonneg_left w1 (by positivity)
    rwa [mul_one] at this)
  refine ⟨⟨rne ((sums * (num 1 - ratio)).val / (num 1 - p).val)⟩, ?_, ?_⟩
  · unfold calcFirstTermGeomSeries
    rw [hp1]
    exact fp_pyDiv _ d0
  · rw [abs_of_pos w0] at a3
    refine a3.err.trans ?_
    have k : 0 + 1 + 3 + 4 / w + 3 ≤ 16 * (1 / w) := by
      rw [show 4 / w = 4 * (1 / w) by ring]; linarith
    have M0 := a3.pos
    refine (mul_le_mul_of_nonneg_right (mul_le_mul_of_nonneg_right k (by positivity)) M0.le).trans (le_of_eq ?_)
    rw [show (2 : ℝ) ^ (-49 : ℤ) = 16 * (2 : ℝ) ^ (-53 : ℤ) by norm_num]
    field_simp

end

/-- The hypotheses are met: the kick rate of a ball 0.5 away, in the direction 45, with the sizes of a player and ball near those of
the server, and a margin of 0.75. -/
example : ∃ r, kickRate (⟨1 / 2⟩ : FP double) ⟨45⟩ ⟨1 / 32⟩ ⟨1 / 16⟩ ⟨1 / 4⟩ ⟨3 / 4⟩ = .ok r ∧ |r.val - 7 / 256| ≤ (2 : ℝ) ^ (-52 : ℤ) := by
  obtain ⟨r, e, h⟩ := C183_kick ⟨1 / 2⟩ ⟨45⟩ ⟨1 / 32⟩ ⟨1 / 16⟩ ⟨1 / 4⟩ ⟨3 / 4⟩
    (by rw [abs_of_pos (by norm_num)]; exact (zpow_le_zpow_right₀ one_le_two (by norm_num : (-200 : ℤ) ≤ -1)).trans (by norm_num))
    (by rw [abs_of_pos (by norm_num)]; exact le_trans (by norm_num) (one_le_zpow₀ one_le_two (by norm_num)))
  refine ⟨r, e, ?_⟩
  have T := two_300_le.trans (show (2 : ℝ) ^ (-100 : ℤ) ≤ 1 / 100 by norm_num)
  have e1 : |(45 : ℝ)| = 45 := abs_of_pos (by norm_num)
  have e2 : |(1 / 32 : ℝ)| = 1 / 32 := abs_of_pos (by norm_num)
  have e3 : |(1 / 2 : ℝ)| = 1 / 2 := abs_of_pos (by norm_num)
  have e4 : |(1 / 16 : ℝ)| = 1 / 16 := abs_of_pos (by norm_num)
  have e5 : |(1 / 4 : ℝ)| = 1 / 4 := abs_of_pos (by norm_num)
  have e6 : |(3 / 4 : ℝ)| = 3 / 4 := abs_of_pos (by norm_num)
  simp only [e1, e2, e3, e4, e5, e6] at h
  have v : (1 / 32 : ℝ) * (1 - 45 / 720 - (1 / 2 - 1 / 16 - 1 / 4) / (4 * (3 / 4))) = 7 / 256 := by norm_num
  rw [v] at h
  refine h.trans ?_
  have k : (1 / 32 + (2 : ℝ) ^ (-300 : ℤ)) * (2 + 45 / 720 + (1 / 2 + 1 / 16 + 1 / 4) / (4 * (3 / 4))) ≤ 1 / 8 := by linarith
  exact (mul_le_mul_of_nonneg_left k (by positivity)).trans (by norm_num)

end PyrusGeom
