import Verif.Props.FloatCircle

/-! # C184: the intersections of two circles in double precision -/

namespace PyrusGeom
open Spec

/-- The computed distance of the centers and the rounded sum and difference of the radii are compared correctly if there is some margin. -/
theorem circles_guard (c o : Circle (FP double)) (hc : c.center.FOk) (ho : o.center.FOk)
    {S : ℝ} (hS : S = |c.center.x.val| + |c.center.y.val| + |o.center.x.val| + |o.center.y.val| + |c.radius.val| + |o.radius.val| +
      (2 : ℝ) ^ (-200 : ℤ))
    (g1 : |c.radius.val - o.radius.val| + (2 : ℝ) ^ (-48 : ℤ) * S ≤ d o.center.fpt c.center.fpt)
    (g2 : d o.center.fpt c.center.fpt + (2 : ℝ) ^ (-48 : ℤ) * S ≤ c.radius.val + o.radius.val) :
    c.intersectionCircle o = c.intersectionLine ⟨-(num 2) * (o.center.x - c.center.x), -(num 2) * (o.center.y - c.center.y),
      o.center.r2 - o.radius * o.radius - c.center.r2 + c.radius * c.radius⟩ := by
  have a1 := abs_nonneg c.center.x.val
  have a2 := abs_nonneg c.center.y.val
  have a3 := abs_nonneg o.center.x.val
  have a4 := abs_nonneg o.center.y.val
  have a5 := abs_nonneg c.radius.val
  have a6 := abs_nonneg o.radius.val
  have T3 : (0 : ℝ) < (2 : ℝ) ^ (-300 : ℤ) := by positivity
  have T : 2 * (2 : ℝ) ^ (-300 : ℤ) ≤ (2 : ℝ) ^ (-200 : ℤ) := by
    rw [show (-300 : ℤ) = -100 + -200 by norm_num, zpow_add₀ two_ne_zero, ← mul_assoc]
    exact mul_le_of_le_one_left (by positivity) (by norm_num)
  have S0 : 0 < S := by rw [hS]; positivity
  have hd : (2 : ℝ) ^ (-500 : ℤ) ≤ d o.center.fpt c.center.fpt := by
    have h1 : (2 : ℝ) ^ (-48 : ℤ) * (2 : ℝ) ^ (-200 : ℤ) ≤ (2 : ℝ) ^ (-48 : ℤ) * S := mul_le_mul_of_nonneg_left (by linarith) (by positivity)
    rw [← zpow_add₀ two_ne_zero] at h1
    have h2 : (2 : ℝ) ^ (-500 : ℤ) ≤ (2 : ℝ) ^ (-48 + -200 : ℤ) := zpow_le_zpow_right₀ one_le_two (by norm_num)
    have := abs_nonneg (c.radius.val - o.radius.val)
    linarith
  have k := C104_error_partial o.center c.center ho hc hd
  have hsum : |rne (c.radius.val + o.radius.val) - (c.radius.val + o.radius.val)| ≤ (2 : ℝ) ^ (-50 : ℤ) * S := by
    have h := ((rounded_num c.radius.val).add (rounded_num o.radius.val) le_rfl le_rfl (by norm_num)).mono (f := 2) (N := S)
      (by norm_num) (by norm_num) (by linarith)
    refine h.err.trans ?_
    rw [show (2 : ℝ) ^ (-50 : ℤ) = 8 * (2 : ℝ) ^ (-53 : ℤ) by norm_num]
    have : 0 < (2 : ℝ) ^ (-53 : ℤ) * S := by positivity
    nlinarith
  have hdif : |rne (c.radius.val - o.radius.val) - (c.radius.val - o.radius.val)| ≤ (2 : ℝ) ^ (-50 : ℤ) * S := by
    have h := ((rounded_num c.radius.val).sub (rounded_num o.radius.val) le_rfl le_rfl (by norm_num)).mono (f := 2) (N := S)
      (by norm_num) (by norm_num) (by linarith)
    refine h.err.trans ?_
    rw [show (2 : ℝ) ^ (-50 : ℤ) = 8 * (2 : ℝ) ^ (-53 : ℤ) by norm_num]
    have : 0 < (2 : ℝ) ^ (-53 : ℤ) * S := by positivity
    nlinarith
  have hD : d o.center.fpt c.center.fpt ≤ S := by
    have := le_abs_self c.radius.val
    have := le_abs_self o.radius.val
    have : 0 < (2 : ℝ) ^ (-48 : ℤ) * S := by positivity
    have : (0 : ℝ) < (2 : ℝ) ^ (-200 : ℤ) := by positivity
    linarith
  have k' : |(o.center.dist c.center).val - d o.center.fpt c.center.fpt| ≤ (2 : ℝ) ^ (-49 : ℤ) * S :=
    k.trans (mul_le_mul_of_nonneg_left hD (by positivity))
  have e1 : (2 : ℝ) ^ (-48 : ℤ) = 4 * (2 : ℝ) ^ (-50 : ℤ) := by norm_num
  have e2 : (2 : ℝ) ^ (-49 : ℤ) = 2 * (2 : ℝ) ^ (-50 : ℤ) := by norm_num
  have hw : 0 < (2 : ℝ) ^ (-50 : ℤ) * S := by positivity
  rw [e1] at g1 g2
  rw [e2] at k'
  unfold Circle.intersectionCircle
  dsimp only
  rw [if_neg]
  rintro (h | h)
  · have h' : (o.center.dist c.center).val < |rne (c.radius.val - o.radius.val)| := by
      have h2 := h
      rw [FP.lt_def, fp_fabs_val] at h2
      rw [fp_dist, fp_dist2]
      exact h2
    have m1 := abs_abs_sub_abs_le_abs_sub (rne (c.radius.val - o.radius.val)) (c.radius.val - o.radius.val)
    have m2 := (abs_le.mp (m1.trans hdif)).2
    have m3 := (abs_le.mp k').1
    linarith
  · have h' : rne (c.radius.val + o.radius.val) < (o.center.dist c.center).val := by
      have h2 := h
      rw [FP.lt_def] at h2
      rw [fp_dist, fp_dist2]
      exact h2
    have m2 := (abs_le.mp hsum).1
    have m3 := (abs_le.mp k').2
    linarith

set_option maxHeartbeats 1000000 in
/-- **C184** Two circles that clearly cross: near every common point a point is returned. -/
theorem C184_circles_found (c o : Circle (FP double)) (hc : c.center.FOk) (ho : o.center.FOk) (l : Line (FP double))
    (hl : l = ⟨-(num 2) * (o.center.x - c.center.x),
      -(num 2) * (o.center.y - c.center.y), o.center.r2 - o.radius * o.radius - c.center.r2 + c.radius * c.radius⟩)
    (h1 : (EPSILON : FP double).val ≤ |l.a.val|) (h2 : |l.a.val| ≤ (2 : ℝ) ^ (500 : ℤ)) (h3 : |l.b.val / l.a.val| ≤ (2 : ℝ) ^ (500 : ℤ))
    {S : ℝ} (hS : S = |c.center.x.val| + |c.center.y.val| + |o.center.x.val| + |o.center.y.val| + |c.radius.val| + |o.radius.val| +
      (2 : ℝ) ^ (-200 : ℤ))
    (g1 : |c.radius.val - o.radius.val| + (2 : ℝ) ^ (-48 : ℤ) * S ≤ d o.center.fpt c.center.fpt)
    (g2 : d o.center.fpt c.center.fpt + (2 : ℝ) ^ (-48 : ℤ) * S ≤ c.radius.val + o.radius.val)
    (g3 : reach c (l.c.val / l.a.val) * (1 + |l.b.val / l.a.val|) ≤ 1024)
    (g4 : S ^ 3 * (1 + |l.b.val / l.a.val|) ^ 2 ≤ 2 ^ 20 * |l.a.val|) :
    ∃ ps, c.intersectionCircle o = .ok ps ∧ ∀ x y : ℝ,
      (x - c.center.x.val) ^ 2 + (y - c.center.y.val) ^ 2 = c.radius.val ^ 2 →
      (x - o.center.x.val) ^ 2 + (y - o.center.y.val) ^ 2 = o.radius.val ^ 2 →
      ∃ p ∈ ps, (p.x.val - x) ^ 2 + (p.y.val - y) ^ 2 ≤ 6 * (EPSILON : FP double).val +
        (2 : ℝ) ^ (-39 : ℤ) * reach c (l.c.val / l.a.val) ^ 2 + (2 : ℝ) ^ (-39 : ℤ) * (S ^ 3 / |l.a.val|) := by
  obtain ⟨k1, k2, k3⟩ := chord_rounded c o hS
  obtain ⟨ps, e, _, _, _, g⟩ := C184_line c l h1 h2 h3
  rw [circles_guard c o hc ho hS g1 g2, ← hl]
  refine ⟨ps, e, fun x y e1 e2 => ?_⟩
  have la : l.a = -(num 2) * (o.center.x - c.center.x) := by rw [hl]
  have lb : l.b = -(num 2) * (o.center.y - c.center.y) := by rw [hl]
  have lc : l.c = o.center.r2 - o.radius * o.radius - c.center.r2 + c.radius * c.radius := by rw [hl]
  rw [← la] at k1
  rw [← lb] at k2
  rw [← lc] at k3
  have a1 := abs_nonneg c.center.x.val
  have a2 := abs_nonneg c.center.y.val
  have a3 := abs_nonneg o.center.x.val
  have a4 := abs_nonneg o.center.y.val
  have a5 := abs_nonneg c.radius.val
  have a6 := abs_nonneg o.radius.val
  have T2 : (0 : ℝ) < (2 : ℝ) ^ (-200 : ℤ) := by positivity
  have S0 : 0 < S := by rw [hS]; positivity
  have ha20 : (2 : ℝ) ^ (-20 : ℤ) ≤ |l.a.val| := fp_EPSILON_ge.trans h1
  have ha0 : 0 < |l.a.val| := lt_of_lt_of_le (by positivity) ha20
  have han : l.a.val ≠ 0 := abs_pos.mp ha0
  have xr : |x - c.center.x.val| ≤ |c.radius.val| := sq_le_sq.mp (by nlinarith [sq_nonneg (y - c.center.y.val)])
  have yr : |y - c.center.y.val| ≤ |c.radius.val| := sq_le_sq.mp (by nlinarith [sq_nonneg (x - c.center.x.val)])
  have xS : |x| ≤ S := by
    have := abs_add_le (x - c.center.x.val) c.center.x.val
    rw [sub_add_cancel] at this
    linarith
  have yS : |y| ≤ S := by
    have := abs_add_le (y - c.center.y.val) c.center.y.val
    rw [sub_add_cancel] at this
    linarith
  have res : |l.a.val * x + l.b.val * y + l.c.val| ≤ (2 : ℝ) ^ (-45 : ℤ) * S ^ 2 := by
    rw [show l.a.val * x + l.b.val * y + l.c.val =
      (l.a.val - -2 * (o.center.x.val - c.center.x.val)) * x + (l.b.val - -2 * (o.center.y.val - c.center.y.val)) * y +
      (l.c.val - (o.center.x.val ^ 2 + o.center.y.val ^ 2 - o.radius.val ^ 2 - (c.center.x.val ^ 2 + c.center.y.val ^ 2) + c.radius.val ^ 2)) by
        linear_combination e2 - e1]
    refine (abs_add_three _ _ _).trans ?_
    rw [abs_mul, abs_mul]
    have m1 := mul_le_mul k1 xS (abs_nonneg x) (by positivity)
    have m2 := mul_le_mul k2 yS (abs_nonneg y) (by positivity)
    refine (add_le_add (add_le_add m1 m2) k3).trans ?_
    rw [show (2 : ℝ) ^ (-45 : ℤ) = 16 * (2 : ℝ) ^ (-49 : ℤ) by norm_num, show (2 : ℝ) ^ (-46 : ℤ) = 8 * (2 : ℝ) ^ (-49 : ℤ) by norm_num]
    have m3 : 0 < (2 : ℝ) ^ (-49 : ℤ) * S ^ 2 := by positivity
    generalize (2 : ℝ) ^ (-49 : ℤ) = w at *
    rw [show w * S * S + w * S * S + 8 * w * S ^ 2 = 10 * (w * S ^ 2) by ring, show 16 * w * S ^ 2 = 16 * (w * S ^ 2) by ring]
    linarith
  obtain ⟨δ, hδ⟩ : ∃ δ, δ = (l.a.val * x + l.b.val * y + l.c.val) / l.a.val := ⟨_, rfl⟩
  have hδa : δ * l.a.val = l.a.val * x + l.b.val * y + l.c.val := by rw [hδ, div_mul_cancel₀ _ han]
  have δle : |δ| ≤ (2 : ℝ) ^ (-45 : ℤ) * S ^ 2 / |l.a.val| := by
    rw [hδ, abs_div]
    exact div_le_div_of_nonneg_right res ha0.le
  have xS' : |x - c.center.x.val| ≤ S := by linarith
  obtain ⟨L, hL⟩ : ∃ L, L = 1 + |l.b.val / l.a.val| := ⟨_, rfl⟩
  rw [← hL] at g3 g4
  have L1 : 1 ≤ L := by rw [hL]; have := abs_nonneg (l.b.val / l.a.val); linarith
  obtain ⟨Q, hQ⟩ : ∃ Q, Q = S ^ 3 / |l.a.val| := ⟨_, rfl⟩
  have Q0 : 0 < Q := by rw [hQ]; positivity
  have Q20 : Q * L ^ 2 ≤ 2 ^ 20 := by
    rw [hQ, div_mul_eq_mul_div, div_le_iff₀ ha0]; exact g4
  have LL : 1 ≤ L ^ 2 := one_le_pow₀ L1
  have Q20' : Q ≤ 2 ^ 20 := (le_mul_of_one_le_right Q0.le LL).trans Q20
  have Sa : S / |l.a.val| ≤ 2 ^ 20 := by
    rcases le_total S 1 with h | h
    · rw [div_le_iff₀ ha0]
      refine h.trans ?_
      have : (2 : ℝ) ^ 20 * (2 : ℝ) ^ (-20 : ℤ) = 1 := by norm_num
      rw [← this]
      exact mul_le_mul_of_nonneg_left ha20 (by norm_num)
    · refine le_trans ?_ Q20'
      rw [hQ]
      refine div_le_div_of_nonneg_right ?_ ha0.le
      nlinarith [mul_self_nonneg S]
  have m1 : |x - c.center.x.val| * |δ| ≤ (2 : ℝ) ^ (-45 : ℤ) * Q := by
    refine (mul_le_mul xS' δle (abs_nonneg _) S0.le).trans (le_of_eq ?_)
    rw [hQ]; ring
  have m2 : δ ^ 2 ≤ (2 : ℝ) ^ (-70 : ℤ) * Q := by
    rw [← sq_abs]
    refine (pow_le_pow_left₀ (abs_nonneg _) δle 2).trans ?_
    have : ((2 : ℝ) ^ (-45 : ℤ) * S ^ 2 / |l.a.val|) ^ 2 = (2 : ℝ) ^ (-90 : ℤ) * Q * (S / |l.a.val|) := by
      rw [hQ, show (2 : ℝ) ^ (-90 : ℤ) = ((2 : ℝ) ^ (-45 : ℤ)) ^ 2 by norm_num]; ring
    rw [this]
    refine (mul_le_mul_of_nonneg_left Sa (by positivity)).trans (le_of_eq ?_)
    rw [mul_right_comm]; norm_num
  obtain ⟨p, hp, hpp⟩ := g x y δ hδa e1 (by
    rw [← hL]
    have n1 : (reach c (l.c.val / l.a.val) * L) ^ 2 ≤ 1024 ^ 2 := pow_le_pow_left₀ (by
      have : 0 ≤ reach c (l.c.val / l.a.val) := by unfold reach; positivity
      positivity) g3 2
    have n2 : L ^ 2 * (2 * |x - c.center.x.val| * |δ| + δ ^ 2) ≤ L ^ 2 * (4 * (2 : ℝ) ^ (-45 : ℤ) * Q) := by
      refine mul_le_mul_of_nonneg_left ?_ (by positivity)
      have : (2 : ℝ) ^ (-70 : ℤ) * Q ≤ (2 : ℝ) ^ (-45 : ℤ) * Q := mul_le_mul_of_nonneg_right (by norm_num) Q0.le
      have : 0 < (2 : ℝ) ^ (-45 : ℤ) * Q := by positivity
      nlinarith
    have n3 : L ^ 2 * (4 * (2 : ℝ) ^ (-45 : ℤ) * Q) ≤ 4 * (2 : ℝ) ^ (-45 : ℤ) * 2 ^ 20 := by
      rw [show L ^ 2 * (4 * (2 : ℝ) ^ (-45 : ℤ) * Q) = 4 * (2 : ℝ) ^ (-45 : ℤ) * (Q * L ^ 2) by ring]
      exact mul_le_mul_of_nonneg_left Q20 (by positivity)
    have n4 := mul_le_mul_of_nonneg_left n1 (show (0 : ℝ) ≤ 1500 * (2 : ℝ) ^ (-53 : ℤ) by positivity)
    have n5 := n2.trans n3
    refine lt_of_lt_of_le ?_ fp_EPSILON_ge
    have n6 : 1500 * (2 : ℝ) ^ (-53 : ℤ) * 1024 ^ 2 + 4 * (4 * (2 : ℝ) ^ (-45 : ℤ) * 2 ^ 20) < (2 : ℝ) ^ (-20 : ℤ) := by norm_num
    refine lt_of_le_of_lt (add_le_add n4 ?_) n6
    rw [mul_assoc 4]
    exact mul_le_mul_of_nonneg_left n5 (by norm_num))
  refine ⟨p, hp, hpp.trans (add_le_add le_rfl ?_)⟩
  rw [← hQ, mul_assoc]
  have : (2 : ℝ) ^ (-39 : ℤ) * Q = 64 * ((2 : ℝ) ^ (-45 : ℤ) * Q) := by rw [← mul_assoc]; norm_num
  have : (2 : ℝ) ^ (-70 : ℤ) * Q ≤ (2 : ℝ) ^ (-45 : ℤ) * Q := mul_le_mul_of_nonneg_right (by norm_num) Q0.le
  have : 0 < (2 : ℝ) ^ (-45 : ℤ) * Q := by positivity
  generalize (2 : ℝ) ^ (-45 : ℤ) * Q = w at *
  generalize (2 : ℝ) ^ (-70 : ℤ) * Q = w' at *
  generalize (2 : ℝ) ^ (-39 : ℤ) * Q = w'' at *
  linarith

set_option maxHeartbeats 1000000 in
/-- **C184** Two circles one above the other: every returned point is near both circles, and if they clearly cross, near every common
point a point is returned. -/
theorem C184_circles_vertical (c o : Circle (FP double)) (hc : c.center.FOk) (ho : o.center.FOk) (l : Line (FP double))
    (hl : l = ⟨-(num 2) * (o.center.x - c.center.x),
      -(num 2) * (o.center.y - c.center.y), o.center.r2 - o.radius * o.radius - c.center.r2 + c.radius * c.radius⟩)
    (hx : o.center.x.val = c.center.x.val) (h1 : (EPSILON : FP double).val ≤ |l.b.val|) (h2 : |l.b.val| ≤ (2 : ℝ) ^ (500 : ℤ))
    {S : ℝ} (hS : S = |c.center.x.val| + |c.center.y.val| + |o.center.x.val| + |o.center.y.val| + |c.radius.val| + |o.radius.val| +
      (2 : ℝ) ^ (-200 : ℤ)) :
    ∃ ps, c.intersectionCircle o = .ok ps ∧
      (∀ p ∈ ps, |(p.x.val - c.center.x.val) ^ 2 + (p.y.val - c.center.y.val) ^ 2 - c.radius.val ^ 2| ≤
        (EPSILON : FP double).val / 4 + (2 : ℝ) ^ (-39 : ℤ) * reach c (l.c.val / l.b.val) ^ 2 ∧
      |(p.x.val - o.center.x.val) ^ 2 + (p.y.val - o.center.y.val) ^ 2 - o.radius.val ^ 2| ≤
        (EPSILON : FP double).val / 4 + (2 : ℝ) ^ (-39 : ℤ) * reach c (l.c.val / l.b.val) ^ 2 +
          (2 : ℝ) ^ (-45 : ℤ) * (|l.b.val| * reach c (l.c.val / l.b.val)) + (2 : ℝ) ^ (-46 : ℤ) * (S * (|p.y.val| + S))) ∧
      (|c.radius.val - o.radius.val| + (2 : ℝ) ^ (-48 : ℤ) * S ≤ d o.center.fpt c.center.fpt →
        d o.center.fpt c.center.fpt + (2 : ℝ) ^ (-48 : ℤ) * S ≤ c.radius.val + o.radius.val →
        reach c (l.c.val / l.b.val) ≤ 1024 → S ^ 3 ≤ 2 ^ 20 * |l.b.val| → ∀ x y : ℝ,
        (x - c.center.x.val) ^ 2 + (y - c.center.y.val) ^ 2 = c.radius.val ^ 2 →
        (x - o.center.x.val) ^ 2 + (y - o.center.y.val) ^ 2 = o.radius.val ^ 2 →
        ∃ p ∈ ps, (p.x.val - x) ^ 2 + (p.y.val - y) ^ 2 ≤ 6 * (EPSILON : FP double).val +
          (2 : ℝ) ^ (-39 : ℤ) * reach c (l.c.val / l.b.val) ^ 2 + (2 : ℝ) ^ (-39 : ℤ) * (S ^ 3 / |l.b.val|)) := by
  obtain ⟨-, k2, k3⟩ := chord_rounded c o hS
  have la0 : l.a.val = 0 := by
    have z : rne 0 = 0 := rne_of_isDouble isDouble_zero
    rw [hl]
    change rne (-(num 2 : FP double).val * rne (o.center.x.val - c.center.x.val)) = 0
    rw [hx, sub_self, z, mul_zero, z]
  obtain ⟨ps, e, gs, _, _, g⟩ := C184_horizontal c l (by rw [la0, abs_zero]; exact fp_EPSILON.1) h1 h2
  have lb : l.b = -(num 2) * (o.center.y - c.center.y) := by rw [hl]
  have lc : l.c = o.center.r2 - o.radius * o.radius - c.center.r2 + c.radius * c.radius := by rw [hl]
  rw [← lb] at k2
  rw [← lc] at k3
  have S0 : 0 < S := by rw [hS]; positivity
  have sound : ∀ p ∈ ps, |(p.x.val - c.center.x.val) ^ 2 + (p.y.val - c.center.y.val) ^ 2 - c.radius.val ^ 2| ≤
        (EPSILON : FP double).val / 4 + (2 : ℝ) ^ (-39 : ℤ) * reach c (l.c.val / l.b.val) ^ 2 ∧
      |(p.x.val - o.center.x.val) ^ 2 + (p.y.val - o.center.y.val) ^ 2 - o.radius.val ^ 2| ≤
        (EPSILON : FP double).val / 4 + (2 : ℝ) ^ (-39 : ℤ) * reach c (l.c.val / l.b.val) ^ 2 +
          (2 : ℝ) ^ (-45 : ℤ) * (|l.b.val| * reach c (l.c.val / l.b.val)) + (2 : ℝ) ^ (-46 : ℤ) * (S * (|p.y.val| + S)) := by
    intro p hp
    obtain ⟨g1, g2⟩ := gs p hp
    refine ⟨g2, ?_⟩
    have y0 := abs_nonneg p.y.val
    rw [show (p.x.val - o.center.x.val) ^ 2 + (p.y.val - o.center.y.val) ^ 2 - o.radius.val ^ 2 =
      ((p.x.val - c.center.x.val) ^ 2 + (p.y.val - c.center.y.val) ^ 2 - c.radius.val ^ 2) + (l.b.val * p.y.val + l.c.val) +
      (-(l.b.val - -2 * (o.center.y.val - c.center.y.val)) * p.y.val +
        -(l.c.val - (o.center.x.val ^ 2 + o.center.y.val ^ 2 - o.radius.val ^ 2 - (c.center.x.val ^ 2 + c.center.y.val ^ 2) +
          c.radius.val ^ 2))) by rw [hx]; ring]
    refine (abs_add_three _ _ _).trans (add_le_add (add_le_add g2 g1) ?_)
    refine (abs_add_le _ _).trans ?_
    rw [abs_mul, abs_neg, abs_neg]
    have m2 := mul_le_mul_of_nonneg_right k2 y0
    refine (add_le_add m2 k3).trans ?_
    have m3 : (2 : ℝ) ^ (-49 : ℤ) ≤ (2 : ℝ) ^ (-46 : ℤ) := zpow_le_zpow_right₀ one_le_two (by norm_num)
    have m4 := mul_le_mul_of_nonneg_right m3 (show 0 ≤ S * |p.y.val| by positivity)
    generalize (2 : ℝ) ^ (-49 : ℤ) = w at *
    generalize (2 : ℝ) ^ (-46 : ℤ) = v at *
    rw [show v * (S * (|p.y.val| + S)) = v * (S * |p.y.val|) + v * S ^ 2 by ring, mul_assoc]
    linarith
  by_cases hgd : |c.radius.val - o.radius.val| + (2 : ℝ) ^ (-48 : ℤ) * S ≤ d o.center.fpt c.center.fpt ∧
      d o.center.fpt c.center.fpt + (2 : ℝ) ^ (-48 : ℤ) * S ≤ c.radius.val + o.radius.val
  swap
  · unfold Circle.intersectionCircle
    dsimp only
    rw [← hl]
    split
    · exact ⟨[], rfl, fun p hp => by simp at hp, fun g1 g2 => absurd ⟨g1, g2⟩ hgd⟩
    · exact ⟨ps, e, sound, fun g1 g2 => absurd ⟨g1, g2⟩ hgd⟩
  obtain ⟨g1, g2⟩ := hgd
  rw [circles_guard c o hc ho hS g1 g2, ← hl]
  refine ⟨ps, e, sound, fun _ _ g3 g4 x y e1 e2 => ?_⟩
  have a1 := abs_nonneg c.center.x.val
  have a2 := abs_nonneg c.center.y.val
  have a3 := abs_nonneg o.center.x.val
  have a4 := abs_nonneg o.center.y.val
  have a5 := abs_nonneg c.radius.val
  have a6 := abs_nonneg o.radius.val
  have T2 : (0 : ℝ) < (2 : ℝ) ^ (-200 : ℤ) := by positivity
  have ha20 : (2 : ℝ) ^ (-20 : ℤ) ≤ |l.b.val| := fp_EPSILON_ge.trans h1
  have ha0 : 0 < |l.b.val| := lt_of_lt_of_le (by positivity) ha20
  have han : l.b.val ≠ 0 := abs_pos.mp ha0
  have xr : |x - c.center.x.val| ≤ |c.radius.val| := sq_le_sq.mp (by nlinarith [sq_nonneg (y - c.center.y.val)])
  have yr : |y - c.center.y.val| ≤ |c.radius.val| := sq_le_sq.mp (by nlinarith [sq_nonneg (x - c.center.x.val)])
  have yS : |y| ≤ S := by
    have := abs_add_le (y - c.center.y.val) c.center.y.val
    rw [sub_add_cancel] at this
    linarith
  have res : |l.b.val * y + l.c.val| ≤ (2 : ℝ) ^ (-45 : ℤ) * S ^ 2 := by
    rw [show l.b.val * y + l.c.val =
      (l.b.val - -2 * (o.center.y.val - c.center.y.val)) * y +
      (l.c.val - (o.center.x.val ^ 2 + o.center.y.val ^ 2 - o.radius.val ^ 2 - (c.center.x.val ^ 2 + c.center.y.val ^ 2) + c.radius.val ^ 2)) by
        rw [hx] at e2 ⊢
        linear_combination e2 - e1]
    refine (abs_add_le _ _).trans ?_
    rw [abs_mul]
    have m2 := mul_le_mul k2 yS (abs_nonneg y) (by positivity)
    refine (add_le_add m2 k3).trans ?_
    rw [show (2 : ℝ) ^ (-45 : ℤ) = 16 * (2 : ℝ) ^ (-49 : ℤ) by norm_num, show (2 : ℝ) ^ (-46 : ℤ) = 8 * (2 : ℝ) ^ (-49 : ℤ) by norm_num]
    have m3 : 0 < (2 : ℝ) ^ (-49 : ℤ) * S ^ 2 := by positivity
    generalize (2 : ℝ) ^ (-49 : ℤ) = w at *
    rw [show w * S * S + 8 * w * S ^ 2 = 9 * (w * S ^ 2) by ring, show 16 * w * S ^ 2 = 16 * (w * S ^ 2) by ring]
    linarith
  obtain ⟨δ, hδ⟩ : ∃ δ, δ = (l.b.val * y + l.c.val) / l.b.val := ⟨_, rfl⟩
  have hδa : δ * l.b.val = l.b.val * y + l.c.val := by rw [hδ, div_mul_cancel₀ _ han]
  have δle : |δ| ≤ (2 : ℝ) ^ (-45 : ℤ) * S ^ 2 / |l.b.val| := by
    rw [hδ, abs_div]
    exact div_le_div_of_nonneg_right res ha0.le
  have xS' : |y - c.center.y.val| ≤ S := by linarith
  obtain ⟨Q, hQ⟩ : ∃ Q, Q = S ^ 3 / |l.b.val| := ⟨_, rfl⟩
  have Q0 : 0 < Q := by rw [hQ]; positivity
  have Q20' : Q ≤ 2 ^ 20 := by
    rw [hQ, div_le_iff₀ ha0]; exact g4
  have Sa : S / |l.b.val| ≤ 2 ^ 20 := by
    rcases le_total S 1 with h | h
    · rw [div_le_iff₀ ha0]
      refine h.trans ?_
      have : (2 : ℝ) ^ 20 * (2 : ℝ) ^ (-20 : ℤ) = 1 := by norm_num
      rw [← this]
      exact mul_le_mul_of_nonneg_left ha20 (by norm_num)
    · refine le_trans ?_ Q20'
      rw [hQ]
      refine div_le_div_of_nonneg_right ?_ ha0.le
      nlinarith [mul_self_nonneg S]
  have m1 : |y - c.center.y.val| * |δ| ≤ (2 : ℝ) ^ (-45 : ℤ) * Q := by
    refine (mul_le_mul xS' δle (abs_nonneg _) S0.le).trans (le_of_eq ?_)
    rw [hQ]; ring
  have m2 : δ ^ 2 ≤ (2 : ℝ) ^ (-70 : ℤ) * Q := by
    rw [← sq_abs]
    refine (pow_le_pow_left₀ (abs_nonneg _) δle 2).trans ?_
    have : ((2 : ℝ) ^ (-45 : ℤ) * S ^ 2 / |l.b.val|) ^ 2 = (2 : ℝ) ^ (-90 : ℤ) * Q * (S / |l.b.val|) := by
      rw [hQ, show (2 : ℝ) ^ (-90 : ℤ) = ((2 : ℝ) ^ (-45 : ℤ)) ^ 2 by norm_num]; ring
    rw [this]
    refine (mul_le_mul_of_nonneg_left Sa (by positivity)).trans (le_of_eq ?_)
    rw [mul_right_comm]; norm_num
  obtain ⟨p, hp, hpp⟩ := g x y δ hδa e1 (by
    have n1 : reach c (l.c.val / l.b.val) ^ 2 ≤ 1024 ^ 2 := pow_le_pow_left₀ (by unfold reach; positivity) g3 2
    have n5 : 2 * |y - c.center.y.val| * |δ| + δ ^ 2 ≤ 4 * (2 : ℝ) ^ (-45 : ℤ) * 2 ^ 20 := by
      refine le_trans ?_ (mul_le_mul_of_nonneg_left Q20' (by positivity))
      have : (2 : ℝ) ^ (-70 : ℤ) * Q ≤ (2 : ℝ) ^ (-45 : ℤ) * Q := mul_le_mul_of_nonneg_right (by norm_num) Q0.le
      have : 0 < (2 : ℝ) ^ (-45 : ℤ) * Q := by positivity
      rw [mul_assoc, mul_assoc]
      generalize (2 : ℝ) ^ (-45 : ℤ) * Q = w at *
      generalize (2 : ℝ) ^ (-70 : ℤ) * Q = w' at *
      linarith
    have n4 := mul_le_mul_of_nonneg_left n1 (show (0 : ℝ) ≤ 1500 * (2 : ℝ) ^ (-53 : ℤ) by positivity)
    refine lt_of_lt_of_le ?_ fp_EPSILON_ge
    have n6 : 1500 * (2 : ℝ) ^ (-53 : ℤ) * 1024 ^ 2 + 4 * (4 * (2 : ℝ) ^ (-45 : ℤ) * 2 ^ 20) < (2 : ℝ) ^ (-20 : ℤ) := by norm_num
    refine lt_of_le_of_lt (add_le_add n4 ?_) n6
    exact mul_le_mul_of_nonneg_left n5 (by norm_num))
  refine ⟨p, hp, hpp.trans (add_le_add le_rfl ?_)⟩
  rw [← hQ, mul_assoc]
  have : (2 : ℝ) ^ (-39 : ℤ) * Q = 64 * ((2 : ℝ) ^ (-45 : ℤ) * Q) := by rw [← mul_assoc]; norm_num
  have : (2 : ℝ) ^ (-70 : ℤ) * Q ≤ (2 : ℝ) ^ (-45 : ℤ) * Q := mul_le_mul_of_nonneg_right (by norm_num) Q0.le
  have : 0 < (2 : ℝ) ^ (-45 : ℤ) * Q := by positivity
  generalize (2 : ℝ) ^ (-45 : ℤ) * Q = w at *
  generalize (2 : ℝ) ^ (-70 : ℤ) * Q = w' at *
  generalize (2 : ℝ) ^ (-39 : ℤ) * Q = w'' at *
  linarith

/-- The hypotheses are met: the unit circles about `(0, 0)` and `(1, 0)`; some returned point is near the point `(1/2, √3/2)`. -/
example : ∃ ps, (⟨Vec.ofXY ⟨0⟩ ⟨0⟩, ⟨1⟩⟩ : Circle (FP double)).intersectionCircle ⟨Vec.ofXY ⟨1⟩ ⟨0⟩, ⟨1⟩⟩ = .ok ps ∧
    ∃ p ∈ ps, (p.x.val - 1 / 2) ^ 2 + (p.y.val - √3 / 2) ^ 2 ≤ 1 / 50000 := by
  have z : ∀ n : ℤ, |n| ≤ 2 ^ 53 → rne n = n := fun n hn => rne_of_isDouble (isDouble_int hn)
  have z0 := z 0 (by norm_num)
  have z1 := z 1 (by norm_num)
  have z2 := z (-2) (by norm_num)
  have e2 : (num 2 : FP double).val = 2 := (double.int 2 (by norm_num)).trans (by norm_num)
  push_cast at z0 z1 z2
  have d1 : IsDouble 1 := by simpa using isDouble_int (n := 1) (by norm_num)
  obtain ⟨l, hl⟩ : ∃ l : Line (FP double), l = ⟨-(num 2) * (⟨1⟩ - ⟨0⟩), -(num 2) * (⟨0⟩ - ⟨0⟩),
    (Vec.ofXY ⟨1⟩ ⟨0⟩).r2 - ⟨1⟩ * ⟨1⟩ - (Vec.ofXY ⟨0⟩ ⟨0⟩).r2 + ⟨1⟩ * ⟨1⟩⟩ := ⟨_, rfl⟩
  have la : l.a.val = -2 := by
    rw [hl]; change rne (-(num 2 : FP double).val * rne (1 - 0)) = -2
    rw [e2, sub_zero, z1, mul_one, z2]
  have lb : l.b.val = 0 := by
    rw [hl]; change rne (-(num 2 : FP double).val * rne (0 - 0)) = 0
    rw [sub_zero, z0, mul_zero, z0]
  have lc : l.c.val = 1 := by
    rw [hl]
    change rne (rne (rne (rne (rne (1 * 1) + rne (0 * 0)) - rne (1 * 1)) - rne (rne (0 * 0) + rne (0 * 0))) + rne (1 * 1)) = 1
    norm_num [z0, z1]
  have hE := fp_EPSILON_le
  have T : (2 : ℝ) ^ (-200 : ℤ) ≤ 1 / 2 := (zpow_le_zpow_right₀ one_le_two (show (-200 : ℤ) ≤ -1 by norm_num)).trans (by norm_num)
  have T0 : (0 : ℝ) < (2 : ℝ) ^ (-200 : ℤ) := by positivity
  obtain ⟨S, hS⟩ : ∃ S : ℝ, S = |(0 : ℝ)| + |(0 : ℝ)| + |(1 : ℝ)| + |(0 : ℝ)| + |(1 : ℝ)| + |(1 : ℝ)| + (2 : ℝ) ^ (-200 : ℤ) := ⟨_, rfl⟩
  have S4 : S ≤ 4 := by rw [hS, abs_zero, abs_one]; norm_num
  have S0 : 0 < S := by rw [hS]; positivity
  have S3 : S ^ 3 ≤ 4 ^ 3 := pow_le_pow_left₀ S0.le S4 3
  have hd : d (Vec.fpt (Vec.ofXY ⟨1⟩ ⟨0⟩)) (Vec.fpt (Vec.ofXY ⟨0⟩ ⟨0⟩)) = 1 := by
    change √((1 - 0 : ℝ) ^ 2 + (0 - 0) ^ 2) = 1
    norm_num
  have R : reach (⟨Vec.ofXY ⟨0⟩ ⟨0⟩, ⟨1⟩⟩ : Circle (FP double)) (l.c.val / l.a.val) ≤ 2 := by
    rw [la, lc]
    change |(1 / -2 : ℝ)| + |(0 : ℝ)| + |(0 : ℝ)| + |(1 : ℝ)| + _ ≤ 2
    rw [abs_zero, abs_one, abs_of_neg (by norm_num)]
    linarith
  have R0 : 0 ≤ reach (⟨Vec.ofXY ⟨0⟩ ⟨0⟩, ⟨1⟩⟩ : Circle (FP double)) (l.c.val / l.a.val) := by unfold reach; positivity
  have h3 : √3 ^ 2 = 3 := Real.sq_sqrt (by norm_num)
  obtain ⟨ps, e, g⟩ := C184_circles_found ⟨Vec.ofXY ⟨0⟩ ⟨0⟩, ⟨1⟩⟩ ⟨Vec.ofXY ⟨1⟩ ⟨0⟩, ⟨1⟩⟩ ⟨isDouble_zero, isDouble_zero⟩ ⟨d1, isDouble_zero⟩ l hl
    (by rw [la]; norm_num; linarith)
    (by rw [la, abs_neg, abs_of_pos (by norm_num)]
        exact (show (2 : ℝ) = (2 : ℝ) ^ (1 : ℤ) by norm_num).trans_le (zpow_le_zpow_right₀ one_le_two (by norm_num)))
    (by rw [lb, zero_div, abs_zero]; positivity) hS
    (by rw [hd]; change |(1 - 1 : ℝ)| + _ ≤ 1; norm_num; linarith)
    (by rw [hd]; change 1 + _ ≤ (1 + 1 : ℝ); norm_num; linarith)
    (by rw [lb, zero_div, abs_zero]; linarith)
    (by rw [lb, la, zero_div, abs_zero]; norm_num; linarith)
  obtain ⟨p, hp, h⟩ := g (1 / 2) (√3 / 2) (by
    change (1 / 2 - (0 : ℝ)) ^ 2 + (√3 / 2 - (0 : ℝ)) ^ 2 = (1 : ℝ) ^ 2
    nlinarith) (by
    change (1 / 2 - (1 : ℝ)) ^ 2 + (√3 / 2 - (0 : ℝ)) ^ 2 = (1 : ℝ) ^ 2
    nlinarith)
  refine ⟨ps, e, p, hp, h.trans ?_⟩
  have m1 := mul_le_mul_of_nonneg_left (pow_le_pow_left₀ R0 R 2) (show (0 : ℝ) ≤ (2 : ℝ) ^ (-39 : ℤ) by positivity)
  have m2 : (2 : ℝ) ^ (-39 : ℤ) * (S ^ 3 / |l.a.val|) ≤ (2 : ℝ) ^ (-39 : ℤ) * 32 := by
    refine mul_le_mul_of_nonneg_left ?_ (by positivity)
    rw [la, abs_neg, abs_of_pos (by norm_num)]
    linarith
  have m3 : (2 : ℝ) ^ (-39 : ℤ) * 2 ^ 2 ≤ 1 / 1000000 := by norm_num
  have m4 : (2 : ℝ) ^ (-39 : ℤ) * 32 ≤ 1 / 1000000 := by norm_num
  linarith

/-- **C184** The test for disjoint circles has no tolerance: the circle of radius `x - 1/4` about `(0, 0)` and the circle of radius
`1/4 + 2^-54` about `(x, 3 * 2^-28)`, with `x = 695013841 * 2^-29`, cross each other in two points, but are reported as disjoint. -/
theorem C184_refuted_circles : ∃ c o : Circle (FP double), c.center.FOk ∧ o.center.FOk ∧ IsDouble c.radius.val ∧ IsDouble o.radius.val ∧
    |c.radius.val - o.radius.val| < d o.center.fpt c.center.fpt ∧ d o.center.fpt c.center.fpt < c.radius.val + o.radius.val ∧
    c.intersectionCircle o = .ok [] := by
  have dx : IsDouble (695013841 / 2 ^ 29 : ℝ) := ⟨695013841, -29, by norm_num, by norm_num, by norm_num⟩
  have dy : IsDouble (3 / 2 ^ 28 : ℝ) := ⟨3, -28, by norm_num, by norm_num, by norm_num⟩
  have dr : IsDouble (695013841 / 2 ^ 29 - 1 / 4 : ℝ) := ⟨560796113, -29, by norm_num, by norm_num, by norm_num⟩
  have ds : IsDouble (1 / 4 + 1 / 2 ^ 54 : ℝ) := ⟨2 ^ 52 + 1, -54, by norm_num, by norm_num, by norm_num⟩
  have q0 : (0 : ℝ) ≤ (695013841 / 2 ^ 29 - 0) * (695013841 / 2 ^ 29 - 0) + (3 / 2 ^ 28 - 0) * (3 / 2 ^ 28 - 0) := by norm_num
  refine ⟨⟨Vec.ofXY ⟨0⟩ ⟨0⟩, ⟨695013841 / 2 ^ 29 - 1 / 4⟩⟩, ⟨Vec.ofXY ⟨695013841 / 2 ^ 29⟩ ⟨3 / 2 ^ 28⟩, ⟨1 / 4 + 1 / 2 ^ 54⟩⟩,
    ⟨isDouble_zero, isDouble_zero⟩, ⟨dx, dy⟩, dr, ds, ?_, ?_, ?_⟩
  · change |(695013841 / 2 ^ 29 - 1 / 4 : ℝ) - (1 / 4 + 1 / 2 ^ 54)| < √((695013841 / 2 ^ 29 - 0) ^ 2 + (3 / 2 ^ 28 - 0) ^ 2)
    rw [abs_of_pos (by norm_num)]
    exact Real.lt_sqrt_of_sq_lt (by norm_num)
  · change √((695013841 / 2 ^ 29 - 0 : ℝ) ^ 2 + (3 / 2 ^ 28 - 0) ^ 2) < (695013841 / 2 ^ 29 - 1 / 4 : ℝ) + (1 / 4 + 1 / 2 ^ 54)
    rw [Real.sqrt_lt' (by norm_num)]
    norm_num
  · unfold Circle.intersectionCircle
    dsimp only
    rw [if_pos]
    right
    rw [FP.lt_def]
    change rne ((695013841 / 2 ^ 29 - 1 / 4) + (1 / 4 + 1 / 2 ^ 54)) < rne √(rne (rne (rne (695013841 / 2 ^ 29 - 0) * rne (695013841 / 2 ^ 29 - 0)) +
      rne (rne (3 / 2 ^ 28 - 0) * rne (3 / 2 ^ 28 - 0))))
    have e1 : rne (695013841 / 2 ^ 29 * (695013841 / 2 ^ 29)) = 7547566237212083 / 2 ^ 52 := by
      rw [rne_eq 0 7547566237212083 (by norm_num) (by norm_num [abs_of_pos]) (by norm_num [abs_of_pos]) (by norm_num [abs_lt])]
      norm_num
    have e2 : rne (3 / 2 ^ 28 * (3 / 2 ^ 28)) = 9 / 2 ^ 56 := by
      rw [show (3 / 2 ^ 28 * (3 / 2 ^ 28) : ℝ) = 9 / 2 ^ 56 by norm_num]
      exact rne_of_isDouble ⟨9, -56, by norm_num, by norm_num, by norm_num⟩
    have e3 : rne (7547566237212083 / 2 ^ 52 + 9 / 2 ^ 56) = 7547566237212084 / 2 ^ 52 := by
      rw [rne_eq 0 7547566237212084 (by norm_num) (by norm_num [abs_of_pos]) (by norm_num [abs_of_pos]) (by norm_num [abs_lt])]
      norm_num
    have l1 : (11660397333446657 / 2 ^ 53 : ℝ) < √(7547566237212084 / 2 ^ 52) := Real.lt_sqrt_of_sq_lt (by norm_num)
    have l2 : √(7547566237212084 / 2 ^ 52) < (11660397333446659 / 2 ^ 53 : ℝ) := by
      rw [Real.sqrt_lt' (by norm_num)]; norm_num
    have e4 : rne √(7547566237212084 / 2 ^ 52) = 5830198666723329 / 2 ^ 52 := by
      have p0 := Real.sqrt_nonneg (7547566237212084 / 2 ^ 52)
      generalize √(7547566237212084 / 2 ^ 52 : ℝ) = z at *
      rw [rne_eq 0 5830198666723329 (by norm_num) (by rw [abs_of_nonneg p0]; norm_num at l1 ⊢; linarith)
        (by rw [abs_of_nonneg p0]; norm_num at l2 ⊢; linarith) (by norm_num at l1 l2 ⊢; rw [abs_lt]; constructor <;> linarith)]
      norm_num
    have e5 : rne ((695013841 / 2 ^ 29 - 1 / 4) + (1 / 4 + 1 / 2 ^ 54)) = 695013841 / 2 ^ 29 := by
      rw [rne_eq 0 5830198666723328 (by norm_num) (by norm_num [abs_of_pos]) (by norm_num [abs_of_pos]) (by norm_num [abs_lt])]
      norm_num
    rw [sub_zero, sub_zero, rne_of_isDouble dx, rne_of_isDouble dy, e1, e2, e3, e4, e5]
    norm_num

end PyrusGeom
