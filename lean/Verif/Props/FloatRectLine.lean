import Verif.Props.FloatCircleRay

/-! # C200: the intersections of a rectangle with a line, a ray or a segment in double precision -/

namespace PyrusGeom
open Spec

/-! ## One edge -/

theorem edge_x_core {u η A s t L T c1 N X : ℝ} (hu0 : 0 ≤ u) (hu1 : u ≤ 1 / 1000) (hη : 0 ≤ η) (ht : t = A * s) (hT0 : T ≠ 0)
    (hT : |T - t| ≤ u * |t|) (h1 : |c1 - A * L| ≤ u * |A * L| + η) (h2 : |N - s * c1| ≤ u * |s * c1| + η)
    (h3 : |X - N / T| ≤ u * |N / T| + η) : |X - L| ≤ 8 * u * |L| + (4 * (|s| + 1) / |T| + 1) * η := by
  have T0 : 0 < |T| := abs_pos.mpr hT0
  have s0 := abs_nonneg s
  have tL0 := mul_nonneg (abs_nonneg t) (abs_nonneg L)
  have a1 : |s| * |c1 - A * L| ≤ u * (|t| * |L|) + |s| * η := by
    refine (mul_le_mul_of_nonneg_left h1 s0).trans (le_of_eq ?_)
    rw [ht, abs_mul, abs_mul]; ring
  have a2 : |s * c1 - t * L| = |s| * |c1 - A * L| := by rw [← abs_mul, ht]; ring_nf
  have a3 : |s * c1| ≤ 2 * (|t| * |L|) + |s| * η := by
    have := abs_sub_abs_le_abs_sub (s * c1) (t * L)
    rw [a2, abs_mul t L] at this
    nlinarith
  have a3' : |s * c1| ≤ (1 + u) * (|t| * |L|) + |s| * η := by
    have := abs_sub_abs_le_abs_sub (s * c1) (t * L)
    rw [a2, abs_mul t L] at this
    nlinarith
  have sη : 0 ≤ |s| * η := mul_nonneg s0 hη
  have utl : 0 ≤ u * (|t| * |L|) := mul_nonneg hu0 tL0
  have a4 : |N - t * L| ≤ 5 / 2 * (u * (|t| * |L|)) + 2 * ((|s| + 1) * η) := by
    have k := abs_sub_le N (s * c1) (t * L)
    have m := mul_le_mul_of_nonneg_left a3' hu0
    have m2 : u * (u * (|t| * |L|)) ≤ 1 / 1000 * (u * (|t| * |L|)) := mul_le_mul_of_nonneg_right hu1 utl
    have m3 : u * (|s| * η) ≤ 1 / 1000 * (|s| * η) := mul_le_mul_of_nonneg_right hu1 sη
    rw [a2] at k
    nlinarith
  have a5 : |N - T * L| ≤ 7 / 2 * (u * (|t| * |L|)) + 2 * ((|s| + 1) * η) := by
    have k := abs_sub_le N (t * L) (T * L)
    have e : |t * L - T * L| ≤ u * (|t| * |L|) := by
      rw [← sub_mul, abs_mul, abs_sub_comm]
      exact (mul_le_mul_of_nonneg_right hT (abs_nonneg L)).trans (le_of_eq (by ring))
    linarith
  have a6 : |t| ≤ 11 / 10 * |T| := by
    have := abs_sub_abs_le_abs_sub t T
    rw [abs_sub_comm] at this
    have := mul_le_mul_of_nonneg_right hu1 (abs_nonneg t)
    have := abs_nonneg t
    linarith
  have a7 : |N / T - L| ≤ 4 * (u * |L|) + 2 * (|s| + 1) / |T| * η := by
    rw [show N / T - L = (N - T * L) / T by field_simp, abs_div, div_le_iff₀ T0]
    refine a5.trans ?_
    have : u * (|t| * |L|) ≤ u * (11 / 10 * |T| * |L|) := mul_le_mul_of_nonneg_left (mul_le_mul_of_nonneg_right a6 (abs_nonneg L)) hu0
    have e : (4 * (u * |L|) + 2 * (|s| + 1) / |T| * η) * |T| = 4 * (u * |L|) * |T| + 2 * ((|s| + 1) * η) := by field_simp
    rw [e]
    have : 0 ≤ u * |L| * |T| := by positivity
    nlinarith
  have a8 : |N / T| ≤ |L| + |N / T - L| := by
    have := abs_sub_abs_le_abs_sub (N / T) L
    linarith
  have k := abs_sub_le X (N / T) L
  have m := mul_le_mul_of_nonneg_left a8 hu0
  have m2 := mul_le_mul_of_nonneg_right hu1 (abs_nonneg (N / T - L))
  have e : (4 * (|s| + 1) / |T| + 1) * η = 2 * (2 * (|s| + 1) / |T| * η) + η := by ring
  rw [e]
  have p : 0 ≤ 2 * (|s| + 1) / |T| * η := by positivity
  have p2 : 0 ≤ u * |L| := by positivity
  nlinarith

theorem edge_y_core {u η A s t L T c1 M c P Q R Y : ℝ} (hu0 : 0 ≤ u) (hu1 : u ≤ 1 / 1000) (hη : 0 ≤ η) (ht : t = A * s) (hT0 : T ≠ 0)
    (hT : |T - t| ≤ u * |t|) (h1 : |c1 - A * L| ≤ u * |A * L| + η) (h2 : |P - M * c1| ≤ u * |M * c1| + η) (h3 : |Q - A * c| ≤ u * |A * c| + η)
    (h4 : |R - (P + Q)| ≤ u * |P + Q| + η) (h5 : |Y + R / T| ≤ u * |R / T| + η) :
    |s * Y + M * L + c| ≤ 8 * u * (|M * L| + |c|) + (8 * |s| * (|M| + 1) / |T| + |s|) * η := by
  have T0 : 0 < |T| := abs_pos.mpr hT0
  have s0 := abs_nonneg s
  have M0 := abs_nonneg M
  have Mη : 0 ≤ |M| * η := mul_nonneg M0 hη
  obtain ⟨W, hW⟩ : ∃ W, W = |M * L| + |c| := ⟨_, rfl⟩
  have W0 : 0 ≤ W := by rw [hW]; positivity
  obtain ⟨S1, hS1⟩ : ∃ S1, S1 = |A| * |M * L| := ⟨_, rfl⟩
  obtain ⟨S2, hS2⟩ : ∃ S2, S2 = |A| * |c| := ⟨_, rfl⟩
  have p1 : 0 ≤ S1 := by rw [hS1]; positivity
  have p2 : 0 ≤ S2 := by rw [hS2]; positivity
  have a1 : |M * c1 - A * (M * L)| ≤ u * S1 + |M| * η := by
    rw [show M * c1 - A * (M * L) = M * (c1 - A * L) by ring, abs_mul]
    refine (mul_le_mul_of_nonneg_left h1 M0).trans (le_of_eq ?_)
    rw [hS1, abs_mul, abs_mul]; ring
  have a2 : |M * c1| ≤ S1 + (u * S1 + |M| * η) := by
    have := abs_sub_abs_le_abs_sub (M * c1) (A * (M * L))
    rw [abs_mul A, ← hS1] at this
    linarith
  have uS1 : 0 ≤ u * S1 := mul_nonneg hu0 p1
  have uS2 : 0 ≤ u * S2 := mul_nonneg hu0 p2
  have a3 : |P - A * (M * L)| ≤ 21 / 10 * (u * S1) + 2 * ((|M| + 1) * η) := by
    have k := abs_sub_le P (M * c1) (A * (M * L))
    have m := mul_le_mul_of_nonneg_left a2 hu0
    have m2 : u * (u * S1) ≤ 1 / 1000 * (u * S1) := mul_le_mul_of_nonneg_right hu1 uS1
    have m3 : u * (|M| * η) ≤ 1 / 1000 * (|M| * η) := mul_le_mul_of_nonneg_right hu1 Mη
    nlinarith
  have a4 : |Q - A * c| ≤ u * S2 + η := by rw [hS2, ← abs_mul]; exact h3
  have a5 : |P + Q - A * (M * L + c)| ≤ 21 / 10 * (u * (S1 + S2)) + 3 * ((|M| + 1) * η) := by
    rw [show P + Q - A * (M * L + c) = (P - A * (M * L)) + (Q - A * c) by ring]
    refine (abs_add_le _ _).trans ?_
    nlinarith
  have SW : S1 + S2 = |A| * W := by rw [hS1, hS2, hW]; ring
  have hMW : |M * L + c| ≤ W := by rw [hW]; exact abs_add_le _ _
  rw [SW] at a5
  have AW : 0 ≤ |A| * W := by positivity
  have uAW : 0 ≤ u * (|A| * W) := mul_nonneg hu0 AW
  have a6 : |P + Q| ≤ |A| * W + |P + Q - A * (M * L + c)| := by
    have := abs_sub_abs_le_abs_sub (P + Q) (A * (M * L + c))
    rw [abs_mul A] at this
    have := mul_le_mul_of_nonneg_left hMW (abs_nonneg A)
    linarith
  have M1η : 0 ≤ (|M| + 1) * η := by positivity
  have a7 : |R - A * (M * L + c)| ≤ 32 / 10 * (u * (|A| * W)) + 5 * ((|M| + 1) * η) := by
    have k := abs_sub_le R (P + Q) (A * (M * L + c))
    have m := mul_le_mul_of_nonneg_left a6 hu0
    have m2 := mul_le_mul_of_nonneg_right hu1 (abs_nonneg (P + Q - A * (M * L + c)))
    have : η ≤ (|M| + 1) * η := by nlinarith
    nlinarith
  have a8 : |t| ≤ 11 / 10 * |T| := by
    have := abs_sub_abs_le_abs_sub t T
    rw [abs_sub_comm] at this
    have := mul_le_mul_of_nonneg_right hu1 (abs_nonneg t)
    have := abs_nonneg t
    linarith
  have uW : 0 ≤ u * W := mul_nonneg hu0 W0
  obtain ⟨ζ, hζ⟩ : ∃ ζ, ζ = 5 * |s| * (|M| + 1) / |T| * η := ⟨_, rfl⟩
  have ζ0 : 0 ≤ ζ := by rw [hζ]; positivity
  have a9 : |s * (R / T) - (M * L + c)| ≤ 5 * (u * W) + ζ := by
    rw [show s * (R / T) - (M * L + c) = (s * (R - A * (M * L + c)) + (t - T) * (M * L + c)) / T by rw [ht]; field_simp; ring, abs_div, div_le_iff₀ T0]
    refine (abs_add_le _ _).trans ?_
    rw [abs_mul s, abs_mul (t - T), abs_sub_comm t T]
    have m1 := mul_le_mul_of_nonneg_left a7 s0
    have m2 := mul_le_mul hT hMW (abs_nonneg _) (by positivity)
    have e1 : |s| * (32 / 10 * (u * (|A| * W)) + 5 * ((|M| + 1) * η)) = 32 / 10 * (u * W) * |t| + 5 * |s| * (|M| + 1) * η := by
      rw [ht, abs_mul]; ring
    have e2 : (5 * (u * W) + ζ) * |T| = 5 * (u * W) * |T| + 5 * |s| * (|M| + 1) * η := by rw [hζ]; field_simp
    rw [e1] at m1
    rw [e2]
    have m3 := mul_le_mul_of_nonneg_left a8 uW
    have : 0 ≤ u * W * |T| := by positivity
    clear * - m1 m2 m3 this
    linarith
  have b1 : |s * (R / T)| ≤ W + (5 * (u * W) + ζ) := by
    have := abs_sub_abs_le_abs_sub (s * (R / T)) (M * L + c)
    linarith
  have b2 : |s * Y + s * (R / T)| ≤ u * |s * (R / T)| + |s| * η := by
    rw [← mul_add, abs_mul, abs_mul s]
    exact (mul_le_mul_of_nonneg_left h5 s0).trans (le_of_eq (by ring))
  have b3 : |s * Y + M * L + c| ≤ |s * Y + s * (R / T)| + |s * (R / T) - (M * L + c)| := by
    rw [show s * Y + M * L + c = (s * Y + s * (R / T)) - (s * (R / T) - (M * L + c)) by ring]
    exact abs_sub _ _
  have m := mul_le_mul_of_nonneg_left b1 hu0
  have m2 : u * (5 * (u * W) + ζ) ≤ 1 / 1000 * (5 * (u * W) + ζ) := mul_le_mul_of_nonneg_right hu1 (by positivity)
  have e : (8 * |s| * (|M| + 1) / |T| + |s|) * η = 8 / 5 * ζ + |s| * η := by rw [hζ]; ring
  rw [e, ← hW]
  clear * - m m2 b2 b3 a9 ζ0 uW
  linarith

/-- The intersection of the line `M x + s y + c = 0` with an edge whose equation is `A (x - L) = 0`, as computed. -/
theorem edge_meet {A s L M c T : ℝ} (hT : T = rne (A * s)) (hT1 : (EPSILON : FP double).val ≤ |T|) (hs : |s| ≤ (2 : ℝ) ^ (200 : ℤ))
    (hM : |M| ≤ (2 : ℝ) ^ (200 : ℤ)) :
    |rne (rne (s * rne (A * L)) / T) - L| ≤ (2 : ℝ) ^ (-50 : ℤ) * |L| + (2 : ℝ) ^ (-600 : ℤ) ∧
    |s * rne (-rne (rne (M * rne (A * L)) + rne (A * c)) / T) + M * L + c| ≤ (2 : ℝ) ^ (-50 : ℤ) * (|M * L| + |c|) + (2 : ℝ) ^ (-600 : ℤ) := by
  have h20 := fp_EPSILON_ge.trans hT1
  have T0 : 0 < |T| := lt_of_lt_of_le (by positivity) h20
  have big : (2 : ℝ) ^ (-1022 : ℤ) ≤ |A * s| := by
    by_contra hn
    push Not at hn
    have h1 := rne_error_mixed (A * s)
    have h2 := abs_sub_abs_le_abs_sub (rne (A * s)) (A * s)
    rw [← hT] at h1 h2
    have e1 : (2 : ℝ) ^ (-53 : ℤ) ≤ 1 := by norm_num
    have h3 := mul_le_mul_of_nonneg_right e1 (abs_nonneg (A * s))
    have e2 : (2 : ℝ) ^ (-1075 : ℤ) ≤ (2 : ℝ) ^ (-1022 : ℤ) := zpow_le_zpow_right₀ one_le_two (by norm_num)
    have e3 : 4 * (2 : ℝ) ^ (-1022 : ℤ) ≤ (2 : ℝ) ^ (-20 : ℤ) := by
      rw [show (4 : ℝ) = (2 : ℝ) ^ (2 : ℤ) by norm_num, ← zpow_add₀ (by norm_num)]; exact zpow_le_zpow_right₀ one_le_two (by norm_num)
    have : (0 : ℝ) < (2 : ℝ) ^ (-1022 : ℤ) := by positivity
    generalize (2 : ℝ) ^ (-1022 : ℤ) = z at *
    generalize (2 : ℝ) ^ (-1075 : ℤ) = z' at *
    generalize (2 : ℝ) ^ (-53 : ℤ) = z'' at *
    generalize (2 : ℝ) ^ (-20 : ℤ) = z''' at *
    linarith
  have rT := rne_rel_error big
  rw [← hT] at rT
  have u1 : (2 : ℝ) ^ (-53 : ℤ) ≤ 1 / 1000 := by norm_num
  have e50 : (2 : ℝ) ^ (-50 : ℤ) = 8 * (2 : ℝ) ^ (-53 : ℤ) := by norm_num
  have inv : 1 / |T| ≤ (2 : ℝ) ^ (20 : ℤ) := by
    rw [div_le_iff₀ T0]
    calc (1 : ℝ) = (2 : ℝ) ^ (20 : ℤ) * (2 : ℝ) ^ (-20 : ℤ) := by rw [← zpow_add₀ (by norm_num)]; norm_num
      _ ≤ _ := mul_le_mul_of_nonneg_left h20 (by positivity)
  have one : (1 : ℝ) ≤ (2 : ℝ) ^ (200 : ℤ) := one_le_zpow₀ one_le_two (by norm_num)
  have two : (2 : ℝ) * (2 : ℝ) ^ (200 : ℤ) = (2 : ℝ) ^ (201 : ℤ) := by
    rw [show (201 : ℤ) = 200 + 1 by norm_num, zpow_add_one₀ two_ne_zero]; ring
  have add1 : ∀ z : ℝ, |z| ≤ (2 : ℝ) ^ (200 : ℤ) → |z| + 1 ≤ (2 : ℝ) ^ (201 : ℤ) := by
    intro z hz
    rw [← two]
    generalize (2 : ℝ) ^ (200 : ℤ) = w at *
    linarith
  constructor
  · have k := edge_x_core (by positivity) u1 (show (0 : ℝ) ≤ (2 : ℝ) ^ (-1075 : ℤ) by positivity) rfl (abs_pos.mp T0) rT
      (rne_error_mixed (A * L)) (rne_error_mixed (s * rne (A * L))) (rne_error_mixed (rne (s * rne (A * L)) / T))
    rw [e50]
    refine k.trans (add_le_add le_rfl ?_)
    have m : 4 * (|s| + 1) / |T| + 1 ≤ (2 : ℝ) ^ (224 : ℤ) := by
      have h1 : (|s| + 1) * (1 / |T|) ≤ (2 : ℝ) ^ (201 : ℤ) * (2 : ℝ) ^ (20 : ℤ) := mul_le_mul (add1 s hs) inv (by positivity) (by positivity)
      rw [← zpow_add₀ (by norm_num), show (201 + 20 : ℤ) = 221 by norm_num] at h1
      have h2 : (1 : ℝ) ≤ (2 : ℝ) ^ (221 : ℤ) := one_le_zpow₀ one_le_two (by norm_num)
      have h3 : (2 : ℝ) ^ (224 : ℤ) = 8 * (2 : ℝ) ^ (221 : ℤ) := by
        rw [show (224 : ℤ) = 221 + 3 by norm_num, zpow_add₀ two_ne_zero, show (2 : ℝ) ^ (3 : ℤ) = 8 by norm_num]; ring
      rw [h3, show 4 * (|s| + 1) / |T| = 4 * ((|s| + 1) * (1 / |T|)) by ring]
      generalize (2 : ℝ) ^ (221 : ℤ) = w at *
      linarith
    refine (mul_le_mul_of_nonneg_right m (by positivity)).trans ?_
    rw [← zpow_add₀ (by norm_num)]
    exact zpow_le_zpow_right₀ one_le_two (by norm_num)
  · have r5 := rne_error_mixed (-rne (rne (M * rne (A * L)) + rne (A * c)) / T)
    rw [neg_div, sub_neg_eq_add, abs_neg] at r5
    have k := edge_y_core (by positivity) u1 (show (0 : ℝ) ≤ (2 : ℝ) ^ (-1075 : ℤ) by positivity) rfl (abs_pos.mp T0) rT
      (rne_error_mixed (A * L)) (rne_error_mixed (M * rne (A * L))) (rne_error_mixed (A * c))
      (rne_error_mixed (rne (M * rne (A * L)) + rne (A * c))) r5
    rw [e50, neg_div]
    refine k.trans (add_le_add le_rfl ?_)
    have m : 8 * |s| * (|M| + 1) / |T| + |s| ≤ (2 : ℝ) ^ (425 : ℤ) := by
      have h1 : |s| * ((|M| + 1) * (1 / |T|)) ≤ (2 : ℝ) ^ (200 : ℤ) * ((2 : ℝ) ^ (201 : ℤ) * (2 : ℝ) ^ (20 : ℤ)) :=
        mul_le_mul hs (mul_le_mul (add1 M hM) inv (by positivity) (by positivity)) (by positivity) (by positivity)
      rw [← zpow_add₀ (by norm_num), ← zpow_add₀ (by norm_num), show (200 + (201 + 20) : ℤ) = 421 by norm_num] at h1
      have h2 : (2 : ℝ) ^ (200 : ℤ) ≤ (2 : ℝ) ^ (421 : ℤ) := zpow_le_zpow_right₀ one_le_two (by norm_num)
      have h3 : (2 : ℝ) ^ (425 : ℤ) = 16 * (2 : ℝ) ^ (421 : ℤ) := by
        rw [show (425 : ℤ) = 421 + 4 by norm_num, zpow_add₀ two_ne_zero, show (2 : ℝ) ^ (4 : ℤ) = 16 by norm_num]; ring
      rw [h3, show 8 * |s| * (|M| + 1) / |T| = 8 * (|s| * ((|M| + 1) * (1 / |T|))) by ring]
      have h4 := hs.trans h2
      clear h3 h2
      have h5 := abs_nonneg s
      generalize (2 : ℝ) ^ (421 : ℤ) = w at *
      linarith
    refine (mul_le_mul_of_nonneg_right m (by positivity)).trans ?_
    rw [← zpow_add₀ (by norm_num)]
    exact zpow_le_zpow_right₀ one_le_two (by norm_num)

theorem rne_idem (x : ℝ) : rne (rne x) = rne x := rne_of_isDouble (isDouble_rne x)

/-- The edge `x = L`. -/
theorem vert_meet {e l : Line (FP double)} {A L : ℝ} (ha : e.a.val = A) (hb : e.b.val = 0) (hc : e.c.val = -rne (A * L)) :
    ((e.intersection l).valid = true ↔ (EPSILON : FP double).val ≤ |rne (A * l.b.val)|) ∧
    (|l.a.val| ≤ (2 : ℝ) ^ (200 : ℤ) → |l.b.val| ≤ (2 : ℝ) ^ (200 : ℤ) → (e.intersection l).valid = true →
      |(e.intersection l).x.val - L| ≤ (2 : ℝ) ^ (-50 : ℤ) * |L| + (2 : ℝ) ^ (-600 : ℤ) ∧
      |l.b.val * (e.intersection l).y.val + l.a.val * L + l.c.val| ≤
        (2 : ℝ) ^ (-50 : ℤ) * (|l.a.val * L| + |l.c.val|) + (2 : ℝ) ^ (-600 : ℤ)) := by
  have d : e.cdet l = rne (A * l.b.val) := by
    change rne (rne (e.a.val * l.b.val) - rne (e.b.val * l.a.val)) = _
    rw [ha, hb, zero_mul, rne_zero, sub_zero, rne_idem]
  have hv := fp_intersection_valid e l
  rw [d] at hv
  refine ⟨hv, fun h1 h2 h => ?_⟩
  have hE := hv.mp h
  rw [fp_line_intersection e l (by rw [← d] at hE; exact hE)]
  obtain ⟨k1, k2⟩ := edge_meet (L := L) (c := l.c.val) rfl hE h2 h1
  refine ⟨?_, ?_⟩
  · change |rne (rne (rne (e.b.val * l.c.val) - rne (l.b.val * e.c.val)) / e.cdet l) - L| ≤ _
    rw [d, hb, hc, zero_mul, rne_zero, zero_sub, mul_neg, rne_neg (l.b.val * _), neg_neg, rne_idem]
    exact k1
  · change |l.b.val * rne (rne (rne (l.a.val * e.c.val) - rne (e.a.val * l.c.val)) / e.cdet l) + _ + _| ≤ _
    rw [d, ha, hc, mul_neg, rne_neg, show ∀ x y : ℝ, -x - y = -(x + y) by intros; ring, rne_neg]
    exact k2

/-- The edge `y = L`. -/
theorem horiz_meet {e l : Line (FP double)} {A L : ℝ} (ha : e.a.val = 0) (hb : e.b.val = A) (hc : e.c.val = -rne (A * L)) :
    ((e.intersection l).valid = true ↔ (EPSILON : FP double).val ≤ |rne (A * l.a.val)|) ∧
    (|l.a.val| ≤ (2 : ℝ) ^ (200 : ℤ) → |l.b.val| ≤ (2 : ℝ) ^ (200 : ℤ) → (e.intersection l).valid = true →
      |(e.intersection l).y.val - L| ≤ (2 : ℝ) ^ (-50 : ℤ) * |L| + (2 : ℝ) ^ (-600 : ℤ) ∧
      |l.a.val * (e.intersection l).x.val + l.b.val * L + l.c.val| ≤
        (2 : ℝ) ^ (-50 : ℤ) * (|l.b.val * L| + |l.c.val|) + (2 : ℝ) ^ (-600 : ℤ)) := by
  have d : e.cdet l = -rne (A * l.a.val) := by
    change rne (rne (e.a.val * l.b.val) - rne (e.b.val * l.a.val)) = _
    rw [ha, hb, zero_mul, rne_zero, zero_sub, rne_neg, rne_idem]
  have hv := fp_intersection_valid e l
  rw [d, abs_neg] at hv
  refine ⟨hv, fun h1 h2 h => ?_⟩
  have hE := hv.mp h
  rw [fp_line_intersection e l (by rw [← abs_neg, ← d] at hE; exact hE)]
  obtain ⟨k1, k2⟩ := edge_meet (L := L) (c := l.c.val) rfl hE h1 h2
  refine ⟨?_, ?_⟩
  · change |rne (rne (rne (l.a.val * e.c.val) - rne (e.a.val * l.c.val)) / e.cdet l) - L| ≤ _
    rw [d, ha, hc, zero_mul, rne_zero, sub_zero, mul_neg, rne_neg, rne_neg, rne_idem, neg_div_neg_eq]
    exact k1
  · change |l.a.val * rne (rne (rne (e.b.val * l.c.val) - rne (l.b.val * e.c.val)) / e.cdet l) + _ + _| ≤ _
    rw [d, hb, hc, mul_neg, rne_neg, sub_neg_eq_add, div_neg, ← neg_div, add_comm (rne (A * l.c.val))]
    exact k2

/-! ## The four edges -/

theorem leftEdge_val (r : Rect (FP double)) : r.leftEdge.a.val = -rne (r.bottom.val - r.top.val) ∧ r.leftEdge.b.val = 0 ∧
    r.leftEdge.c.val = -rne (-rne (r.bottom.val - r.top.val) * r.left.val) := by
  refine ⟨rfl, ?_, ?_⟩
  · change rne (r.left.val - r.left.val) = 0
    rw [sub_self, rne_zero]
  · change rne (rne (-(-rne (r.bottom.val - r.top.val)) * r.left.val) - rne (rne (r.left.val - r.left.val) * r.top.val)) = _
    rw [sub_self, rne_zero, zero_mul, rne_zero, sub_zero, rne_idem, neg_mul, rne_neg]

theorem rightEdge_val (r : Rect (FP double)) : r.rightEdge.a.val = -rne (r.bottom.val - r.top.val) ∧ r.rightEdge.b.val = 0 ∧
    r.rightEdge.c.val = -rne (-rne (r.bottom.val - r.top.val) * r.right.val) := by
  refine ⟨rfl, ?_, ?_⟩
  · change rne (r.right.val - r.right.val) = 0
    rw [sub_self, rne_zero]
  · change rne (rne (-(-rne (r.bottom.val - r.top.val)) * r.right.val) - rne (rne (r.right.val - r.right.val) * r.top.val)) = _
    rw [sub_self, rne_zero, zero_mul, rne_zero, sub_zero, rne_idem, neg_mul, rne_neg]

theorem topEdge_val (r : Rect (FP double)) : r.topEdge.a.val = 0 ∧ r.topEdge.b.val = rne (r.right.val - r.left.val) ∧
    r.topEdge.c.val = -rne (rne (r.right.val - r.left.val) * r.top.val) := by
  refine ⟨?_, rfl, ?_⟩
  · change -rne (r.top.val - r.top.val) = 0
    rw [sub_self, rne_zero, neg_zero]
  · change rne (rne (-(-rne (r.top.val - r.top.val)) * r.left.val) - rne (rne (r.right.val - r.left.val) * r.top.val)) = _
    rw [sub_self, rne_zero, neg_zero, neg_zero, zero_mul, rne_zero, zero_sub, rne_neg, rne_idem]

theorem bottomEdge_val (r : Rect (FP double)) : r.bottomEdge.a.val = 0 ∧ r.bottomEdge.b.val = rne (r.right.val - r.left.val) ∧
    r.bottomEdge.c.val = -rne (rne (r.right.val - r.left.val) * r.bottom.val) := by
  refine ⟨?_, rfl, ?_⟩
  · change -rne (r.bottom.val - r.bottom.val) = 0
    rw [sub_self, rne_zero, neg_zero]
  · change rne (rne (-(-rne (r.bottom.val - r.bottom.val)) * r.left.val) - rne (rne (r.right.val - r.left.val) * r.bottom.val)) = _
    rw [sub_self, rne_zero, neg_zero, neg_zero, zero_mul, rne_zero, zero_sub, rne_neg, rne_idem]

section
variable {K : Type} [Add K] [Sub K] [Mul K] [Div K] [Neg K] [NatCast K] [LT K] [LE K] [DecidableLT K] [DecidableLE K] [BEq K] [PyMath K]

theorem interStep_mem {acc : List (Vec K)} {v w : Vec K} {ok : Bool} (h : w ∈ Rect.interStep acc v ok) :
    w ∈ acc ∨ (w = v ∧ v.valid = true ∧ ok = true) := by
  unfold Rect.interStep at h
  split at h
  · rename_i hc
    simp only [Bool.and_eq_true, decide_eq_true_eq] at hc
    rcases List.mem_append.mp h with h | h
    · exact Or.inl h
    · exact Or.inr ⟨List.mem_singleton.mp h, hc.1.2, hc.2⟩
  · exact Or.inl h

theorem interStep_le_two {acc : List (Vec K)} (v : Vec K) (ok : Bool) (h : acc.length ≤ 2) : (Rect.interStep acc v ok).length ≤ 2 := by
  unfold Rect.interStep
  split
  · rename_i hc
    simp only [Bool.and_eq_true, decide_eq_true_eq] at hc
    rw [List.length_append, List.length_singleton]; omega
  · exact h

theorem dropNear_mem {acc : List (Vec K)} {w : Vec K} (h : w ∈ Rect.dropNear acc) : w ∈ acc := by
  unfold Rect.dropNear at h
  split at h
  · split at h
    · exact List.mem_cons.mpr (Or.inl (List.mem_singleton.mp h))
    · exact h
  · exact h

theorem dropNear_le_two {acc : List (Vec K)} (h : acc.length ≤ 2) : (Rect.dropNear acc).length ≤ 2 := by
  unfold Rect.dropNear
  split
  · split <;> simp
  · exact h

theorem rect_le_two (r : Rect K) (l : Line K) : (r.intersectionLine l).length ≤ 2 := by
  unfold Rect.intersectionLine
  exact dropNear_le_two (interStep_le_two _ _ (interStep_le_two _ _ (interStep_le_two _ _ (interStep_le_two _ _ (by simp)))))

end

/-- The point `v` is computed as the meeting of the line `l` with the side of `r` on the vertical line `x = L`. -/
def Spec.OnSideX (r : Rect (FP double)) (l : Line (FP double)) (v : Vec (FP double)) (L : ℝ) : Prop :=
  |v.x.val - L| ≤ (2 : ℝ) ^ (-50 : ℤ) * |L| + (2 : ℝ) ^ (-600 : ℤ) ∧ r.topLeft.y.val ≤ v.y.val ∧
  v.y.val ≤ rne (r.topLeft.y.val + r.size.width.val) ∧
  |l.a.val * L + l.b.val * v.y.val + l.c.val| ≤ (2 : ℝ) ^ (-50 : ℤ) * (|l.a.val * L| + |l.c.val|) + (2 : ℝ) ^ (-600 : ℤ)

/-- The same for the horizontal line `y = L`. -/
def Spec.OnSideY (r : Rect (FP double)) (l : Line (FP double)) (v : Vec (FP double)) (L : ℝ) : Prop :=
  |v.y.val - L| ≤ (2 : ℝ) ^ (-50 : ℤ) * |L| + (2 : ℝ) ^ (-600 : ℤ) ∧ r.topLeft.x.val ≤ v.x.val ∧
  v.x.val ≤ rne (r.topLeft.x.val + r.size.length.val) ∧
  |l.a.val * v.x.val + l.b.val * L + l.c.val| ≤ (2 : ℝ) ^ (-50 : ℤ) * (|l.b.val * L| + |l.c.val|) + (2 : ℝ) ^ (-600 : ℤ)

/-- The point is on one of the four sides. -/
def Spec.OnSides (r : Rect (FP double)) (l : Line (FP double)) (v : Vec (FP double)) : Prop :=
  OnSideX r l v r.topLeft.x.val ∨ OnSideX r l v (rne (r.topLeft.x.val + r.size.length.val)) ∨
  OnSideY r l v r.topLeft.y.val ∨ OnSideY r l v (rne (r.topLeft.y.val + r.size.width.val))

/-- **C200** At most two points are returned; each is near one side of the rectangle, between the ends of that side, and where it meets the side
the equation of the line nearly holds. -/
theorem C200_line (r : Rect (FP double)) (l : Line (FP double)) (ha : |l.a.val| ≤ (2 : ℝ) ^ (200 : ℤ)) (hb : |l.b.val| ≤ (2 : ℝ) ^ (200 : ℤ)) :
    (r.intersectionLine l).length ≤ 2 ∧ ∀ v ∈ r.intersectionLine l, OnSides r l v := by
  refine ⟨rect_le_two r l, fun v hv => ?_⟩
  have hx : ∀ {e : Line (FP double)} {L : ℝ}, e.a.val = -rne (r.bottom.val - r.top.val) ∧ e.b.val = 0 ∧
      e.c.val = -rne (-rne (r.bottom.val - r.top.val) * L) → v = e.intersection l → (e.intersection l).valid = true →
      (decide (r.top ≤ (e.intersection l).y) && decide ((e.intersection l).y ≤ r.bottom)) = true → OnSideX r l v L := by
    rintro e L ⟨e1, e2, e3⟩ rfl h1 h2
    rw [Bool.and_eq_true, decide_eq_true_eq, decide_eq_true_eq] at h2
    obtain ⟨k1, k2⟩ := (vert_meet e1 e2 e3).2 ha hb h1
    exact ⟨k1, h2.1, h2.2, by rw [add_comm (l.a.val * L)]; exact k2⟩
  have hy : ∀ {e : Line (FP double)} {L : ℝ}, e.a.val = 0 ∧ e.b.val = rne (r.right.val - r.left.val) ∧
      e.c.val = -rne (rne (r.right.val - r.left.val) * L) → v = e.intersection l → (e.intersection l).valid = true →
      (decide (r.left ≤ (e.intersection l).x) && decide ((e.intersection l).x ≤ r.right)) = true → OnSideY r l v L := by
    rintro e L ⟨e1, e2, e3⟩ rfl h1 h2
    rw [Bool.and_eq_true, decide_eq_true_eq, decide_eq_true_eq] at h2
    obtain ⟨k1, k2⟩ := (horiz_meet e1 e2 e3).2 ha hb h1
    exact ⟨k1, h2.1, h2.2, k2⟩
  unfold Rect.intersectionLine at hv
  rcases interStep_mem (dropNear_mem hv) with hv | ⟨h1, h2, h3⟩
  · rcases interStep_mem hv with hv | ⟨h1, h2, h3⟩
    · rcases interStep_mem hv with hv | ⟨h1, h2, h3⟩
      · rcases interStep_mem hv with hv | ⟨h1, h2, h3⟩
        · simp at hv
        · exact Or.inl (hx (leftEdge_val r) h1 h2 h3)
      · exact Or.inr (Or.inl (hx (rightEdge_val r) h1 h2 h3))
    · exact Or.inr (Or.inr (Or.inl (hy (topEdge_val r) h1 h2 h3)))
  · exact Or.inr (Or.inr (Or.inr (hy (bottomEdge_val r) h1 h2 h3)))

/-! ## What is found -/

section
variable {K : Type} [Add K] [Sub K] [Mul K] [Div K] [Neg K] [NatCast K] [LT K] [LE K] [DecidableLT K] [DecidableLE K] [BEq K] [PyMath K]

theorem interStep_head {v : Vec K} {tl : List (Vec K)} (w : Vec K) (ok : Bool) : ∃ tl', Rect.interStep (v :: tl) w ok = v :: tl' := by
  unfold Rect.interStep
  split
  · exact ⟨_, rfl⟩
  · exact ⟨_, rfl⟩

theorem dropNear_head {v : Vec K} {tl : List (Vec K)} : ∃ tl', Rect.dropNear (v :: tl) = v :: tl' := by
  unfold Rect.dropNear
  split
  · rename_i h
    cases h
    split
    · exact ⟨_, rfl⟩
    · exact ⟨_, rfl⟩
  · exact ⟨_, rfl⟩

theorem interStep_keep {acc : List (Vec K)} {w : Vec K} (v : Vec K) (ok : Bool) (h : w ∈ acc) : w ∈ Rect.interStep acc v ok := by
  unfold Rect.interStep
  split
  · exact List.mem_append_left _ h
  · exact h

theorem interStep_new {acc : List (Vec K)} {v : Vec K} {ok : Bool} (h : acc.length < 2) (hv : v.valid = true) (ho : ok = true) :
    Rect.interStep acc v ok = acc ++ [v] := by
  unfold Rect.interStep
  rw [if_pos (by simp [h, hv, ho])]

theorem interStep_old {acc : List (Vec K)} {v : Vec K} {ok : Bool} (hv : v.valid = false) : Rect.interStep acc v ok = acc := by
  unfold Rect.interStep
  rw [if_neg (by simp [hv])]

theorem interStep_le_one {acc : List (Vec K)} (v : Vec K) (ok : Bool) (h : acc.length = 0) : (Rect.interStep acc v ok).length < 2 := by
  unfold Rect.interStep
  split
  · rw [List.length_append, List.length_singleton]; omega
  · omega

theorem dropNear_keep {acc : List (Vec K)} {w : Vec K} (h : w ∈ acc) :
    ∃ z ∈ Rect.dropNear acc, z = w ∨ (fabs (z.x - w.x) < EPSILON ∧ fabs (z.y - w.y) < EPSILON) := by
  unfold Rect.dropNear
  split
  · rename_i p q
    split
    · rename_i hn
      simp only [List.mem_cons, List.not_mem_nil, or_false] at h
      rcases h with rfl | rfl
      · exact ⟨w, by simp, Or.inl rfl⟩
      · exact ⟨p, by simp, Or.inr hn⟩
    · exact ⟨w, h, Or.inl rfl⟩
  · exact ⟨w, h, Or.inl rfl⟩

end

theorem near_val {z w : Vec (FP double)} (h : z = w ∨ (fabs (z.x - w.x) < EPSILON ∧ fabs (z.y - w.y) < EPSILON)) :
    |z.x.val - w.x.val| ≤ (EPSILON : FP double).val ∧ |z.y.val - w.y.val| ≤ (EPSILON : FP double).val := by
  rcases h with rfl | ⟨h1, h2⟩
  · simp only [sub_self, abs_zero]
    exact ⟨fp_EPSILON.1.le, fp_EPSILON.1.le⟩
  · have : z.equalsWeakly w = true := by
      simp only [Vec.equalsWeakly, Bool.and_eq_true, decide_eq_true_eq]
      exact ⟨h1, h2⟩
    obtain ⟨k1, k2⟩ := fp_weakly this
    exact ⟨k1.le, k2.le⟩

/-- A residual gives a distance along the side. -/
theorem along_side {a b c L y ys E τ : ℝ} (h : |a * L + b * y + c| ≤ E) (hs : a * L + b * ys + c = 0) (hτ : E ≤ τ * |b|) (hb : b ≠ 0) :
    |y - ys| ≤ τ := by
  have b0 := abs_pos.mpr hb
  have e : |b| * |y - ys| ≤ τ * |b| := by
    rw [← abs_mul, show b * (y - ys) = a * L + b * y + c by linear_combination -hs]
    exact h.trans hτ
  rw [mul_comm τ] at e
  exact le_of_mul_le_mul_left e b0

theorem wide_valid {x : ℝ} (h : (2 : ℝ) ^ (-18 : ℤ) ≤ |x|) : (EPSILON : FP double).val ≤ |rne x| := by
  have h1 := fp_EPSILON.2.trans h
  have h2 := rne_mono h1
  rw [rne_of_isDouble fp_EPSILON_double] at h2
  rcases abs_cases x with ⟨e, _⟩ | ⟨e, _⟩
  · rw [e] at h2; exact h2.trans (le_abs_self _)
  · rw [e, rne_neg] at h2; exact h2.trans (neg_le_abs _)

theorem vert_found (r : Rect (FP double)) (l : Line (FP double)) (ha : |l.a.val| ≤ (2 : ℝ) ^ (200 : ℤ)) (hb : |l.b.val| ≤ (2 : ℝ) ^ (200 : ℤ))
    (hw : (2 : ℝ) ^ (-18 : ℤ) ≤ |rne (r.bottom.val - r.top.val) * l.b.val|) {e : Line (FP double)} {L ys τ : ℝ}
    (he : e.a.val = -rne (r.bottom.val - r.top.val) ∧ e.b.val = 0 ∧ e.c.val = -rne (-rne (r.bottom.val - r.top.val) * L))
    (hs : l.a.val * L + l.b.val * ys + l.c.val = 0)
    (hτ : (2 : ℝ) ^ (-50 : ℤ) * (|l.a.val * L| + |l.c.val|) + (2 : ℝ) ^ (-600 : ℤ) ≤ τ * |l.b.val|)
    (h1 : r.top.val + τ ≤ ys) (h2 : ys ≤ r.bottom.val - τ) :
    (e.intersection l).valid = true ∧ (decide (r.top ≤ (e.intersection l).y) && decide ((e.intersection l).y ≤ r.bottom)) = true ∧
    |(e.intersection l).x.val - L| ≤ (2 : ℝ) ^ (-50 : ℤ) * |L| + (2 : ℝ) ^ (-600 : ℤ) ∧ |(e.intersection l).y.val - ys| ≤ τ := by
  obtain ⟨e1, e2, e3⟩ := he
  obtain ⟨k1, k2⟩ := vert_meet (l := l) e1 e2 e3
  have hv := k1.mpr (wide_valid (by rwa [neg_mul, abs_neg]))
  obtain ⟨k3, k4⟩ := k2 ha hb hv
  have b0 : l.b.val ≠ 0 := by
    intro h
    rw [h, mul_zero, abs_zero] at hw
    exact absurd hw (not_le.mpr (by positivity))
  rw [show ∀ x y z : ℝ, x + y + z = y + x + z by intros; ring] at k4
  have k5 := along_side k4 hs hτ b0
  obtain ⟨m1, m2⟩ := abs_le.mp k5
  refine ⟨hv, ?_, k3, k5⟩
  rw [Bool.and_eq_true, decide_eq_true_eq, decide_eq_true_eq, FP.le_def, FP.le_def]
  constructor <;> linarith

theorem horiz_found (r : Rect (FP double)) (l : Line (FP double)) (ha : |l.a.val| ≤ (2 : ℝ) ^ (200 : ℤ)) (hb : |l.b.val| ≤ (2 : ℝ) ^ (200 : ℤ))
    (hw : (2 : ℝ) ^ (-18 : ℤ) ≤ |rne (r.right.val - r.left.val) * l.a.val|) {e : Line (FP double)} {L xs τ : ℝ}
    (he : e.a.val = 0 ∧ e.b.val = rne (r.right.val - r.left.val) ∧ e.c.val = -rne (rne (r.right.val - r.left.val) * L))
    (hs : l.a.val * xs + l.b.val * L + l.c.val = 0)
    (hτ : (2 : ℝ) ^ (-50 : ℤ) * (|l.b.val * L| + |l.c.val|) + (2 : ℝ) ^ (-600 : ℤ) ≤ τ * |l.a.val|)
    (h1 : r.left.val + τ ≤ xs) (h2 : xs ≤ r.right.val - τ) :
    (e.intersection l).valid = true ∧ (decide (r.left ≤ (e.intersection l).x) && decide ((e.intersection l).x ≤ r.right)) = true ∧
    |(e.intersection l).y.val - L| ≤ (2 : ℝ) ^ (-50 : ℤ) * |L| + (2 : ℝ) ^ (-600 : ℤ) ∧ |(e.intersection l).x.val - xs| ≤ τ := by
  obtain ⟨e1, e2, e3⟩ := he
  obtain ⟨k1, k2⟩ := horiz_meet (l := l) e1 e2 e3
  have hv := k1.mpr (wide_valid hw)
  obtain ⟨k3, k4⟩ := k2 ha hb hv
  have a0 : l.a.val ≠ 0 := by
    intro h
    rw [h, mul_zero, abs_zero] at hw
    exact absurd hw (not_le.mpr (by positivity))
  rw [show ∀ x y z : ℝ, x + y + z = y + x + z by intros; ring] at k4
  rw [show ∀ x y z : ℝ, x + y + z = y + x + z by intros; ring] at hs
  have k5 := along_side k4 hs hτ a0
  obtain ⟨m1, m2⟩ := abs_le.mp k5
  refine ⟨hv, ?_, k3, k5⟩
  rw [Bool.and_eq_true, decide_eq_true_eq, decide_eq_true_eq, FP.le_def, FP.le_def]
  constructor <;> linarith

/-- **C200** A line that is not nearly vertical and meets the left side inside by a margin: the first returned point is that meeting. If it meets
the right side inside by a margin, then a point within `EPSILON` and the rounding error of that meeting is returned. -/
theorem C200_across (r : Rect (FP double)) (l : Line (FP double)) (ha : |l.a.val| ≤ (2 : ℝ) ^ (200 : ℤ)) (hb : |l.b.val| ≤ (2 : ℝ) ^ (200 : ℤ))
    (hw : (2 : ℝ) ^ (-18 : ℤ) ≤ |rne (rne (r.topLeft.y.val + r.size.width.val) - r.topLeft.y.val) * l.b.val|) (L R ys τ : ℝ)
    (hL : L = r.topLeft.x.val) (hR : R = rne (r.topLeft.x.val + r.size.length.val))
    (h1 : r.topLeft.y.val + τ ≤ ys) (h2 : ys ≤ rne (r.topLeft.y.val + r.size.width.val) - τ) :
    (l.a.val * L + l.b.val * ys + l.c.val = 0 →
      (2 : ℝ) ^ (-50 : ℤ) * (|l.a.val * L| + |l.c.val|) + (2 : ℝ) ^ (-600 : ℤ) ≤ τ * |l.b.val| →
      ∃ v tl, r.intersectionLine l = v :: tl ∧ |v.x.val - L| ≤ (2 : ℝ) ^ (-50 : ℤ) * |L| + (2 : ℝ) ^ (-600 : ℤ) ∧ |v.y.val - ys| ≤ τ) ∧
    (l.a.val * R + l.b.val * ys + l.c.val = 0 →
      (2 : ℝ) ^ (-50 : ℤ) * (|l.a.val * R| + |l.c.val|) + (2 : ℝ) ^ (-600 : ℤ) ≤ τ * |l.b.val| →
      ∃ v ∈ r.intersectionLine l, |v.x.val - R| ≤ (EPSILON : FP double).val + ((2 : ℝ) ^ (-50 : ℤ) * |R| + (2 : ℝ) ^ (-600 : ℤ)) ∧
        |v.y.val - ys| ≤ (EPSILON : FP double).val + τ) := by
  constructor
  · intro hs hτ
    rw [hL] at hs hτ ⊢
    obtain ⟨k1, k2, k3, k4⟩ := vert_found r l ha hb hw (leftEdge_val r) hs hτ h1 h2
    unfold Rect.intersectionLine
    simp only []
    rw [interStep_new (acc := []) (v := r.leftEdge.intersection l) (by simp) k1 k2, List.nil_append]
    obtain ⟨t1, e1⟩ := interStep_head (v := r.leftEdge.intersection l) (tl := []) (r.rightEdge.intersection l)
      (decide (r.top ≤ (r.rightEdge.intersection l).y) && decide ((r.rightEdge.intersection l).y ≤ r.bottom))
    simp only [e1]
    obtain ⟨t2, e2⟩ := interStep_head (v := r.leftEdge.intersection l) (tl := t1) (r.topEdge.intersection l)
      (decide (r.left ≤ (r.topEdge.intersection l).x) && decide ((r.topEdge.intersection l).x ≤ r.right))
    simp only [e2]
    obtain ⟨t3, e3⟩ := interStep_head (v := r.leftEdge.intersection l) (tl := t2) (r.bottomEdge.intersection l)
      (decide (r.left ≤ (r.bottomEdge.intersection l).x) && decide ((r.bottomEdge.intersection l).x ≤ r.right))
    simp only [e3]
    obtain ⟨t4, e4⟩ := dropNear_head (v := r.leftEdge.intersection l) (tl := t3)
    exact ⟨_, t4, e4, k3, k4⟩
  · intro hs hτ
    rw [hR] at hs hτ ⊢
    obtain ⟨k1, k2, k3, k4⟩ := vert_found r l ha hb hw (rightEdge_val r) hs hτ h1 h2
    unfold Rect.intersectionLine
    simp only []
    rw [interStep_new (v := r.rightEdge.intersection l) (interStep_le_one _ _ rfl) k1 k2]
    refine (fun g => Exists.elim g fun z hz => ?_) (dropNear_keep (interStep_keep (r.bottomEdge.intersection l)
      (decide (r.left ≤ (r.bottomEdge.intersection l).x) && decide ((r.bottomEdge.intersection l).x ≤ r.right))
      (interStep_keep (r.topEdge.intersection l)
        (decide (r.left ≤ (r.topEdge.intersection l).x) && decide ((r.topEdge.intersection l).x ≤ r.right))
        (List.mem_append_right (Rect.interStep [] (r.leftEdge.intersection l)
          (decide (r.top ≤ (r.leftEdge.intersection l).y) && decide ((r.leftEdge.intersection l).y ≤ r.bottom)))
          (List.mem_singleton_self (r.rightEdge.intersection l))))))
    obtain ⟨n1, n2⟩ := near_val hz.2
    exact ⟨z, hz.1, (abs_sub_le _ _ _).trans (add_le_add n1 k3), (abs_sub_le _ _ _).trans (add_le_add n2 k4)⟩

/-- **C200** A line that the code takes for vertical: the same for the top and the bottom side. -/
theorem C200_down (r : Rect (FP double)) (l : Line (FP double)) (ha : |l.a.val| ≤ (2 : ℝ) ^ (200 : ℤ)) (hb : |l.b.val| ≤ (2 : ℝ) ^ (200 : ℤ))
    (hp : |rne (rne (rne (r.topLeft.y.val + r.size.width.val) - r.topLeft.y.val) * l.b.val)| < (EPSILON : FP double).val)
    (hw : (2 : ℝ) ^ (-18 : ℤ) ≤ |rne (rne (r.topLeft.x.val + r.size.length.val) - r.topLeft.x.val) * l.a.val|) (T B xs τ : ℝ)
    (hT : T = r.topLeft.y.val) (hB : B = rne (r.topLeft.y.val + r.size.width.val))
    (h1 : r.topLeft.x.val + τ ≤ xs) (h2 : xs ≤ rne (r.topLeft.x.val + r.size.length.val) - τ) :
    (l.a.val * xs + l.b.val * T + l.c.val = 0 →
      (2 : ℝ) ^ (-50 : ℤ) * (|l.b.val * T| + |l.c.val|) + (2 : ℝ) ^ (-600 : ℤ) ≤ τ * |l.a.val| →
      ∃ v tl, r.intersectionLine l = v :: tl ∧ |v.y.val - T| ≤ (2 : ℝ) ^ (-50 : ℤ) * |T| + (2 : ℝ) ^ (-600 : ℤ) ∧ |v.x.val - xs| ≤ τ) ∧
    (l.a.val * xs + l.b.val * B + l.c.val = 0 →
      (2 : ℝ) ^ (-50 : ℤ) * (|l.b.val * B| + |l.c.val|) + (2 : ℝ) ^ (-600 : ℤ) ≤ τ * |l.a.val| →
      ∃ v ∈ r.intersectionLine l, |v.y.val - B| ≤ (EPSILON : FP double).val + ((2 : ℝ) ^ (-50 : ℤ) * |B| + (2 : ℝ) ^ (-600 : ℤ)) ∧
        |v.x.val - xs| ≤ (EPSILON : FP double).val + τ) := by
  have none : ∀ {e : Line (FP double)} {L : ℝ}, e.a.val = -rne (r.bottom.val - r.top.val) ∧ e.b.val = 0 ∧
      e.c.val = -rne (-rne (r.bottom.val - r.top.val) * L) → (e.intersection l).valid = false := by
    rintro e L ⟨e1, e2, e3⟩
    rw [← Bool.not_eq_true, (vert_meet (l := l) e1 e2 e3).1, not_le, neg_mul, rne_neg, abs_neg]
    exact hp
  have n1 := none (leftEdge_val r)
  have n2 := none (rightEdge_val r)
  constructor
  · intro hs hτ
    rw [hT] at hs hτ ⊢
    obtain ⟨k1, k2, k3, k4⟩ := horiz_found r l ha hb hw (topEdge_val r) hs hτ h1 h2
    unfold Rect.intersectionLine
    simp only [interStep_old n1, interStep_old n2]
    rw [interStep_new (v := r.topEdge.intersection l) (by simp) k1 k2, List.nil_append]
    obtain ⟨t3, e3⟩ := interStep_head (v := r.topEdge.intersection l) (tl := []) (r.bottomEdge.intersection l)
      (decide (r.left ≤ (r.bottomEdge.intersection l).x) && decide ((r.bottomEdge.intersection l).x ≤ r.right))
    simp only [e3]
    obtain ⟨t4, e4⟩ := dropNear_head (v := r.topEdge.intersection l) (tl := t3)
    exact ⟨_, t4, e4, k3, k4⟩
  · intro hs hτ
    rw [hB] at hs hτ ⊢
    obtain ⟨k1, k2, k3, k4⟩ := horiz_found r l ha hb hw (bottomEdge_val r) hs hτ h1 h2
    unfold Rect.intersectionLine
    simp only [interStep_old n1, interStep_old n2]
    rw [interStep_new (v := r.bottomEdge.intersection l) (interStep_le_one _ _ rfl) k1 k2]
    refine (fun g => Exists.elim g fun z hz => ?_) (dropNear_keep (List.mem_append_right (Rect.interStep [] (r.topEdge.intersection l)
        (decide (r.left ≤ (r.topEdge.intersection l).x) && decide ((r.topEdge.intersection l).x ≤ r.right)))
          (List.mem_singleton_self (r.bottomEdge.intersection l))))
    obtain ⟨n3, n4⟩ := near_val hz.2
    exact ⟨z, hz.1, (abs_sub_le _ _ _).trans (add_le_add n4 k3), (abs_sub_le _ _ _).trans (add_le_add n3 k4)⟩

/-- **C200** The intersections with a segment are those with its line that are nearly in the box of the ends, and all of those that are in it. -/
theorem C200_segment (r : Rect (FP double)) (s : Seg (FP double)) {B : ℝ} (hB2 : B ≤ (2 : ℝ) ^ (400 : ℤ))
    (ho : |s.origin.x.val| ≤ B ∧ |s.origin.y.val| ≤ B) (ht : |s.terminal.x.val| ≤ B ∧ |s.terminal.y.val| ≤ B) :
    (∀ p ∈ r.intersectionSeg s, p ∈ r.intersectionLine s.line ∧ (p.x.val - s.origin.x.val) * (p.x.val - s.terminal.x.val) ≤ 1 / 500000000 ∧
      (p.y.val - s.origin.y.val) * (p.y.val - s.terminal.y.val) ≤ 1 / 500000000) ∧
    ∀ p ∈ r.intersectionLine s.line, (p.x.val - s.origin.x.val) * (p.x.val - s.terminal.x.val) ≤ 0 →
      (p.y.val - s.origin.y.val) * (p.y.val - s.terminal.y.val) ≤ 0 → p ∈ r.intersectionSeg s := by
  have hmem := mem_dropRejected s.contains _ (rect_le_two r s.line)
  constructor
  · intro p hp
    obtain ⟨hq, hk⟩ := (hmem p).mp hp
    obtain ⟨b1, b2⟩ := (contains_iff s p).mp hk
    refine ⟨hq, box_sound hB2 ?_ b1, box_sound hB2 ?_ b2⟩
    · rw [show p.x.val - s.origin.x.val - (p.x.val - s.terminal.x.val) = s.terminal.x.val - s.origin.x.val by ring]
      exact (abs_sub _ _).trans (by linarith [ho.1, ht.1])
    · rw [show p.y.val - s.origin.y.val - (p.y.val - s.terminal.y.val) = s.terminal.y.val - s.origin.y.val by ring]
      exact (abs_sub _ _).trans (by linarith [ho.2, ht.2])
  · intro p hp h1 h2
    exact (hmem p).mpr ⟨hp, (contains_iff s p).mpr ⟨box_of_between h1, box_of_between h2⟩⟩

theorem rect_double (r : Rect (FP double)) (l : Line (FP double)) : ∀ v ∈ r.intersectionLine l, v.FOk := by
  intro v hv
  have key : ∀ {e : Line (FP double)}, v = e.intersection l → (e.intersection l).valid = true → v.FOk := by
    rintro e rfl h
    rw [fp_line_intersection e l ((fp_intersection_valid e l).mp h)]
    exact ⟨isDouble_rne _, isDouble_rne _⟩
  unfold Rect.intersectionLine at hv
  rcases interStep_mem (dropNear_mem hv) with hv | ⟨h1, h2, _⟩
  · rcases interStep_mem hv with hv | ⟨h1, h2, _⟩
    · rcases interStep_mem hv with hv | ⟨h1, h2, _⟩
      · rcases interStep_mem hv with hv | ⟨h1, h2, _⟩
        · simp at hv
        · exact key h1 h2
      · exact key h1 h2
    · exact key h1 h2
  · exact key h1 h2

section
variable [m : PyMath (FP double)]

/-- **C200** The intersections with a ray are intersections with its line, those away from the origin within about a degree of the direction of
the ray; and all intersections with the line that are near a point of the ray away from the origin. -/
theorem C200_ray (h : Accurate m) (r : Rect (FP double)) (ray : Ray (FP double)) (ho : ray.origin.FOk) (hr : ray.dir.FOk) :
    (∀ p ∈ r.intersectionRay ray, p ∈ r.intersectionLine ray.line ∧ (2 * (EPSILON : FP double).val ≤ d ray.origin.fpt p.fpt →
      ∃ k : ℤ, |direction (p.x.val - ray.origin.x.val) (p.y.val - ray.origin.y.val) - ray.dir.deg.val - 360 * k| < 1 + (2 : ℝ) ^ (-42 : ℤ))) ∧
    ∀ p ∈ r.intersectionLine ray.line, ∀ t τ : ℝ, (EPSILON : FP double).val ≤ τ → 100 * τ ≤ t →
      (p.x.val - (ray.origin.x.val + t * (unit ray.dir.deg.val).1)) ^ 2 + (p.y.val - (ray.origin.y.val + t * (unit ray.dir.deg.val).2)) ^ 2 ≤ τ ^ 2 →
      p ∈ r.intersectionRay ray := by
  have hmem := mem_dropRejected (fun p => ray.inRightDir p (num 1)) _ (rect_le_two r ray.line)
  constructor
  · intro p hp
    obtain ⟨hq, hk⟩ := (hmem p).mp hp
    exact ⟨hq, fun hd => ray_angle h ray p (rect_double _ _ p hq) ho hr hd hk⟩
  · intro p hp t τ h1 h2 h3
    exact (hmem p).mpr ⟨hp, ray_kept h ray p (rect_double _ _ p hp) ho hr h1 h2 h3⟩

end

/-- The line `x - 2 y + 1 = 0` and the square with side 2: the points near `(0, 1/2)` and `(2, 3/2)`. -/
example : ∃ v tl, (⟨Vec.ofXY ⟨0⟩ ⟨0⟩, ⟨⟨2⟩, ⟨2⟩⟩⟩ : Rect (FP double)).intersectionLine ⟨⟨1⟩, ⟨-2⟩, ⟨1⟩⟩ = v :: tl ∧
    |v.x.val| ≤ 1 / 1000000 ∧ |v.y.val - 1 / 2| ≤ 1 / 1000000 ∧
    ∃ w ∈ v :: tl, |w.x.val - 2| ≤ 1 / 100000 ∧ |w.y.val - 3 / 2| ≤ 1 / 100000 := by
  have r2 : rne (2 : ℝ) = 2 := by have := rne_of_isDouble (isDouble_nat (n := 2) (by norm_num)); exact_mod_cast this
  have t6 : (2 : ℝ) ^ (-600 : ℤ) ≤ (2 : ℝ) ^ (-50 : ℤ) := zpow_le_zpow_right₀ one_le_two (by norm_num)
  have e5 : (2 : ℝ) ^ (-50 : ℤ) = 1 / 1125899906842624 := by norm_num
  rw [e5] at t6
  have one : (1 : ℝ) ≤ (2 : ℝ) ^ (200 : ℤ) := one_le_zpow₀ one_le_two (by norm_num)
  have two : (2 : ℝ) ≤ (2 : ℝ) ^ (200 : ℤ) := (show (2 : ℝ) = (2 : ℝ) ^ (1 : ℤ) by norm_num).trans_le (zpow_le_zpow_right₀ one_le_two (by norm_num))
  have hE := fp_EPSILON_le
  have H := fun ys => C200_across ⟨Vec.ofXY ⟨0⟩ ⟨0⟩, ⟨⟨2⟩, ⟨2⟩⟩⟩ ⟨⟨1⟩, ⟨-2⟩, ⟨1⟩⟩ (by change |(1 : ℝ)| ≤ _; rw [abs_one]; exact one)
    (by change |(-2 : ℝ)| ≤ _; rw [abs_neg, abs_two]; exact two)
    (by change _ ≤ |rne (rne ((0 : ℝ) + 2) - 0) * (-2)|; rw [zero_add, r2, sub_zero, r2]; norm_num) 0 2 ys (1 / 1000000) rfl
    (by change (2 : ℝ) = rne (0 + 2); rw [zero_add, r2])
  obtain ⟨v, tl, e, k1, k2⟩ := (H (1 / 2) (by change (0 : ℝ) + _ ≤ _; norm_num) (by change _ ≤ rne ((0 : ℝ) + 2) - _; rw [zero_add, r2]; norm_num)).1
    (by change (1 : ℝ) * 0 + -2 * (1 / 2) + 1 = 0; norm_num)
    (by change _ * (|(1 : ℝ) * 0| + |(1 : ℝ)|) + _ ≤ _ * |(-2 : ℝ)|; rw [e5, mul_zero, abs_zero, abs_one, abs_neg, abs_two]; linarith)
  obtain ⟨w, hw, k3, k4⟩ := (H (3 / 2) (by change (0 : ℝ) + _ ≤ _; norm_num) (by change _ ≤ rne ((0 : ℝ) + 2) - _; rw [zero_add, r2]; norm_num)).2
    (by change (1 : ℝ) * 2 + -2 * (3 / 2) + 1 = 0; norm_num)
    (by change _ * (|(1 : ℝ) * 2| + |(1 : ℝ)|) + _ ≤ _ * |(-2 : ℝ)|; rw [e5, one_mul, abs_one, abs_neg, abs_two]; linarith)
  rw [e] at hw
  rw [e5, abs_zero, mul_zero, zero_add, sub_zero] at k1
  rw [e5, abs_two] at k3
  exact ⟨v, tl, e, by linarith, k2, w, hw, by linarith, by linarith⟩

end PyrusGeom
