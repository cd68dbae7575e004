import Verif.Props.FloatRect
import Verif.Props.Triangle

/-! # Properties C104 – C106: distances, circles and orientation in double precision

`math.pow(x, 2)` is modelled as the correctly rounded square. -/

namespace PyrusGeom
open Spec

section
variable {ρ : Rounding}

theorem fp_dist2 (v o : Vec (FP ρ)) : (v.dist2 o).val =
    ρ.f (ρ.f (ρ.f (v.x.val - o.x.val) * ρ.f (v.x.val - o.x.val)) +
      ρ.f (ρ.f (v.y.val - o.y.val) * ρ.f (v.y.val - o.y.val))) := rfl

theorem fp_dist (v o : Vec (FP ρ)) : (v.dist o).val = ρ.f √(v.dist2 o).val := rfl

/-- **C104**, what holds with every rounding: distances are not negative, symmetric, and zero between equal points. -/
theorem C104_symm_partial (v o : Vec (FP ρ)) :
    (0 ≤ (v.dist o).val ∧ 0 ≤ (v.dist2 o).val) ∧ (v.dist o = o.dist v ∧ v.dist2 o = o.dist2 v) ∧
    ((v.dist v).val = 0 ∧ (v.dist2 v).val = 0) := by
  have h2 : 0 ≤ (v.dist2 o).val := by
    rw [fp_dist2]
    exact ρ.nonneg (add_nonneg (ρ.nonneg (mul_self_nonneg _)) (ρ.nonneg (mul_self_nonneg _)))
  have hs : v.dist2 o = o.dist2 v := by
    apply FP.ext
    rw [fp_dist2, fp_dist2, ← neg_sub o.x.val, ← neg_sub o.y.val, ρ.odd, ρ.odd, neg_mul_neg, neg_mul_neg]
  have h0 : (v.dist2 v).val = 0 := by
    rw [fp_dist2, sub_self, sub_self, ρ.zero, mul_zero, ρ.zero, add_zero, ρ.zero]
  refine ⟨⟨ρ.nonneg (Real.sqrt_nonneg _), h2⟩, ⟨?_, hs⟩, ?_, h0⟩
  · apply FP.ext
    rw [fp_dist, fp_dist, hs]
  · rw [fp_dist, h0, Real.sqrt_zero, ρ.zero]

/-- **C104**, products with every rounding: the inner product is commutative, the outer product changes its sign. -/
theorem C104_products_partial (v o : Vec (FP ρ)) :
    v.innerProduct o = o.innerProduct v ∧ (v.outerProduct o).val = -(o.outerProduct v).val ∧
    v.add o = o.add v ∧ v.equalsWeakly o = o.equalsWeakly v := by
  refine ⟨?_, ?_, ?_, ?_⟩
  · apply FP.ext
    change ρ.f (ρ.f (v.x.val * o.x.val) + ρ.f (v.y.val * o.y.val)) = ρ.f (ρ.f (o.x.val * v.x.val) + ρ.f (o.y.val * v.y.val))
    rw [mul_comm v.x.val, mul_comm v.y.val]
  · change ρ.f (ρ.f (v.x.val * o.y.val) - ρ.f (v.y.val * o.x.val)) = -ρ.f (ρ.f (o.x.val * v.y.val) - ρ.f (o.y.val * v.x.val))
    rw [← ρ.odd, mul_comm v.x.val, mul_comm v.y.val, neg_sub]
  · apply Vec.ext
    · apply FP.ext
      change ρ.f (v.x.val + o.x.val) = ρ.f (o.x.val + v.x.val)
      rw [add_comm]
    · apply FP.ext
      change ρ.f (v.y.val + o.y.val) = ρ.f (o.y.val + v.y.val)
      rw [add_comm]
    · rfl
  · have key : ∀ a b : FP ρ, fabs (a - b) = fabs (b - a) := by
      intro a b
      have e0 : (num 0 : FP ρ).val = 0 := by simp [ρ.zero]
      have hval : ∀ c : FP ρ, (fabs c).val = |c.val| := by
        intro c
        unfold fabs
        by_cases h : c.val < 0
        · rw [if_pos (by rw [FP.lt_def, e0]; exact h), abs_of_neg h]; rfl
        · rw [if_neg (by rw [FP.lt_def, e0]; exact h), abs_of_nonneg (not_lt.mp h)]
      apply FP.ext
      rw [hval, hval]
      change |ρ.f (a.val - b.val)| = |ρ.f (b.val - a.val)|
      rw [← neg_sub, ρ.odd, abs_neg]
    unfold Vec.equalsWeakly
    rw [key v.x, key v.y]

end

/-- **C104 is false**: distinct points at distance 0, because the square underflows. -/
theorem C104_refuted_zero : ∃ v o : Vec (FP double), IsDouble v.x.val ∧ IsDouble v.y.val ∧ IsDouble o.x.val ∧
    IsDouble o.y.val ∧ v.equals o = false ∧ (v.dist o).val = 0 := by
  have hx : IsDouble ((2 : ℝ) ^ (-600 : ℤ)) := isDouble_pow _ (by norm_num)
  have hne : (2 : ℝ) ^ (-600 : ℤ) ≠ 0 := by positivity
  refine ⟨Vec.ofXY ⟨(2 : ℝ) ^ (-600 : ℤ)⟩ ⟨0⟩, Vec.ofXY ⟨0⟩ ⟨0⟩, hx, isDouble_zero, isDouble_zero, isDouble_zero, ?_, ?_⟩
  · change (decide ((2 : ℝ) ^ (-600 : ℤ) = 0) && _) = false
    rw [decide_eq_false hne]; rfl
  · rw [fp_dist, fp_dist2]
    change rne √(rne (rne (rne ((2 : ℝ) ^ (-600 : ℤ) - 0) * rne ((2 : ℝ) ^ (-600 : ℤ) - 0)) +
      rne (rne (0 - 0) * rne (0 - 0)))) = 0
    have hs : rne ((2 : ℝ) ^ (-600 : ℤ) * (2 : ℝ) ^ (-600 : ℤ)) = 0 := by
      rw [← zpow_add₀ two_ne_zero]
      have hu : ulp ((2 : ℝ) ^ (-600 + -600 : ℤ)) = (2 : ℝ) ^ (-1074 : ℤ) := by
        unfold ulp
        rw [abs_of_pos (by positivity)]
        have : Int.log 2 ((2 : ℝ) ^ (-600 + -600 : ℤ)) = -600 + -600 := by
          have := Int.log_zpow (R := ℝ) (b := 2) one_lt_two (-600 + -600)
          exact_mod_cast this
        rw [this]; norm_num
      unfold rne
      rw [hu, ← zpow_sub₀ two_ne_zero, roundEven_eq (n := 0)]
      · simp
      · rw [Int.cast_zero, sub_zero, abs_of_pos (by positivity)]
        have : (2 : ℝ) ^ (-600 + -600 - -1074 : ℤ) ≤ (2 : ℝ) ^ (-2 : ℤ) := zpow_le_zpow_right₀ one_le_two (by norm_num)
        refine this.trans_lt (by norm_num)
    rw [sub_zero, sub_zero, rne_of_isDouble hx, hs, rne_zero, mul_zero, rne_zero, add_zero, rne_zero, Real.sqrt_zero,
      rne_zero]

theorem rne_sqrt_sq {a : ℝ} (h : rne √(rne (a * a)) = a) (ha : IsDouble a) :
    ((Vec.ofXY ⟨a⟩ ⟨0⟩ : Vec (FP double)).dist (Vec.ofXY ⟨0⟩ ⟨0⟩)).val = a := by
  rw [fp_dist, fp_dist2]
  change rne √(rne (rne (rne (a - 0) * rne (a - 0)) + rne (rne (0 - 0) * rne (0 - 0)))) = a
  rw [sub_zero, sub_zero, rne_of_isDouble ha, rne_zero, mul_zero, rne_zero, add_zero, rne_of_isDouble (isDouble_rne (a * a)), h]

/-- **C104 is false**: the triangle inequality fails on a line, in the last place. -/
theorem C104_refuted_triangle : ∃ a b c : Vec (FP double),
    (IsDouble a.x.val ∧ IsDouble a.y.val) ∧ (IsDouble b.x.val ∧ IsDouble b.y.val) ∧ (IsDouble c.x.val ∧ IsDouble c.y.val) ∧
    (a.dist b).val + (b.dist c).val < (a.dist c).val := by
  -- the three distances are 2^-53, 1 + 2 u and 1 + 3 u with u = 2^-52
  have d1 : IsDouble ((2 : ℝ) ^ (-53 : ℤ)) := isDouble_pow _ (by norm_num)
  have d2 : IsDouble (1 + 2 * (2 : ℝ) ^ (-52 : ℤ)) := ⟨2 ^ 52 + 2, -52, by norm_num, by norm_num, by norm_num⟩
  have d3 : IsDouble (1 + 3 * (2 : ℝ) ^ (-52 : ℤ)) := ⟨2 ^ 52 + 3, -52, by norm_num, by norm_num, by norm_num⟩
  have hsub : rne (1 + 3 * (2 : ℝ) ^ (-52 : ℤ) - (2 : ℝ) ^ (-53 : ℤ)) = 1 + 2 * (2 : ℝ) ^ (-52 : ℤ) := by
    rw [rne_eq_even 0 (2 ^ 52 + 2) (by norm_num) (by norm_num [abs_of_pos]) (by norm_num [abs_of_pos])
        (by norm_num [abs_le]) (by decide)]
    norm_num
  have e1 : rne √(rne ((2 : ℝ) ^ (-53 : ℤ) * (2 : ℝ) ^ (-53 : ℤ))) = (2 : ℝ) ^ (-53 : ℤ) := by
    rw [rne_of_isDouble (x := (2 : ℝ) ^ (-53 : ℤ) * (2 : ℝ) ^ (-53 : ℤ)) (by
      rw [← zpow_add₀ two_ne_zero]; exact isDouble_pow _ (by norm_num)), Real.sqrt_mul_self (by positivity),
      rne_of_isDouble d1]
  have key : ∀ n : ℕ, n = 2 ∨ n = 3 → rne √(rne ((1 + n * (2 : ℝ) ^ (-52 : ℤ)) * (1 + n * (2 : ℝ) ^ (-52 : ℤ)))) =
      1 + n * (2 : ℝ) ^ (-52 : ℤ) := by
    intro n hn
    have hs : rne ((1 + n * (2 : ℝ) ^ (-52 : ℤ)) * (1 + n * (2 : ℝ) ^ (-52 : ℤ))) = 1 + 2 * n * (2 : ℝ) ^ (-52 : ℤ) := by
      rw [rne_eq 0 (2 ^ 52 + 2 * n)]
      · push_cast; norm_num; ring
      · norm_num
      · rcases hn with rfl | rfl <;> norm_num [abs_of_pos]
      · rcases hn with rfl | rfl <;> norm_num [abs_of_pos]
      · rcases hn with rfl | rfl <;> norm_num [abs_lt]
    rw [hs]
    have lo : 1 + (n - 1 / 4) * (2 : ℝ) ^ (-52 : ℤ) ≤ √(1 + 2 * n * (2 : ℝ) ^ (-52 : ℤ)) := by
      apply Real.le_sqrt_of_sq_le
      rcases hn with rfl | rfl <;> norm_num
    have hi : √(1 + 2 * n * (2 : ℝ) ^ (-52 : ℤ)) ≤ 1 + n * (2 : ℝ) ^ (-52 : ℤ) := by
      rw [Real.sqrt_le_left (by positivity)]
      rcases hn with rfl | rfl <;> norm_num
    generalize √(1 + 2 * n * (2 : ℝ) ^ (-52 : ℤ)) = s at *
    have hs0 : 0 < s := by
      refine lt_of_lt_of_le ?_ lo
      rcases hn with rfl | rfl <;> norm_num
    rw [rne_eq 0 (2 ^ 52 + n) (by norm_num)]
    · push_cast; norm_num; ring
    · rw [abs_of_pos hs0]; rcases hn with rfl | rfl <;> norm_num at * <;> linarith
    · rw [abs_of_pos hs0]; rcases hn with rfl | rfl <;> norm_num at * <;> linarith
    · rcases hn with rfl | rfl <;> norm_num [abs_lt] at * <;> constructor <;> linarith
  have e2 := key 2 (Or.inl rfl)
  have e3 := key 3 (Or.inr rfl)
  refine ⟨Vec.ofXY ⟨0⟩ ⟨0⟩, Vec.ofXY ⟨(2 : ℝ) ^ (-53 : ℤ)⟩ ⟨0⟩, Vec.ofXY ⟨1 + 3 * (2 : ℝ) ^ (-52 : ℤ)⟩ ⟨0⟩,
    ⟨isDouble_zero, isDouble_zero⟩, ⟨d1, isDouble_zero⟩, ⟨d3, isDouble_zero⟩, ?_⟩
  rw [(C104_symm_partial (Vec.ofXY ⟨0⟩ ⟨0⟩ : Vec (FP double)) _).2.1.1, rne_sqrt_sq e1 d1,
    (C104_symm_partial (Vec.ofXY ⟨0⟩ ⟨0⟩ : Vec (FP double)) _).2.1.1, rne_sqrt_sq (by exact_mod_cast e3) d3,
    (C104_symm_partial (Vec.ofXY ⟨(2 : ℝ) ^ (-53 : ℤ)⟩ ⟨0⟩ : Vec (FP double)) _).2.1.1, fp_dist, fp_dist2]
  change _ + rne √(rne (rne (rne (1 + 3 * (2 : ℝ) ^ (-52 : ℤ) - (2 : ℝ) ^ (-53 : ℤ)) *
    rne (1 + 3 * (2 : ℝ) ^ (-52 : ℤ) - (2 : ℝ) ^ (-53 : ℤ))) + rne (rne (0 - 0) * rne (0 - 0)))) < _
  rw [hsub, sub_zero, rne_zero, mul_zero, rne_zero, add_zero, rne_of_isDouble (isDouble_rne _)]
  rw [show rne √(rne ((1 + 2 * (2 : ℝ) ^ (-52 : ℤ)) * (1 + 2 * (2 : ℝ) ^ (-52 : ℤ)))) = 1 + 2 * (2 : ℝ) ^ (-52 : ℤ) by
    exact_mod_cast e2]
  norm_num

/-! ### Error analysis -/

/-- The error of one rounding, including subnormal numbers. -/
theorem rne_error_mixed (x : ℝ) : |rne x - x| ≤ (2 : ℝ) ^ (-53 : ℤ) * |x| + (2 : ℝ) ^ (-1075 : ℤ) := by
  rcases eq_or_ne x 0 with rfl | hx
  · rw [rne_zero, sub_zero, abs_zero]; positivity
  · refine (rne_error x).trans ?_
    have h1 := ulp_le hx
    have h2 : ulp x ≤ (2 : ℝ) ^ (-52 : ℤ) * |x| + (2 : ℝ) ^ (-1074 : ℤ) :=
      h1.trans (max_le_add_of_nonneg (by positivity) (by positivity))
    have e : (2 : ℝ) ^ (-1074 : ℤ) = 2 * (2 : ℝ) ^ (-1075 : ℤ) := by
      rw [← zpow_one_add₀ two_ne_zero]; norm_num
    rw [e] at h2
    generalize (2 : ℝ) ^ (-1075 : ℤ) = η at *
    generalize ulp x = w at *
    generalize |x| = X at *
    norm_num only at *
    linarith

/-- The error of a rounded product of two rounded differences of doubles. -/
theorem rne_prod_error {a b c e : ℝ} (ha : IsDouble a) (hb : IsDouble b) (hc : IsDouble c) (he : IsDouble e) :
    |rne (rne (a - b) * rne (c - e)) - (a - b) * (c - e)| ≤
      (2 : ℝ) ^ (-51 : ℤ) * |(a - b) * (c - e)| + (2 : ℝ) ^ (-1075 : ℤ) := by
  have g : ∀ {x y : ℝ}, IsDouble x → IsDouble y → |rne (x - y) - (x - y)| ≤ (2 : ℝ) ^ (-53 : ℤ) * |x - y| := by
    intro x y hx hy
    refine rne_grid_error ?_
    obtain ⟨m, hm⟩ := hx.grid
    obtain ⟨n, hn⟩ := hy.grid
    exact ⟨m - n, by rw [hm, hn]; push_cast; ring⟩
  have g1 := g ha hb
  have g2 := g hc he
  have g3 := rne_error_mixed (rne (a - b) * rne (c - e))
  generalize rne (rne (a - b) * rne (c - e)) = P at *
  generalize rne (a - b) = p at *
  generalize rne (c - e) = q at *
  generalize a - b = x at *
  generalize c - e = y at *
  have hη : (0 : ℝ) ≤ (2 : ℝ) ^ (-1075 : ℤ) := by positivity
  generalize (2 : ℝ) ^ (-1075 : ℤ) = η at *
  have t1 : |p * q - x * y| ≤ |p - x| * |y| + |q - y| * |x| + |p - x| * |q - y| := by
    rw [show p * q - x * y = (p - x) * y + (q - y) * x + (p - x) * (q - y) by ring]
    refine (abs_add_le _ _).trans (add_le_add ((abs_add_le _ _).trans ?_) ?_) <;> simp only [abs_mul, le_refl]
  have t2 : |P - x * y| ≤ |P - p * q| + |p * q - x * y| := by
    have := abs_add_le (P - p * q) (p * q - x * y)
    rwa [sub_add_sub_cancel] at this
  have t3 : |p * q| ≤ |p * q - x * y| + |x * y| := by
    have := abs_add_le (p * q - x * y) (x * y)
    rwa [sub_add_cancel] at this
  rw [abs_mul x y] at *
  have hX := abs_nonneg x
  have hY := abs_nonneg y
  have hA := abs_nonneg (p - x)
  have hB := abs_nonneg (q - y)
  generalize |p - x| = A at *
  generalize |q - y| = B at *
  generalize |x| = X at *
  generalize |y| = Y at *
  generalize |p * q - x * y| = T at *
  generalize |p * q| = Q at *
  generalize |P - p * q| = S at *
  have m1 : A * Y ≤ (2 : ℝ) ^ (-53 : ℤ) * (X * Y) := by nlinarith
  have m2 : B * X ≤ (2 : ℝ) ^ (-53 : ℤ) * (X * Y) := by nlinarith
  have m3 : A * B ≤ (2 : ℝ) ^ (-53 : ℤ) * X * ((2 : ℝ) ^ (-53 : ℤ) * Y) := mul_le_mul g1 g2 hB (by positivity)
  have hXY : 0 ≤ X * Y := mul_nonneg hX hY
  have m4 : A * B ≤ (2 : ℝ) ^ (-106 : ℤ) * (X * Y) := by
    refine m3.trans (le_of_eq ?_)
    rw [show (2 : ℝ) ^ (-106 : ℤ) = (2 : ℝ) ^ (-53 : ℤ) * (2 : ℝ) ^ (-53 : ℤ) by rw [← zpow_add₀ two_ne_zero]; norm_num]
    ring
  generalize X * Y = Z at *
  norm_num only at *
  linarith

theorem fp_sum_grid {x y : ℝ} (hx : IsDouble x) (hy : IsDouble y) : |rne (x + y) - (x + y)| ≤ (2 : ℝ) ^ (-53 : ℤ) * |x + y| := by
  refine rne_grid_error ?_
  obtain ⟨m, hm⟩ := hx.grid
  obtain ⟨n, hn⟩ := hy.grid
  exact ⟨m + n, by rw [hm, hn]; push_cast; ring⟩

/-- The error of a rounded sum of two such products. -/
theorem rne_sum_prod_error {P Q x y : ℝ} (hP : IsDouble P) (hQ : IsDouble Q)
    (h1 : |P - x| ≤ (2 : ℝ) ^ (-51 : ℤ) * |x| + (2 : ℝ) ^ (-1075 : ℤ))
    (h2 : |Q - y| ≤ (2 : ℝ) ^ (-51 : ℤ) * |y| + (2 : ℝ) ^ (-1075 : ℤ)) :
    |rne (P + Q) - (x + y)| ≤ (2 : ℝ) ^ (-50 : ℤ) * (|x| + |y|) + (2 : ℝ) ^ (-1073 : ℤ) := by
  have h3 := fp_sum_grid hP hQ
  have t1 : |rne (P + Q) - (x + y)| ≤ |rne (P + Q) - (P + Q)| + |P - x| + |Q - y| := by
    have := abs_add_three (rne (P + Q) - (P + Q)) (P - x) (Q - y)
    rwa [show rne (P + Q) - (P + Q) + (P - x) + (Q - y) = rne (P + Q) - (x + y) by ring] at this
  have t2 : |P + Q| ≤ (|P - x| + |x|) + (|Q - y| + |y|) := by
    refine (abs_add_le P Q).trans (add_le_add ?_ ?_)
    · have := abs_add_le (P - x) x; rwa [sub_add_cancel] at this
    · have := abs_add_le (Q - y) y; rwa [sub_add_cancel] at this
  have e : (2 : ℝ) ^ (-1073 : ℤ) = 4 * (2 : ℝ) ^ (-1075 : ℤ) := by
    rw [show (-1073 : ℤ) = 2 + -1075 by norm_num, zpow_add₀ two_ne_zero]; norm_num
  rw [e]
  have hη : (0 : ℝ) ≤ (2 : ℝ) ^ (-1075 : ℤ) := by positivity
  generalize (2 : ℝ) ^ (-1075 : ℤ) = η at *
  have hX := abs_nonneg x
  have hY := abs_nonneg y
  generalize |rne (P + Q) - (P + Q)| = A at *
  generalize |rne (P + Q) - (x + y)| = B at *
  generalize |P - x| = C at *
  generalize |Q - y| = D at *
  generalize |P + Q| = E at *
  generalize |x| = X at *
  generalize |y| = Y at *
  norm_num only at *
  linarith

/-- All coordinates are doubles. -/
def Vec.FOk (v : Vec (FP double)) : Prop := IsDouble v.x.val ∧ IsDouble v.y.val

/-- The exact point. -/
def Vec.fpt (v : Vec (FP double)) : Pt := (v.x.val, v.y.val)

theorem fp_dist2_error {v o : Vec (FP double)} (hv : v.FOk) (ho : o.FOk) :
    |(v.dist2 o).val - d v.fpt o.fpt ^ 2| ≤ (2 : ℝ) ^ (-50 : ℤ) * d v.fpt o.fpt ^ 2 + (2 : ℝ) ^ (-1073 : ℤ) := by
  have h1 := rne_prod_error hv.1 ho.1 hv.1 ho.1
  have h2 := rne_prod_error hv.2 ho.2 hv.2 ho.2
  have h3 := rne_sum_prod_error (isDouble_rne _) (isDouble_rne _) h1 h2
  rw [abs_mul_self, abs_mul_self] at h3
  rw [d_sq, pow_two, pow_two]
  exact h3

/-- **C104**, accuracy: the computed distance of points that are at least `2 ** -500` apart has a relative error of at
most `2 ** -49`. -/
theorem C104_error_partial (v o : Vec (FP double)) (hv : v.FOk) (ho : o.FOk)
    (hd : (2 : ℝ) ^ (-500 : ℤ) ≤ d v.fpt o.fpt) :
    |(v.dist o).val - d v.fpt o.fpt| ≤ (2 : ℝ) ^ (-49 : ℤ) * d v.fpt o.fpt := by
  have h := fp_dist2_error hv ho
  rw [fp_dist]
  change |rne √(v.dist2 o).val - _| ≤ _
  generalize (v.dist2 o).val = s at *
  generalize d v.fpt o.fpt = D at *
  have hp : (0 : ℝ) < (2 : ℝ) ^ (-500 : ℤ) := by positivity
  have hD : 0 < D := lt_of_lt_of_le hp hd
  have hsq : (2 : ℝ) ^ (-1000 : ℤ) ≤ D ^ 2 := by
    rw [show (2 : ℝ) ^ (-1000 : ℤ) = ((2 : ℝ) ^ (-500 : ℤ)) ^ 2 by rw [← zpow_natCast, ← zpow_mul]; norm_num]
    exact pow_le_pow_left₀ hp.le hd 2
  have hη : (2 : ℝ) ^ (-1073 : ℤ) = (2 : ℝ) ^ (-73 : ℤ) * (2 : ℝ) ^ (-1000 : ℤ) := by
    rw [← zpow_add₀ two_ne_zero]; norm_num
  rw [hη] at h
  have h' : |s - D ^ 2| ≤ (2 : ℝ) ^ (-50 : ℤ) * D ^ 2 + (2 : ℝ) ^ (-73 : ℤ) * D ^ 2 :=
    h.trans (add_le_add le_rfl (mul_le_mul_of_nonneg_left hsq (by positivity)))
  obtain ⟨hl, hu⟩ := abs_le.mp h'
  have hlo : D * (1 - (2 : ℝ) ^ (-50 : ℤ)) ≤ √s := by
    apply Real.le_sqrt_of_sq_le
    rw [mul_pow]
    have hD2 : 0 < D ^ 2 := by positivity
    clear h h' hη hsq hd hp
    generalize D ^ 2 = E at *
    norm_num only at *
    linarith
  have hhi : √s ≤ D * (1 + (2 : ℝ) ^ (-50 : ℤ)) := by
    rw [Real.sqrt_le_left (by positivity), mul_pow]
    have hD2 : 0 < D ^ 2 := by positivity
    clear h h' hη hsq hd hp
    generalize D ^ 2 = E at *
    norm_num only at *
    linarith
  have hn : (2 : ℝ) ^ (-1022 : ℤ) ≤ |√s| := by
    rw [abs_of_nonneg (Real.sqrt_nonneg _)]
    have e1 : (2 : ℝ) ^ (-1022 : ℤ) ≤ (2 : ℝ) ^ (-501 : ℤ) := zpow_le_zpow_right₀ one_le_two (by norm_num)
    have e2 : (2 : ℝ) ^ (-501 : ℤ) = (2 : ℝ) ^ (-500 : ℤ) / 2 := by
      rw [show (-501 : ℤ) = -500 + -1 by norm_num, zpow_add₀ two_ne_zero, zpow_neg_one]; ring
    have e3 : D / 2 ≤ D * (1 - (2 : ℝ) ^ (-50 : ℤ)) := by
      have : (2 : ℝ) ^ (-50 : ℤ) ≤ 1 / 2 := by norm_num
      nlinarith
    exact (e1.trans (e2.le.trans (by gcongr : _ ≤ D / 2))).trans (e3.trans hlo)
  have h3 := rne_rel_error hn
  have hs0 := Real.sqrt_nonneg s
  rw [abs_of_nonneg hs0] at h3
  generalize √s = r at *
  have t : |rne r - D| ≤ |rne r - r| + |r - D| := by
    have := abs_add_le (rne r - r) (r - D)
    rwa [sub_add_sub_cancel] at this
  have t2 : |r - D| ≤ (2 : ℝ) ^ (-50 : ℤ) * D := by
    rw [abs_le]; constructor <;> linarith
  clear h h' hη hsq hd hp hl hu hn
  generalize |rne r - r| = A at *
  generalize |r - D| = B at *
  norm_num only at *
  linarith

/-- **C104**, zero: two points at computed distance 0 are less than `2 ** -500` apart. -/
theorem C104_zero_partial (v o : Vec (FP double)) (hv : v.FOk) (ho : o.FOk) (h : (v.dist o).val = 0) :
    d v.fpt o.fpt < (2 : ℝ) ^ (-500 : ℤ) := by
  by_contra hc
  push Not at hc
  have h1 := C104_error_partial v o hv ho hc
  have hp : (0 : ℝ) < (2 : ℝ) ^ (-500 : ℤ) := by positivity
  have hD : 0 < d v.fpt o.fpt := lt_of_lt_of_le hp hc
  rw [h, zero_sub, abs_neg, abs_of_pos hD] at h1
  have : (2 : ℝ) ^ (-49 : ℤ) < 1 := by norm_num
  nlinarith

/-- The hypotheses are met: (0.1, 0.1) and (1, 1). -/
example : (Vec.ofXY ⟨rne (1 / 10)⟩ ⟨rne (1 / 10)⟩ : Vec (FP double)).FOk ∧ (Vec.ofXY ⟨1⟩ ⟨1⟩ : Vec (FP double)).FOk ∧
    (2 : ℝ) ^ (-500 : ℤ) ≤ d (Vec.ofXY ⟨rne (1 / 10)⟩ ⟨rne (1 / 10)⟩ : Vec (FP double)).fpt
      (Vec.ofXY ⟨1⟩ ⟨1⟩ : Vec (FP double)).fpt := by
  refine ⟨⟨isDouble_rne _, isDouble_rne _⟩, ⟨isDouble_one, isDouble_one⟩, ?_⟩
  have e : (2 : ℝ) ^ (-500 : ℤ) ≤ (2 : ℝ) ^ (-1 : ℤ) := zpow_le_zpow_right₀ one_le_two (by norm_num)
  refine e.trans (Real.le_sqrt_of_sq_le ?_)
  simp only [Vec.fpt, Vec.ofXY, rne_tenth]
  norm_num

/-! ## C105 -/

theorem fp_circle_contains (c : Circle (FP double)) (p : Vec (FP double)) :
    c.contains p = true ↔ (c.center.dist2 p).val < rne (c.radius.val * c.radius.val) := by
  unfold Circle.contains
  rw [decide_eq_true_eq, FP.lt_def]
  rfl

/-- **C105**, what holds in double precision: for a radius of at least `2 ** -500` containment is decided correctly for
every point that is not within a relative distance of `2 ** -49` of the boundary. -/
theorem C105_robust_partial (c : Circle (FP double)) (p : Vec (FP double)) (hc : c.center.FOk) (hp : p.FOk)
    (hr : (2 : ℝ) ^ (-500 : ℤ) ≤ c.radius.val) :
    (d c.center.fpt p.fpt * (1 + (2 : ℝ) ^ (-49 : ℤ)) ≤ c.radius.val → c.contains p = true) ∧
    (c.radius.val * (1 + (2 : ℝ) ^ (-49 : ℤ)) ≤ d c.center.fpt p.fpt → c.contains p = false) := by
  have h := fp_dist2_error hc hp
  rw [← Bool.not_eq_true, fp_circle_contains]
  generalize (c.center.dist2 p).val = s at *
  have hD := d_nonneg c.center.fpt p.fpt
  generalize d c.center.fpt p.fpt = D at *
  generalize c.radius.val = r at *
  have hpos : (0 : ℝ) < (2 : ℝ) ^ (-500 : ℤ) := by positivity
  have hr0 : 0 < r := lt_of_lt_of_le hpos hr
  have hsq : (2 : ℝ) ^ (-1000 : ℤ) ≤ r * r := by
    rw [show (2 : ℝ) ^ (-1000 : ℤ) = (2 : ℝ) ^ (-500 : ℤ) * (2 : ℝ) ^ (-500 : ℤ) by rw [← zpow_add₀ two_ne_zero]; norm_num]
    exact mul_le_mul hr hr hpos.le hr0.le
  have h2 := rne_rel_error (x := r * r) (by
    rw [abs_of_pos (by positivity)]
    exact (zpow_le_zpow_right₀ one_le_two (by norm_num)).trans hsq)
  rw [abs_of_pos (show 0 < r * r by positivity)] at h2
  have hη : (2 : ℝ) ^ (-1073 : ℤ) = (2 : ℝ) ^ (-73 : ℤ) * (2 : ℝ) ^ (-1000 : ℤ) := by
    rw [← zpow_add₀ two_ne_zero]; norm_num
  rw [hη] at h
  have h' : |s - D ^ 2| ≤ (2 : ℝ) ^ (-50 : ℤ) * D ^ 2 + (2 : ℝ) ^ (-73 : ℤ) * (r * r) :=
    h.trans (add_le_add le_rfl (mul_le_mul_of_nonneg_left hsq (by positivity)))
  obtain ⟨hl, hu⟩ := abs_le.mp h'
  obtain ⟨kl, ku⟩ := abs_le.mp h2
  have hrr : 0 < r * r := by positivity
  clear h h' hη hsq hr hpos h2
  generalize rne (r * r) = R at *
  constructor
  · intro hc
    have e : (D * (1 + (2 : ℝ) ^ (-49 : ℤ))) ^ 2 ≤ r * r := by
      rw [← pow_two r]; exact pow_le_pow_left₀ (by positivity) hc 2
    rw [mul_pow] at e
    have hD2 : 0 ≤ D ^ 2 := by positivity
    generalize D ^ 2 = E at *
    generalize r * r = Q at *
    norm_num only at *
    linarith
  · intro hc
    have e : (r * (1 + (2 : ℝ) ^ (-49 : ℤ))) ^ 2 ≤ D ^ 2 := pow_le_pow_left₀ (by positivity) hc 2
    rw [mul_pow, pow_two r] at e
    have hD2 : 0 ≤ D ^ 2 := by positivity
    generalize D ^ 2 = E at *
    generalize r * r = Q at *
    norm_num only at *
    linarith

/-- **C105 is false**: the point `(1 - 2 ** -53, 2 ** -26 - 2 ** -34)` is strictly inside the unit circle, but
`contains` returns `False`. -/
theorem C105_refuted : ∃ (c : Circle (FP double)) (p : Vec (FP double)), c.center.FOk ∧ p.FOk ∧ c.radius.val = 1 ∧
    d c.center.fpt p.fpt < c.radius.val ∧ c.contains p = false := by
  have d1 : IsDouble (1 - (2 : ℝ) ^ (-53 : ℤ)) := ⟨2 ^ 53 - 1, -53, by norm_num, by norm_num, by norm_num⟩
  have d2 : IsDouble ((2 : ℝ) ^ (-26 : ℤ) - (2 : ℝ) ^ (-34 : ℤ)) := ⟨2 ^ 8 - 1, -34, by norm_num, by norm_num, by norm_num⟩
  refine ⟨⟨Vec.ofXY ⟨0⟩ ⟨0⟩, ⟨1⟩⟩, Vec.ofXY ⟨1 - (2 : ℝ) ^ (-53 : ℤ)⟩ ⟨(2 : ℝ) ^ (-26 : ℤ) - (2 : ℝ) ^ (-34 : ℤ)⟩,
    ⟨isDouble_zero, isDouble_zero⟩, ⟨d1, d2⟩, rfl, ?_, ?_⟩
  · unfold d
    rw [Real.sqrt_lt' (by norm_num)]
    simp only [Vec.fpt, Vec.ofXY]
    norm_num
  · rw [← Bool.not_eq_true, fp_circle_contains, fp_dist2]
    change ¬ rne (rne (rne (0 - (1 - (2 : ℝ) ^ (-53 : ℤ))) * rne (0 - (1 - (2 : ℝ) ^ (-53 : ℤ)))) +
      rne (rne (0 - ((2 : ℝ) ^ (-26 : ℤ) - (2 : ℝ) ^ (-34 : ℤ))) * rne (0 - ((2 : ℝ) ^ (-26 : ℤ) - (2 : ℝ) ^ (-34 : ℤ))))) <
      rne (1 * 1)
    rw [zero_sub, zero_sub, rne_neg, rne_neg, rne_of_isDouble d1, rne_of_isDouble d2, neg_mul_neg, neg_mul_neg]
    have e1 : rne ((1 - (2 : ℝ) ^ (-53 : ℤ)) * (1 - (2 : ℝ) ^ (-53 : ℤ))) = 1 - (2 : ℝ) ^ (-52 : ℤ) := by
      rw [rne_eq (-1) (2 ^ 53 - 2) (by norm_num) (by norm_num [abs_of_pos]) (by norm_num [abs_of_pos])
        (by norm_num [abs_lt])]
      norm_num
    have e2 : rne (((2 : ℝ) ^ (-26 : ℤ) - (2 : ℝ) ^ (-34 : ℤ)) * ((2 : ℝ) ^ (-26 : ℤ) - (2 : ℝ) ^ (-34 : ℤ))) =
        65025 * (2 : ℝ) ^ (-68 : ℤ) := by
      rw [show ((2 : ℝ) ^ (-26 : ℤ) - (2 : ℝ) ^ (-34 : ℤ)) * ((2 : ℝ) ^ (-26 : ℤ) - (2 : ℝ) ^ (-34 : ℤ)) =
        65025 * (2 : ℝ) ^ (-68 : ℤ) by norm_num]
      exact rne_of_isDouble ⟨65025, -68, by norm_num, by norm_num, by norm_num⟩
    have e3 : rne (1 - (2 : ℝ) ^ (-52 : ℤ) + 65025 * (2 : ℝ) ^ (-68 : ℤ)) = 1 := by
      rw [rne_eq (-1) (2 ^ 53) (by norm_num) (by norm_num [abs_of_pos]) (by norm_num [abs_of_pos])
        (by norm_num [abs_lt])]
      norm_num
    rw [e1, e2, e3, one_mul, rne_of_isDouble isDouble_one]
    exact lt_irrefl _

/-- The hypotheses are met: the circle of radius 1 around (0.1, 0.1) contains its center. -/
example : (⟨Vec.ofXY ⟨rne (1 / 10)⟩ ⟨rne (1 / 10)⟩, ⟨1⟩⟩ : Circle (FP double)).contains
    (Vec.ofXY ⟨rne (1 / 10)⟩ ⟨rne (1 / 10)⟩) = true := by
  refine (C105_robust_partial _ _ ⟨isDouble_rne _, isDouble_rne _⟩ ⟨isDouble_rne _, isDouble_rne _⟩ ?_).1 ?_
  · have := zpow_le_zpow_right₀ (one_le_two (α := ℝ)) (show (-500 : ℤ) ≤ 0 by norm_num)
    simpa using this
  · simp [d, Vec.fpt]

/-! ## C106 -/

/-- **C106**, what holds in double precision: the orientation is decided correctly if twice the exact area is larger than
the rounding error bound of the two products. -/
theorem C106_robust_partial (a b c : Vec (FP double)) (ha : a.FOk) (hb : b.FOk) (hc : c.FOk)
    (h : (2 : ℝ) ^ (-50 : ℤ) * (|(a.x.val - c.x.val) * (b.y.val - c.y.val)| + |(b.x.val - c.x.val) * (c.y.val - a.y.val)|) +
      (2 : ℝ) ^ (-1073 : ℤ) < |cross (b.fpt - a.fpt) (c.fpt - a.fpt)|) :
    (0 < (Tri.dsa a b c).val ↔ 0 < cross (b.fpt - a.fpt) (c.fpt - a.fpt)) ∧
    ((Tri.dsa a b c).val < 0 ↔ cross (b.fpt - a.fpt) (c.fpt - a.fpt) < 0) ∧
    (Tri.ccw a b c = true ↔ 0 < cross (b.fpt - a.fpt) (c.fpt - a.fpt)) := by
  have h1 := rne_prod_error ha.1 hc.1 hb.2 hc.2
  have h2 := rne_prod_error hb.1 hc.1 hc.2 ha.2
  have h3 := rne_sum_prod_error (isDouble_rne _) (isDouble_rne _) h1 h2
  have e : (a.x.val - c.x.val) * (b.y.val - c.y.val) + (b.x.val - c.x.val) * (c.y.val - a.y.val) =
      cross (b.fpt - a.fpt) (c.fpt - a.fpt) := by
    simp only [cross, Vec.fpt, Prod.fst_sub, Prod.snd_sub]; ring
  rw [e] at h3
  have hv : (Tri.dsa a b c).val = rne (rne (rne (a.x.val - c.x.val) * rne (b.y.val - c.y.val)) +
      rne (rne (b.x.val - c.x.val) * rne (c.y.val - a.y.val))) := rfl
  rw [← hv] at h3
  have h4 := lt_of_le_of_lt h3 h
  have hccw : Tri.ccw a b c = true ↔ 0 < (Tri.dsa a b c).val := by
    unfold Tri.ccw
    rw [decide_eq_true_eq, FP.lt_def, fp_zero]
  rw [hccw]
  generalize (Tri.dsa a b c).val = s at *
  generalize cross (b.fpt - a.fpt) (c.fpt - a.fpt) = t at *
  have key : (0 < s ↔ 0 < t) ∧ (s < 0 ↔ t < 0) := by
    rcases lt_trichotomy t 0 with ht | ht | ht
    · rw [abs_of_neg ht, abs_lt] at h4
      constructor <;> constructor <;> intro <;> linarith [h4.1, h4.2]
    · rw [ht, abs_zero] at h4; exact absurd h4 (not_lt.mpr (abs_nonneg _))
    · rw [abs_of_pos ht, abs_lt] at h4
      constructor <;> constructor <;> intro <;> linarith [h4.1, h4.2]
  exact ⟨key.1, key.2, key.1⟩

/-- **C106**, the orientation is never reversed when the coordinate differences are exact (for example when the
coordinates are on a common grid, or one corner is the origin): a positive result means counter-clockwise, a negative
one clockwise. -/
theorem C106_weak_partial (a b c : Vec (FP double))
    (h1 : IsDouble (a.x.val - c.x.val)) (h2 : IsDouble (b.y.val - c.y.val)) (h3 : IsDouble (b.x.val - c.x.val))
    (h4 : IsDouble (c.y.val - a.y.val)) :
    (0 < (Tri.dsa a b c).val → 0 < cross (b.fpt - a.fpt) (c.fpt - a.fpt)) ∧
    ((Tri.dsa a b c).val < 0 → cross (b.fpt - a.fpt) (c.fpt - a.fpt) < 0) := by
  have e : (a.x.val - c.x.val) * (b.y.val - c.y.val) + (b.x.val - c.x.val) * (c.y.val - a.y.val) =
      cross (b.fpt - a.fpt) (c.fpt - a.fpt) := by
    simp only [cross, Vec.fpt, Prod.fst_sub, Prod.snd_sub]; ring
  have hv : (Tri.dsa a b c).val = rne (rne ((a.x.val - c.x.val) * (b.y.val - c.y.val)) +
      rne ((b.x.val - c.x.val) * (c.y.val - a.y.val))) := by
    change rne (rne (rne (a.x.val - c.x.val) * rne (b.y.val - c.y.val)) +
      rne (rne (b.x.val - c.x.val) * rne (c.y.val - a.y.val))) = _
    rw [rne_of_isDouble h1, rne_of_isDouble h2, rne_of_isDouble h3, rne_of_isDouble h4]
  rw [hv, ← e]
  generalize (a.x.val - c.x.val) * (b.y.val - c.y.val) = p
  generalize (b.x.val - c.x.val) * (c.y.val - a.y.val) = q
  constructor
  · intro h
    by_contra hc
    push Not at hc
    have := rne_mono (show p ≤ -q by linarith)
    rw [rne_neg] at this
    have h0 := rne_mono (show rne p + rne q ≤ 0 by linarith)
    rw [rne_zero] at h0
    linarith
  · intro h
    by_contra hc
    push Not at hc
    have := rne_mono (show -q ≤ p by linarith)
    rw [rne_neg] at this
    have h0 := rne_mono (show 0 ≤ rne p + rne q by linarith)
    rw [rne_zero] at h0
    linarith

/-- **C106 is false**: for a = (1 + u, 1 + 2u), b = (1, 1 + u), c = (0, 0), u = 2 ** -52, the turn is counter-clockwise, but
the computed area is 0 and `tri_ccw` returns `False`. -/
theorem C106_refuted : ∃ a b c : Vec (FP double), a.FOk ∧ b.FOk ∧ c.FOk ∧
    0 < cross (b.fpt - a.fpt) (c.fpt - a.fpt) ∧ (Tri.dsa a b c).val = 0 ∧ Tri.ccw a b c = false := by
  have d1 : IsDouble (1 + (2 : ℝ) ^ (-52 : ℤ)) := ⟨2 ^ 52 + 1, -52, by norm_num, by norm_num, by norm_num⟩
  have d2 : IsDouble (1 + 2 * (2 : ℝ) ^ (-52 : ℤ)) := ⟨2 ^ 52 + 2, -52, by norm_num, by norm_num, by norm_num⟩
  have key : (Tri.dsa (Vec.ofXY ⟨1 + (2 : ℝ) ^ (-52 : ℤ)⟩ ⟨1 + 2 * (2 : ℝ) ^ (-52 : ℤ)⟩ : Vec (FP double))
      (Vec.ofXY ⟨1⟩ ⟨1 + (2 : ℝ) ^ (-52 : ℤ)⟩) (Vec.ofXY ⟨0⟩ ⟨0⟩)).val = 0 := by
    change rne (rne (rne (1 + (2 : ℝ) ^ (-52 : ℤ) - 0) * rne (1 + (2 : ℝ) ^ (-52 : ℤ) - 0)) +
      rne (rne (1 - 0) * rne (0 - (1 + 2 * (2 : ℝ) ^ (-52 : ℤ))))) = 0
    rw [sub_zero, sub_zero, zero_sub, rne_neg, rne_of_isDouble d1, rne_of_isDouble d2, rne_of_isDouble isDouble_one, one_mul,
      rne_neg, rne_of_isDouble d2]
    have e1 : rne ((1 + (2 : ℝ) ^ (-52 : ℤ)) * (1 + (2 : ℝ) ^ (-52 : ℤ))) = 1 + 2 * (2 : ℝ) ^ (-52 : ℤ) := by
      rw [rne_eq 0 (2 ^ 52 + 2) (by norm_num) (by norm_num [abs_of_pos]) (by norm_num [abs_of_pos])
        (by norm_num [abs_lt])]
      norm_num
    rw [e1, add_neg_cancel, rne_zero]
  refine ⟨_, _, _, ⟨d1, d2⟩, ⟨isDouble_one, d1⟩, ⟨isDouble_zero, isDouble_zero⟩, ?_, key, ?_⟩
  · simp only [cross, Vec.fpt, Vec.ofXY, Prod.fst_sub, Prod.snd_sub]
    norm_num
  · unfold Tri.ccw
    rw [decide_eq_false_iff_not, FP.lt_def, fp_zero, key]
    exact lt_irrefl _

/-- The hypotheses are met: an ordinary triangle. -/
example : Tri.ccw (Vec.ofXY ⟨0⟩ ⟨0⟩ : Vec (FP double)) (Vec.ofXY ⟨1⟩ ⟨0⟩) (Vec.ofXY ⟨0⟩ ⟨1⟩) = true := by
  refine (C106_robust_partial _ _ _ ⟨isDouble_zero, isDouble_zero⟩ ⟨isDouble_one, isDouble_zero⟩
    ⟨isDouble_zero, isDouble_one⟩ ?_).2.2.mpr ?_
  · have e : (2 : ℝ) ^ (-1073 : ℤ) ≤ (2 : ℝ) ^ (-2 : ℤ) := zpow_le_zpow_right₀ one_le_two (by norm_num)
    simp only [Vec.ofXY, cross, Vec.fpt, Prod.fst_sub, Prod.snd_sub]
    generalize (2 : ℝ) ^ (-1073 : ℤ) = η at *
    norm_num at *
    linarith
  · simp [cross, Vec.fpt, Vec.ofXY]

end PyrusGeom
