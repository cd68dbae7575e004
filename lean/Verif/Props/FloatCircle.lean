import Verif.Props.FloatRates
import Verif.Props.FloatVec

/-! # C184: the intersections of a circle with a line in double precision -/

namespace PyrusGeom
open Spec

/-! ## Real arithmetic -/

/-- The value of the quadratic at an approximate root. -/
theorem root_residual {A B C W L σ E y u : ℝ} (hu : 0 < u) (hu1 : u ≤ 1 / 1000000) (hA : L ^ 2 ≤ 2 * A) (hA1 : 1 ≤ A) (hA2 : A ≤ L ^ 2)
    (hL : 1 ≤ L) (hW : 0 < W) (hσ : |σ| ≤ 7 * (W * L)) (hE : 0 ≤ E) (hs : |σ ^ 2 - (B ^ 2 - 4 * A * C)| ≤ E + 1500 * u * (W * L) ^ 2)
    (hy : |y - (-B + σ) / (2 * A)| ≤ 1000 * u * (W / L)) : |A * y ^ 2 + B * y + C| ≤ E / 4 + 8000 * u * W ^ 2 := by
  have hA0 : (0 : ℝ) < A := by linarith
  obtain ⟨d, hd⟩ : ∃ d, d = y - (-B + σ) / (2 * A) := ⟨_, rfl⟩
  rw [← hd] at hy
  have e : A * y ^ 2 + B * y + C = (σ ^ 2 - (B ^ 2 - 4 * A * C)) / (4 * A) + σ * d + A * d ^ 2 := by
    have : y = d + (-B + σ) / (2 * A) := by rw [hd]; ring
    rw [this]; field_simp; ring
  rw [e]
  have t1 : |(σ ^ 2 - (B ^ 2 - 4 * A * C)) / (4 * A)| ≤ E / 4 + 750 * u * W ^ 2 := by
    rw [abs_div, abs_of_pos (show 0 < 4 * A by linarith), div_le_iff₀ (by linarith)]
    refine hs.trans ?_
    have p1 : E ≤ E * A := le_mul_of_one_le_right hE hA1
    have p2 : 1500 * u * W ^ 2 * L ^ 2 ≤ 1500 * u * W ^ 2 * (2 * A) := mul_le_mul_of_nonneg_left hA (by positivity)
    nlinarith
  have t2 : |σ * d| ≤ 7000 * u * W ^ 2 := by
    rw [abs_mul]
    refine (mul_le_mul hσ hy (abs_nonneg _) (by positivity)).trans (le_of_eq ?_)
    field_simp; ring
  have t3 : |A * d ^ 2| ≤ u * W ^ 2 := by
    rw [abs_of_nonneg (by positivity), ← sq_abs d]
    have h1 := mul_le_mul hA2 (pow_le_pow_left₀ (abs_nonneg d) hy 2) (by positivity) (by positivity)
    refine h1.trans ?_
    have : L ^ 2 * (1000 * u * (W / L)) ^ 2 = 1000000 * u * (u * W ^ 2) := by field_simp; ring
    rw [this]
    have : 1000000 * u ≤ 1 := by linarith
    exact mul_le_of_le_one_left (by positivity) this
  have hp : 0 < u * W ^ 2 := by positivity
  refine (abs_add_three _ _ _).trans ?_
  linarith

/-- The distance of an approximate root from the exact one on the same side. -/
theorem root_near {A B C W L σ E y u y0 κ : ℝ} (hu : 0 < u) (hu1 : u ≤ 1 / 1000000) (hA : L ^ 2 ≤ 2 * A) (hA1 : 1 ≤ A) (hA2 : A ≤ L ^ 2)
    (hL : 1 ≤ L) (hW : 0 < W) (hE : 0 ≤ E) (hs : |σ ^ 2 - (B ^ 2 - 4 * A * C)| ≤ E + 1500 * u * (W * L) ^ 2)
    (hy : |y - (-B + σ) / (2 * A)| ≤ 1000 * u * (W / L)) (h0 : |A * y0 ^ 2 + B * y0 + C| ≤ κ) (hsg : 0 ≤ σ * (2 * A * y0 + B)) :
    A * (y - y0) ^ 2 ≤ E / 2 + 1502 * u * W ^ 2 + 2 * κ := by
  have hA0 : (0 : ℝ) < A := by linarith
  obtain ⟨d, hd⟩ : ∃ d, d = y - (-B + σ) / (2 * A) := ⟨_, rfl⟩
  rw [← hd] at hy
  obtain ⟨τ, hτ⟩ : ∃ τ, τ = 2 * A * y0 + B := ⟨_, rfl⟩
  rw [← hτ] at hsg
  have eΔ : B ^ 2 - 4 * A * C = τ ^ 2 - 4 * A * (A * y0 ^ 2 + B * y0 + C) := by rw [hτ]; ring
  have hκ : 0 ≤ κ := (abs_nonneg _).trans h0
  have hs' : |σ ^ 2 - τ ^ 2| ≤ E + 1500 * u * (W * L) ^ 2 + 4 * A * κ := by
    rw [show σ ^ 2 - τ ^ 2 = (σ ^ 2 - (B ^ 2 - 4 * A * C)) + -(4 * A * (A * y0 ^ 2 + B * y0 + C)) by rw [eΔ]; ring]
    refine (abs_add_le _ _).trans (add_le_add hs ?_)
    rw [abs_neg, abs_mul, abs_of_pos (show 0 < 4 * A by linarith)]
    exact mul_le_mul_of_nonneg_left h0 (by linarith)
  have k1 : (σ - τ) ^ 2 ≤ E + 1500 * u * (W * L) ^ 2 + 4 * A * κ := by
    refine le_trans ?_ hs'
    have e1 : |σ ^ 2 - τ ^ 2| = |σ - τ| * |σ + τ| := by rw [← abs_mul]; congr 1; ring
    rw [e1, ← sq_abs (σ - τ), pow_two]
    refine mul_le_mul_of_nonneg_left ?_ (abs_nonneg _)
    exact sq_le_sq.mp (by nlinarith)
  have e : y - y0 = d + (σ - τ) / (2 * A) := by rw [hd, hτ]; field_simp; ring
  have k2 : A * (y - y0) ^ 2 ≤ 2 * (A * d ^ 2) + 2 * (A * ((σ - τ) / (2 * A)) ^ 2) := by
    rw [e]; nlinarith [sq_nonneg (d - (σ - τ) / (2 * A))]
  have k3 : A * ((σ - τ) / (2 * A)) ^ 2 ≤ E / 4 + 750 * u * W ^ 2 + κ := by
    have : A * ((σ - τ) / (2 * A)) ^ 2 = (σ - τ) ^ 2 / (4 * A) := by field_simp; ring
    rw [this, div_le_iff₀ (by linarith)]
    refine k1.trans ?_
    have p1 : E ≤ E * A := le_mul_of_one_le_right hE hA1
    have p2 : 1500 * u * W ^ 2 * L ^ 2 ≤ 1500 * u * W ^ 2 * (2 * A) := mul_le_mul_of_nonneg_left hA (by positivity)
    nlinarith
  have k4 : A * d ^ 2 ≤ u * W ^ 2 := by
    rw [← sq_abs d]
    have h1 := mul_le_mul hA2 (pow_le_pow_left₀ (abs_nonneg d) hy 2) (by positivity) (by positivity)
    refine h1.trans ?_
    have : L ^ 2 * (1000 * u * (W / L)) ^ 2 = 1000000 * u * (u * W ^ 2) := by field_simp; ring
    rw [this]
    have : 1000000 * u ≤ 1 := by linarith
    exact mul_le_of_le_one_left (by positivity) this
  have hp : 0 < u * W ^ 2 := by positivity
  linarith

/-! ## The quadratic -/

theorem rounded_two : Rounded 0 2 2 2 := by
  have := rounded_const (x := 2) (two_1000_le (n := 0) (by norm_num) (by rw [abs_of_pos] <;> norm_num))
  rwa [abs_of_pos (by norm_num)] at this

theorem rounded_four : Rounded 0 4 4 4 := by
  have := rounded_const (x := 4) (two_1000_le (n := 0) (by norm_num) (by rw [abs_of_pos] <;> norm_num))
  rwa [abs_of_pos (by norm_num)] at this

/-- `quadratic_f` in double precision, for rounded coefficients of the sizes that occur for circles. -/
theorem quad_rounded {a b c : FP double} {A B C W L : ℝ} (ha : Rounded 11 a.val A (2 * L ^ 2)) (hb : Rounded 16 b.val B (4 * (W * L)))
    (hc : Rounded 17 c.val C (3 * W ^ 2)) (hW : (2 : ℝ) ^ (-200 : ℤ) ≤ W) (hL : 1 ≤ L) (hL2 : L ≤ (2 : ℝ) ^ (501 : ℤ))
    (hA : L ^ 2 ≤ 2 * A) (hA1 : 1 ≤ A) : ∃ D : ℝ, |D - (B ^ 2 - 4 * A * C)| ≤ 1500 * (2 : ℝ) ^ (-53 : ℤ) * (W * L) ^ 2 ∧ |D| ≤ 49 * (W * L) ^ 2 ∧
      ((|D| < (EPSILON : FP double).val ∧ ∃ s, quadraticF a b c = .ok [s, s] ∧
          |s.val - (-B + 0) / (2 * A)| ≤ 1000 * (2 : ℝ) ^ (-53 : ℤ) * (W / L)) ∨
        (D ≤ -(EPSILON : FP double).val ∧ quadraticF a b c = .ok []) ∨
        ((EPSILON : FP double).val ≤ D ∧ ∃ s t, quadraticF a b c = .ok [s, t] ∧
          |s.val - (-B + √D) / (2 * A)| ≤ 1000 * (2 : ℝ) ^ (-53 : ℤ) * (W / L) ∧
          |t.val - (-B + -√D) / (2 * A)| ≤ 1000 * (2 : ℝ) ^ (-53 : ℤ) * (W / L))) := by
  have e2 : (num 2 : FP double).val = 2 := (double.int 2 (by norm_num)).trans (by norm_num)
  have e4 : (num 4 : FP double).val = 4 := (double.int 4 (by norm_num)).trans (by norm_num)
  have w0 : (0 : ℝ) < (2 : ℝ) ^ (-200 : ℤ) := by positivity
  have hW0 : 0 < W := lt_of_lt_of_le w0 hW
  have hL0 : 0 < L := by linarith
  have hA0 : 0 < A := by linarith
  have u0 : (0 : ℝ) < (2 : ℝ) ^ (-53 : ℤ) := by positivity
  have WL : (2 : ℝ) ^ (-200 : ℤ) ≤ W * L := hW.trans (le_mul_of_one_le_right hW0.le hL)
  have WL0 : 0 < W * L := by positivity
  have WL2 : (2 : ℝ) ^ (-400 : ℤ) ≤ (W * L) ^ 2 := by
    rw [show (-400 : ℤ) = -200 + -200 by norm_num, zpow_add₀ two_ne_zero, pow_two]
    exact mul_le_mul WL WL w0.le WL0.le
  have q1 := hb.mul hb (by norm_num) (by norm_num) (by norm_num) (two_1000_le (n := -400) (by norm_num) (WL2.trans (by nlinarith)))
  have q2 := rounded_four.mul ha le_rfl (by norm_num) (by norm_num) (by
    refine rounded_four.big.trans ?_
    have : 1 ≤ L ^ 2 := one_le_pow₀ hL
    linarith)
  have q3 := q2.mul hc (by norm_num) (by norm_num) (by norm_num) (two_1000_le (n := -400) (by norm_num) (WL2.trans (by nlinarith)))
  have q4 := (q1.sub q3 (by norm_num) (by norm_num) (by norm_num)).mono (f := 37) (N := 40 * (W * L) ^ 2) (by norm_num) (by norm_num)
    (le_of_eq (by ring))
  have hDv : (b * b - num 4 * a * c : FP double).val = rne (rne (b.val * b.val) - rne (rne (4 * a.val) * c.val)) := by
    rw [FP.sub_val, FP.mul_val, FP.mul_val, FP.mul_val, e4]; rfl
  rw [← hDv] at q4
  obtain ⟨D, hD⟩ : ∃ D, D = (b * b - num 4 * a * c : FP double).val := ⟨_, rfl⟩
  rw [← hD] at q4
  have hD49 : |D| ≤ 49 * (W * L) ^ 2 := (q4.abs_le (by norm_num)).trans (by nlinarith)
  have an : a.val ≠ 0 := by
    intro h
    have := ha.err
    rw [h, zero_sub, abs_neg, abs_of_pos hA0] at this
    have k : 11 * (2 : ℝ) ^ (-53 : ℤ) * (2 * L ^ 2) ≤ 1 / 2 * A := by
      have : 11 * (2 : ℝ) ^ (-53 : ℤ) * (2 * L ^ 2) ≤ 1 / 8 * (2 * L ^ 2) := mul_le_mul_of_nonneg_right (by norm_num) (by positivity)
      linarith
    have := this.trans k
    linarith
  have an' : ¬ ((a == num 0) = true) := by rw [fp_beq_zero]; exact an
  -- the divisor
  have dv := (rounded_two.mul ha le_rfl (by norm_num) (by norm_num) (by
    refine rounded_two.big.trans ?_
    have : 1 ≤ L ^ 2 := one_le_pow₀ hL
    linarith)).err
  have dv2 : |(num 2 * a : FP double).val - 2 * A| ≤ 56 * (2 : ℝ) ^ (-53 : ℤ) * |2 * A| := by
    rw [FP.mul_val, e2, abs_of_pos (by linarith : (0 : ℝ) < 2 * A)]
    refine dv.trans ?_
    have := mul_le_mul_of_nonneg_left hA u0.le
    nlinarith
  have nA : 2 * A ≠ 0 := by linarith
  have aA : |2 * A| = 2 * A := abs_of_pos (by linarith)
  have quot : ∀ {z Z : ℝ}, Rounded 18 z Z (11 * (W * L)) → |rne (z / (num 2 * a : FP double).val) - Z / (2 * A)| ≤ 1000 * (2 : ℝ) ^ (-53 : ℤ) * (W / L) := by
    intro z Z h
    have cut : 11 * (W * L) / |2 * A| ≤ 11 * (W / L) := by
      rw [aA, div_le_iff₀ (by linarith)]
      have : 11 * (W / L) * L ^ 2 ≤ 11 * (W / L) * (2 * A) := mul_le_mul_of_nonneg_left hA (by positivity)
      refine le_trans (le_of_eq ?_) this
      field_simp
    obtain ⟨_, k⟩ := h.div dv2 nA (by norm_num) (by norm_num) (by norm_num) (by
      have hA3 : 2 * A ≤ (2 : ℝ) ^ (2) * L ^ 2 := by
        have := (abs_le.mp ha.le).2
        rw [show (2 : ℝ) ^ 2 = 4 by norm_num]
        linarith
      refine two_1000_le (n := -800) (by norm_num) ?_
      rw [aA, le_div_iff₀ (by linarith)]
      have c1 : L ≤ (2 : ℝ) ^ (501 : ℤ) := hL2
      have c2 : (2 : ℝ) ^ (-800 : ℤ) * L ≤ (2 : ℝ) ^ (-800 : ℤ) * (2 : ℝ) ^ (501 : ℤ) := mul_le_mul_of_nonneg_left hL2 (by positivity)
      have c3 : (2 : ℝ) ^ (-800 : ℤ) * (2 : ℝ) ^ (501 : ℤ) ≤ (2 : ℝ) ^ (-200 : ℤ) := by
        rw [← zpow_add₀ two_ne_zero]; exact zpow_le_zpow_right₀ one_le_two (by norm_num)
      have c4 : (2 : ℝ) ^ (-800 : ℤ) * L ≤ W := (c2.trans c3).trans hW
      have c5 : (2 : ℝ) ^ (-800 : ℤ) * (2 * A) ≤ (2 : ℝ) ^ (-800 : ℤ) * (4 * L ^ 2) :=
        mul_le_mul_of_nonneg_left (hA3.trans (le_of_eq (by norm_num))) (by positivity)
      have c6 := mul_le_mul_of_nonneg_right c4 (show 0 ≤ 4 * L by positivity)
      refine c5.trans ?_
      generalize (2 : ℝ) ^ (-800 : ℤ) = w at *
      nlinarith)
    refine k.err.trans ?_
    refine (mul_le_mul_of_nonneg_left cut (by positivity)).trans ?_
    have : 0 < (2 : ℝ) ^ (-53 : ℤ) * (W / L) := by positivity
    nlinarith
  refine ⟨D, ?_, hD49, ?_⟩
  · have := q4.err
    rw [show B * B - 4 * A * C = B ^ 2 - 4 * A * C by ring] at this
    refine this.trans ?_
    have : 0 < (2 : ℝ) ^ (-53 : ℤ) * (W * L) ^ 2 := by positivity
    nlinarith
  have hcond : fabs (b * b - num 4 * a * c) < EPSILON ↔ |D| < (EPSILON : FP double).val := by
    rw [FP.lt_def, fp_fabs_val, hD]
  have hcond2 : (b * b - num 4 * a * c : FP double) < num 0 ↔ D < 0 := by
    rw [FP.lt_def, fp_zero, hD]
  have nb : (-b : FP double).val = -b.val := rfl
  have hE := fp_EPSILON.1
  rcases lt_or_ge |D| (EPSILON : FP double).val with h1 | h1
  · left
    refine ⟨h1, ⟨rne (-b.val / (num 2 * a : FP double).val)⟩, ?_, ?_⟩
    · unfold quadraticF
      rw [if_neg an', if_pos (hcond.mpr h1)]
      rfl
    · rw [add_zero]
      exact quot (hb.neg.mono (by norm_num) (by norm_num) (by linarith))
  · right
    rcases lt_or_ge D 0 with h2 | h2
    · left
      rw [abs_of_neg h2] at h1
      refine ⟨by linarith, ?_⟩
      unfold quadraticF
      rw [if_neg an', if_neg (by rw [hcond, abs_of_neg h2]; linarith), if_pos (hcond2.mpr h2)]
    · right
      rw [abs_of_nonneg h2] at h1 hD49
      have s7 : √D ≤ 7 * (W * L) := by
        rw [show 7 * (W * L) = √(49 * (W * L) ^ 2) by rw [show 49 * (W * L) ^ 2 = (7 * (W * L)) ^ 2 by ring, Real.sqrt_sq (by positivity)]]
        exact Real.sqrt_le_sqrt hD49
      have rs : Rounded 2 (rne √D) √D (7 * (W * L)) := by
        have := rounded_round (e := 0) (z := √D) (x := √D) (M := 7 * (W * L)) (by rw [sub_self, abs_zero, zero_mul, zero_mul])
          (by rw [abs_of_nonneg (Real.sqrt_nonneg _)]; exact s7) (two_1000_le (n := -200) (by norm_num) (by linarith)) (by norm_num)
        exact this.mono (by norm_num) (by norm_num) le_rfl
      refine ⟨h1, ⟨rne (rne (-b.val + rne √D) / (num 2 * a : FP double).val)⟩, ⟨rne (rne (-b.val - rne √D) / (num 2 * a : FP double).val)⟩, ?_, ?_, ?_⟩
      · unfold quadraticF
        rw [if_neg an', if_neg (by rw [hcond, abs_of_nonneg h2]; linarith), if_neg (by rw [hcond2]; linarith), hD]
        rfl
      · exact quot ((hb.neg.add rs (by norm_num) (by norm_num) (by norm_num)).mono (by norm_num) (by norm_num) (le_of_eq (by ring)))
      · rw [← sub_eq_add_neg]
        exact quot ((hb.neg.sub rs (by norm_num) (by norm_num) (by norm_num)).mono (by norm_num) (by norm_num) (le_of_eq (by ring)))

/-! ## From roots to points -/

theorem fp_EPSILON_double : IsDouble (EPSILON : FP double).val := isDouble_rne _

theorem fp_EPSILON_le19 : (EPSILON : FP double).val ≤ (2 : ℝ) ^ (-19 : ℤ) := by
  have e : (EPSILON : FP double).val = rne (1 / 1000000) := by
    change rne (rne ((1 : ℕ) : ℝ) / rne ((1000000 : ℕ) : ℝ)) = _
    rw [rne_of_isDouble (isDouble_nat (n := 1) (by norm_num)), rne_of_isDouble (isDouble_nat (n := 1000000) (by norm_num))]
    norm_num
  rw [e]
  have := rne_mono (show (1 / 1000000 : ℝ) ≤ (2 : ℝ) ^ (-19 : ℤ) by norm_num)
  rwa [rne_of_isDouble (isDouble_pow (-19) (by norm_num))] at this

theorem fp_EPSILON_sq : 4 * (EPSILON : FP double).val ^ 2 ≤ (EPSILON : FP double).val := by
  have h0 := fp_EPSILON.1
  have : (EPSILON : FP double).val ≤ 1 / 4 := fp_EPSILON.2.trans (by norm_num)
  nlinarith

/-- Two points that are weakly equal in double precision are within the tolerance exactly. -/
theorem fp_weakly {v w : Vec (FP double)} (h : v.equalsWeakly w = true) :
    |v.x.val - w.x.val| < (EPSILON : FP double).val ∧ |v.y.val - w.y.val| < (EPSILON : FP double).val := by
  have key : ∀ {z : ℝ}, |rne z| < (EPSILON : FP double).val → |z| < (EPSILON : FP double).val := by
    intro z hz
    by_contra hn
    push Not at hn
    have := rne_mono hn
    rw [rne_of_isDouble fp_EPSILON_double] at this
    rcases abs_cases z with ⟨e, _⟩ | ⟨e, _⟩
    · rw [e] at this; exact absurd (this.trans (le_abs_self _)) (not_le.mpr hz)
    · rw [e, rne_neg] at this; exact absurd (this.trans (neg_le_abs _)) (not_le.mpr hz)
  simp only [Vec.equalsWeakly, Bool.and_eq_true, decide_eq_true_eq, FP.lt_def, fp_fabs_val, FP.sub_val] at h
  exact ⟨key h.1, key h.2⟩

theorem root_size {A B W L σ y u : ℝ} (hu1 : u ≤ 1 / 1000000) (hA : L ^ 2 ≤ 2 * A) (hA1 : 1 ≤ A)
    (hL : 1 ≤ L) (hW : 0 < W) (hB : |B| ≤ 4 * (W * L)) (hσ : |σ| ≤ 7 * (W * L))
    (hy : |y - (-B + σ) / (2 * A)| ≤ 1000 * u * (W / L)) : |y| ≤ 12 * (W / L) := by
  have k1 : |(-B + σ) / (2 * A)| ≤ 11 * (W / L) := by
    rw [abs_div, abs_of_pos (show 0 < 2 * A by linarith), div_le_iff₀ (by linarith)]
    have k2 : |-B + σ| ≤ 11 * (W * L) := by
      refine (abs_add_le _ _).trans ?_
      rw [abs_neg]; linarith
    have k3 : 11 * (W / L) * L ^ 2 ≤ 11 * (W / L) * (2 * A) := mul_le_mul_of_nonneg_left hA (by positivity)
    refine k2.trans (le_trans (le_of_eq ?_) k3)
    field_simp
  have k4 := abs_sub_abs_le_abs_sub y ((-B + σ) / (2 * A))
  have k5 : 1000 * u * (W / L) ≤ 1 * (W / L) := mul_le_mul_of_nonneg_right (by linarith) (by positivity)
  linarith

/-- The square of a distance after a small change. -/
theorem square_change {x x' e W z : ℝ} (h1 : |x - x'| ≤ e) (h2 : e ≤ W) (h3 : |x' - z| ≤ 14 * W) :
    |(x - z) ^ 2 - (x' - z) ^ 2| ≤ e * (29 * W) := by
  rw [show (x - z) ^ 2 - (x' - z) ^ 2 = (x - x') * ((x - x') + 2 * (x' - z)) by ring, abs_mul]
  refine mul_le_mul h1 ?_ (abs_nonneg _) ((abs_nonneg _).trans h1)
  refine (abs_add_le _ _).trans ?_
  rw [abs_mul, abs_of_pos (by norm_num : (0 : ℝ) < 2)]
  linarith

theorem square_sum (x y z : ℝ) : (x - z) ^ 2 ≤ 2 * (x - y) ^ 2 + 2 * (y - z) ^ 2 := by
  nlinarith [sq_nonneg (x - y - (y - z))]

theorem root_point {A B C W L σ E T s u cx cy r ex ey x y : ℝ} {X Y : ℝ → ℝ} (hu : 0 < u) (hu1 : u ≤ 1 / 1000000) (hA : L ^ 2 ≤ 2 * A)
    (hA1 : 1 ≤ A) (hA2 : A ≤ L ^ 2) (hL : 1 ≤ L) (hW : 0 < W) (hσ : |σ| ≤ 7 * (W * L)) (hE : 0 ≤ E) (hET : E ≤ T)
    (hs : |σ ^ 2 - (B ^ 2 - 4 * A * C)| ≤ E + 1500 * u * (W * L) ^ 2) (hy : |s - (-B + σ) / (2 * A)| ≤ 1000 * u * (W / L))
    (hex : 0 ≤ ex) (hey : 0 ≤ ey) (hexy : ex + ey ≤ 150 * u * W) (m1 : |x - X s| ≤ ex) (m2 : |y - Y s| ≤ ey)
    (m3 : |X s - cx| ≤ 14 * W) (m4 : |Y s - cy| ≤ 14 * W)
    (hq : ∀ t, (X t - cx) ^ 2 + (Y t - cy) ^ 2 - r ^ 2 = A * t ^ 2 + B * t + C)
    (hdd : ∀ t t', (X t - X t') ^ 2 + (Y t - Y t') ^ 2 = A * (t - t') ^ 2) :
    |(x - cx) ^ 2 + (y - cy) ^ 2 - r ^ 2| ≤ T / 4 + 16384 * u * W ^ 2 ∧
      ∀ κ t, |A * t ^ 2 + B * t + C| ≤ κ → 0 ≤ σ * (2 * A * t + B) → (x - X t) ^ 2 + (y - Y t) ^ 2 ≤ T + 4000 * u * W ^ 2 + 4 * κ := by
  have uW : 150 * u * W ≤ W := by
    have : 150 * u ≤ 1 := by linarith
    exact mul_le_of_le_one_left hW.le this
  have hp : 0 < u * W ^ 2 := by positivity
  constructor
  · have res := root_residual hu hu1 hA hA1 hA2 hL hW hσ hE hs hy
    rw [← hq] at res
    have p1 := square_change m1 (by linarith) m3
    have p2 := square_change m2 (by linarith) m4
    rw [show (x - cx) ^ 2 + (y - cy) ^ 2 - r ^ 2 = ((X s - cx) ^ 2 + (Y s - cy) ^ 2 - r ^ 2) +
      ((x - cx) ^ 2 - (X s - cx) ^ 2) + ((y - cy) ^ 2 - (Y s - cy) ^ 2) by ring]
    refine (abs_add_three _ _ _).trans ?_
    have p3 := mul_le_mul_of_nonneg_right hexy (show 0 ≤ 29 * W by positivity)
    have p4 : 150 * u * W * (29 * W) = 4350 * (u * W ^ 2) := by ring
    have p5 : (ex + ey) * (29 * W) = ex * (29 * W) + ey * (29 * W) := by ring
    linarith
  · intro κ t ht hsg
    have near := root_near hu hu1 hA hA1 hA2 hL hW hE hs hy ht hsg
    rw [← hdd] at near
    have s1 : (x - X s) ^ 2 ≤ ex ^ 2 := by rw [← sq_abs]; exact pow_le_pow_left₀ (abs_nonneg _) m1 2
    have s2 : (y - Y s) ^ 2 ≤ ey ^ 2 := by rw [← sq_abs]; exact pow_le_pow_left₀ (abs_nonneg _) m2 2
    have s3 : (ex + ey) ^ 2 ≤ u * W ^ 2 := by
      refine (pow_le_pow_left₀ (by linarith) hexy 2).trans ?_
      have : 22500 * u ≤ 1 := by linarith
      have := mul_le_mul_of_nonneg_right this hp.le
      have e : (150 * u * W) ^ 2 = 22500 * u * (u * W ^ 2) := by ring
      linarith
    have c1 := square_sum x (X s) (X t)
    have c2 := square_sum y (Y s) (Y t)
    have c3 : ex ^ 2 + ey ^ 2 ≤ (ex + ey) ^ 2 := by
      have := mul_nonneg hex hey
      have e : (ex + ey) ^ 2 = ex ^ 2 + ey ^ 2 + 2 * (ex * ey) := by ring
      linarith
    linarith

/-- The points made of the roots. -/
theorem circle_points {a b c : FP double} {A B C W L cx cy r ex ey : ℝ} {X Y : ℝ → ℝ} {mk : FP double → Vec (FP double)}
    (ha : Rounded 11 a.val A (2 * L ^ 2)) (hb : Rounded 16 b.val B (4 * (W * L)))
    (hc : Rounded 17 c.val C (3 * W ^ 2)) (hW : (2 : ℝ) ^ (-200 : ℤ) ≤ W) (hL : 1 ≤ L) (hL2 : L ≤ (2 : ℝ) ^ (501 : ℤ))
    (hA : L ^ 2 ≤ 2 * A) (hA1 : 1 ≤ A) (hA2 : A ≤ L ^ 2) (hex : 0 ≤ ex) (hey : 0 ≤ ey) (hexy : ex + ey ≤ 150 * (2 : ℝ) ^ (-53 : ℤ) * W)
    (hmk : ∀ t : FP double, |t.val| ≤ 12 * (W / L) → |(mk t).x.val - X t.val| ≤ ex ∧ |(mk t).y.val - Y t.val| ≤ ey ∧
      |X t.val - cx| ≤ 14 * W ∧ |Y t.val - cy| ≤ 14 * W)
    (hq : ∀ t, (X t - cx) ^ 2 + (Y t - cy) ^ 2 - r ^ 2 = A * t ^ 2 + B * t + C)
    (hdd : ∀ t t', (X t - X t') ^ 2 + (Y t - Y t') ^ 2 = A * (t - t') ^ 2) :
    ∃ l, (quadraticF a b c).map (Circle.solPoints mk) = .ok l ∧
      (∀ p ∈ l, (∃ t, |p.x.val - X t| ≤ ex ∧ |p.y.val - Y t| ≤ ey) ∧
        |(p.x.val - cx) ^ 2 + (p.y.val - cy) ^ 2 - r ^ 2| ≤ (EPSILON : FP double).val / 4 + (2 : ℝ) ^ (-39 : ℤ) * W ^ 2) ∧
      (B ^ 2 - 4 * A * C ≤ -((EPSILON : FP double).val + 1500 * (2 : ℝ) ^ (-53 : ℤ) * (W * L) ^ 2) → l = []) ∧
      (∀ κ t, 1500 * (2 : ℝ) ^ (-53 : ℤ) * (W * L) ^ 2 + 4 * A * κ < (EPSILON : FP double).val → |A * t ^ 2 + B * t + C| ≤ κ →
        ∃ p ∈ l, (p.x.val - X t) ^ 2 + (p.y.val - Y t) ^ 2 ≤ 3 * (EPSILON : FP double).val + (2 : ℝ) ^ (-40 : ℤ) * W ^ 2 + 8 * κ) := by
  obtain ⟨D, hD, hD49, hcase⟩ := quad_rounded ha hb hc hW hL hL2 hA hA1
  have hW0 : 0 < W := lt_of_lt_of_le (by positivity) hW
  have hL0 : 0 < L := by linarith
  have hA0 : 0 < A := by linarith
  have hE := fp_EPSILON.1
  have hE2 := fp_EPSILON.2
  have uu : ∃ u : ℝ, u = (2 : ℝ) ^ (-53 : ℤ) := ⟨_, rfl⟩
  obtain ⟨u, hu⟩ := uu
  have u0 : 0 < u := by rw [hu]; positivity
  have u1 : u ≤ 1 / 1000000 := by rw [hu]; norm_num
  have u39 : (2 : ℝ) ^ (-39 : ℤ) = 16384 * u := by rw [hu]; norm_num
  have u40 : (2 : ℝ) ^ (-40 : ℤ) = 8192 * u := by rw [hu]; norm_num
  rw [u39, u40]
  rw [← hu] at hexy hD hcase ⊢
  have point : ∀ {s : FP double} {σ E : ℝ}, |σ| ≤ 7 * (W * L) → 0 ≤ E → E ≤ (EPSILON : FP double).val →
      |σ ^ 2 - (B ^ 2 - 4 * A * C)| ≤ E + 1500 * u * (W * L) ^ 2 → |s.val - (-B + σ) / (2 * A)| ≤ 1000 * u * (W / L) →
      (|(mk s).x.val - X s.val| ≤ ex ∧ |(mk s).y.val - Y s.val| ≤ ey) ∧
      |((mk s).x.val - cx) ^ 2 + ((mk s).y.val - cy) ^ 2 - r ^ 2| ≤ (EPSILON : FP double).val / 4 + 16384 * u * W ^ 2 ∧
      ∀ κ t, |A * t ^ 2 + B * t + C| ≤ κ → 0 ≤ σ * (2 * A * t + B) →
        ((mk s).x.val - X t) ^ 2 + ((mk s).y.val - Y t) ^ 2 ≤ (EPSILON : FP double).val + 4000 * u * W ^ 2 + 4 * κ := by
    intro s σ E hσ hE0 hE1 hs hy
    obtain ⟨m1, m2, m3, m4⟩ := hmk s (root_size u1 hA hA1 hL hW0 hb.le hσ hy)
    exact ⟨⟨m1, m2⟩, root_point u0 u1 hA hA1 hA2 hL hW0 hσ hE0 hE1 hs hy hex hey hexy m1 m2 m3 m4 hq hdd⟩
  have weak : ∀ κ t, |A * t ^ 2 + B * t + C| ≤ κ →
      (EPSILON : FP double).val + 4000 * u * W ^ 2 + 4 * κ ≤ 3 * (EPSILON : FP double).val + 8192 * u * W ^ 2 + 8 * κ := by
    intro κ t hκ
    have : 0 < u * W ^ 2 := by positivity
    have := (abs_nonneg _).trans hκ
    linarith
  rcases hcase with ⟨h1, s, hs, hy⟩ | ⟨h1, hs⟩ | ⟨h1, s, t, hs, hy1, hy2⟩
  · have hσ : |(0 : ℝ)| ≤ 7 * (W * L) := by rw [abs_zero]; positivity
    have hs2 : |(0 : ℝ) ^ 2 - (B ^ 2 - 4 * A * C)| ≤ (EPSILON : FP double).val + 1500 * u * (W * L) ^ 2 := by
      rw [show (0 : ℝ) ^ 2 - (B ^ 2 - 4 * A * C) = (D - (B ^ 2 - 4 * A * C)) + -D by ring]
      refine (abs_add_le _ _).trans ?_
      rw [abs_neg]; linarith
    obtain ⟨r1, r2, r3⟩ := point hσ hE.le le_rfl hs2 hy
    have hl : (quadraticF a b c).map (Circle.solPoints mk) = .ok [mk s] := by
      rw [hs]
      have : (mk s).equalsWeakly (mk s) = true := by
        simp only [Vec.equalsWeakly, Bool.and_eq_true, decide_eq_true_eq, FP.lt_def, fp_fabs_val, FP.sub_val, sub_self]
        have z : double.f 0 = 0 := rne_of_isDouble isDouble_zero
        rw [z, abs_zero]
        exact ⟨hE, hE⟩
      change Except.ok (Circle.solPoints mk [s, s]) = _
      rw [Circle.solPoints, if_pos this]
    refine ⟨_, hl, ?_, ?_, ?_⟩
    · intro p hp
      rw [List.mem_singleton] at hp
      rw [hp]
      exact ⟨⟨_, r1⟩, r2⟩
    · intro hn
      exfalso
      have := (abs_le.mp hD).2
      have := (abs_lt.mp h1).1
      linarith
    · intro κ t _ ht
      exact ⟨_, List.mem_singleton.mpr rfl, (r3 κ t ht (by rw [zero_mul])).trans (weak κ t ht)⟩
  · refine ⟨[], by rw [hs]; rfl, fun p hp => by simp at hp, fun _ => rfl, ?_⟩
    intro κ t hlt ht
    exfalso
    have e : B ^ 2 - 4 * A * C = (2 * A * t + B) ^ 2 - 4 * A * (A * t ^ 2 + B * t + C) := by ring
    have := sq_nonneg (2 * A * t + B)
    have := (abs_le.mp hD).1
    have := mul_le_mul_of_nonneg_left (abs_le.mp ht).2 (show 0 ≤ 4 * A by linarith)
    linarith
  · have hD0 : 0 ≤ D := hE.le.trans h1
    rw [abs_of_nonneg hD0] at hD49
    have s0 := Real.sqrt_nonneg D
    have s7 : √D ≤ 7 * (W * L) := by
      rw [show 7 * (W * L) = √(49 * (W * L) ^ 2) by rw [show 49 * (W * L) ^ 2 = (7 * (W * L)) ^ 2 by ring, Real.sqrt_sq (by positivity)]]
      exact Real.sqrt_le_sqrt hD49
    have sD : √D ^ 2 = D := Real.sq_sqrt hD0
    obtain ⟨r1, r2, r3⟩ := point (s := s) (σ := √D) (E := 0) (by rwa [abs_of_nonneg s0]) le_rfl hE.le (by rw [sD, zero_add]; exact hD) hy1
    obtain ⟨q1, q2, q3⟩ := point (s := t) (σ := -√D) (E := 0) (by rwa [abs_neg, abs_of_nonneg s0]) le_rfl hE.le
      (by rw [neg_sq, sD, zero_add]; exact hD) hy2
    have no : ¬ (B ^ 2 - 4 * A * C ≤ -((EPSILON : FP double).val + 1500 * u * (W * L) ^ 2)) := by
      intro hn
      have := (abs_le.mp hD).2
      linarith
    have hl : (quadraticF a b c).map (Circle.solPoints mk) = .ok (if (mk s).equalsWeakly (mk t) then [mk s] else [mk s, mk t]) := by
      rw [hs]; rfl
    refine ⟨_, hl, ?_, fun hn => absurd hn no, ?_⟩
    · intro p hp
      have : p = mk s ∨ p = mk t := by
        split at hp
        · exact Or.inl (List.mem_singleton.mp hp)
        · simpa using hp
      rcases this with rfl | rfl
      · exact ⟨⟨_, r1⟩, r2⟩
      · exact ⟨⟨_, q1⟩, q2⟩
    · intro κ t0 _ ht0
      rcases le_total 0 (2 * A * t0 + B) with h | h
      · refine ⟨mk s, by split <;> simp, (r3 κ t0 ht0 (mul_nonneg s0 h)).trans (weak κ t0 ht0)⟩
      · have n2 := q3 κ t0 ht0 (by rw [neg_mul, ← mul_neg]; exact mul_nonneg s0 (by linarith))
        split
        · rename_i hw
          obtain ⟨w1, w2⟩ := fp_weakly hw
          refine ⟨mk s, by simp, ?_⟩
          have v1 : ((mk s).x.val - (mk t).x.val) ^ 2 ≤ (EPSILON : FP double).val ^ 2 := by rw [← sq_abs]; exact pow_le_pow_left₀ (abs_nonneg _) w1.le 2
          have v2 : ((mk s).y.val - (mk t).y.val) ^ 2 ≤ (EPSILON : FP double).val ^ 2 := by rw [← sq_abs]; exact pow_le_pow_left₀ (abs_nonneg _) w2.le 2
          have c1 := square_sum (mk s).x.val (mk t).x.val (X t0)
          have c2 := square_sum (mk s).y.val (mk t).y.val (Y t0)
          have c3 := fp_EPSILON_sq
          have : 0 < u * W ^ 2 := by positivity
          linarith
        · exact ⟨mk t, by simp, n2.trans (weak κ t0 ht0)⟩

/-! ## The intersections with a line -/

/-- The sizes that enter: the intercept of the line, the center, the radius. -/
noncomputable def Spec.reach (c : Circle (FP double)) (t : ℝ) : ℝ :=
  |t| + |c.center.x.val| + |c.center.y.val| + |c.radius.val| + (2 : ℝ) ^ (-200 : ℤ)

theorem two_280 {x a : ℝ} (ha : (2 : ℝ) ^ (-20 : ℤ) ≤ |a|) : (|x| + (2 : ℝ) ^ (-300 : ℤ)) / |a| ≤ |x / a| + (2 : ℝ) ^ (-280 : ℤ) := by
  have h0 : 0 < |a| := lt_of_lt_of_le (by positivity) ha
  rw [add_div, abs_div]
  refine add_le_add le_rfl ?_
  rw [div_le_iff₀ h0, show (-300 : ℤ) = -280 + -20 by norm_num, zpow_add₀ two_ne_zero]
  exact mul_le_mul_of_nonneg_left ha (by positivity)

/-- A rounded quotient with a divisor that is neither small nor large. -/
theorem rounded_quot (x : ℝ) {a : ℝ} (ha : (2 : ℝ) ^ (-20 : ℤ) ≤ |a|) (ha2 : |a| ≤ (2 : ℝ) ^ (500 : ℤ)) :
    Rounded 3 (rne (x / a)) (x / a) (|x / a| + (2 : ℝ) ^ (-280 : ℤ)) := by
  have h0 : 0 < |a| := lt_of_lt_of_le (by positivity) ha
  obtain ⟨_, h⟩ := (rounded_num x).div (b := a) (y := a) (f := 0) (by rw [sub_self, abs_zero, zero_mul, zero_mul]) (abs_pos.mp h0) le_rfl le_rfl
    (by norm_num) (by
      refine two_1000_le (n := -800) (by norm_num) ?_
      rw [le_div_iff₀ h0]
      refine (mul_le_mul_of_nonneg_left ha2 (by positivity)).trans ?_
      rw [← zpow_add₀ two_ne_zero]
      have := abs_nonneg x
      have : (2 : ℝ) ^ (-800 + 500 : ℤ) = (2 : ℝ) ^ (-300 : ℤ) := by norm_num
      linarith)
  exact h.mono (by norm_num) (by norm_num) (two_280 ha)

theorem except_map_eq {α β : Type} (q : Except PyErr α) (f : α → β) : (do let s ← q; return f s) = q.map f := by
  cases q <;> rfl

theorem miss_discr {A L W E R q u : ℝ} (hu : 0 ≤ u) (hE : 0 ≤ E) (hA : L ^ 2 ≤ 2 * A) (hA1 : 1 ≤ A)
    (h : (R + E + 1024 * u * W ^ 2) * A ≤ q) : 4 * (A * R - q) ≤ -(E + 1500 * u * (W * L) ^ 2) := by
  have k4 : u * W ^ 2 * L ^ 2 ≤ u * W ^ 2 * (2 * A) := mul_le_mul_of_nonneg_left hA (by positivity)
  have k5 : E ≤ E * A := le_mul_of_one_le_right hE hA1
  have k7 : 0 ≤ u * W ^ 2 * L ^ 2 := by positivity
  nlinarith

set_option maxHeartbeats 1000000 in
/-- **C184** The intersections of a circle with a line that is not horizontal: every returned point is near the line and the circle;
a line that is clearly apart gives none; near every exact intersection there is a returned point. -/
theorem C184_line (c : Circle (FP double)) (l : Line (FP double)) (h1 : (EPSILON : FP double).val ≤ |l.a.val|)
    (h2 : |l.a.val| ≤ (2 : ℝ) ^ (500 : ℤ)) (h3 : |l.b.val / l.a.val| ≤ (2 : ℝ) ^ (500 : ℤ)) :
    ∃ ps, c.intersectionLine l = .ok ps ∧
      (∀ p ∈ ps, |l.a.val * p.x.val + l.b.val * p.y.val + l.c.val| ≤ (2 : ℝ) ^ (-45 : ℤ) * (|l.a.val| * reach c (l.c.val / l.a.val)) ∧
        |(p.x.val - c.center.x.val) ^ 2 + (p.y.val - c.center.y.val) ^ 2 - c.radius.val ^ 2| ≤
          (EPSILON : FP double).val / 4 + (2 : ℝ) ^ (-39 : ℤ) * reach c (l.c.val / l.a.val) ^ 2) ∧
      ((c.radius.val ^ 2 + (EPSILON : FP double).val + (2 : ℝ) ^ (-43 : ℤ) * reach c (l.c.val / l.a.val) ^ 2) * (l.a.val ^ 2 + l.b.val ^ 2) ≤
          (l.a.val * c.center.x.val + l.b.val * c.center.y.val + l.c.val) ^ 2 → ps = []) ∧
      (reach c (l.c.val / l.a.val) * (1 + |l.b.val / l.a.val|) ≤ 2048 → ∀ x y : ℝ, l.a.val * x + l.b.val * y + l.c.val = 0 →
        (x - c.center.x.val) ^ 2 + (y - c.center.y.val) ^ 2 = c.radius.val ^ 2 →
        ∃ p ∈ ps, (p.x.val - x) ^ 2 + (p.y.val - y) ^ 2 ≤
          3 * (EPSILON : FP double).val + (2 : ℝ) ^ (-40 : ℤ) * reach c (l.c.val / l.a.val) ^ 2) ∧
      (∀ x y δ : ℝ, δ * l.a.val = l.a.val * x + l.b.val * y + l.c.val →
        (x - c.center.x.val) ^ 2 + (y - c.center.y.val) ^ 2 = c.radius.val ^ 2 →
        1500 * (2 : ℝ) ^ (-53 : ℤ) * (reach c (l.c.val / l.a.val) * (1 + |l.b.val / l.a.val|)) ^ 2 +
          4 * (1 + |l.b.val / l.a.val|) ^ 2 * (2 * |x - c.center.x.val| * |δ| + δ ^ 2) < (EPSILON : FP double).val →
        ∃ p ∈ ps, (p.x.val - x) ^ 2 + (p.y.val - y) ^ 2 ≤ 6 * (EPSILON : FP double).val +
          (2 : ℝ) ^ (-39 : ℤ) * reach c (l.c.val / l.a.val) ^ 2 + (32 * |x - c.center.x.val| * |δ| + 18 * δ ^ 2)) := by
  have e1 : (num 1 : FP double).val = 1 := (double.int 1 (by norm_num)).trans (by norm_num)
  have e2 : (num 2 : FP double).val = 2 := (double.int 2 (by norm_num)).trans (by norm_num)
  have ha20 : (2 : ℝ) ^ (-20 : ℤ) ≤ |l.a.val| := fp_EPSILON_ge.trans h1
  have ha0 : 0 < |l.a.val| := lt_of_lt_of_le (by positivity) ha20
  have han : l.a.val ≠ 0 := abs_pos.mp ha0
  obtain ⟨W, hWd⟩ : ∃ W, W = reach c (l.c.val / l.a.val) := ⟨_, rfl⟩
  rw [← hWd]
  rw [reach] at hWd
  obtain ⟨cx, hcx⟩ : ∃ x, x = c.center.x.val := ⟨_, rfl⟩
  obtain ⟨cy, hcy⟩ : ∃ x, x = c.center.y.val := ⟨_, rfl⟩
  obtain ⟨r, hr⟩ : ∃ x, x = c.radius.val := ⟨_, rfl⟩
  obtain ⟨β, hβ⟩ : ∃ x, x = l.b.val / l.a.val := ⟨_, rfl⟩
  obtain ⟨γ, hγ⟩ : ∃ x, x = l.c.val / l.a.val := ⟨_, rfl⟩
  have rβ := rounded_quot l.b.val ha20 h2
  have rγ := rounded_quot l.c.val ha20 h2
  rw [← hβ] at rβ h3 ⊢
  rw [← hγ, ← hcx, ← hcy, ← hr] at hWd
  rw [← hγ] at rγ
  rw [← hcx, ← hcy, ← hr]
  have T : (2 : ℝ) ^ (-300 : ℤ) + (2 : ℝ) ^ (-280 : ℤ) ≤ (2 : ℝ) ^ (-200 : ℤ) := by
    rw [show (-300 : ℤ) = -100 + -200 by norm_num, show (-280 : ℤ) = -80 + -200 by norm_num, zpow_add₀ two_ne_zero, zpow_add₀ two_ne_zero, ← add_mul]
    exact mul_le_of_le_one_left (by positivity) (by norm_num)
  have T3 : (0 : ℝ) < (2 : ℝ) ^ (-300 : ℤ) := by positivity
  have T28 : (0 : ℝ) < (2 : ℝ) ^ (-280 : ℤ) := by positivity
  have T28' : (2 : ℝ) ^ (-280 : ℤ) ≤ 1 := zpow_le_one_of_nonpos₀ one_le_two (by norm_num)
  have g0 := abs_nonneg γ
  have x0 := abs_nonneg cx
  have y0 := abs_nonneg cy
  have r0 := abs_nonneg r
  have b0 := abs_nonneg β
  have hW : (2 : ℝ) ^ (-200 : ℤ) ≤ W := by linarith
  have hW0 : 0 < W := lt_of_lt_of_le (by positivity) hW
  have rcx := rounded_num cx
  have rcy := (rounded_num cy).mono (f := 0) (N := W) le_rfl le_rfl (by linarith)
  have rr := (rounded_num r).mono (f := 0) (N := W) le_rfl le_rfl (by linarith)
  obtain ⟨L, hL⟩ : ∃ L, L = 1 + |β| := ⟨_, rfl⟩
  have hL1 : 1 ≤ L := by linarith
  have rβ' := rβ.mono (f := 3) (N := L) le_rfl (by norm_num) (by linarith)
  have rg := (rγ.add rcx (by norm_num) le_rfl (by norm_num)).mono (f := 5) (N := W) (by norm_num) (by norm_num) (by linarith)
  have bigW : (2 : ℝ) ^ (-400 : ℤ) ≤ W * W := by
    rw [show (-400 : ℤ) = -200 + -200 by norm_num, zpow_add₀ two_ne_zero]
    exact mul_le_mul hW hW (by positivity) hW0.le
  have big2 : (2 : ℝ) ^ (-1000 : ℤ) ≤ W * W := two_1000_le (by norm_num) bigW
  have LL : 1 ≤ L * L := one_le_mul_of_one_le_of_one_le hL1 hL1
  have WL : W ≤ W * L := le_mul_of_one_le_right hW0.le hL1
  -- the coefficients
  have A1 := rβ'.mul rβ' (by norm_num) (by norm_num) (by norm_num) (rounded_one.big.trans LL)
  have A2 := (rounded_one.add A1 le_rfl (by norm_num) (by norm_num)).mono (f := 11) (N := 2 * L ^ 2) (by norm_num) (by norm_num) (by rw [pow_two]; linarith)
  have B1 := rg.mul rβ' (by norm_num) (by norm_num) (by norm_num) (big_mul rg.big hL1)
  have B2 := (rcy.neg.add B1 le_rfl (by norm_num) (by norm_num)).mono (f := 13) (N := 2 * (W * L)) (by norm_num) (by norm_num) (by linarith)
  have B3 := (rounded_two.mul B2 le_rfl (by norm_num) (by norm_num) (by
    refine B2.big.trans ?_; have : 0 < W * L := by positivity
    linarith)).mono (f := 16) (N := 4 * (W * L)) (by norm_num) (by norm_num) (le_of_eq (by ring))
  have C1 := rg.mul rg (by norm_num) (by norm_num) (by norm_num) big2
  have C2 := C1.add (rcy.mul rcy le_rfl le_rfl (by norm_num) big2) (by norm_num) (by norm_num) (by norm_num)
  have C3 := (C2.sub (rr.mul rr le_rfl le_rfl (by norm_num) big2) (by norm_num) (by norm_num) (by norm_num)).mono (f := 17) (N := 3 * W ^ 2)
    (by norm_num) (by norm_num) (le_of_eq (by ring))
  have hA : L ^ 2 ≤ 2 * (1 + β * β) := by
    rw [hL, ← abs_mul_abs_self β]; nlinarith [sq_nonneg (|β| - 1)]
  have hA1 : 1 ≤ 1 + β * β := by have := mul_self_nonneg β; linarith
  have hA2 : 1 + β * β ≤ L ^ 2 := by rw [hL, ← abs_mul_abs_self β]; nlinarith
  have hL2 : L ≤ (2 : ℝ) ^ (501 : ℤ) := by
    have : (1 : ℝ) ≤ (2 : ℝ) ^ (500 : ℤ) := one_le_zpow₀ one_le_two (by norm_num)
    rw [hL, show (501 : ℤ) = 500 + 1 by norm_num, zpow_add₀ two_ne_zero, zpow_one]
    generalize (2 : ℝ) ^ (500 : ℤ) = w at *
    linarith
  have u0 : (0 : ℝ) < (2 : ℝ) ^ (-53 : ℤ) := by positivity
  have hL0 : 0 < L := by linarith
  have hqq : ∀ t : ℝ, (-γ - β * t - cx) ^ 2 + (t - cy) ^ 2 - r ^ 2 =
      (1 + β * β) * t ^ 2 + 2 * (-cy + (γ + cx) * β) * t + ((γ + cx) * (γ + cx) + cy * cy - r * r) := fun t => by ring
  obtain ⟨ps, hps, g1, g2, g3⟩ := circle_points (a := num 1 + l.b / l.a * (l.b / l.a))
    (b := num 2 * (-c.center.y + (l.c / l.a + c.center.x) * (l.b / l.a)))
    (c := sq (l.c / l.a + c.center.x) + sq c.center.y - sq c.radius)
    (A := 1 + β * β) (B := 2 * (-cy + (γ + cx) * β)) (C := (γ + cx) * (γ + cx) + cy * cy - r * r) (cx := cx) (cy := cy) (r := r)
    (ex := 104 * (2 : ℝ) ^ (-53 : ℤ) * W) (ey := 0) (X := fun t => -γ - β * t) (Y := fun t => t)
    (mk := fun s => Vec.ofXY (l.getX s) s)
    (by rw [hβ] at A2 ⊢; rw [FP.add_val, FP.mul_val, FP.div_val, e1]; exact A2)
    (by rw [hβ, hγ, hcx, hcy] at B3 ⊢; rw [FP.mul_val, FP.add_val, FP.mul_val, FP.add_val, FP.div_val, FP.div_val, e2]; exact B3)
    (by rw [hγ, hcx, hcy, hr] at C3 ⊢; exact C3)
    hW hL1 hL2 hA hA1 hA2 (by positivity) le_rfl (by have : 0 < (2 : ℝ) ^ (-53 : ℤ) * W := by positivity
                                                     linarith)
    (by
      intro t ht
      have hx : |-γ - β * t.val - cx| ≤ 14 * W := by
        have k1 : |β * t.val| ≤ 12 * W := by
          rw [abs_mul]
          have := mul_le_mul (show |β| ≤ L by linarith) ht (abs_nonneg _) hL0.le
          refine this.trans (le_of_eq ?_); field_simp
        have := abs_add_three (-γ) (-(β * t.val)) (-cx)
        rw [abs_neg, abs_neg, abs_neg] at this
        rw [show -γ - β * t.val - cx = -γ + -(β * t.val) + -cx by ring]
        linarith
      have hyy : |t.val - cy| ≤ 14 * W := by
        have k1 : 12 * (W / L) ≤ 12 * W := mul_le_mul_of_nonneg_left (div_le_self hW0.le hL1) (by norm_num)
        have := abs_sub t.val cy
        linarith
      refine ⟨?_, by rw [show (Vec.ofXY (l.getX t) t).y = t from rfl, sub_self, abs_zero], hx, hyy⟩
      have hne : ¬ (fabs l.a < (EPSILON : FP double)) := by rw [FP.lt_def, fp_fabs_val]; linarith
      have hv : (Vec.ofXY (l.getX t) t).x.val = rne (-rne (rne (l.b.val * t.val) + l.c.val) / l.a.val) := by
        change (l.getX t).val = _
        rw [Line.getX, if_neg hne]; rfl
      rw [hv]
      have WLb : (2 : ℝ) ^ (-701 : ℤ) ≤ W / L := by
        rw [le_div_iff₀ hL0]
        refine (mul_le_mul_of_nonneg_left hL2 (by positivity)).trans ?_
        rw [← zpow_add₀ two_ne_zero]
        exact (le_of_eq (by norm_num)).trans hW
      have big1 : (2 : ℝ) ^ (-1000 : ℤ) ≤ (|l.b.val| + (2 : ℝ) ^ (-300 : ℤ)) * (12 * (W / L)) := by
        have : (2 : ℝ) ^ (-1000 : ℤ) = (2 : ℝ) ^ (-300 : ℤ) * (2 * (2 : ℝ) ^ (-701 : ℤ)) := by
          rw [mul_left_comm, ← zpow_add₀ two_ne_zero, ← zpow_one_add₀ two_ne_zero]; norm_num
        rw [this]
        refine mul_le_mul (by have := abs_nonneg l.b.val; linarith) ?_ (by positivity) (by positivity)
        have : 0 < W / L := by positivity
        generalize (2 : ℝ) ^ (-701 : ℤ) = w at *
        linarith
      have p1 := (rounded_num l.b.val).mul (rounded_exact ht (two_1000_le (n := -701) (by norm_num) (by
        have : 0 < W / L := by positivity
        exact WLb.trans (by linarith)))) le_rfl le_rfl (by norm_num) big1
      have p2 := p1.add (rounded_num l.c.val) (by norm_num) le_rfl (by norm_num)
      have M1 : 0 ≤ (|l.b.val| + (2 : ℝ) ^ (-300 : ℤ)) * (12 * (W / L)) := by positivity
      obtain ⟨_, p3⟩ := (p2.neg.mono (f := 5) (by norm_num) (by norm_num) le_rfl).div (b := l.a.val) (y := l.a.val) (f := 0)
        (by rw [sub_self, abs_zero, zero_mul, zero_mul]) han (by norm_num) le_rfl (by norm_num) (by
          refine two_1000_le (n := -800) (by norm_num) ?_
          rw [le_div_iff₀ ha0]
          refine (mul_le_mul_of_nonneg_left h2 (by positivity)).trans ?_
          rw [← zpow_add₀ two_ne_zero]
          have := abs_nonneg l.c.val
          have : (2 : ℝ) ^ (-800 + 500 : ℤ) = (2 : ℝ) ^ (-300 : ℤ) := by norm_num
          linarith)
      have p4 := p3.err
      have ev : -(l.b.val * t.val + l.c.val) / l.a.val = -γ - β * t.val := by rw [hβ, hγ]; field_simp; ring
      rw [ev] at p4
      refine p4.trans ?_
      have size : ((|l.b.val| + (2 : ℝ) ^ (-300 : ℤ)) * (12 * (W / L)) + (|l.c.val| + (2 : ℝ) ^ (-300 : ℤ))) / |l.a.val| ≤ 13 * W := by
        have s1 := two_280 (x := l.b.val) ha20
        have s2 := two_280 (x := l.c.val) ha20
        rw [← hβ] at s1
        rw [← hγ] at s2
        rw [add_div, mul_div_right_comm]
        have s3 := mul_le_mul_of_nonneg_right (s1.trans (show _ ≤ L by linarith)) (show 0 ≤ 12 * (W / L) by positivity)
        have s4 : L * (12 * (W / L)) = 12 * W := by field_simp
        linarith
      refine (mul_le_mul_of_nonneg_left size (by positivity)).trans (le_of_eq ?_)
      ring)
    hqq
    (fun t t' => by ring)
  refine ⟨ps, ?_, ?_, ?_, ?_, ?_⟩
  · rw [← hps]
    have hne : ¬ (fabs l.a < (EPSILON : FP double)) := by rw [FP.lt_def, fp_fabs_val]; linarith
    unfold Circle.intersectionLine
    rw [if_neg hne]
    exact except_map_eq _ _
  · intro p hp
    obtain ⟨⟨t, t1, t2⟩, t3⟩ := g1 p hp
    refine ⟨?_, t3⟩
    have ty : p.y.val = t := by have := abs_nonpos_iff.mp t2; linarith
    have : l.a.val * p.x.val + l.b.val * p.y.val + l.c.val = l.a.val * (p.x.val - (-γ - β * t)) := by
      rw [ty, hβ, hγ]; field_simp; ring
    rw [this, abs_mul, mul_left_comm]
    refine mul_le_mul_of_nonneg_left (t1.trans ?_) (abs_nonneg _)
    refine mul_le_mul_of_nonneg_right ?_ hW0.le
    norm_num
  · intro h
    refine g2 ?_
    have hh : (r ^ 2 + (EPSILON : FP double).val + (2 : ℝ) ^ (-43 : ℤ) * W ^ 2) * (1 + β * β) ≤ (cx + β * cy + γ) ^ 2 := by
      have a2 : 0 < l.a.val ^ 2 := by positivity
      have k1 : l.a.val ^ 2 + l.b.val ^ 2 = l.a.val ^ 2 * (1 + β * β) := by rw [hβ]; field_simp
      have k2 : (l.a.val * cx + l.b.val * cy + l.c.val) ^ 2 = l.a.val ^ 2 * (cx + β * cy + γ) ^ 2 := by rw [hβ, hγ]; field_simp
      rw [k1, k2, mul_left_comm] at h
      exact le_of_mul_le_mul_left h a2
    have k3 : (2 * (-cy + (γ + cx) * β)) ^ 2 - 4 * (1 + β * β) * ((γ + cx) * (γ + cx) + cy * cy - r * r) =
        4 * ((1 + β * β) * r ^ 2 - (cx + β * cy + γ) ^ 2) := by ring
    rw [k3]
    refine miss_discr u0.le fp_EPSILON.1.le hA hA1 ?_
    rw [show 1024 * (2 : ℝ) ^ (-53 : ℤ) = (2 : ℝ) ^ (-43 : ℤ) by norm_num]
    exact hh
  · intro h x y hl hc
    have hx : x = -γ - β * y := by rw [hβ, hγ]; field_simp; linarith
    rw [hx]
    have g4 := g3 0 y ?_ ?_
    · rwa [mul_zero, add_zero] at g4
    rw [mul_zero, add_zero]
    · rw [hL] at *
      have : (W * (1 + |β|)) ^ 2 ≤ 2048 ^ 2 := pow_le_pow_left₀ (by positivity) h 2
      have k := mul_le_mul_of_nonneg_left this (show (0 : ℝ) ≤ 1500 * (2 : ℝ) ^ (-53 : ℤ) by positivity)
      refine lt_of_le_of_lt k (lt_of_lt_of_le ?_ fp_EPSILON_ge)
      norm_num
    · rw [← hqq, ← hx, hc, sub_self, abs_zero]
  · intro x y δ hδ hc hlt
    have hx : -γ - β * y = x - δ := by
      rw [hβ, hγ]; field_simp; linarith
    have kq : |(1 + β * β) * y ^ 2 + 2 * (-cy + (γ + cx) * β) * y + ((γ + cx) * (γ + cx) + cy * cy - r * r)| ≤
        2 * |x - cx| * |δ| + δ ^ 2 := by
      rw [← hqq, hx, show (x - δ - cx) ^ 2 + (y - cy) ^ 2 - r ^ 2 = ((x - cx) ^ 2 + (y - cy) ^ 2 - r ^ 2) + (-(2 * (x - cx) * δ) + δ ^ 2) by ring,
        hc, sub_self, zero_add]
      refine (abs_add_le _ _).trans (le_of_eq ?_)
      rw [abs_neg, abs_mul, abs_mul, abs_of_pos (show (0 : ℝ) < 2 by norm_num), abs_of_nonneg (sq_nonneg δ)]
    have k0 := (abs_nonneg _).trans kq
    obtain ⟨p, hp, g⟩ := g3 _ y (lt_of_le_of_lt (add_le_add_right (mul_le_mul_of_nonneg_right
      (mul_le_mul_of_nonneg_left hA2 (by norm_num)) k0) _) (by rw [hL]; exact hlt)) kq
    refine ⟨p, hp, ?_⟩
    rw [hx] at g
    have c1 := square_sum p.x.val (x - δ) x
    have e39 : (2 : ℝ) ^ (-39 : ℤ) = 2 * (2 : ℝ) ^ (-40 : ℤ) := by norm_num
    rw [e39]
    have e3 : (x - δ - x) ^ 2 = δ ^ 2 := by ring
    have := sq_nonneg (p.y.val - y)
    generalize (2 : ℝ) ^ (-40 : ℤ) = w at *
    linarith

set_option maxHeartbeats 1000000 in
/-- **C184** A line that the code takes for horizontal. -/
theorem C184_horizontal (c : Circle (FP double)) (l : Line (FP double)) (h0 : |l.a.val| < (EPSILON : FP double).val)
    (h1 : (EPSILON : FP double).val ≤ |l.b.val|) (h2 : |l.b.val| ≤ (2 : ℝ) ^ (500 : ℤ)) :
    ∃ ps, c.intersectionLine l = .ok ps ∧
      (∀ p ∈ ps, |l.b.val * p.y.val + l.c.val| ≤ (2 : ℝ) ^ (-45 : ℤ) * (|l.b.val| * reach c (l.c.val / l.b.val)) ∧
        |(p.x.val - c.center.x.val) ^ 2 + (p.y.val - c.center.y.val) ^ 2 - c.radius.val ^ 2| ≤
          (EPSILON : FP double).val / 4 + (2 : ℝ) ^ (-39 : ℤ) * reach c (l.c.val / l.b.val) ^ 2) ∧
      ((c.radius.val ^ 2 + (EPSILON : FP double).val + (2 : ℝ) ^ (-43 : ℤ) * reach c (l.c.val / l.b.val) ^ 2) * l.b.val ^ 2 ≤
          (l.b.val * c.center.y.val + l.c.val) ^ 2 → ps = []) ∧
      (reach c (l.c.val / l.b.val) ≤ 2048 → ∀ x y : ℝ, l.b.val * y + l.c.val = 0 →
        (x - c.center.x.val) ^ 2 + (y - c.center.y.val) ^ 2 = c.radius.val ^ 2 →
        ∃ p ∈ ps, (p.x.val - x) ^ 2 + (p.y.val - y) ^ 2 ≤
          3 * (EPSILON : FP double).val + (2 : ℝ) ^ (-40 : ℤ) * reach c (l.c.val / l.b.val) ^ 2) ∧
      (∀ x y δ : ℝ, δ * l.b.val = l.b.val * y + l.c.val →
        (x - c.center.x.val) ^ 2 + (y - c.center.y.val) ^ 2 = c.radius.val ^ 2 →
        1500 * (2 : ℝ) ^ (-53 : ℤ) * reach c (l.c.val / l.b.val) ^ 2 +
          4 * (2 * |y - c.center.y.val| * |δ| + δ ^ 2) < (EPSILON : FP double).val →
        ∃ p ∈ ps, (p.x.val - x) ^ 2 + (p.y.val - y) ^ 2 ≤ 6 * (EPSILON : FP double).val +
          (2 : ℝ) ^ (-39 : ℤ) * reach c (l.c.val / l.b.val) ^ 2 + (32 * |y - c.center.y.val| * |δ| + 18 * δ ^ 2)) := by
  have e1 : (num 1 : FP double).val = 1 := (double.int 1 (by norm_num)).trans (by norm_num)
  have e2 : (num 2 : FP double).val = 2 := (double.int 2 (by norm_num)).trans (by norm_num)
  have ha20 : (2 : ℝ) ^ (-20 : ℤ) ≤ |l.b.val| := fp_EPSILON_ge.trans h1
  have ha0 : 0 < |l.b.val| := lt_of_lt_of_le (by positivity) ha20
  have han : l.b.val ≠ 0 := abs_pos.mp ha0
  obtain ⟨W, hWd⟩ : ∃ W, W = reach c (l.c.val / l.b.val) := ⟨_, rfl⟩
  rw [← hWd]
  rw [reach] at hWd
  obtain ⟨cx, hcx⟩ : ∃ x, x = c.center.x.val := ⟨_, rfl⟩
  obtain ⟨cy, hcy⟩ : ∃ x, x = c.center.y.val := ⟨_, rfl⟩
  obtain ⟨r, hr⟩ : ∃ x, x = c.radius.val := ⟨_, rfl⟩
  obtain ⟨γ, hγ⟩ : ∃ x, x = l.c.val / l.b.val := ⟨_, rfl⟩
  have rγ := rounded_quot l.c.val ha20 h2
  rw [← hγ, ← hcx, ← hcy, ← hr] at hWd
  rw [← hγ] at rγ
  rw [← hcx, ← hcy, ← hr]
  have T : (2 : ℝ) ^ (-300 : ℤ) + (2 : ℝ) ^ (-280 : ℤ) ≤ (2 : ℝ) ^ (-200 : ℤ) := by
    rw [show (-300 : ℤ) = -100 + -200 by norm_num, show (-280 : ℤ) = -80 + -200 by norm_num, zpow_add₀ two_ne_zero, zpow_add₀ two_ne_zero, ← add_mul]
    exact mul_le_of_le_one_left (by positivity) (by norm_num)
  have T3 : (0 : ℝ) < (2 : ℝ) ^ (-300 : ℤ) := by positivity
  have T28 : (0 : ℝ) < (2 : ℝ) ^ (-280 : ℤ) := by positivity
  have g0 := abs_nonneg γ
  have x0 := abs_nonneg cx
  have y0 := abs_nonneg cy
  have r0 := abs_nonneg r
  have hW : (2 : ℝ) ^ (-200 : ℤ) ≤ W := by linarith
  have hW0 : 0 < W := lt_of_lt_of_le (by positivity) hW
  have rcy := rounded_num cy
  have rcx := (rounded_num cx).mono (f := 0) (N := W) le_rfl le_rfl (by linarith)
  have rr := (rounded_num r).mono (f := 0) (N := W) le_rfl le_rfl (by linarith)
  have rg := (rγ.add rcy (by norm_num) le_rfl (by norm_num)).mono (f := 5) (N := W) (by norm_num) (by norm_num) (by linarith)
  have bigW : (2 : ℝ) ^ (-400 : ℤ) ≤ W * W := by
    rw [show (-400 : ℤ) = -200 + -200 by norm_num, zpow_add₀ two_ne_zero]
    exact mul_le_mul hW hW (by positivity) hW0.le
  have big2 : (2 : ℝ) ^ (-1000 : ℤ) ≤ W * W := two_1000_le (by norm_num) bigW
  -- the coefficients
  have A2 := rounded_one.mono (f := 11) (N := 2 * 1 ^ 2) (by norm_num) le_rfl (by norm_num)
  have B3 := (rounded_two.neg.mul rcx le_rfl le_rfl (by norm_num) (two_1000_le (n := -200) (by norm_num) (by linarith))).mono (f := 16) (N := 4 * (W * 1))
    (by norm_num) (by norm_num) (by linarith)
  have C1 := rcx.mul rcx le_rfl le_rfl (by norm_num) big2
  have C2 := C1.add (rg.mul rg (by norm_num) (by norm_num) (by norm_num) big2) (by norm_num) (by norm_num) (by norm_num)
  have C3 := (C2.sub (rr.mul rr le_rfl le_rfl (by norm_num) big2) (by norm_num) (by norm_num) (by norm_num)).mono (f := 17) (N := 3 * W ^ 2)
    (by norm_num) (by norm_num) (le_of_eq (by ring))
  have u0 : (0 : ℝ) < (2 : ℝ) ^ (-53 : ℤ) := by positivity
  have hqq : ∀ t : ℝ, (t - cx) ^ 2 + (-γ - cy) ^ 2 - r ^ 2 =
      1 * t ^ 2 + -2 * cx * t + (cx * cx + (γ + cy) * (γ + cy) - r * r) := fun t => by ring
  obtain ⟨ps, hps, g1, g2, g3⟩ := circle_points (a := num 1) (b := -(num 2) * c.center.x)
    (c := sq c.center.x + sq (l.c / l.b + c.center.y) - sq c.radius)
    (A := 1) (B := -2 * cx) (C := cx * cx + (γ + cy) * (γ + cy) - r * r) (cx := cx) (cy := cy) (r := r) (L := 1)
    (ex := 0) (ey := 3 * (2 : ℝ) ^ (-53 : ℤ) * W) (X := fun t => t) (Y := fun _ => -γ)
    (mk := fun s => Vec.ofXY s (-l.c / l.b))
    (by rw [e1]; exact A2)
    (by rw [hcx] at B3 ⊢; rw [FP.mul_val, show (-(num 2) : FP double).val = -(num 2 : FP double).val from rfl, e2]; exact B3)
    (by rw [hγ, hcx, hcy, hr] at C3 ⊢; exact C3)
    hW le_rfl (one_le_zpow₀ one_le_two (by norm_num)) (by norm_num) le_rfl (by norm_num) le_rfl (by positivity)
    (by have : 0 < (2 : ℝ) ^ (-53 : ℤ) * W := by positivity
        linarith)
    (by
      intro t ht
      rw [div_one] at ht
      refine ⟨by rw [show (Vec.ofXY t (-l.c / l.b)).x = t from rfl, sub_self, abs_zero], ?_, ?_, ?_⟩
      · have hv : (Vec.ofXY t (-l.c / l.b)).y.val = -rne γ := by
          change rne (-l.c.val / l.b.val) = _
          rw [hγ, neg_div, rne_neg]
        rw [hv, neg_sub_neg, abs_sub_comm]
        refine rγ.err.trans (mul_le_mul_of_nonneg_left (by linarith) (by positivity))
      · have := abs_sub t.val cx
        linarith
      · have := abs_sub (-γ) cy
        rw [abs_neg] at this
        linarith)
    hqq
    (fun t t' => by ring)
  refine ⟨ps, ?_, ?_, ?_, ?_, ?_⟩
  · rw [← hps]
    have hlt : fabs l.a < (EPSILON : FP double) := by rw [FP.lt_def, fp_fabs_val]; exact h0
    have hne : ¬ (fabs l.b < (EPSILON : FP double)) := by rw [FP.lt_def, fp_fabs_val]; linarith
    unfold Circle.intersectionLine
    rw [if_pos hlt, if_neg hne]
    exact except_map_eq _ _
  · intro p hp
    obtain ⟨⟨t, t1, t2⟩, t3⟩ := g1 p hp
    refine ⟨?_, t3⟩
    have : l.b.val * p.y.val + l.c.val = l.b.val * (p.y.val - -γ) := by
      rw [hγ]; field_simp; ring
    rw [this, abs_mul, mul_left_comm]
    refine mul_le_mul_of_nonneg_left (t2.trans ?_) (abs_nonneg _)
    refine mul_le_mul_of_nonneg_right ?_ hW0.le
    norm_num
  · intro h
    refine g2 ?_
    have hh : (r ^ 2 + (EPSILON : FP double).val + (2 : ℝ) ^ (-43 : ℤ) * W ^ 2) * 1 ≤ (cy + γ) ^ 2 := by
      have a2 : 0 < l.b.val ^ 2 := by positivity
      have k2 : (l.b.val * cy + l.c.val) ^ 2 = (cy + γ) ^ 2 * l.b.val ^ 2 := by rw [hγ]; field_simp
      rw [k2] at h
      rw [mul_one]
      exact le_of_mul_le_mul_right h a2
    have k3 : (-2 * cx) ^ 2 - 4 * 1 * (cx * cx + (γ + cy) * (γ + cy) - r * r) = 4 * (1 * r ^ 2 - (cy + γ) ^ 2) := by ring
    rw [k3]
    refine miss_discr u0.le fp_EPSILON.1.le (by norm_num) le_rfl ?_
    rw [show 1024 * (2 : ℝ) ^ (-53 : ℤ) = (2 : ℝ) ^ (-43 : ℤ) by norm_num]
    exact hh
  · intro h x y hl hc
    have hy : y = -γ := by rw [hγ]; field_simp; linarith
    rw [hy]
    have g4 := g3 0 x ?_ ?_
    · rwa [mul_zero, add_zero] at g4
    · rw [mul_zero, add_zero]
      have : (W * 1) ^ 2 ≤ 2048 ^ 2 := pow_le_pow_left₀ (by positivity) (by rw [mul_one]; exact h) 2
      have k := mul_le_mul_of_nonneg_left this (show (0 : ℝ) ≤ 1500 * (2 : ℝ) ^ (-53 : ℤ) by positivity)
      refine lt_of_le_of_lt k (lt_of_lt_of_le ?_ fp_EPSILON_ge)
      norm_num
    · rw [← hqq, ← hy, hc, sub_self, abs_zero]
  · intro x y δ hδ hc hlt
    have hy : -γ = y - δ := by
      rw [hγ]; field_simp; linarith
    have kq : |1 * x ^ 2 + -2 * cx * x + (cx * cx + (γ + cy) * (γ + cy) - r * r)| ≤ 2 * |y - cy| * |δ| + δ ^ 2 := by
      rw [← hqq, hy, show (x - cx) ^ 2 + (y - δ - cy) ^ 2 - r ^ 2 = ((x - cx) ^ 2 + (y - cy) ^ 2 - r ^ 2) + (-(2 * (y - cy) * δ) + δ ^ 2) by ring,
        hc, sub_self, zero_add]
      refine (abs_add_le _ _).trans (le_of_eq ?_)
      rw [abs_neg, abs_mul, abs_mul, abs_of_pos (show (0 : ℝ) < 2 by norm_num), abs_of_nonneg (sq_nonneg δ)]
    obtain ⟨p, hp, g⟩ := g3 _ x (by rw [mul_one, mul_one]; exact hlt) kq
    refine ⟨p, hp, ?_⟩
    rw [hy] at g
    have c1 := square_sum p.y.val (y - δ) y
    have e39 : (2 : ℝ) ^ (-39 : ℤ) = 2 * (2 : ℝ) ^ (-40 : ℤ) := by norm_num
    rw [e39]
    have e3 : (y - δ - y) ^ 2 = δ ^ 2 := by ring
    have := sq_nonneg (p.x.val - x)
    generalize (2 : ℝ) ^ (-40 : ℤ) = w at *
    linarith

/-! ## Two circles -/

/-- The rounded coefficients of the common chord. -/
theorem chord_rounded (c o : Circle (FP double)) {S : ℝ}
    (hS : S = |c.center.x.val| + |c.center.y.val| + |o.center.x.val| + |o.center.y.val| + |c.radius.val| + |o.radius.val| + (2 : ℝ) ^ (-200 : ℤ)) :
    |(-(num 2) * (o.center.x - c.center.x) : FP double).val - -2 * (o.center.x.val - c.center.x.val)| ≤ (2 : ℝ) ^ (-49 : ℤ) * S ∧
    |(-(num 2) * (o.center.y - c.center.y) : FP double).val - -2 * (o.center.y.val - c.center.y.val)| ≤ (2 : ℝ) ^ (-49 : ℤ) * S ∧
    |(o.center.r2 - o.radius * o.radius - c.center.r2 + c.radius * c.radius : FP double).val -
      (o.center.x.val ^ 2 + o.center.y.val ^ 2 - o.radius.val ^ 2 - (c.center.x.val ^ 2 + c.center.y.val ^ 2) + c.radius.val ^ 2)| ≤
      (2 : ℝ) ^ (-46 : ℤ) * S ^ 2 := by
  have e2 : (num 2 : FP double).val = 2 := (double.int 2 (by norm_num)).trans (by norm_num)
  have T3 : (0 : ℝ) < (2 : ℝ) ^ (-300 : ℤ) := by positivity
  have T : 2 * (2 : ℝ) ^ (-300 : ℤ) ≤ (2 : ℝ) ^ (-200 : ℤ) := by
    rw [show (-300 : ℤ) = -100 + -200 by norm_num, zpow_add₀ two_ne_zero, ← mul_assoc]
    exact mul_le_of_le_one_left (by positivity) (by norm_num)
  have a1 := abs_nonneg c.center.x.val
  have a2 := abs_nonneg c.center.y.val
  have a3 := abs_nonneg o.center.x.val
  have a4 := abs_nonneg o.center.y.val
  have a5 := abs_nonneg c.radius.val
  have a6 := abs_nonneg o.radius.val
  have S200 : (2 : ℝ) ^ (-200 : ℤ) ≤ S := by linarith
  have S0 : 0 < S := lt_of_lt_of_le (by positivity) S200
  have bigS : (2 : ℝ) ^ (-1000 : ℤ) ≤ S * S := two_1000_le (n := -400) (by norm_num) (by
    rw [show (-400 : ℤ) = -200 + -200 by norm_num, zpow_add₀ two_ne_zero]
    exact mul_le_mul S200 S200 (by positivity) S0.le)
  have dif : ∀ x y : ℝ, |x| + |y| + (2 : ℝ) ^ (-200 : ℤ) ≤ S → |rne (-2 * rne (x - y)) - -2 * (x - y)| ≤ (2 : ℝ) ^ (-49 : ℤ) * S := by
    intro x y h
    have k1 := ((rounded_num x).sub (rounded_num y) le_rfl le_rfl (by norm_num)).mono (f := 2) (N := S) (by norm_num) (by norm_num) (by linarith)
    have k2 := rounded_two.neg.mul k1 le_rfl (by norm_num) (by norm_num) (two_1000_le (n := -200) (by norm_num) (by linarith))
    refine k2.err.trans ?_
    rw [show (2 : ℝ) ^ (-49 : ℤ) = 16 * (2 : ℝ) ^ (-53 : ℤ) by norm_num]
    have : 0 < (2 : ℝ) ^ (-53 : ℤ) * S := by positivity
    nlinarith
  have num' : ∀ x : ℝ, |x| + (2 : ℝ) ^ (-200 : ℤ) ≤ S → Rounded 3 (rne (x * x)) (x * x) (S * S) := fun x h => by
    have k := (rounded_num x).mono (f := 0) (N := S) le_rfl le_rfl (by linarith)
    exact (k.mul k le_rfl le_rfl (by norm_num) bigS).mono (by norm_num) (by norm_num) le_rfl
  refine ⟨?_, ?_, ?_⟩
  · rw [FP.mul_val, FP.sub_val, show (-(num 2) : FP double).val = -(num 2 : FP double).val from rfl, e2]
    exact dif _ _ (by linarith)
  · rw [FP.mul_val, FP.sub_val, show (-(num 2) : FP double).val = -(num 2 : FP double).val from rfl, e2]
    exact dif _ _ (by linarith)
  · have k1 := (num' o.center.x.val (by linarith)).add (num' o.center.y.val (by linarith)) (by norm_num) (by norm_num) (by norm_num)
    have k2 := (num' c.center.x.val (by linarith)).add (num' c.center.y.val (by linarith)) (by norm_num) (by norm_num) (by norm_num)
    have k3 := k1.sub (num' o.radius.val (by linarith)) (by norm_num) (by norm_num) (by norm_num)
    have k4 := k3.sub k2 (by norm_num) (by norm_num) (by norm_num)
    have k5 := (k4.add (num' c.radius.val (by linarith)) (by norm_num) (by norm_num) (by norm_num)).mono (f := 11) (N := 6 * S ^ 2)
      (by norm_num) (by norm_num) (le_of_eq (by ring))
    have k6 := k5.err
    rw [show o.center.x.val * o.center.x.val + o.center.y.val * o.center.y.val - o.radius.val * o.radius.val -
      (c.center.x.val * c.center.x.val + c.center.y.val * c.center.y.val) + c.radius.val * c.radius.val =
      o.center.x.val ^ 2 + o.center.y.val ^ 2 - o.radius.val ^ 2 - (c.center.x.val ^ 2 + c.center.y.val ^ 2) + c.radius.val ^ 2 by ring] at k6
    refine le_trans ?_ (k6.trans ?_)
    · exact le_rfl
    · rw [show (2 : ℝ) ^ (-46 : ℤ) = 128 * (2 : ℝ) ^ (-53 : ℤ) by norm_num]
      have : 0 < (2 : ℝ) ^ (-53 : ℤ) * S ^ 2 := by positivity
      nlinarith

/-- **C184** The intersections of two circles: every returned point is near both circles. -/
theorem C184_circles (c o : Circle (FP double)) (l : Line (FP double)) (hl : l = ⟨-(num 2) * (o.center.x - c.center.x),
      -(num 2) * (o.center.y - c.center.y), o.center.r2 - o.radius * o.radius - c.center.r2 + c.radius * c.radius⟩)
    (h1 : (EPSILON : FP double).val ≤ |l.a.val|) (h2 : |l.a.val| ≤ (2 : ℝ) ^ (500 : ℤ)) (h3 : |l.b.val / l.a.val| ≤ (2 : ℝ) ^ (500 : ℤ))
    {S : ℝ} (hS : S = |c.center.x.val| + |c.center.y.val| + |o.center.x.val| + |o.center.y.val| + |c.radius.val| + |o.radius.val| +
      (2 : ℝ) ^ (-200 : ℤ)) :
    ∃ ps, c.intersectionCircle o = .ok ps ∧ ∀ p ∈ ps,
      |(p.x.val - c.center.x.val) ^ 2 + (p.y.val - c.center.y.val) ^ 2 - c.radius.val ^ 2| ≤
        (EPSILON : FP double).val / 4 + (2 : ℝ) ^ (-39 : ℤ) * reach c (l.c.val / l.a.val) ^ 2 ∧
      |(p.x.val - o.center.x.val) ^ 2 + (p.y.val - o.center.y.val) ^ 2 - o.radius.val ^ 2| ≤
        (EPSILON : FP double).val / 4 + (2 : ℝ) ^ (-39 : ℤ) * reach c (l.c.val / l.a.val) ^ 2 +
          (2 : ℝ) ^ (-45 : ℤ) * (|l.a.val| * reach c (l.c.val / l.a.val)) + (2 : ℝ) ^ (-46 : ℤ) * (S * (|p.x.val| + |p.y.val| + S)) := by
  obtain ⟨k1, k2, k3⟩ := chord_rounded c o hS
  obtain ⟨ps, e, g, _, _, g4⟩ := C184_line c l h1 h2 h3
  have la : l.a = -(num 2) * (o.center.x - c.center.x) := by rw [hl]
  have lb : l.b = -(num 2) * (o.center.y - c.center.y) := by rw [hl]
  have lc : l.c = o.center.r2 - o.radius * o.radius - c.center.r2 + c.radius * c.radius := by rw [hl]
  rw [← la] at k1
  rw [← lb] at k2
  rw [← lc] at k3
  have S0 : 0 < S := by
    rw [hS]; positivity
  unfold Circle.intersectionCircle
  dsimp only
  rw [← hl]
  split
  · exact ⟨[], rfl, fun p hp => by simp at hp⟩
  · refine ⟨ps, e, fun p hp => ⟨(g p hp).2, ?_⟩⟩
    obtain ⟨g1, g2⟩ := g p hp
    have x0 := abs_nonneg p.x.val
    have y0 := abs_nonneg p.y.val
    rw [show (p.x.val - o.center.x.val) ^ 2 + (p.y.val - o.center.y.val) ^ 2 - o.radius.val ^ 2 =
      ((p.x.val - c.center.x.val) ^ 2 + (p.y.val - c.center.y.val) ^ 2 - c.radius.val ^ 2) +
      (l.a.val * p.x.val + l.b.val * p.y.val + l.c.val) +
      (-(l.a.val - -2 * (o.center.x.val - c.center.x.val)) * p.x.val + -(l.b.val - -2 * (o.center.y.val - c.center.y.val)) * p.y.val +
        -(l.c.val - (o.center.x.val ^ 2 + o.center.y.val ^ 2 - o.radius.val ^ 2 - (c.center.x.val ^ 2 + c.center.y.val ^ 2) +
          c.radius.val ^ 2))) by ring]
    refine (abs_add_three _ _ _).trans (add_le_add (add_le_add g2 g1) ?_)
    refine (abs_add_three _ _ _).trans ?_
    rw [abs_mul, abs_mul, abs_neg, abs_neg, abs_neg]
    have m1 := mul_le_mul_of_nonneg_right k1 x0
    have m2 := mul_le_mul_of_nonneg_right k2 y0
    refine (add_le_add (add_le_add m1 m2) k3).trans ?_
    have m3 : (2 : ℝ) ^ (-49 : ℤ) ≤ (2 : ℝ) ^ (-46 : ℤ) := zpow_le_zpow_right₀ one_le_two (by norm_num)
    have m4 := mul_le_mul_of_nonneg_right m3 (show 0 ≤ S * (|p.x.val| + |p.y.val|) by positivity)
    generalize (2 : ℝ) ^ (-49 : ℤ) = w at *
    generalize (2 : ℝ) ^ (-46 : ℤ) = v at *
    nlinarith

/-- The hypotheses are met: the unit circle and the line `x = 1 / 2`; some returned point is near the point `(1/2, √3/2)`. -/
example : ∃ ps, (⟨Vec.ofXY ⟨0⟩ ⟨0⟩, ⟨1⟩⟩ : Circle (FP double)).intersectionLine ⟨⟨2⟩, ⟨0⟩, ⟨-1⟩⟩ = .ok ps ∧
    ∃ p ∈ ps, (p.x.val - 1 / 2) ^ 2 + (p.y.val - √3 / 2) ^ 2 ≤ 1 / 100000 := by
  have hE := fp_EPSILON_le
  obtain ⟨ps, e, _, _, g, _⟩ := C184_line ⟨Vec.ofXY ⟨0⟩ ⟨0⟩, ⟨1⟩⟩ ⟨⟨2⟩, ⟨0⟩, ⟨-1⟩⟩ (by rw [abs_of_pos (by norm_num)]; linarith)
    (by rw [abs_of_pos (by norm_num)]; exact (show (2 : ℝ) = (2 : ℝ) ^ (1 : ℤ) by norm_num).trans_le (zpow_le_zpow_right₀ one_le_two (by norm_num)))
    (by norm_num)
  refine ⟨ps, e, ?_⟩
  have T : (2 : ℝ) ^ (-200 : ℤ) ≤ 1 / 2 := (zpow_le_zpow_right₀ one_le_two (show (-200 : ℤ) ≤ -1 by norm_num)).trans (by norm_num)
  have R : reach (⟨Vec.ofXY ⟨0⟩ ⟨0⟩, ⟨1⟩⟩ : Circle (FP double)) (-1 / 2) ≤ 2 := by
    unfold reach
    change |(-1 / 2 : ℝ)| + |(0 : ℝ)| + |(0 : ℝ)| + |(1 : ℝ)| + _ ≤ 2
    rw [abs_zero, abs_one, abs_of_neg (by norm_num)]
    linarith
  have R0 : 0 ≤ reach (⟨Vec.ofXY ⟨0⟩ ⟨0⟩, ⟨1⟩⟩ : Circle (FP double)) (-1 / 2) := by unfold reach; positivity
  have h3 : √3 ^ 2 = 3 := Real.sq_sqrt (by norm_num)
  obtain ⟨p, hp, h⟩ := g (by rw [zero_div, abs_zero]; linarith) (1 / 2) (√3 / 2) (by norm_num) (by
    change (1 / 2 - (0 : ℝ)) ^ 2 + (√3 / 2 - (0 : ℝ)) ^ 2 = (1 : ℝ) ^ 2
    nlinarith)
  refine ⟨p, hp, h.trans ?_⟩
  have := pow_le_pow_left₀ R0 R 2
  have k := mul_le_mul_of_nonneg_left this (show (0 : ℝ) ≤ (2 : ℝ) ^ (-40 : ℤ) by positivity)
  have k2 : (2 : ℝ) ^ (-40 : ℤ) * 2 ^ 2 ≤ 1 / 1000000 := by norm_num
  have k3 := k.trans k2
  linarith

/-- **C184** For a nearly horizontal line the code can miss the circle altogether: the line through the center of a circle of radius
1/4 at the height 45.5625, with slope 2^-19. -/
theorem C184_refuted : ∃ (c : Circle (FP double)) (l : Line (FP double)), 0 < c.radius.val ∧
    IsDouble c.center.x.val ∧ IsDouble c.center.y.val ∧ IsDouble c.radius.val ∧ IsDouble l.a.val ∧ IsDouble l.b.val ∧ IsDouble l.c.val ∧
    l.a.val * c.center.x.val + l.b.val * c.center.y.val + l.c.val = 0 ∧ c.intersectionLine l = .ok [] := by
  refine ⟨⟨Vec.ofXY ⟨0⟩ ⟨729 / 16⟩, ⟨1 / 4⟩⟩, ⟨⟨1 / 2 ^ 19⟩, ⟨1⟩, ⟨-(729 / 16)⟩⟩, by norm_num, isDouble_zero,
    ⟨729, -4, by norm_num, by norm_num, ?_⟩, ⟨1, -2, by norm_num, by norm_num, by norm_num⟩, ⟨1, -19, by norm_num, by norm_num, by norm_num⟩,
    isDouble_one, ⟨-729, -4, by norm_num, by norm_num, by norm_num⟩, ?_, ?_⟩
  · change (729 / 16 : ℝ) = _
    norm_num
  · change (1 / 2 ^ 19 : ℝ) * 0 + 1 * (729 / 16) + -(729 / 16) = 0
    norm_num
  have e1 : (num 1 : FP double).val = 1 := (double.int 1 (by norm_num)).trans (by norm_num)
  have e2 : (num 2 : FP double).val = 2 := (double.int 2 (by norm_num)).trans (by norm_num)
  have e4 : (num 4 : FP double).val = 4 := (double.int 4 (by norm_num)).trans (by norm_num)
  have hne : ¬ (fabs (⟨1 / 2 ^ 19⟩ : FP double) < (EPSILON : FP double)) := by
    rw [FP.lt_def, fp_fabs_val, not_lt, abs_of_pos (by norm_num)]
    exact fp_EPSILON_le19.trans (by norm_num)
  have s1 : (⟨1⟩ / ⟨1 / 2 ^ 19⟩ : FP double) = ⟨524288⟩ := by
    apply FP.ext; change rne (1 / (1 / 2 ^ 19)) = 524288
    rw [rne_of_isDouble ⟨1, 19, by norm_num, by norm_num, by norm_num⟩]; norm_num
  have s2 : (⟨-(729 / 16)⟩ / ⟨1 / 2 ^ 19⟩ : FP double) = ⟨-23887872⟩ := by
    apply FP.ext; change rne (-(729 / 16) / (1 / 2 ^ 19)) = -23887872
    rw [rne_of_isDouble ⟨-729, 15, by norm_num, by norm_num, by norm_num⟩]; norm_num
  have s3 : (num 1 + ⟨524288⟩ * ⟨524288⟩ : FP double) = ⟨274877906945⟩ := by
    apply FP.ext; rw [FP.add_val, FP.mul_val, e1]; change rne (1 + rne (524288 * 524288)) = 274877906945
    rw [rne_of_isDouble (x := 524288 * 524288) ⟨1, 38, by norm_num, by norm_num, by norm_num⟩,
      rne_of_isDouble ⟨274877906945, 0, by norm_num, by norm_num, by norm_num⟩]; norm_num
  have s4 : (⟨-23887872⟩ + ⟨0⟩ : FP double) = ⟨-23887872⟩ := by
    apply FP.ext; change rne (-23887872 + 0) = -23887872
    rw [rne_of_isDouble ⟨-729, 15, by norm_num, by norm_num, by norm_num⟩]; norm_num
  have s5 : (num 2 * (-⟨729 / 16⟩ + ⟨-23887872⟩ * ⟨524288⟩) : FP double) = ⟨-(729 * 274877906945 / 8)⟩ := by
    apply FP.ext; rw [FP.mul_val, FP.add_val, FP.mul_val, e2]
    change rne (2 * rne (-(729 / 16) + rne (-23887872 * 524288))) = -(729 * 274877906945 / 8)
    rw [rne_of_isDouble (x := -23887872 * 524288) ⟨-729, 34, by norm_num, by norm_num, by norm_num⟩,
      rne_of_isDouble (x := -(729 / 16) + _) ⟨-(729 * 274877906945), -4, by norm_num, by norm_num, by norm_num⟩,
      rne_of_isDouble ⟨-(729 * 274877906945), -3, by norm_num, by norm_num, by norm_num⟩]; norm_num
  have s6 : (sq ⟨-23887872⟩ + sq ⟨729 / 16⟩ - sq ⟨1 / 4⟩ : FP double) = ⟨570630428690460⟩ := by
    apply FP.ext
    change rne (rne (rne (-23887872 * -23887872) + rne (729 / 16 * (729 / 16))) - rne (1 / 4 * (1 / 4))) = 570630428690460
    rw [rne_of_isDouble (x := -23887872 * -23887872) ⟨531441, 30, by norm_num, by norm_num, by norm_num⟩,
      rne_of_isDouble (x := 729 / 16 * (729 / 16)) ⟨531441, -8, by norm_num, by norm_num, by norm_num⟩,
      rne_of_isDouble (x := 1 / 4 * (1 / 4)) ⟨1, -4, by norm_num, by norm_num, by norm_num⟩,
      rne_eq (x := -23887872 * -23887872 + _) 49 4565043429523680 (by norm_num) (by norm_num [abs_of_pos]) (by norm_num [abs_of_pos])
        (by rw [abs_lt]; constructor <;> norm_num),
      rne_eq_even 49 4565043429523680 (by norm_num) (by norm_num [abs_of_pos]) (by norm_num [abs_of_pos])
        (by rw [abs_le]; constructor <;> norm_num) (by decide)]
    norm_num
  have s7 : (⟨-(729 * 274877906945 / 8)⟩ * ⟨-(729 * 274877906945 / 8)⟩ - num 4 * ⟨274877906945⟩ * ⟨570630428690460⟩ : FP double) = ⟨-137438953472⟩ := by
    apply FP.ext; rw [FP.sub_val, FP.mul_val, FP.mul_val, FP.mul_val, e4]
    change rne (rne (-(729 * 274877906945 / 8) * -(729 * 274877906945 / 8)) - rne (rne (4 * 274877906945) * 570630428690460)) = -137438953472
    rw [rne_of_isDouble (x := 4 * 274877906945) ⟨274877906945, 2, by norm_num, by norm_num, by norm_num⟩,
      rne_eq (x := -(729 * 274877906945 / 8) * _) 89 4565043429540287 (by norm_num) (by norm_num [abs_of_pos]) (by norm_num [abs_of_pos])
        (by rw [abs_lt]; constructor <;> norm_num),
      rne_eq (x := 4 * 274877906945 * _) 89 4565043429540288 (by norm_num) (by norm_num [abs_of_pos]) (by norm_num [abs_of_pos])
        (by rw [abs_lt]; constructor <;> norm_num),
      rne_of_isDouble ⟨-1, 37, by norm_num, by norm_num, by norm_num⟩]
    norm_num
  unfold Circle.intersectionLine
  rw [if_neg hne]
  dsimp only [Vec.ofXY]
  rw [s1, s2, s4, s3, s5, s6]
  have hz : ¬ (((⟨274877906945⟩ : FP double) == num 0) = true) := by rw [fp_beq_zero]; norm_num
  unfold quadraticF
  dsimp only
  rw [s7, if_neg hz, if_neg, if_pos]
  · rfl
  · rw [FP.lt_def, fp_zero]; norm_num
  · rw [FP.lt_def, fp_fabs_val, not_lt]
    refine fp_EPSILON.2.trans ?_
    norm_num [abs_of_neg]

end PyrusGeom
