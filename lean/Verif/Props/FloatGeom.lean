import Verif.Props.FloatInertia
import Verif.Props.FloatArea

/-!
# C195: the geometric series helpers in double precision

For every mathematical library whose `pow` and `log` have an error of at most one unit in the last place.
-/

namespace PyrusGeom
open Spec SoccerMath

/-- `math.log(x)` is within one unit in the last place. -/
def Spec.AccurateLog (m : PyMath (FP double)) : Prop := ∀ x : FP double, 0 < x.val → |(m.log x).val - Real.log x.val| ≤ ulp (Real.log x.val)

theorem accurateLog_double : AccurateLog (inferInstance : PyMath (FP double)) := by
  intro x _
  exact (rne_error (Real.log x.val)).trans (by have := ulp_pos (Real.log x.val); linarith)

/-- A quotient of perturbed numbers. -/
theorem ratio_near {N E Y D a b : ℝ} (hD : 0 < D) (hE : D / 2 ≤ E) (hN : |N - Y| ≤ a) (hED : |E - D| ≤ b) :
    |N / E - Y / D| ≤ 2 * (a * D + |Y| * b) / (D * D) := by
  have hE0 : 0 < E := by linarith
  have e : N / E - Y / D = ((N - Y) * D - Y * (E - D)) / (E * D) := by field_simp; ring
  rw [e, abs_div, abs_of_pos (mul_pos hE0 hD)]
  have h1 : |(N - Y) * D - Y * (E - D)| ≤ a * D + |Y| * b := by
    refine (abs_sub _ _).trans (add_le_add ?_ ?_)
    · rw [abs_mul, abs_of_pos hD]; exact mul_le_mul_of_nonneg_right hN hD.le
    · rw [abs_mul]; exact mul_le_mul_of_nonneg_left hED (abs_nonneg _)
  have h0 : 0 ≤ a * D + |Y| * b := (abs_nonneg _).trans h1
  have h2 : D * D / 2 ≤ E * D := by nlinarith
  calc |(N - Y) * D - Y * (E - D)| / (E * D) ≤ (a * D + |Y| * b) / (D * D / 2) := div_le_div₀ h0 h1 (by positivity) h2
    _ = _ := by field_simp

theorem SERVER_EPS_le : (SERVER_EPS : FP double).val ≤ (2 : ℝ) ^ (-33 : ℤ) := by
  have e : (SERVER_EPS : FP double).val = rne (1 / 10000000000) := by
    change rne (rne ((1 : ℕ) : ℝ) / rne ((10000000000 : ℕ) : ℝ)) = _
    rw [rne_of_isDouble (isDouble_nat (n := 1) (by norm_num)), rne_of_isDouble (isDouble_nat (n := 10000000000) (by norm_num))]
    norm_num
  have h := rne_mono (show (1 / 10000000000 : ℝ) ≤ (2 : ℝ) ^ (-33 : ℤ) by norm_num)
  rw [rne_of_isDouble (x := (2 : ℝ) ^ (-33 : ℤ)) ⟨1, -33, by norm_num, by norm_num, by norm_num⟩] at h
  rw [e]; exact h

theorem one_sub_double {q : ℝ} (hd : IsDouble q) (h0 : 0 ≤ q) (h1 : q < 1) : (2 : ℝ) ^ (-53 : ℤ) ≤ 1 - q := by
  rcases lt_or_ge q (1 / 2) with h | h
  · have : (2 : ℝ) ^ (-53 : ℤ) ≤ 1 / 2 := by norm_num
    refine this.trans ?_
    clear this
    linarith
  · have hu : ulp q = (2 : ℝ) ^ (-53 : ℤ) := by
      have := ulp_eq (x := q) (e := -1) (by norm_num) (by rw [abs_of_nonneg h0]; norm_num; linarith) (by rw [abs_of_nonneg h0]; norm_num; exact h1)
      rw [this]; norm_num
    have hk : q = ulp q * roundEven (q / ulp q) := (rne_of_isDouble hd).symm
    rw [hu] at hk
    generalize roundEven (q / (2 : ℝ) ^ (-53 : ℤ)) = k at hk
    have e : (2 : ℝ) ^ (-53 : ℤ) = 1 / 9007199254740992 := by norm_num
    rw [e] at hk ⊢
    have hk1 : (k : ℝ) < (9007199254740992 : ℤ) := by push_cast; linarith
    have hk2 : k ≤ 9007199254740991 := by have := Int.cast_lt.mp hk1; omega
    have hk3 : (k : ℝ) ≤ 9007199254740991 := by exact_mod_cast hk2
    linarith

theorem ulp_log_bound (y : ℝ) : ulp y ≤ 2 / 9007199254740992 * (|y| + 1) := by
  have e52 : (2 : ℝ) ^ (-52 : ℤ) = 2 / 9007199254740992 := by norm_num
  have h0 : 0 ≤ |y| := abs_nonneg y
  by_cases hy : y = 0
  · subst hy
    have := ulp_le_of_le (x := 0) (n := 0) le_rfl (by simp)
    rw [zero_sub, e52] at this
    simpa using this
  · refine (ulp_le hy).trans (max_le ?_ ?_)
    · rw [e52]; linarith
    · refine le_trans (b := (2 : ℝ) ^ (-52 : ℤ)) (zpow_le_zpow_right₀ (by norm_num) (by norm_num)) ?_
      rw [e52]; linarith

theorem ulp_rel_bound {y : ℝ} (hy : (2 : ℝ) ^ (-53 : ℤ) ≤ |y|) : ulp y ≤ 2 / 9007199254740992 * |y| := by
  have e52 : (2 : ℝ) ^ (-52 : ℤ) = 2 / 9007199254740992 := by norm_num
  have h0 : y ≠ 0 := by rintro rfl; rw [abs_zero] at hy; exact absurd hy (not_le.mpr (by positivity))
  refine (ulp_le h0).trans (max_le (by rw [e52]) ?_)
  rw [← e52]
  refine le_trans ?_ (mul_le_mul_of_nonneg_left hy (by positivity))
  rw [← zpow_add₀ two_ne_zero]
  exact zpow_le_zpow_right₀ (by norm_num) (by norm_num)

/-- Logarithms of neighbouring numbers. -/
theorem log_near {a b e : ℝ} (hb : 0 < b) (ha : b / 2 ≤ a) (h : |a - b| ≤ e) : |Real.log a - Real.log b| ≤ 2 * e / b := by
  have ha0 : 0 < a := by linarith
  obtain ⟨h1, h2⟩ := abs_le.mp h
  have he : 0 ≤ e := (abs_nonneg _).trans h
  have k1 := Real.log_le_sub_one_of_pos (div_pos ha0 hb)
  have k2 := Real.log_le_sub_one_of_pos (div_pos hb ha0)
  rw [Real.log_div ha0.ne' hb.ne'] at k1
  rw [Real.log_div hb.ne' ha0.ne'] at k2
  have j1 : a / b - 1 ≤ 2 * e / b := by
    rw [div_sub_one hb.ne', div_le_div_iff_of_pos_right hb]; linarith
  have j2 : b / a - 1 ≤ 2 * e / b := by
    rw [div_sub_one ha0.ne', div_le_div_iff₀ ha0 hb]; nlinarith
  rw [abs_le]; constructor <;> linarith

section
variable [m : PyMath (FP double)]

/-- **C195** `calc_first_term_geom_series`. -/
theorem C195_first_term (hm : AccuratePow m) (sum ratio : FP double) (n : ℕ) (hd : IsDouble ratio.val) (h0 : 0 ≤ ratio.val) (h1 : ratio.val < 1)
    (hn : (2 : ℝ) ^ (-40 : ℤ) ≤ 1 - ratio.val ^ n) (hs : sum.val = 0 ∨ (2 : ℝ) ^ (-900 : ℤ) ≤ |sum.val|) :
    ∃ x, calcFirstTermGeomSeries sum ratio n = .ok x ∧
      |x.val - sum.val * (1 - ratio.val) / (1 - ratio.val ^ n)| ≤
        (2 : ℝ) ^ (-48 : ℤ) / (1 - ratio.val ^ n) * |sum.val * (1 - ratio.val) / (1 - ratio.val ^ n)| := by
  obtain ⟨p, q, e1, e2, hne, hN, hD, hq⟩ := hm.factor hd h0 h1 n
  have hone := one_sub_double hd h0 h1
  have hE0 : (num 1 - p).val ≠ 0 := by
    intro h
    rw [h, zero_sub, abs_neg] at hN
    have := hn.trans ((le_abs_self _).trans hN)
    norm_num at this
  refine ⟨⟨rne (rne (sum.val * (num 1 - ratio).val) / (num 1 - p).val)⟩, ?_, ?_⟩
  · simp only [calcFirstTermGeomSeries, e1, bind, Except.bind]
    exact fp_pyDiv _ hE0
  · change |rne _ - _| ≤ _
    rcases hs with hs | hs
    · rw [hs]; simp [rne_zero]
    generalize (num 1 - p).val = E at *
    generalize (num 1 - ratio).val = F at *
    have hδ : 0 < 1 - ratio.val := by linarith
    generalize 1 - ratio.val = δ at *
    have hDp : 1 - ratio.val ^ n ≤ 1 := by have := pow_nonneg h0 n; linarith
    generalize 1 - ratio.val ^ n = D at *
    have hY : (2 : ℝ) ^ (-953 : ℤ) ≤ |sum.val * δ| := by
      rw [abs_mul, abs_of_pos hδ]
      have := mul_le_mul hs hone (by positivity) (abs_nonneg _)
      rwa [← zpow_add₀ two_ne_zero] at this
    have tY : (2 : ℝ) ^ (-1022 : ℤ) ≤ |sum.val * δ| := le_trans (zpow_le_zpow_right₀ (by norm_num) (by norm_num)) hY
    have hD0 : 0 < D := lt_of_lt_of_le (by positivity) hn
    have e53 : (2 : ℝ) ^ (-53 : ℤ) = 1 / 9007199254740992 := by norm_num
    have e51 : (2 : ℝ) ^ (-51 : ℤ) = 4 / 9007199254740992 := by norm_num
    have e48 : (2 : ℝ) ^ (-48 : ℤ) = 32 / 9007199254740992 := by norm_num
    have e40 : (2 : ℝ) ^ (-40 : ℤ) = 1 / 1099511627776 := by norm_num
    have r1 : ∀ {x B : ℝ}, |x| ≤ B → |sum.val * δ| ≤ B → |rne x - x| ≤ 1 / 9007199254740992 * B := by
      intro x B h h'
      rw [← e53]; exact rne_err_le h (tY.trans h')
    rw [e53] at hD
    rw [e51] at hN
    rw [e48]
    rw [e40] at hn
    clear tY hY hone e53 e51 e48 e40 hs hq
    have a1 : |sum.val * F - sum.val * δ| ≤ 1 / 9007199254740992 * |sum.val * δ| := by
      rw [← mul_sub, abs_mul, abs_mul, abs_of_pos hδ]
      calc |sum.val| * |F - δ| ≤ |sum.val| * (1 / 9007199254740992 * δ) := mul_le_mul_of_nonneg_left hD (abs_nonneg _)
        _ = _ := by ring
    generalize sum.val * δ = Y at *
    have a2 : |sum.val * F| ≤ 2 * |Y| := by
      have := abs_add_le (sum.val * F - Y) Y
      rw [sub_add_cancel] at this
      have := abs_nonneg Y
      linarith
    have a3 := r1 a2 (by have := abs_nonneg Y; linarith)
    have a4 : |rne (sum.val * F) - Y| ≤ 3 / 9007199254740992 * |Y| := by
      have := abs_add_le (rne (sum.val * F) - sum.val * F) (sum.val * F - Y)
      rw [sub_add_sub_cancel] at this
      linarith
    obtain ⟨n1, n2⟩ := abs_le.mp hN
    have q1 := ratio_near hD0 (by linarith) a4 hN
    generalize rne (sum.val * F) = N at *
    have hx : |Y / D| = |Y| / D := by rw [abs_div, abs_of_pos hD0]
    have hYD : |Y| ≤ |Y| / D := by rw [le_div_iff₀ hD0]; nlinarith [abs_nonneg Y]
    have q2 : 2 * (3 / 9007199254740992 * |Y| * D + |Y| * (4 / 9007199254740992)) / (D * D) ≤ 14 / 9007199254740992 / D * (|Y| / D) := by
      rw [div_mul_div_comm, div_le_div_iff_of_pos_right (by positivity)]
      nlinarith [abs_nonneg Y]
    have hD1 : 1 ≤ 1 / D := by rw [le_div_iff₀ hD0]; linarith
    have q3 : 14 / 9007199254740992 / D * (|Y| / D) ≤ |Y| / D := by
      refine mul_le_of_le_one_left (by positivity) ?_
      rw [div_le_one hD0]; linarith
    have q4 := q1.trans q2
    have q5 : |N / E| ≤ 2 * (|Y| / D) := by
      have := abs_add_le (N / E - Y / D) (Y / D)
      rw [sub_add_cancel, hx] at this
      linarith
    have q6 := r1 q5 (by have := abs_nonneg Y; linarith)
    have := abs_add_le (rne (N / E) - N / E) (N / E - Y / D)
    rw [sub_add_sub_cancel] at this
    refine this.trans ?_
    rw [hx]
    have q7 : |Y| / D ≤ 1 / D * (|Y| / D) := le_mul_of_one_le_left (by positivity) hD1
    have e1' : 14 / 9007199254740992 / D * (|Y| / D) = 14 / 9007199254740992 * (1 / D * (|Y| / D)) := by ring
    have e2' : 32 / 9007199254740992 / D * (|Y| / D) = 32 / 9007199254740992 * (1 / D * (|Y| / D)) := by ring
    rw [e1'] at q4
    rw [e2']
    have q8 : 0 ≤ |Y| / D := by positivity
    linarith

/-- **C195** `calc_length_geom_series`: `t` is the part of the infinite sum that is still missing. -/
theorem C195_length (hm : AccurateLog m) (first sum ratio : FP double) (hd : IsDouble ratio.val) (hr : (2 : ℝ) ^ (-33 : ℤ) < ratio.val) (h1 : ratio.val < 1)
    (hf : (2 : ℝ) ^ (-33 : ℤ) < first.val) (hs : (2 : ℝ) ^ (-33 : ℤ) < sum.val)
    (ht : (2 : ℝ) ^ (-30 : ℤ) ≤ 1 - sum.val * (1 - ratio.val) / first.val) :
    ∃ x, calcLengthGeomSeries first sum ratio = .ok x ∧
      |x.val - Real.log (1 - sum.val * (1 - ratio.val) / first.val) / Real.log ratio.val| ≤
        (2 : ℝ) ^ (-47 : ℤ) / ((1 - sum.val * (1 - ratio.val) / first.val) * |Real.log ratio.val|) := by
  have p33 : (0 : ℝ) < (2 : ℝ) ^ (-33 : ℤ) := by positivity
  have hq0 : 0 < ratio.val := p33.trans hr
  have hf0 : 0 < first.val := p33.trans hf
  have hs0 : 0 < sum.val := p33.trans hs
  have hδ := one_sub_double hd hq0.le h1
  have hS := SERVER_EPS_le
  -- the argument of the logarithm
  have hG : |(ratio - num 1).val - (ratio.val - 1)| ≤ 1 / 9007199254740992 * (1 - ratio.val) := by
    have := fp_sum_grid hd isDouble_one.neg
    have e53 : (2 : ℝ) ^ (-53 : ℤ) = 1 / 9007199254740992 := by norm_num
    rw [e53, ← sub_eq_add_neg, abs_of_neg (show ratio.val - 1 < 0 by clear hS hs hf hr p33 hδ ht; linarith), neg_sub] at this
    have e : (ratio - num 1 : FP double).val = rne (ratio.val - 1) := by
      change rne (ratio.val - rne ((1 : ℕ) : ℝ)) = _
      rw [rne_of_isDouble (isDouble_nat (n := 1) (by norm_num)), Nat.cast_one]
    rw [e]; exact this
  have hT : ∀ t : ℝ, t = 1 - sum.val * (1 - ratio.val) / first.val → (2 : ℝ) ^ (-30 : ℤ) ≤ t → t < 1 →
      |(num 1 + sum * (ratio - num 1) / first : FP double).val - t| ≤ 8 / 9007199254740992 := by
    intro t et ht' ht1
    have e : (num 1 + sum * (ratio - num 1) / first : FP double).val = rne (1 + rne (rne (sum.val * (ratio - num 1).val) / first.val)) := by
      change rne (rne ((1 : ℕ) : ℝ) + rne (rne (sum.val * (ratio - num 1).val) / first.val)) = _
      rw [rne_of_isDouble (isDouble_nat (n := 1) (by norm_num)), Nat.cast_one]
    rw [e]
    generalize (ratio - num 1 : FP double).val = G at *
    have tY : (2 : ℝ) ^ (-1022 : ℤ) ≤ sum.val * (1 - ratio.val) := by
      refine le_trans ?_ (mul_le_mul hs.le hδ (by positivity) hs0.le)
      rw [← zpow_add₀ two_ne_zero]
      exact zpow_le_zpow_right₀ (by norm_num) (by norm_num)
    have e53 : (2 : ℝ) ^ (-53 : ℤ) = 1 / 9007199254740992 := by norm_num
    have r1 : ∀ {x B : ℝ}, |x| ≤ B → sum.val * (1 - ratio.val) ≤ B → |rne x - x| ≤ 1 / 9007199254740992 * B := by
      intro x B h h'
      rw [← e53]; exact rne_err_le h (tY.trans h')
    have r2 : ∀ {x : ℝ}, |x| ≤ 2 → |rne x - x| ≤ 1 / 9007199254740992 * 2 := by
      intro x h
      rw [← e53]; exact rne_err_le h (le_trans (zpow_le_zpow_right₀ (n := 0) (by norm_num) (by norm_num)) (by norm_num))
    have ht0 : 0 < t := lt_of_lt_of_le (by positivity) ht'
    have hδ0 : 0 < 1 - ratio.val := lt_of_lt_of_le (by positivity) hδ
    clear tY e53 hδ hS ht ht' hs hf hr p33
    have a1 : |sum.val * G - -(sum.val * (1 - ratio.val))| ≤ 1 / 9007199254740992 * (sum.val * (1 - ratio.val)) := by
      have e' : sum.val * G - -(sum.val * (1 - ratio.val)) = sum.val * (G - (ratio.val - 1)) := by ring
      rw [e', abs_mul, abs_of_pos hs0]
      calc sum.val * |G - (ratio.val - 1)| ≤ sum.val * (1 / 9007199254740992 * (1 - ratio.val)) := mul_le_mul_of_nonneg_left hG hs0.le
        _ = _ := by ring
    have hY0 : 0 < sum.val * (1 - ratio.val) := mul_pos hs0 hδ0
    generalize sum.val * (1 - ratio.val) = Y at *
    have a2 : |sum.val * G| ≤ 2 * Y := by
      have := abs_add_le (sum.val * G - -Y) (-Y)
      rw [sub_add_cancel, abs_neg, abs_of_pos hY0] at this
      linarith
    have a3 := r1 a2 (by linarith)
    have a4 : |rne (sum.val * G) - -Y| ≤ 3 / 9007199254740992 * Y := by
      have := abs_add_le (rne (sum.val * G) - sum.val * G) (sum.val * G - -Y)
      rw [sub_add_sub_cancel] at this
      linarith
    generalize rne (sum.val * G) = A at *
    have hW0 : 0 < Y / first.val := div_pos hY0 hf0
    have a5 : |A / first.val - -(Y / first.val)| ≤ 3 / 9007199254740992 * (Y / first.val) := by
      have e' : A / first.val - -(Y / first.val) = (A - -Y) / first.val := by ring
      rw [e', abs_div, abs_of_pos hf0, ← mul_div_assoc, div_le_div_iff_of_pos_right hf0]
      exact a4
    generalize Y / first.val = W at *
    obtain ⟨b1, b2⟩ := abs_le.mp a5
    have a6 := r2 (x := A / first.val) (by rw [abs_le]; constructor <;> linarith)
    obtain ⟨c1, c2⟩ := abs_le.mp a6
    have a7 := r2 (x := 1 + rne (A / first.val)) (by rw [abs_le]; constructor <;> linarith)
    obtain ⟨d1, d2⟩ := abs_le.mp a7
    rw [abs_le]; constructor <;> linarith
  have hW0 : 0 < sum.val * (1 - ratio.val) / first.val := div_pos (mul_pos hs0 (lt_of_lt_of_le (by positivity) hδ)) hf0
  have hT' := hT _ rfl ht (by clear hS hs hf hr p33 hδ ht; linarith)
  clear hT
  have ht1 : 1 - sum.val * (1 - ratio.val) / first.val < 1 := by clear hS hs hf hr p33 hδ ht; linarith
  generalize 1 - sum.val * (1 - ratio.val) / first.val = t at *
  obtain ⟨T, hTe⟩ : ∃ T, T = (num 1 + sum * (ratio - num 1) / first : FP double) := ⟨_, rfl⟩
  rw [← hTe] at hT'
  have e30 : (2 : ℝ) ^ (-30 : ℤ) = 1 / 1073741824 := by norm_num
  have e33 : (2 : ℝ) ^ (-33 : ℤ) = 1 / 8589934592 := by norm_num
  have e47 : (2 : ℝ) ^ (-47 : ℤ) = 64 / 9007199254740992 := by norm_num
  rw [e30] at ht
  rw [e33] at hr hf hs hS
  rw [e47]
  have c1 : ¬ first ≤ (SERVER_EPS : FP double) := fun h => by
    have : first.val ≤ (SERVER_EPS : FP double).val := h
    linarith
  have c2 : ¬ sum < (num 0 : FP double) := fun h => by
    have h' : sum.val < rne ((0 : ℕ) : ℝ) := h
    rw [Nat.cast_zero, rne_zero] at h'
    linarith
  have c3 : ¬ ratio ≤ (SERVER_EPS : FP double) := fun h => by
    have : ratio.val ≤ (SERVER_EPS : FP double).val := h
    linarith
  have c4 : ¬ sum ≤ (SERVER_EPS : FP double) := fun h => by
    have : sum.val ≤ (SERVER_EPS : FP double).val := h
    linarith
  obtain ⟨t1, t2⟩ := abs_le.mp hT'
  have c5 : ¬ T ≤ (SERVER_EPS : FP double) := fun h => by
    have : T.val ≤ (SERVER_EPS : FP double).val := h
    linarith
  have ht0 : 0 < t := by linarith
  have hT0 : 0 < T.val := by linarith
  have l1 := log_near ht0 (by linarith) hT'
  have lt1 : Real.log t < 0 := Real.log_neg ht0 ht1
  have lt2 : |Real.log t| ≤ 1 / t := by
    rw [abs_of_neg lt1]
    have := Real.one_sub_inv_le_log_of_pos ht0
    rw [one_div]; linarith
  have hit : 1 ≤ 1 / t := by rw [le_div_iff₀ ht0]; linarith
  have l2 : |(m.log T).val - Real.log t| ≤ 22 / 9007199254740992 * (1 / t) := by
    have k1 := (hm T hT0).trans (ulp_log_bound _)
    have k2 := abs_add_le ((m.log T).val - Real.log T.val) (Real.log T.val - Real.log t)
    rw [sub_add_sub_cancel] at k2
    have k3 := abs_add_le (Real.log T.val - Real.log t) (Real.log t)
    rw [sub_add_cancel] at k3
    have e : 2 * (8 / 9007199254740992) / t = 16 / 9007199254740992 * (1 / t) := by ring
    rw [e] at l1
    linarith
  have lq : Real.log ratio.val < 0 := Real.log_neg hq0 h1
  have lq1 : (2 : ℝ) ^ (-53 : ℤ) ≤ |Real.log ratio.val| := by
    rw [abs_of_neg lq]
    refine hδ.trans ?_
    have := Real.log_le_sub_one_of_pos hq0
    clear hδ e30 e33 e47 p33
    linarith
  have lq2 := (hm ratio hq0).trans (ulp_rel_bound lq1)
  have lq3 : -Real.log ratio.val ≤ 8589934592 := by
    have k1 := Real.one_sub_inv_le_log_of_pos hq0
    have k2 : ratio.val⁻¹ ≤ 8589934592 := by
      rw [inv_le_comm₀ hq0 (by norm_num)]; linarith
    linarith
  clear hδ e30 e33 e47 p33 lq1
  rw [abs_of_neg lq] at lq2 ⊢
  have hD0 : 0 < -Real.log ratio.val := by linarith
  obtain ⟨u1, u2⟩ := abs_le.mp lq2
  have hL2 : (m.log ratio).val ≠ 0 := by
    intro h; rw [h] at u1 u2; linarith
  have eX : Real.log t / Real.log ratio.val = -Real.log t / -Real.log ratio.val := by rw [neg_div_neg_eq]
  have eN : (m.log T).val / (m.log ratio).val = -(m.log T).val / -(m.log ratio).val := by rw [neg_div_neg_eq]
  refine ⟨⟨rne ((m.log T).val / (m.log ratio).val)⟩, ?_, ?_⟩
  · unfold calcLengthGeomSeries
    rw [if_neg (by tauto), if_neg c4]
    simp only [← hTe]
    rw [if_neg c5]
    exact fp_pyDiv _ hL2
  change |rne _ - _| ≤ _
  rw [eX, eN]
  have q1 := ratio_near (N := -(m.log T).val) (E := -(m.log ratio).val) (Y := -Real.log t) (D := -Real.log ratio.val) hD0 (by linarith)
    (a := 22 / 9007199254740992 * (1 / t)) (by rw [← abs_neg]; convert l2 using 2; ring)
    (b := 2 / 9007199254740992 * -Real.log ratio.val) (by rw [← abs_neg]; rw [show -(-(m.log ratio).val - -Real.log ratio.val) = (m.log ratio).val - Real.log ratio.val by ring]; exact lq2)
  rw [abs_neg] at q1
  generalize -Real.log ratio.val = D at *
  generalize -(m.log T).val / -(m.log ratio).val = Q at *
  have q2 : 2 * (22 / 9007199254740992 * (1 / t) * D + |Real.log t| * (2 / 9007199254740992 * D)) / (D * D) ≤ 48 / 9007199254740992 * (1 / t / D) := by
    have e : 2 * (22 / 9007199254740992 * (1 / t) * D + |Real.log t| * (2 / 9007199254740992 * D)) / (D * D) =
        (44 / 9007199254740992 * (1 / t) + 4 / 9007199254740992 * |Real.log t|) / D := by field_simp; ring
    rw [e, show 48 / 9007199254740992 * (1 / t / D) = 48 / 9007199254740992 * (1 / t) / D by ring, div_le_div_iff_of_pos_right hD0]
    linarith
  have q3 := q1.trans q2
  have q4 : |-Real.log t / D| ≤ 1 / t / D := by
    rw [abs_div, abs_neg, abs_of_pos hD0, div_le_div_iff_of_pos_right hD0]; exact lt2
  have q5 : |Q| ≤ 2 * (1 / t / D) := by
    have := abs_add_le (Q - -Real.log t / D) (-Real.log t / D)
    rw [sub_add_cancel] at this
    have : 0 < 1 / t / D := by positivity
    linarith
  have q6 : |rne Q - Q| ≤ 1 / 9007199254740992 * (2 * (1 / t / D)) := by
    have e53 : (2 : ℝ) ^ (-53 : ℤ) = 1 / 9007199254740992 := by norm_num
    rw [← e53]
    refine rne_err_le q5 (le_trans (b := (2 : ℝ) ^ (-33 : ℤ)) (zpow_le_zpow_right₀ (by norm_num) (by norm_num)) ?_)
    have e33 : (2 : ℝ) ^ (-33 : ℤ) = 1 / 8589934592 := by norm_num
    rw [e33]
    have : 1 / 8589934592 ≤ 1 / t / D := by
      rw [le_div_iff₀ hD0]
      linarith
    linarith
  have := abs_add_le (rne Q - Q) (Q - -Real.log t / D)
  rw [sub_add_sub_cancel] at this
  refine this.trans ?_
  have e : 64 / 9007199254740992 / (t * D) = 64 / 9007199254740992 * (1 / t / D) := by field_simp
  rw [e]
  have : 0 < 1 / t / D := by positivity
  linarith

/-- **C195** The two helpers belong together: the length computed from the first term computed for `n` terms is `n`. -/
theorem C195_round_trip (hm : AccuratePow m) (hl : AccurateLog m) (sum ratio : FP double) (n : ℕ) (hd : IsDouble ratio.val)
    (hr : (2 : ℝ) ^ (-33 : ℤ) < ratio.val) (h1 : ratio.val < 1) (hn : (2 : ℝ) ^ (-40 : ℤ) ≤ 1 - ratio.val ^ n)
    (hn' : (2 : ℝ) ^ (-29 : ℤ) ≤ ratio.val ^ n) (hs : (2 : ℝ) ^ (-33 : ℤ) < sum.val)
    (hf : (2 : ℝ) ^ (-32 : ℤ) ≤ sum.val * (1 - ratio.val) / (1 - ratio.val ^ n)) :
    ∃ first len, calcFirstTermGeomSeries sum ratio n = .ok first ∧ calcLengthGeomSeries first sum ratio = .ok len ∧
      |len.val - n| ≤ (2 : ℝ) ^ (-45 : ℤ) / (ratio.val ^ n * |Real.log ratio.val|) := by
  have hq0 : 0 < ratio.val := lt_trans (by positivity) hr
  have hs0 : 0 < sum.val := lt_trans (by positivity) hs
  obtain ⟨x, ex, hx⟩ := C195_first_term hm sum ratio n hd hq0.le h1 hn
    (Or.inr (by rw [abs_of_pos hs0]; exact le_trans (zpow_le_zpow_right₀ (by norm_num) (by norm_num)) hs.le))
  have e29 : (2 : ℝ) ^ (-29 : ℤ) = 1 / 536870912 := by norm_num
  have e30 : (2 : ℝ) ^ (-30 : ℤ) = 1 / 1073741824 := by norm_num
  have e32 : (2 : ℝ) ^ (-32 : ℤ) = 1 / 4294967296 := by norm_num
  have e33 : (2 : ℝ) ^ (-33 : ℤ) = 1 / 8589934592 := by norm_num
  have e40 : (2 : ℝ) ^ (-40 : ℤ) = 1 / 1099511627776 := by norm_num
  have e48 : (2 : ℝ) ^ (-48 : ℤ) = 32 / 9007199254740992 := by norm_num
  have e47 : (2 : ℝ) ^ (-47 : ℤ) = 64 / 9007199254740992 := by norm_num
  have e45 : (2 : ℝ) ^ (-45 : ℤ) = 256 / 9007199254740992 := by norm_num
  have key := fun h h' => C195_length hl x sum ratio hd hr h1 h hs h'
  rw [e33, e30, e47] at key
  rw [e40] at hn
  rw [e29] at hn'
  rw [e32] at hf
  rw [e33] at hs hr
  rw [e48] at hx
  rw [e45]
  clear e29 e30 e32 e33 e40 e48 e47 e45
  have hlog : Real.log (ratio.val ^ n) = n * Real.log ratio.val := Real.log_pow _ _
  have hDe : ratio.val ^ n = 1 - (1 - ratio.val ^ n) := by ring
  have hD0 : 0 < 1 - ratio.val ^ n := by linarith
  have hY : sum.val * (1 - ratio.val) = (1 - ratio.val ^ n) * (sum.val * (1 - ratio.val) / (1 - ratio.val ^ n)) := by field_simp
  rw [hY] at key
  generalize sum.val * (1 - ratio.val) / (1 - ratio.val ^ n) = f at *
  have hp0 : 0 < ratio.val ^ n := by linarith
  generalize ratio.val ^ n = P at *
  have hf0 : 0 < f := by linarith
  rw [abs_of_pos hf0] at hx
  have hx1 : 32 / 9007199254740992 / (1 - P) * f ≤ 1 / 256 * f := by
    refine mul_le_mul_of_nonneg_right ?_ hf0.le
    rw [div_le_iff₀ hD0]; linarith
  obtain ⟨x1, x2⟩ := abs_le.mp (hx.trans hx1)
  have hx0 : 0 < x.val := by linarith
  have ht : |(1 - (1 - P) * f / x.val) - P| ≤ 64 / 9007199254740992 := by
    have e : (1 - (1 - P) * f / x.val) - P = (1 - P) * (x.val - f) / x.val := by field_simp; ring
    rw [e, abs_div, abs_mul, abs_of_pos hD0, abs_of_pos hx0, div_le_iff₀ hx0]
    calc (1 - P) * |x.val - f| ≤ (1 - P) * (32 / 9007199254740992 / (1 - P) * f) := mul_le_mul_of_nonneg_left hx hD0.le
      _ = 32 / 9007199254740992 * f := by field_simp
      _ ≤ _ := by linarith
  obtain ⟨t1, t2⟩ := abs_le.mp ht
  obtain ⟨y, ey, hy⟩ := key (by linarith) (by linarith)
  refine ⟨x, y, ex, ey, ?_⟩
  have lg := log_near hp0 (by linarith) ht
  generalize 1 - (1 - P) * f / x.val = t at *
  have lq : Real.log ratio.val < 0 := Real.log_neg hq0 h1
  rw [hlog] at lg
  have hL : 0 < |Real.log ratio.val| := abs_pos.mpr lq.ne
  have a1 : |Real.log t / Real.log ratio.val - n| ≤ 128 / 9007199254740992 * (1 / (P * |Real.log ratio.val|)) := by
    have e : Real.log t / Real.log ratio.val - n = (Real.log t - n * Real.log ratio.val) / Real.log ratio.val := by
      have := lq.ne
      field_simp
    rw [e, abs_div, div_le_iff₀ hL]
    refine lg.trans (le_of_eq ?_)
    field_simp; norm_num
  have a2 : 64 / 9007199254740992 / (t * |Real.log ratio.val|) ≤ 128 / 9007199254740992 * (1 / (P * |Real.log ratio.val|)) := by
    rw [mul_one_div, div_le_div_iff₀ (mul_pos (by linarith) hL) (mul_pos hp0 hL)]
    nlinarith
  have := abs_add_le (y.val - Real.log t / Real.log ratio.val) (Real.log t / Real.log ratio.val - n)
  rw [sub_add_sub_cancel] at this
  refine this.trans ?_
  rw [← mul_one_div (256 / 9007199254740992 : ℝ)]
  linarith

end

/-- Sum 1, ratio one half, three terms: the first term is 4/7. -/
example : ∃ x, calcFirstTermGeomSeries (⟨1⟩ : FP double) ⟨1 / 2⟩ 3 = .ok x ∧ |x.val - 4 / 7| ≤ (2 : ℝ) ^ (-48 : ℤ) := by
  obtain ⟨x, ex, h⟩ := C195_first_term accuratePow_double ⟨1⟩ ⟨1 / 2⟩ 3 isDouble_half (by norm_num) (by norm_num) (by norm_num) (Or.inr (by rw [abs_one]; exact zpow_le_one_of_nonpos₀ (by norm_num) (by norm_num)))
  refine ⟨x, ex, ?_⟩
  have e : (1 : ℝ) * (1 - 1 / 2) / (1 - (1 / 2) ^ 3) = 4 / 7 := by norm_num
  rw [e] at h
  refine h.trans ?_
  rw [abs_of_pos (by norm_num)]; norm_num

/-- First term 1, ratio one half, sum 3/2: two terms. -/
example : ∃ x, calcLengthGeomSeries (⟨1⟩ : FP double) ⟨3 / 2⟩ ⟨1 / 2⟩ = .ok x ∧ |x.val - 2| ≤ (2 : ℝ) ^ (-44 : ℤ) := by
  obtain ⟨x, ex, h⟩ := C195_length accurateLog_double ⟨1⟩ ⟨3 / 2⟩ ⟨1 / 2⟩ isDouble_half (by norm_num) (by norm_num) (by norm_num) (by norm_num) (by norm_num)
  refine ⟨x, ex, ?_⟩
  have l2 : Real.log (1 / 2) ≤ 1 / 2 - 1 := Real.log_le_sub_one_of_pos (by norm_num)
  have l3 : 1 / 2 ≤ |Real.log (1 / 2)| := by rw [abs_of_neg (by linarith)]; linarith
  have l4 : Real.log (1 / 2) ≠ 0 := by intro h; rw [h] at l2; linarith
  have e : (1 : ℝ) - 3 / 2 * (1 - 1 / 2) / 1 = (1 / 2) ^ 2 := by norm_num
  rw [e, Real.log_pow, mul_div_assoc, div_self l4, mul_one] at h
  refine le_trans (by exact_mod_cast h) ?_
  rw [div_le_iff₀ (by positivity)]
  calc (2 : ℝ) ^ (-47 : ℤ) = (2 : ℝ) ^ (-44 : ℤ) * ((1 / 2) ^ 2 * (1 / 2)) := by norm_num
    _ ≤ _ := by gcongr

/-- Three terms with ratio one half and sum one: the first term is 4/7, and the length comes back as 3. -/
example : ∃ first len, calcFirstTermGeomSeries (⟨1⟩ : FP double) ⟨1 / 2⟩ 3 = .ok first ∧ calcLengthGeomSeries first (⟨1⟩ : FP double) ⟨1 / 2⟩ = .ok len ∧
    |len.val - 3| ≤ (2 : ℝ) ^ (-41 : ℤ) := by
  obtain ⟨x, y, ex, ey, h⟩ := C195_round_trip accuratePow_double accurateLog_double ⟨1⟩ ⟨1 / 2⟩ 3 isDouble_half (by norm_num) (by norm_num) (by norm_num) (by norm_num)
    (by norm_num) (by norm_num)
  refine ⟨x, y, ex, ey, le_trans (by exact_mod_cast h) ?_⟩
  have l2 : Real.log (1 / 2) ≤ 1 / 2 - 1 := Real.log_le_sub_one_of_pos (by norm_num)
  have l3 : 1 / 2 ≤ |Real.log (1 / 2)| := by rw [abs_of_neg (by linarith)]; linarith
  rw [div_le_iff₀ (by positivity)]
  calc (2 : ℝ) ^ (-45 : ℤ) = (2 : ℝ) ^ (-41 : ℤ) * ((1 / 2) ^ 3 * (1 / 2)) := by norm_num
    _ ≤ _ := by gcongr

end PyrusGeom
