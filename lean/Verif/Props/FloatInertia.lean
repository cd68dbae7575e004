import Verif.Props.FloatTrig
import Verif.Props.SoccerMath

/-!
# C182: inertia in double precision

For every mathematical library whose `pow` has an error of at most one unit in the last place.
-/

namespace PyrusGeom
open Spec SoccerMath

/-- `math.pow(x, n)` is within one unit in the last place. -/
def Spec.AccuratePow (m : PyMath (FP double)) : Prop := ∀ (x : FP double) (n : ℤ), |(m.powi x n).val - x.val ^ n| ≤ ulp (x.val ^ n)

theorem accuratePow_double : AccuratePow (inferInstance : PyMath (FP double)) := by
  intro x n
  exact (rne_error (x.val ^ n)).trans (by have := ulp_pos (x.val ^ n); linarith)

/-- The travel of `n` steps, per unit of speed. -/
def Spec.steps (decay : ℝ) (n : ℕ) : ℝ := ∑ i ∈ Finset.range n, decay ^ i

theorem steps_mul (decay : ℝ) (n : ℕ) : (1 - decay) * steps decay n = 1 - decay ^ n := mul_neg_geom_sum decay n

/-- The quotient of `1 - pow(decay, n)` and `1 - decay`. -/
theorem steps_near {p p' N D S δ η : ℝ} (hδ : 0 < δ) (hδ1 : δ ≤ 1) (hp0 : 0 ≤ p) (hp1 : p ≤ 1) (hS : δ * S = 1 - p)
    (h1 : |p' - p| ≤ (2 : ℝ) ^ (-52 : ℤ)) (h2 : |N - (1 - p')| ≤ (2 : ℝ) ^ (-53 : ℤ) * |1 - p'| + η)
    (h3 : |D - δ| ≤ (2 : ℝ) ^ (-53 : ℤ) * δ) (hη : η ≤ (2 : ℝ) ^ (-60 : ℤ)) :
    0 < D ∧ |N - (1 - p)| ≤ (2 : ℝ) ^ (-51 : ℤ) ∧ |N / D - S| ≤ (2 : ℝ) ^ (-50 : ℤ) / δ := by
  have hD : (1 - (2 : ℝ) ^ (-53 : ℤ)) * δ ≤ D := by
    have := (abs_le.mp h3).1
    nlinarith
  have hD0 : 0 < D := lt_of_lt_of_le (mul_pos (by norm_num) hδ) hD
  have hN : |N - (1 - p)| ≤ (2 : ℝ) ^ (-51 : ℤ) := by
    have a1 := abs_sub_le N (1 - p') (1 - p)
    have a2 : |1 - p' - (1 - p)| = |p' - p| := by rw [abs_sub_comm p']; congr 1; ring
    have a3 : |1 - p'| ≤ 1 + (2 : ℝ) ^ (-52 : ℤ) := by
      have := abs_le.mp h1
      rw [abs_le]
      constructor <;> linarith
    have a4 := mul_le_mul_of_nonneg_left a3 (show (0 : ℝ) ≤ (2 : ℝ) ^ (-53 : ℤ) by positivity)
    have e : (2 : ℝ) ^ (-53 : ℤ) * (1 + (2 : ℝ) ^ (-52 : ℤ)) + (2 : ℝ) ^ (-60 : ℤ) + (2 : ℝ) ^ (-52 : ℤ) ≤ (2 : ℝ) ^ (-51 : ℤ) := by norm_num
    rw [a2] at a1
    linarith
  refine ⟨hD0, hN, ?_⟩
  have e : N / D - S = (N - S * D) / D := by field_simp
  have hnum : |N - S * D| ≤ (2 : ℝ) ^ (-51 : ℤ) + (2 : ℝ) ^ (-53 : ℤ) := by
    have b1 : N - S * D = (N - (1 - p)) + S * (δ - D) := by rw [← hS]; ring
    rw [b1]
    refine (abs_add_le _ _).trans (add_le_add hN ?_)
    rw [abs_mul, abs_sub_comm δ]
    have hS0 : 0 ≤ S := by
      by_contra hc
      push Not at hc
      have := mul_neg_of_pos_of_neg hδ hc
      linarith
    rw [abs_of_nonneg hS0]
    have := mul_le_mul_of_nonneg_left h3 hS0
    have hSd : S * ((2 : ℝ) ^ (-53 : ℤ) * δ) = (2 : ℝ) ^ (-53 : ℤ) * (1 - p) := by rw [← hS]; ring
    rw [hSd] at this
    refine this.trans (mul_le_of_le_one_right (by positivity) (by linarith))
  rw [e, abs_div, abs_of_pos hD0, div_le_div_iff₀ hD0 hδ]
  have k1 := mul_le_mul_of_nonneg_right hnum hδ.le
  have k2 := mul_le_mul_of_nonneg_left hD (show (0 : ℝ) ≤ (2 : ℝ) ^ (-50 : ℤ) by positivity)
  have k3 : ((2 : ℝ) ^ (-51 : ℤ) + (2 : ℝ) ^ (-53 : ℤ)) ≤ (2 : ℝ) ^ (-50 : ℤ) * (1 - (2 : ℝ) ^ (-53 : ℤ)) := by norm_num
  have k4 := mul_le_mul_of_nonneg_right k3 hδ.le
  linarith

/-- A rounded product with a factor close to `S`. -/
theorem inertia_scaled {v q S δ η X : ℝ} (hδ : 0 < δ) (hS : |S| ≤ 1 / δ) (hη : 0 ≤ η) (h : |q - S| ≤ (2 : ℝ) ^ (-49 : ℤ) / δ)
    (hX : |X - v * q| ≤ (2 : ℝ) ^ (-53 : ℤ) * |v * q| + η) : |X - v * S| ≤ (2 : ℝ) ^ (-48 : ℤ) * (|v| / δ) + η := by
  have hv := abs_nonneg v
  have hi : 0 < 1 / δ := by positivity
  rw [div_eq_mul_one_div] at h ⊢
  generalize 1 / δ = r at *
  have hq : |q| ≤ 2 * r := by
    have := abs_sub_abs_le_abs_sub q S
    have e : (2 : ℝ) ^ (-49 : ℤ) * r ≤ 1 * r := mul_le_mul_of_nonneg_right (by norm_num) hi.le
    linarith
  have a1 := abs_sub_le X (v * q) (v * S)
  rw [← mul_sub, abs_mul v (q - S)] at a1
  rw [abs_mul] at hX
  have a2 := mul_le_mul_of_nonneg_left h hv
  have a3 := mul_le_mul_of_nonneg_left hq hv
  have a4 := mul_le_mul_of_nonneg_left a3 (show (0 : ℝ) ≤ (2 : ℝ) ^ (-53 : ℤ) by positivity)
  have e : ((2 : ℝ) ^ (-49 : ℤ) + 2 * (2 : ℝ) ^ (-53 : ℤ)) * (|v| * r) ≤ (2 : ℝ) ^ (-48 : ℤ) * (|v| * r) :=
    mul_le_mul_of_nonneg_right (by norm_num) (by positivity)
  rw [add_mul] at e
  generalize (2 : ℝ) ^ (-48 : ℤ) * (|v| * r) = x0 at *
  nlinarith

theorem steps_bounds {decay : ℝ} (h0 : 0 ≤ decay) (h1 : decay < 1) (n : ℕ) :
    0 ≤ decay ^ n ∧ decay ^ n ≤ 1 ∧ 0 ≤ steps decay n ∧ steps decay n ≤ 1 / (1 - decay) := by
  have hδ : 0 < 1 - decay := by linarith
  refine ⟨by positivity, pow_le_one₀ h0 h1.le, Finset.sum_nonneg fun i _ => by positivity, ?_⟩
  rw [le_div_iff₀ hδ, mul_comm, steps_mul]
  have : 0 ≤ decay ^ n := by positivity
  linarith

/-- A quotient by a rounded number. -/
theorem quot_rounded {v D δ η R : ℝ} (hδ : 0 < δ) (h : |D - δ| ≤ (2 : ℝ) ^ (-53 : ℤ) * δ)
    (hR : |R - v / D| ≤ (2 : ℝ) ^ (-53 : ℤ) * |v / D| + η) : 0 < D ∧ |R - v / δ| ≤ (2 : ℝ) ^ (-51 : ℤ) * (|v| / δ) + η := by
  have hD : (1 - (2 : ℝ) ^ (-53 : ℤ)) * δ ≤ D := by
    have := (abs_le.mp h).1
    nlinarith
  have hD0 : 0 < D := lt_of_lt_of_le (mul_pos (by norm_num) hδ) hD
  refine ⟨hD0, ?_⟩
  have hv := abs_nonneg v
  have hX : 0 ≤ |v| / δ := by positivity
  have e : |v / D - v / δ| ≤ (2 : ℝ) ^ (-52 : ℤ) * (|v| / δ) := by
    have e1 : v / D - v / δ = v / δ * ((δ - D) / D) := by field_simp
    rw [e1, abs_mul, abs_div v, abs_of_pos hδ, mul_comm]
    refine mul_le_mul_of_nonneg_right ?_ hX
    rw [abs_div, abs_of_pos hD0, abs_sub_comm, div_le_iff₀ hD0]
    refine h.trans ?_
    have c : (2 : ℝ) ^ (-53 : ℤ) ≤ (2 : ℝ) ^ (-52 : ℤ) * (1 - (2 : ℝ) ^ (-53 : ℤ)) := by norm_num
    have c' := mul_le_mul_of_nonneg_right c hδ.le
    have c2 := mul_le_mul_of_nonneg_left hD (show (0 : ℝ) ≤ (2 : ℝ) ^ (-52 : ℤ) by positivity)
    linarith
  have a1 := abs_sub_le R (v / D) (v / δ)
  have a2 := abs_sub_abs_le_abs_sub (v / D) (v / δ)
  rw [abs_div v δ, abs_of_pos hδ] at a2
  generalize v / D = Q at *
  generalize v / δ = S at *
  generalize |v| / δ = X at *
  have l1 : |Q| ≤ 2 * X := by
    have : (2 : ℝ) ^ (-52 : ℤ) * X ≤ 1 * X := mul_le_mul_of_nonneg_right (by norm_num) hX
    linarith
  have l2 := mul_le_mul_of_nonneg_left l1 (show (0 : ℝ) ≤ (2 : ℝ) ^ (-53 : ℤ) by positivity)
  have l3 : (2 * (2 : ℝ) ^ (-53 : ℤ) + (2 : ℝ) ^ (-52 : ℤ)) * X ≤ (2 : ℝ) ^ (-51 : ℤ) * X := mul_le_mul_of_nonneg_right (by norm_num) hX
  generalize (2 : ℝ) ^ (-53 : ℤ) = e53 at *
  generalize (2 : ℝ) ^ (-52 : ℤ) = e52 at *
  generalize (2 : ℝ) ^ (-51 : ℤ) = e51 at *
  nlinarith

/-- A rounded sum. -/
theorem sum_rounded {p t X R η Z : ℝ} (hX : |X| ≤ R) (hη : 0 ≤ η) (h : |t - X| ≤ (2 : ℝ) ^ (-48 : ℤ) * R + η)
    (hZ : |Z - (p + t)| ≤ (2 : ℝ) ^ (-53 : ℤ) * |p + t| + η) : |Z - (p + X)| ≤ (2 : ℝ) ^ (-47 : ℤ) * (|p| + R) + 4 * η := by
  have hR : 0 ≤ R := (abs_nonneg X).trans hX
  have hp := abs_nonneg p
  have a1 := abs_sub_le Z (p + t) (p + X)
  rw [add_sub_add_left_eq_sub] at a1
  have a2 := abs_sub_abs_le_abs_sub t X
  have a3 := abs_add_le p t
  have l1 : |p + t| ≤ |p| + 2 * R + η := by
    have : (2 : ℝ) ^ (-48 : ℤ) * R ≤ 1 * R := mul_le_mul_of_nonneg_right (by norm_num) hR
    linarith
  have l2 := mul_le_mul_of_nonneg_left l1 (show (0 : ℝ) ≤ (2 : ℝ) ^ (-53 : ℤ) by positivity)
  have l3 : (2 * (2 : ℝ) ^ (-53 : ℤ) + (2 : ℝ) ^ (-48 : ℤ)) * R ≤ (2 : ℝ) ^ (-47 : ℤ) * R := mul_le_mul_of_nonneg_right (by norm_num) hR
  have l4 : (2 : ℝ) ^ (-53 : ℤ) * |p| ≤ (2 : ℝ) ^ (-47 : ℤ) * |p| := mul_le_mul_of_nonneg_right (by norm_num) hp
  have l5 : (2 : ℝ) ^ (-53 : ℤ) * η ≤ 1 * η := mul_le_mul_of_nonneg_right (by norm_num) hη
  generalize (2 : ℝ) ^ (-53 : ℤ) = e53 at *
  generalize (2 : ℝ) ^ (-48 : ℤ) = e48 at *
  generalize (2 : ℝ) ^ (-47 : ℤ) = e47 at *
  nlinarith

section
variable [m : PyMath (FP double)]

/-- The computed factor of `inertia_n_step_travel`. -/
theorem Spec.AccuratePow.factor (hm : AccuratePow m) {decay : FP double} (hd : IsDouble decay.val) (h0 : 0 ≤ decay.val)
    (h1 : decay.val < 1) (n : ℕ) : ∃ p q : FP double, mathPow decay n = .ok p ∧ pyDiv (num 1 - p) (num 1 - decay) = .ok q ∧
      (num 1 - decay).val ≠ 0 ∧ |(num 1 - p).val - (1 - decay.val ^ n)| ≤ (2 : ℝ) ^ (-51 : ℤ) ∧
      |(num 1 - decay).val - (1 - decay.val)| ≤ (2 : ℝ) ^ (-53 : ℤ) * (1 - decay.val) ∧
      |q.val - steps decay.val n| ≤ (2 : ℝ) ^ (-49 : ℤ) / (1 - decay.val) := by
  have hδ : 0 < 1 - decay.val := by linarith
  obtain ⟨b1, b2, b3, b4⟩ := steps_bounds h0 h1 n
  have one : (num 1 : FP double).val = 1 := (double.int 1 (by norm_num)).trans (by norm_num)
  have tiny : (2 : ℝ) ^ (-1075 : ℤ) ≤ (2 : ℝ) ^ (-60 : ℤ) := zpow_le_zpow_right₀ one_le_two (by norm_num)
  have hp := hm decay n
  rw [zpow_natCast] at hp
  have hu : ulp (decay.val ^ n) ≤ (2 : ℝ) ^ (-52 : ℤ) := by
    simpa using ulp_le_of_le (n := 0) le_rfl (by rw [abs_of_nonneg b1]; norm_num; linarith)
  have hN : |(num 1 - m.powi decay n).val - (1 - (m.powi decay n).val)| ≤ (2 : ℝ) ^ (-53 : ℤ) * |1 - (m.powi decay n).val| + (2 : ℝ) ^ (-1075 : ℤ) := by
    rw [FP.sub_val, one]; exact rne_error_mixed _
  have hD : |(num 1 - decay).val - (1 - decay.val)| ≤ (2 : ℝ) ^ (-53 : ℤ) * (1 - decay.val) := by
    have := fp_sum_grid isDouble_one hd.neg
    rw [← sub_eq_add_neg, abs_of_pos hδ] at this
    rw [FP.sub_val, one]; exact this
  obtain ⟨d0, d1, d2⟩ := steps_near hδ (by linarith) b1 b2 (steps_mul decay.val n) (hp.trans hu) hN hD tiny
  refine ⟨m.powi decay n, ⟨rne ((num 1 - m.powi decay n).val / (num 1 - decay).val)⟩, ?_, fp_pyDiv _ d0.ne', d0.ne', d1, hD, ?_⟩
  · unfold mathPow
    rw [if_neg]
    simp
  · have r := rne_error_mixed ((num 1 - m.powi decay n).val / (num 1 - decay).val)
    generalize (num 1 - m.powi decay n).val / (num 1 - decay).val = w at *
    have hi : 1 ≤ 1 / (1 - decay.val) := by rw [le_div_iff₀ hδ]; linarith
    rw [div_eq_mul_one_div] at d2 ⊢
    generalize 1 / (1 - decay.val) = t at *
    have a1 := abs_sub_le (rne w) w (steps decay.val n)
    have hw : |w| ≤ 2 * t := by
      have := abs_sub_abs_le_abs_sub w (steps decay.val n)
      rw [abs_of_nonneg b3] at this
      have e : (2 : ℝ) ^ (-50 : ℤ) * t ≤ 1 * t := mul_le_mul_of_nonneg_right (by norm_num) (by linarith)
      linarith
    have a2 := mul_le_mul_of_nonneg_left hw (show (0 : ℝ) ≤ (2 : ℝ) ^ (-53 : ℤ) by positivity)
    have e : ((2 : ℝ) ^ (-50 : ℤ) + 2 * (2 : ℝ) ^ (-53 : ℤ) + (2 : ℝ) ^ (-60 : ℤ)) * t ≤ (2 : ℝ) ^ (-49 : ℤ) * t :=
      mul_le_mul_of_nonneg_right (by norm_num) (by linarith)
    have e' : (2 : ℝ) ^ (-60 : ℤ) ≤ (2 : ℝ) ^ (-60 : ℤ) * t := le_mul_of_one_le_right (by positivity) hi
    generalize (2 : ℝ) ^ (-1075 : ℤ) = η at *
    change |rne w - _| ≤ _
    rw [add_mul, add_mul] at e
    nlinarith

/-- **C182** `inertia_n_step_travel` in double precision: each coordinate is within `2 ^ -48` of the distance travelled until the
ball stops, of the sum of `n` steps. -/
theorem C182_travel (hm : AccuratePow m) (vel : Vec (FP double)) (decay : FP double) (hd : IsDouble decay.val) (h0 : 0 ≤ decay.val)
    (h1 : decay.val < 1) (n : ℕ) : ∃ t, inertiaNStepTravel vel n decay = .ok t ∧
      |t.x.val - vel.x.val * steps decay.val n| ≤ (2 : ℝ) ^ (-48 : ℤ) * (|vel.x.val| / (1 - decay.val)) + (2 : ℝ) ^ (-1075 : ℤ) ∧
      |t.y.val - vel.y.val * steps decay.val n| ≤ (2 : ℝ) ^ (-48 : ℤ) * (|vel.y.val| / (1 - decay.val)) + (2 : ℝ) ^ (-1075 : ℤ) := by
  have hδ : 0 < 1 - decay.val := by linarith
  obtain ⟨b1, b2, b3, b4⟩ := steps_bounds h0 h1 n
  obtain ⟨p, q, e1, e2, _, _, _, hq⟩ := hm.factor hd h0 h1 n
  have hS : |steps decay.val n| ≤ 1 / (1 - decay.val) := by rw [abs_of_nonneg b3]; exact b4
  refine ⟨(Vec.ofXY vel.x vel.y).mul q, ?_, ?_, ?_⟩
  · simp only [inertiaNStepTravel, e1, e2, bind, Except.bind, pure, Except.pure]
  · exact inertia_scaled hδ hS (by positivity) hq (rne_error_mixed (vel.x.val * q.val))
  · exact inertia_scaled hδ hS (by positivity) hq (rne_error_mixed (vel.y.val * q.val))

/-- **C182** `inertia_n_step_distance` in double precision. -/
theorem C182_distance (hm : AccuratePow m) (speed decay : FP double) (hd : IsDouble decay.val) (h0 : 0 ≤ decay.val)
    (h1 : decay.val < 1) (n : ℕ) : ∃ t, inertiaNStepDistance speed n decay = .ok t ∧
      |t.val - speed.val * steps decay.val n| ≤ (2 : ℝ) ^ (-48 : ℤ) * (|speed.val| / (1 - decay.val)) + (2 : ℝ) ^ (-1073 : ℤ) / (1 - decay.val) := by
  have hδ : 0 < 1 - decay.val := by linarith
  obtain ⟨b1, b2, b3, b4⟩ := steps_bounds h0 h1 n
  obtain ⟨p, q, e1, e2, hne, hN, hD, hq⟩ := hm.factor hd h0 h1 n
  refine ⟨⟨rne ((speed * (num 1 - p)).val / (num 1 - decay).val)⟩, ?_, ?_⟩
  · simp only [inertiaNStepDistance, e1, bind, Except.bind]
    exact fp_pyDiv _ hne
  · have r1 := rne_error_mixed (speed.val * (num 1 - p).val)
    have ev : (speed * (num 1 - p)).val = rne (speed.val * (num 1 - p).val) := rfl
    rw [← ev] at r1
    generalize (speed * (num 1 - p)).val = w at *
    generalize (num 1 - p).val = N at *
    generalize (num 1 - decay).val = D at *
    have r2 := rne_error_mixed (w / D)
    change |rne (w / D) - _| ≤ _
    have hv := abs_nonneg speed.val
    have hst := steps_mul decay.val n
    have hDl : (1 - (2 : ℝ) ^ (-53 : ℤ)) * (1 - decay.val) ≤ D := by
      have := (abs_le.mp hD).1
      nlinarith
    have hD0 : 0 < D := lt_of_lt_of_le (mul_pos (by norm_num) hδ) hDl
    -- numerator
    have hNa : |N| ≤ 2 := by
      have := abs_sub_abs_le_abs_sub N (1 - decay.val ^ n)
      rw [abs_of_nonneg (by linarith : (0 : ℝ) ≤ 1 - decay.val ^ n)] at this
      have e : (2 : ℝ) ^ (-51 : ℤ) ≤ 1 := by norm_num
      linarith
    have e1073 : (2 : ℝ) ^ (-1073 : ℤ) = 4 * (2 : ℝ) ^ (-1075 : ℤ) := by
      rw [show (-1073 : ℤ) = 2 + -1075 by norm_num, zpow_add₀ two_ne_zero]; norm_num
    have η0 : (0 : ℝ) < (2 : ℝ) ^ (-1075 : ℤ) := by positivity
    rw [e1073]
    generalize (2 : ℝ) ^ (-1075 : ℤ) = η at *
    have hw : |w - speed.val * steps decay.val n * D| ≤ (2 : ℝ) ^ (-50 : ℤ) * |speed.val| + (2 : ℝ) ^ (-53 : ℤ) * |speed.val| + η := by
      have e : w - speed.val * steps decay.val n * D = (w - speed.val * N) + speed.val * (N - (1 - decay.val ^ n)) +
          speed.val * steps decay.val n * ((1 - decay.val) - D) := by rw [← hst]; ring
      rw [e]
      refine (abs_add_le _ _).trans ?_
      have a1 := abs_add_le (w - speed.val * N) (speed.val * (N - (1 - decay.val ^ n)))
      have a2 : |speed.val * (N - (1 - decay.val ^ n))| ≤ |speed.val| * (2 : ℝ) ^ (-51 : ℤ) := by
        rw [abs_mul]; exact mul_le_mul_of_nonneg_left hN hv
      have a3 : |speed.val * steps decay.val n * ((1 - decay.val) - D)| ≤ (2 : ℝ) ^ (-53 : ℤ) * |speed.val| := by
        rw [abs_mul, abs_mul, abs_of_nonneg b3, abs_sub_comm]
        have := mul_le_mul_of_nonneg_left hD (mul_nonneg hv b3)
        have e : |speed.val| * steps decay.val n * ((2 : ℝ) ^ (-53 : ℤ) * (1 - decay.val)) =
            (2 : ℝ) ^ (-53 : ℤ) * (|speed.val| * (1 - decay.val ^ n)) := by rw [← hst]; ring
        rw [e] at this
        refine this.trans (mul_le_mul_of_nonneg_left (mul_le_of_le_one_right hv (by linarith)) (by positivity))
      rw [abs_mul] at r1
      have a4 := mul_le_mul_of_nonneg_left (mul_le_mul_of_nonneg_left hNa hv) (show (0 : ℝ) ≤ (2 : ℝ) ^ (-53 : ℤ) by positivity)
      have e : (2 * (2 : ℝ) ^ (-53 : ℤ) + (2 : ℝ) ^ (-51 : ℤ)) * |speed.val| ≤ (2 : ℝ) ^ (-50 : ℤ) * |speed.val| :=
        mul_le_mul_of_nonneg_right (by norm_num) hv
      nlinarith
    have hq' : |w / D - speed.val * steps decay.val n| ≤ 2 * ((2 : ℝ) ^ (-50 : ℤ) * |speed.val| + η) / (1 - decay.val) := by
      have e : w / D - speed.val * steps decay.val n = (w - speed.val * steps decay.val n * D) / D := by field_simp
      rw [e, abs_div, abs_of_pos hD0, div_le_div_iff₀ hD0 hδ]
      have k1 := mul_le_mul_of_nonneg_right hw hδ.le
      have k2 := mul_le_mul_of_nonneg_left hDl (show (0 : ℝ) ≤ 2 * ((2 : ℝ) ^ (-50 : ℤ) * |speed.val| + η) by positivity)
      refine k1.trans (le_trans ?_ k2)
      have c1 : (2 : ℝ) ^ (-50 : ℤ) + (2 : ℝ) ^ (-53 : ℤ) ≤ 2 * (2 : ℝ) ^ (-50 : ℤ) * (1 - (2 : ℝ) ^ (-53 : ℤ)) := by norm_num
      have c2 : (1 : ℝ) ≤ 2 * (1 - (2 : ℝ) ^ (-53 : ℤ)) := by norm_num
      have c3 := mul_le_mul_of_nonneg_right c1 hv
      have c4 := mul_le_mul_of_nonneg_right c2 η0.le
      have : (2 : ℝ) ^ (-50 : ℤ) * |speed.val| + (2 : ℝ) ^ (-53 : ℤ) * |speed.val| + η ≤
          2 * ((2 : ℝ) ^ (-50 : ℤ) * |speed.val| + η) * (1 - (2 : ℝ) ^ (-53 : ℤ)) := by nlinarith
      have := mul_le_mul_of_nonneg_right this hδ.le
      linarith
    have hi : 1 ≤ 1 / (1 - decay.val) := by rw [le_div_iff₀ hδ]; linarith
    rw [div_eq_mul_one_div _ (1 - decay.val)] at hq'
    rw [div_eq_mul_one_div |speed.val|, div_eq_mul_one_div (4 * η)]
    have hSs : |speed.val * steps decay.val n| ≤ |speed.val| * (1 / (1 - decay.val)) := by
      rw [abs_mul, abs_of_nonneg b3]; exact mul_le_mul_of_nonneg_left b4 hv
    generalize 1 / (1 - decay.val) = t at *
    generalize speed.val * steps decay.val n = S at *
    have a1 := abs_sub_le (rne (w / D)) (w / D) S
    have a2 := abs_sub_abs_le_abs_sub (w / D) S
    generalize rne (w / D) = R at *
    generalize w / D = Q at *
    have ht0 : 0 ≤ t := by linarith
    have hvt := mul_nonneg hv ht0
    have hηt := mul_nonneg η0.le ht0
    have hq2 : |Q - S| ≤ 2 * (2 : ℝ) ^ (-50 : ℤ) * (|speed.val| * t) + 2 * (η * t) := hq'.trans (le_of_eq (by ring))
    have l5 : η ≤ η * t := le_mul_of_one_le_right η0.le hi
    rw [mul_assoc 4 η]
    generalize |speed.val| * t = X at *
    generalize η * t = Y at *
    have l0 : 2 * (2 : ℝ) ^ (-50 : ℤ) * X ≤ 1 * X := mul_le_mul_of_nonneg_right (by norm_num) hvt
    have l1 : |Q| ≤ 2 * X + 2 * Y := by linarith
    have l2 := mul_le_mul_of_nonneg_left l1 (show (0 : ℝ) ≤ (2 : ℝ) ^ (-53 : ℤ) by positivity)
    have l3 : (2 * (2 : ℝ) ^ (-50 : ℤ) + 2 * (2 : ℝ) ^ (-53 : ℤ)) * X ≤ (2 : ℝ) ^ (-48 : ℤ) * X :=
      mul_le_mul_of_nonneg_right (by norm_num) hvt
    have l4 : (2 * (2 : ℝ) ^ (-53 : ℤ)) * Y ≤ 1 * Y := mul_le_mul_of_nonneg_right (by norm_num) hηt
    generalize (2 : ℝ) ^ (-53 : ℤ) = e53 at *
    generalize (2 : ℝ) ^ (-50 : ℤ) = e50 at *
    generalize (2 : ℝ) ^ (-48 : ℤ) = e48 at *
    nlinarith

theorem two_1073 : (2 : ℝ) ^ (-1073 : ℤ) = 4 * (2 : ℝ) ^ (-1075 : ℤ) := by
  rw [show (-1073 : ℤ) = 2 + -1075 by norm_num, zpow_add₀ two_ne_zero]; norm_num

/-- **C182** `inertia_n_step_point` in double precision: each coordinate is within `2 ^ -47` of the size of the start and of the
distance travelled until the ball stops, of the position after `n` steps. -/
theorem C182_point (hm : AccuratePow m) (pos vel : Vec (FP double)) (decay : FP double) (hd : IsDouble decay.val) (h0 : 0 ≤ decay.val)
    (h1 : decay.val < 1) (n : ℕ) : ∃ t, inertiaNStepPoint pos vel n decay = .ok t ∧
      |t.x.val - ((SoccerMath.Spec.inertiaStep decay.val)^[n] (pos.fpt, vel.fpt)).1.1| ≤
        (2 : ℝ) ^ (-47 : ℤ) * (|pos.x.val| + |vel.x.val| / (1 - decay.val)) + (2 : ℝ) ^ (-1073 : ℤ) ∧
      |t.y.val - ((SoccerMath.Spec.inertiaStep decay.val)^[n] (pos.fpt, vel.fpt)).1.2| ≤
        (2 : ℝ) ^ (-47 : ℤ) * (|pos.y.val| + |vel.y.val| / (1 - decay.val)) + (2 : ℝ) ^ (-1073 : ℤ) := by
  have hδ : 0 < 1 - decay.val := by linarith
  obtain ⟨b1, b2, b3, b4⟩ := steps_bounds h0 h1 n
  obtain ⟨t, e, tx, ty⟩ := C182_travel hm vel decay hd h0 h1 n
  have hit := inertia_iter decay.val h1.ne pos.fpt vel.fpt n
  have hS : steps decay.val n = (1 - decay.val ^ n) / (1 - decay.val) := by
    rw [eq_div_iff hδ.ne', mul_comm, steps_mul]
  have hB : ∀ v : ℝ, |v * steps decay.val n| ≤ |v| / (1 - decay.val) := by
    intro v
    rw [abs_mul, abs_of_nonneg b3, div_eq_mul_one_div]
    exact mul_le_mul_of_nonneg_left b4 (abs_nonneg v)
  rw [hit, two_1073]
  refine ⟨(Vec.ofXY pos.x pos.y).add t, ?_, ?_, ?_⟩
  · simp only [inertiaNStepPoint, e, bind, Except.bind, pure, Except.pure]
  · change |rne (pos.x.val + t.x.val) - _| ≤ _
    have := sum_rounded (hB _) (by positivity) tx (rne_error_mixed (pos.x.val + t.x.val))
    simpa [Vec.fpt, hS, mul_comm] using this
  · change |rne (pos.y.val + t.y.val) - _| ≤ _
    have := sum_rounded (hB _) (by positivity) ty (rne_error_mixed (pos.y.val + t.y.val))
    simpa [Vec.fpt, hS, mul_comm] using this

/-- **C182** `inertia_final_travel` and `inertia_final_point`, the limits for `n` to infinity, in double precision. -/
theorem C182_final (pos vel : Vec (FP double)) (decay : FP double) (hd : IsDouble decay.val) (h1 : decay.val < 1) :
    (∃ t, inertiaFinalTravel vel decay = .ok t ∧
      |t.x.val - vel.x.val / (1 - decay.val)| ≤ (2 : ℝ) ^ (-51 : ℤ) * (|vel.x.val| / (1 - decay.val)) + (2 : ℝ) ^ (-1075 : ℤ) ∧
      |t.y.val - vel.y.val / (1 - decay.val)| ≤ (2 : ℝ) ^ (-51 : ℤ) * (|vel.y.val| / (1 - decay.val)) + (2 : ℝ) ^ (-1075 : ℤ)) ∧
    ∃ t, inertiaFinalPoint pos vel decay = .ok t ∧
      |t.x.val - (pos.x.val + vel.x.val / (1 - decay.val))| ≤
        (2 : ℝ) ^ (-47 : ℤ) * (|pos.x.val| + |vel.x.val| / (1 - decay.val)) + (2 : ℝ) ^ (-1073 : ℤ) ∧
      |t.y.val - (pos.y.val + vel.y.val / (1 - decay.val))| ≤
        (2 : ℝ) ^ (-47 : ℤ) * (|pos.y.val| + |vel.y.val| / (1 - decay.val)) + (2 : ℝ) ^ (-1073 : ℤ) := by
  have hδ : 0 < 1 - decay.val := by linarith
  have one : (num 1 : FP double).val = 1 := (double.int 1 (by norm_num)).trans (by norm_num)
  have hD : |(num 1 - decay).val - (1 - decay.val)| ≤ (2 : ℝ) ^ (-53 : ℤ) * (1 - decay.val) := by
    have := fp_sum_grid isDouble_one hd.neg
    rw [← sub_eq_add_neg, abs_of_pos hδ] at this
    rw [FP.sub_val, one]; exact this
  obtain ⟨d0, qx⟩ := quot_rounded hδ hD (rne_error_mixed (vel.x.val / (num 1 - decay).val))
  obtain ⟨_, qy⟩ := quot_rounded hδ hD (rne_error_mixed (vel.y.val / (num 1 - decay).val))
  have ht : inertiaFinalTravel vel decay = .ok (Vec.ofXY ⟨rne (vel.x.val / (num 1 - decay).val)⟩ ⟨rne (vel.y.val / (num 1 - decay).val)⟩) := by
    simp only [inertiaFinalTravel, Vec.truediv]
    rw [show (Vec.ofXY vel.x vel.y).x = vel.x from rfl, show (Vec.ofXY vel.x vel.y).y = vel.y from rfl,
      show pyDiv vel.x (num 1 - decay) = .ok ⟨rne (vel.x.val / (num 1 - decay).val)⟩ from fp_pyDiv _ d0.ne',
      show pyDiv vel.y (num 1 - decay) = .ok ⟨rne (vel.y.val / (num 1 - decay).val)⟩ from fp_pyDiv _ d0.ne']
    rfl
  have weak : ∀ {t v : ℝ}, |t - v / (1 - decay.val)| ≤ (2 : ℝ) ^ (-51 : ℤ) * (|v| / (1 - decay.val)) + (2 : ℝ) ^ (-1075 : ℤ) →
      |t - v / (1 - decay.val)| ≤ (2 : ℝ) ^ (-48 : ℤ) * (|v| / (1 - decay.val)) + (2 : ℝ) ^ (-1075 : ℤ) := by
    intro t v h
    refine h.trans (add_le_add_left (mul_le_mul_of_nonneg_right ?_ (div_nonneg (abs_nonneg v) hδ.le)) _)
    exact zpow_le_zpow_right₀ one_le_two (by norm_num)
  have hB : ∀ v : ℝ, |v / (1 - decay.val)| ≤ |v| / (1 - decay.val) := fun v => by rw [abs_div, abs_of_pos hδ]
  refine ⟨⟨_, ht, qx, qy⟩, (Vec.ofXY pos.x pos.y).add _, by simp only [inertiaFinalPoint, ht, bind, Except.bind, pure, Except.pure]; rfl, ?_, ?_⟩
  · rw [two_1073]
    exact sum_rounded (hB _) (by positivity) (weak qx) (rne_error_mixed _)
  · rw [two_1073]
    exact sum_rounded (hB _) (by positivity) (weak qy) (rne_error_mixed _)

/-- **C182** `inertia_final_distance` in double precision. -/
theorem C182_final_distance (speed decay : FP double) (hd : IsDouble decay.val) (h1 : decay.val < 1) :
    ∃ t, inertiaFinalDistance speed decay = .ok t ∧
      |t.val - speed.val / (1 - decay.val)| ≤ (2 : ℝ) ^ (-51 : ℤ) * (|speed.val| / (1 - decay.val)) + (2 : ℝ) ^ (-1075 : ℤ) := by
  have hδ : 0 < 1 - decay.val := by linarith
  have one : (num 1 : FP double).val = 1 := (double.int 1 (by norm_num)).trans (by norm_num)
  have hD : |(num 1 - decay).val - (1 - decay.val)| ≤ (2 : ℝ) ^ (-53 : ℤ) * (1 - decay.val) := by
    have := fp_sum_grid isDouble_one hd.neg
    rw [← sub_eq_add_neg, abs_of_pos hδ] at this
    rw [FP.sub_val, one]; exact this
  obtain ⟨d0, q⟩ := quot_rounded hδ hD (rne_error_mixed (speed.val / (num 1 - decay).val))
  exact ⟨⟨rne (speed.val / (num 1 - decay).val)⟩, fp_pyDiv _ d0.ne', q⟩

end

/-! ## The same by simulation -/

/-- One step of the simulation in double precision on one axis: `pos += vel; vel *= decay`. -/
noncomputable def Spec.fpStep (decay : FP double) (s : FP double × FP double) : FP double × FP double := (s.1 + s.2, s.2 * decay)

theorem fpStep_near (decay p v : FP double) (h0 : 0 ≤ decay.val) (h1 : decay.val < 1) (hv : IsDouble v.val) (n : ℕ) (hn : n ≤ 2 ^ 49) :
    |((fpStep decay)^[n] (p, v)).1.val - (p.val + v.val * steps decay.val n)| ≤
      n * ((2 : ℝ) ^ (-51 : ℤ) * (|p.val| + |v.val| / (1 - decay.val)) + (2 : ℝ) ^ (-1073 : ℤ) / (1 - decay.val)) := by
  have hδ : 0 < 1 - decay.val := by linarith
  have e51 : (2 : ℝ) ^ (-51 : ℤ) = 4 * (2 : ℝ) ^ (-53 : ℤ) := by norm_num
  have hu : (2 : ℝ) ^ 49 * (2 : ℝ) ^ (-53 : ℤ) = 1 / 16 := by norm_num
  have u0 : (0 : ℝ) < (2 : ℝ) ^ (-53 : ℤ) := by positivity
  have u1 : (2 : ℝ) ^ (-53 : ℤ) ≤ 1 / 100 := by norm_num
  have η0 : (0 : ℝ) < (2 : ℝ) ^ (-1075 : ℤ) := by positivity
  have mix := rne_error_mixed
  rw [e51, two_1073]
  generalize (2 : ℝ) ^ (-53 : ℤ) = u at *
  generalize (2 : ℝ) ^ (-1075 : ℤ) = η at *
  have hi : 1 ≤ 1 / (1 - decay.val) := by rw [le_div_iff₀ hδ]; linarith
  have habs := abs_nonneg v.val
  have hpa := abs_nonneg p.val
  rw [div_eq_mul_one_div |v.val|, div_eq_mul_one_div (4 * η)]
  have hbd : ∀ k, |v.val * steps decay.val k| ≤ |v.val| * (1 / (1 - decay.val)) := by
    intro k
    obtain ⟨_, _, b3, b4⟩ := steps_bounds h0 h1 k
    rw [abs_mul, abs_of_nonneg b3]; exact mul_le_mul_of_nonneg_left b4 habs
  have ht : (1 - decay.val) * (1 / (1 - decay.val)) = 1 := by field_simp
  generalize 1 / (1 - decay.val) = t at *
  have ht0 : 0 ≤ t := by linarith
  have hvt := mul_nonneg habs ht0
  have hηt := mul_nonneg η0.le ht0
  have key : ∀ k : ℕ, (k : ℝ) ≤ (2 : ℝ) ^ 49 →
      |((fpStep decay)^[k] (p, v)).1.val - (p.val + v.val * steps decay.val k)| ≤ k * (4 * u * (|p.val| + |v.val| * t) + 4 * η * t) ∧
      |((fpStep decay)^[k] (p, v)).2.val - v.val * decay.val ^ k| ≤ (u * |v.val| + η) * t ∧
      |((fpStep decay)^[k] (p, v)).2.val| ≤ |v.val| ∧ IsDouble ((fpStep decay)^[k] (p, v)).2.val := by
    intro k
    induction k with
    | zero =>
      intro _
      have c2 : 0 ≤ (u * |v.val| + η) * t := by positivity
      simpa [steps] using ⟨c2, hv⟩
    | succ k ih =>
      intro hk
      have hk' : (k : ℝ) + 1 ≤ (2 : ℝ) ^ 49 := by exact_mod_cast hk
      obtain ⟨i1, i2, i3, i4⟩ := ih (by linarith)
      rw [Function.iterate_succ_apply']
      have hst : steps decay.val (k + 1) = steps decay.val k + decay.val ^ k := Finset.sum_range_succ _ _
      have hB := hbd k
      obtain ⟨_, _, b3, b4⟩ := steps_bounds h0 h1 k
      generalize (fpStep decay)^[k] (p, v) = s at *
      have hpk : 0 ≤ decay.val ^ k := by positivity
      have hpk1 : decay.val ^ k ≤ 1 := pow_le_one₀ h0 h1.le
      refine ⟨?_, ?_, ?_, isDouble_rne _⟩
      · change |rne (s.1.val + s.2.val) - _| ≤ _
        have r := mix (s.1.val + s.2.val)
        have eq : rne (s.1.val + s.2.val) - (p.val + v.val * steps decay.val (k + 1)) = (rne (s.1.val + s.2.val) - (s.1.val + s.2.val)) +
            (s.1.val - (p.val + v.val * steps decay.val k)) + (s.2.val - v.val * decay.val ^ k) := by rw [hst]; ring
        rw [eq]
        have q1 := abs_add_three (rne (s.1.val + s.2.val) - (s.1.val + s.2.val)) (s.1.val - (p.val + v.val * steps decay.val k))
          (s.2.val - v.val * decay.val ^ k)
        have q2 := abs_add_le s.1.val s.2.val
        have q3 := abs_sub_abs_le_abs_sub s.1.val (p.val + v.val * steps decay.val k)
        have q4 := abs_add_le p.val (v.val * steps decay.val k)
        have vle : |v.val| ≤ |v.val| * t := le_mul_of_one_le_right habs hi
        have ηle : η ≤ η * t := le_mul_of_one_le_right η0.le hi
        set C := 4 * u * (|p.val| + |v.val| * t) + 4 * η * t with hC
        have hC0 : 0 ≤ C := by positivity
        have hkC : u * (k * C) ≤ C / 16 := by
          have : u * (k : ℝ) ≤ 1 / 16 := by
            rw [← hu, mul_comm]; exact mul_le_mul_of_nonneg_right (by linarith) u0.le
          have := mul_le_mul_of_nonneg_right this hC0
          nlinarith
        have w1 : |s.1.val + s.2.val| ≤ |p.val| + 2 * (|v.val| * t) + k * C := by linarith
        have w2 := mul_le_mul_of_nonneg_left w1 u0.le
        have w3 : (u * |v.val| + η) * t = u * (|v.val| * t) + η * t := by ring
        rw [w3] at i2
        push_cast
        rw [mul_add, mul_add] at w2
        have w4 : C = 4 * (u * |p.val|) + 4 * (u * (|v.val| * t)) + 4 * (η * t) := by rw [hC]; ring
        have w5 : u * (2 * (|v.val| * t)) = 2 * (u * (|v.val| * t)) := by ring
        rw [w5] at w2
        have x1 := mul_nonneg u0.le hpa
        have x2 := mul_nonneg u0.le hvt
        have x3 : ((k : ℝ) + 1) * C = k * C + C := by ring
        rw [x3]
        linarith
      · change |rne (s.2.val * decay.val) - _| ≤ _
        have r := mix (s.2.val * decay.val)
        have eq : rne (s.2.val * decay.val) - v.val * decay.val ^ (k + 1) = (rne (s.2.val * decay.val) - s.2.val * decay.val) +
            decay.val * (s.2.val - v.val * decay.val ^ k) := by rw [pow_succ]; ring
        rw [eq]
        have q1 := abs_add_le (rne (s.2.val * decay.val) - s.2.val * decay.val) (decay.val * (s.2.val - v.val * decay.val ^ k))
        rw [abs_mul, abs_of_nonneg h0] at q1
        rw [abs_mul, abs_of_nonneg h0] at r
        have q2 := mul_le_mul_of_nonneg_left i2 h0
        have q3 : |s.2.val| * decay.val ≤ |v.val| := (mul_le_of_le_one_right (abs_nonneg _) h1.le).trans i3
        have q4 := mul_le_mul_of_nonneg_left q3 u0.le
        have q5 : decay.val * ((u * |v.val| + η) * t) = (u * |v.val| + η) * t - (u * |v.val| + η) := by
          linear_combination (u * |v.val| + η) * (-ht)
        rw [q5] at q2
        linarith
      · change |rne (s.2.val * decay.val)| ≤ _
        refine le_trans ?_ i3
        have a1 : |s.2.val * decay.val| ≤ |s.2.val| := by
          rw [abs_mul, abs_of_nonneg h0]; exact mul_le_of_le_one_right (abs_nonneg _) h1.le
        have ra : rne |s.2.val| = |s.2.val| := by
          rcases abs_choice s.2.val with e | e <;> rw [e]
          · exact rne_of_isDouble i4
          · exact rne_of_isDouble i4.neg
        obtain ⟨l, r⟩ := abs_le.mp a1
        have ml := rne_mono l
        have mr := rne_mono r
        rw [rne_neg, ra] at ml
        rw [ra] at mr
        exact abs_le.mpr ⟨ml, mr⟩
  have := (key n (by exact_mod_cast hn)).1
  refine this.trans (le_of_eq ?_)
  ring

theorem combine_near {a b x B e f g h D : ℝ} {n : ℕ} (h1 : |a - x| ≤ e * B + g) (h2 : |b - x| ≤ n * (f * B + h)) (hg : g ≤ D)
    (hh : h = D) : |a - b| ≤ (e + n * f) * B + (n + 1) * D := by
  have := abs_sub_le a x b
  rw [abs_sub_comm x b] at this
  subst hh
  nlinarith

/-- **C182** The formula of `inertia_n_step_point` and the simulation of `n` steps, both in double precision, agree. -/
theorem C182_simulation [m : PyMath (FP double)] (hm : AccuratePow m) (pos vel : Vec (FP double)) (decay : FP double)
    (hd : IsDouble decay.val) (hvx : IsDouble vel.x.val) (hvy : IsDouble vel.y.val) (h0 : 0 ≤ decay.val) (h1 : decay.val < 1) (n : ℕ)
    (hn : n ≤ 2 ^ 49) : ∃ t, inertiaNStepPoint pos vel n decay = .ok t ∧
      |t.x.val - ((fpStep decay)^[n] (pos.x, vel.x)).1.val| ≤
        ((2 : ℝ) ^ (-47 : ℤ) + n * (2 : ℝ) ^ (-51 : ℤ)) * (|pos.x.val| + |vel.x.val| / (1 - decay.val)) +
          (n + 1) * ((2 : ℝ) ^ (-1073 : ℤ) / (1 - decay.val)) ∧
      |t.y.val - ((fpStep decay)^[n] (pos.y, vel.y)).1.val| ≤
        ((2 : ℝ) ^ (-47 : ℤ) + n * (2 : ℝ) ^ (-51 : ℤ)) * (|pos.y.val| + |vel.y.val| / (1 - decay.val)) +
          (n + 1) * ((2 : ℝ) ^ (-1073 : ℤ) / (1 - decay.val)) := by
  have hδ : 0 < 1 - decay.val := by linarith
  obtain ⟨t, e, tx, ty⟩ := C182_point hm pos vel decay hd h0 h1 n
  have hS : steps decay.val n = (1 - decay.val ^ n) / (1 - decay.val) := by
    rw [eq_div_iff hδ.ne', mul_comm, steps_mul]
  have hg : (2 : ℝ) ^ (-1073 : ℤ) ≤ (2 : ℝ) ^ (-1073 : ℤ) / (1 - decay.val) := by
    rw [le_div_iff₀ hδ]
    exact mul_le_of_le_one_right (by positivity) (by linarith)
  have ex : ((SoccerMath.Spec.inertiaStep decay.val)^[n] (pos.fpt, vel.fpt)).1.1 = pos.x.val + vel.x.val * steps decay.val n := by
    rw [inertia_iter decay.val h1.ne, hS]; simp [Vec.fpt, mul_comm]
  have ey : ((SoccerMath.Spec.inertiaStep decay.val)^[n] (pos.fpt, vel.fpt)).1.2 = pos.y.val + vel.y.val * steps decay.val n := by
    rw [inertia_iter decay.val h1.ne, hS]; simp [Vec.fpt, mul_comm]
  rw [ex] at tx
  rw [ey] at ty
  exact ⟨t, e, combine_near tx (fpStep_near decay pos.x vel.x h0 h1 hvx n hn) hg rfl,
    combine_near ty (fpStep_near decay pos.y vel.y h0 h1 hvy n hn) hg rfl⟩

/-- The hypotheses are met: a ball with speed 3 and decay 15/16 for 40 steps. -/
example : ∃ t, inertiaNStepTravel (Vec.ofXY ⟨3⟩ ⟨0⟩ : Vec (FP double)) 40 ⟨15 / 16⟩ = .ok t ∧
    |t.x.val - 3 * steps (15 / 16) 40| ≤ (2 : ℝ) ^ (-48 : ℤ) * 48 + (2 : ℝ) ^ (-1075 : ℤ) := by
  obtain ⟨t, e, h, _⟩ := C182_travel accuratePow_double (Vec.ofXY ⟨3⟩ ⟨0⟩) ⟨15 / 16⟩ ⟨15, -4, by norm_num, by norm_num, by norm_num⟩
    (by norm_num) (by norm_num) 40
  refine ⟨t, e, ?_⟩
  have : |(3 : ℝ)| / (1 - 15 / 16) = 48 := by rw [abs_of_pos] <;> norm_num
  rw [← this]
  exact h

end PyrusGeom
