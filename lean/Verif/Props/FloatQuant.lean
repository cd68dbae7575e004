import Mathlib.Analysis.Complex.ExponentialBounds
import Verif.Props.FloatGeom
import Verif.Props.FloatRange
import Verif.Props.FloatMono

/-!
# C196: quantised distances in double precision

For every mathematical library whose `log` and `exp` have an error of at most one unit in the last place.
-/

namespace PyrusGeom
open Spec SoccerMath

/-- `math.exp(x)` is within one unit in the last place. -/
def Spec.AccurateExp (m : PyMath (FP double)) : Prop := ∀ x : FP double, |(m.exp x).val - Real.exp x.val| ≤ ulp (Real.exp x.val)

theorem accurateExp_double : AccurateExp (inferInstance : PyMath (FP double)) := by
  intro x
  exact (rne_error (Real.exp x.val)).trans (by have := ulp_pos (Real.exp x.val); linarith)

/-- `int(x)` drops the fraction. -/
def Spec.ExactTrunc (m : PyMath (FP double)) : Prop := ∀ x : FP double, m.trunc x = PyMath.trunc x.val

theorem exactTrunc_double : ExactTrunc (inferInstance : PyMath (FP double)) := fun _ => rfl

/-- `r_int`, `quantize` and its inverses with the exact library. -/
noncomputable abbrev rIntD (x : FP double) : ℤ := rInt x
noncomputable abbrev quantizeD (v q : FP double) : Except PyErr (FP double) := quantize v q
noncomputable abbrev unquantizeMinD (v q : FP double) : Except PyErr (FP double) := unquantizeMin v q
noncomputable abbrev unquantizeMaxD (v q : FP double) : Except PyErr (FP double) := unquantizeMax v q

theorem unquantizeMinD_eq (d : ℝ) {q : ℝ} (hq : q ≠ 0) : unquantizeMinD ⟨d⟩ ⟨q⟩ = .ok ⟨rne (rne (rne (rIntD ⟨rne (d / q)⟩) - 1 / 2) * q)⟩ := fp_unquantizeMin d hq
theorem unquantizeMaxD_eq (d : ℝ) {q : ℝ} (hq : q ≠ 0) : unquantizeMaxD ⟨d⟩ ⟨q⟩ = .ok ⟨rne (rne (rne (rIntD ⟨rne (d / q)⟩) + 1 / 2) * q)⟩ := fp_unquantizeMax d hq

/-- Rounding to a relative error in the numeral form. -/
theorem rne_rel_num {x : ℝ} (h : (2 : ℝ) ^ (-1022 : ℤ) ≤ |x|) : |rne x - x| ≤ 1 / 9007199254740992 * |x| := by
  have e53 : (2 : ℝ) ^ (-53 : ℤ) = 1 / 9007199254740992 := by norm_num
  rw [← e53]; exact rne_rel_error h

theorem small_le {x : ℝ} (h : 1 / 10000000000000 ≤ x) : (2 : ℝ) ^ (-1022 : ℤ) ≤ x := by
  refine le_trans (zpow_le_zpow_right₀ (n := -60) (by norm_num) (by norm_num)) (le_trans ?_ h)
  norm_num

theorem SERVER_EPS_val : (SERVER_EPS : FP double).val = rne (1 / 10000000000) := by
  change rne (rne ((1 : ℕ) : ℝ) / rne ((10000000000 : ℕ) : ℝ)) = _
  rw [rne_of_isDouble (isDouble_nat (n := 1) (by norm_num)), rne_of_isDouble (isDouble_nat (n := 10000000000) (by norm_num))]
  norm_num

theorem SERVER_EPS_near : |(SERVER_EPS : FP double).val - 1 / 10000000000| ≤ 1 / 9007199254740992 * (1 / 10000000000) := by
  rw [SERVER_EPS_val]
  have := rne_rel_num (x := 1 / 10000000000) (by rw [abs_of_pos (by norm_num)]; exact small_le (by norm_num))
  rwa [abs_of_pos (by norm_num : (0 : ℝ) < 1 / 10000000000)] at this

theorem tenth_val : ((num 1 : FP double) / num 10).val = rne (1 / 10) := by
  change rne (rne ((1 : ℕ) : ℝ) / rne ((10 : ℕ) : ℝ)) = _
  rw [rne_of_isDouble (isDouble_nat (n := 1) (by norm_num)), rne_of_isDouble (isDouble_nat (n := 10) (by norm_num))]
  norm_num

theorem tenth_near : |rne (1 / 10) - 1 / 10| ≤ 1 / 9007199254740992 * (1 / 10) := by
  have := rne_rel_num (x := 1 / 10) (by rw [abs_of_pos (by norm_num)]; exact small_le (by norm_num))
  rwa [abs_of_pos (by norm_num : (0 : ℝ) < 1 / 10)] at this

/-- The logarithm of a computed distance. -/
theorem log_range {x : ℝ} (h1 : 1 / 17179869184 ≤ x) (h2 : x ≤ 1125899906842624) : |Real.log x| ≤ 42 := by
  have hx : 0 < x := lt_of_lt_of_le (by norm_num) h1
  have l2 := Real.log_two_lt_d9
  have a1 := Real.log_le_log hx h2
  have a2 := Real.log_le_log (by norm_num) h1
  rw [show (1125899906842624 : ℝ) = 2 ^ 50 by norm_num, Real.log_pow] at a1
  rw [show (1 / 17179869184 : ℝ) = (2 ^ 34)⁻¹ by norm_num, Real.log_inv, Real.log_pow] at a2
  push_cast at a1 a2
  rw [abs_le]; constructor <;> linarith

section
variable [m : PyMath (FP double)]

theorem rInt_lib (ht : ExactTrunc m) (x : FP double) : rInt x = rIntD x := by
  unfold rIntD rInt
  rw [ht]; rfl

theorem quantize_lib (ht : ExactTrunc m) (v q : FP double) : quantize v q = quantizeD v q := by
  unfold quantizeD quantize
  simp only [rInt_lib ht]

theorem unquantizeMin_lib (ht : ExactTrunc m) (v q : FP double) : unquantizeMin v q = unquantizeMinD v q := by
  unfold unquantizeMinD unquantizeMin
  simp only [rInt_lib ht]

theorem unquantizeMax_lib (ht : ExactTrunc m) (v q : FP double) : unquantizeMax v q = unquantizeMaxD v q := by
  unfold unquantizeMaxD unquantizeMax
  simp only [rInt_lib ht]

/-- The value of `log` on a number that is off by a relative error. -/
theorem log_step (hl : AccurateLog m) {x : FP double} {y b : ℝ} (hy1 : 1 / 17179869184 ≤ y) (hy2 : y ≤ 1125899906842624) (hb : b ≤ 1 / 2)
    (h : |x.val - y| ≤ b * y) : |(m.log x).val - Real.log y| ≤ 2 * b + 88 / 9007199254740992 := by
  have hy : 0 < y := lt_of_lt_of_le (by norm_num) hy1
  obtain ⟨h1, h2⟩ := abs_le.mp h
  have hx2 : y / 2 ≤ x.val := by nlinarith
  have hx : 0 < x.val := by linarith
  have a1 := log_near hy hx2 h
  rw [show 2 * (b * y) / y = 2 * b by field_simp] at a1
  have a2 := (hl x hx).trans (ulp_log_bound _)
  have a3 := log_range hy1 hy2
  have a4 := abs_add_le (Real.log x.val - Real.log y) (Real.log y)
  rw [sub_add_cancel] at a4
  have a5 := abs_add_le ((m.log x).val - Real.log x.val) (Real.log x.val - Real.log y)
  rw [sub_add_sub_cancel] at a5
  linarith

/-- The logarithm of a computed exponential. -/
theorem exp_step (he : AccurateExp m) {x : FP double} (hx : -36 ≤ x.val) : 0 < (m.exp x).val ∧ |Real.log (m.exp x).val - x.val| ≤ 4 / 9007199254740992 := by
  have hp := Real.exp_pos x.val
  have hb : (2 : ℝ) ^ (-53 : ℤ) ≤ |Real.exp x.val| := by
    rw [abs_of_pos hp]
    refine le_trans ?_ (Real.exp_le_exp.mpr hx)
    rw [show (2 : ℝ) ^ (-53 : ℤ) = (2 ^ 53)⁻¹ by norm_num, Real.exp_neg]
    refine inv_anti₀ (Real.exp_pos _) ?_
    have e1 := Real.exp_one_lt_d9
    have : Real.exp 36 = Real.exp 1 ^ 36 := by rw [← Real.exp_nat_mul]; norm_num
    rw [this]
    calc Real.exp 1 ^ 36 ≤ (2.7182818286 : ℝ) ^ 36 := pow_le_pow_left₀ (Real.exp_pos 1).le e1.le _
      _ ≤ 2 ^ 53 := by norm_num
  have h := (he x).trans (ulp_rel_bound hb)
  rw [abs_of_pos hp] at h
  obtain ⟨h1, h2⟩ := abs_le.mp h
  have h3 : Real.exp x.val / 2 ≤ (m.exp x).val := by linarith
  refine ⟨by linarith, ?_⟩
  have := log_near hp h3 h
  rwa [Real.log_exp, show 2 * (2 / 9007199254740992 * Real.exp x.val) / Real.exp x.val = 4 / 9007199254740992 by field_simp; norm_num] at this

/-- The steps of `quantize_dist`: `l` the logarithm, `k` the grid point of the logarithm, `E` the exponential, `j` the grid point of the result. -/
theorem quant_steps (hl : AccurateLog m) (he : AccurateExp m) (ht : ExactTrunc m) (d q : FP double) (hd0 : 0 ≤ d.val) (hd : d.val ≤ 1099511627776)
    (hq : 1 / 1048576 ≤ q.val) (hq1 : q.val ≤ 1) : ∃ (l E : FP double) (k j : ℤ),
      |l.val - Real.log (d.val + 1 / 10000000000)| ≤ 94 / 9007199254740992 ∧
      |k| ≤ 2 ^ 50 ∧ |k * q.val - l.val| ≤ q.val / 2 + 43 / 9007199254740992 ∧ |k * q.val| ≤ 44 ∧
      0 < E.val ∧ |Real.log E.val - k * q.val| ≤ 48 / 9007199254740992 ∧
      |j| ≤ 2 ^ 50 ∧ quantizeDist d q = .ok ⟨rne (j * rne (1 / 10))⟩ ∧ rIntD ⟨rne (rne (j * rne (1 / 10)) / rne (1 / 10))⟩ = j ∧
      |j * rne (1 / 10) - E.val| ≤ rne (1 / 10) / 2 + 1 / 9007199254740992 * E.val ∧
      |rne (j * rne (1 / 10)) - j * rne (1 / 10)| ≤ 1 / 9007199254740992 * |j * rne (1 / 10)| := by
  have e53 : (2 : ℝ) ^ (-53 : ℤ) = 1 / 9007199254740992 := by norm_num
  obtain ⟨c1, c2⟩ := abs_le.mp SERVER_EPS_near
  obtain ⟨t1, t2⟩ := abs_le.mp tenth_near
  -- the sum
  have hsum : |(d + SERVER_EPS).val - (d.val + 1 / 10000000000)| ≤ 3 / 9007199254740992 * (d.val + 1 / 10000000000) := by
    change |rne (d.val + (SERVER_EPS : FP double).val) - _| ≤ _
    generalize (SERVER_EPS : FP double).val = c at *
    have hp : 0 < d.val + c := by linarith
    have := rne_rel_num (x := d.val + c) (by rw [abs_of_pos hp]; exact small_le (by linarith))
    rw [abs_of_pos hp] at this
    obtain ⟨u1, u2⟩ := abs_le.mp this
    rw [abs_le]; constructor <;> linarith
  have l1 : mathLog (d + SERVER_EPS) = .ok (m.log (d + SERVER_EPS)) := by
    have hp : 0 < (d + SERVER_EPS).val := by
      obtain ⟨u1, u2⟩ := abs_le.mp hsum
      linarith
    have : (num 0 : FP double) < d + SERVER_EPS := by
      change rne ((0 : ℕ) : ℝ) < _
      rw [Nat.cast_zero, rne_zero]; exact hp
    unfold mathLog
    rw [if_pos this]
  have l2 := log_step hl (y := d.val + 1 / 10000000000) (by linarith) (by linarith) (by norm_num) hsum
  have l3 := log_range (x := d.val + 1 / 10000000000) (by linarith) (by linarith)
  have l4 : |(m.log (d + SERVER_EPS)).val| ≤ 43 := by
    have := abs_add_le ((m.log (d + SERVER_EPS)).val - Real.log (d.val + 1 / 10000000000)) (Real.log (d.val + 1 / 10000000000))
    rw [sub_add_cancel] at this
    linarith
  have l5 : -31 ≤ Real.log (d.val + 1 / 10000000000) := by
    have a2 := Real.log_le_log (show (0 : ℝ) < 1 / 17179869184 by norm_num) (show 1 / 17179869184 ≤ d.val + 1 / 10000000000 by linarith)
    rw [show (1 / 17179869184 : ℝ) = (2 ^ 34)⁻¹ by norm_num, Real.log_inv, Real.log_pow] at a2
    push_cast at a2
    have := Real.log_two_lt_d9
    linarith
  have l6 : Real.log (d.val + 1 / 10000000000) ≤ 285 / 10 := by
    have a2 := Real.log_le_log (show 0 < d.val + 1 / 10000000000 by linarith) (show d.val + 1 / 10000000000 ≤ 2199023255552 by linarith)
    rw [show (2199023255552 : ℝ) = 2 ^ 41 by norm_num, Real.log_pow] at a2
    push_cast at a2
    have := Real.log_two_lt_d9
    linarith
  generalize m.log (d + SERVER_EPS) = l at *
  have hq0 : 0 < q.val := by linarith
  obtain ⟨k, k1, k2, k3, k4, k5⟩ := fp_quantize_spec l.val q.val (small_le (by linarith)) (by
    rw [abs_div, abs_of_pos hq0, div_le_iff₀ hq0]
    have : (2 : ℝ) ^ 50 * (1 / 1048576) ≤ 2 ^ 50 * q.val := by linarith
    have : (43 : ℝ) ≤ 2 ^ 50 * (1 / 1048576) := by norm_num
    linarith)
  rw [e53] at k4 k5
  have k4' : |k * q.val - l.val| ≤ q.val / 2 + 43 / 9007199254740992 := by linarith
  have k6 : |k * q.val| ≤ 44 := by
    have := abs_add_le (k * q.val - l.val) l.val
    rw [sub_add_cancel] at this
    linarith
  obtain ⟨r1, r2⟩ := abs_le.mp k4'
  obtain ⟨r3, r4⟩ := abs_le.mp k5
  obtain ⟨r5, r6⟩ := abs_le.mp l2
  have k7 : |k * q.val| * (1 / 9007199254740992) ≤ 44 / 9007199254740992 := by linarith
  obtain ⟨p1, p2⟩ := exp_step he (x := ⟨rne (k * q.val)⟩) (by change -36 ≤ rne _; linarith)
  have p3 : |Real.log (m.exp ⟨rne (k * q.val)⟩).val - k * q.val| ≤ 48 / 9007199254740992 := by
    have := abs_add_le (Real.log (m.exp ⟨rne (k * q.val)⟩).val - rne (k * q.val)) (rne (k * q.val) - k * q.val)
    rw [sub_add_sub_cancel] at this
    change |Real.log (m.exp ⟨rne (k * q.val)⟩).val - rne (k * q.val)| ≤ _ at p2
    linarith
  obtain ⟨E, hE⟩ : ∃ E, E = m.exp ⟨rne (k * q.val)⟩ := ⟨_, rfl⟩
  rw [← hE] at p1 p3
  have hEb : E.val ≤ 2 ^ 43 := by
    rw [← Real.log_le_log_iff p1 (by positivity), Real.log_pow]
    push_cast
    have := Real.log_two_gt_d9
    obtain ⟨r7, r8⟩ := abs_le.mp p3
    linarith
  have ht0 : 0 < rne (1 / 10) := by linarith
  obtain ⟨j, j1, j2, j3, j4, j5⟩ := fp_quantize_spec E.val (rne (1 / 10)) (small_le (by linarith)) (by
    rw [abs_div, abs_of_pos ht0, abs_of_pos p1, div_le_iff₀ ht0]
    have : (2 : ℝ) ^ 50 * (1 / 20) ≤ 2 ^ 50 * rne (1 / 10) := mul_le_mul_of_nonneg_left (by linarith) (by positivity)
    have : (2 : ℝ) ^ 43 ≤ 2 ^ 50 * (1 / 20) := by norm_num
    linarith)
  rw [e53, abs_of_pos p1] at j4
  rw [e53] at j5
  refine ⟨l, E, k, j, by linarith, k1, k4', k6, p1, p3, j1, ?_, j3, j4, j5⟩
  unfold quantizeDist
  rw [l1]
  have k2' : quantize l q = .ok ⟨rne (k * q.val)⟩ := by rw [quantize_lib ht]; exact k2
  have j2' : quantize E (num 1 / num 10) = .ok ⟨rne (j * rne (1 / 10))⟩ := by
    have : (num 1 / num 10 : FP double) = ⟨rne (1 / 10)⟩ := FP.ext tenth_val
    rw [this, quantize_lib ht]; exact j2
  simp only [bind, Except.bind, k2']
  rw [← hE]; exact j2'

/-- **C196** `quantize_dist`: the result is a multiple of 0.1 and within the two quantization steps of the distance. -/
theorem C196_value (hl : AccurateLog m) (he : AccurateExp m) (ht : ExactTrunc m) (d q : FP double) (hd0 : 0 ≤ d.val) (hd : d.val ≤ (2 : ℝ) ^ 40)
    (hq : (2 : ℝ) ^ (-20 : ℤ) ≤ q.val) (hq1 : q.val ≤ 1) : ∃ (s : FP double) (j : ℕ), quantizeDist d q = .ok s ∧ s.val = rne (j * rne (1 / 10)) ∧
      (d.val + 1 / 10 ^ 10) * Real.exp (-(q.val / 2 + (2 : ℝ) ^ (-44 : ℤ))) - (1 / 20 + (2 : ℝ) ^ (-53 : ℤ)) ≤ s.val ∧
      s.val ≤ (d.val + 1 / 10 ^ 10) * Real.exp (q.val / 2 + (2 : ℝ) ^ (-44 : ℤ)) + (1 / 20 + (2 : ℝ) ^ (-53 : ℤ)) := by
  have e53 : (2 : ℝ) ^ (-53 : ℤ) = 1 / 9007199254740992 := by norm_num
  have e44 : (2 : ℝ) ^ (-44 : ℤ) = 512 / 9007199254740992 := by norm_num
  have e20 : (2 : ℝ) ^ (-20 : ℤ) = 1 / 1048576 := by norm_num
  have e40 : (2 : ℝ) ^ 40 = 1099511627776 := by norm_num
  have e10 : (1 / 10 ^ 10 : ℝ) = 1 / 10000000000 := by norm_num
  rw [e53, e44, e10]
  rw [e20] at hq
  rw [e40] at hd
  clear e53 e44 e20 e40 e10
  obtain ⟨l, E, k, j, h1, -, h2, -, hE, h3, -, h4, -, h5, h6⟩ := quant_steps hl he ht d q hd0 hd hq hq1
  obtain ⟨t1, t2⟩ := abs_le.mp tenth_near
  generalize rne (1 / 10) = t at *
  obtain ⟨a1, a2⟩ := abs_le.mp h1
  obtain ⟨a3, a4⟩ := abs_le.mp h2
  obtain ⟨a5, a6⟩ := abs_le.mp h3
  obtain ⟨a7, a8⟩ := abs_le.mp h5
  have hj0 : 0 ≤ j := by
    by_contra hn
    have : (j : ℝ) ≤ -1 := by exact_mod_cast (show j ≤ -1 by omega)
    nlinarith
  have hjr : (0 : ℝ) ≤ j := by exact_mod_cast hj0
  have hjt : 0 ≤ j * t := mul_nonneg hjr (by linarith)
  rw [abs_of_nonneg hjt] at h6
  obtain ⟨a9, a10⟩ := abs_le.mp h6
  obtain ⟨n, rfl⟩ := Int.eq_ofNat_of_zero_le hj0
  refine ⟨_, n, h4, by push_cast; rfl, ?_, ?_⟩
  · have hx : 0 < d.val + 1 / 10000000000 := by linarith
    have b1 : (d.val + 1 / 10000000000) * Real.exp (-(q.val / 2 + 512 / 9007199254740992)) ≤ E.val * Real.exp (-(6 / 9007199254740992)) := by
      rw [← Real.exp_log hx, ← Real.exp_log hE, ← Real.exp_add, ← Real.exp_add, Real.exp_le_exp]
      linarith
    have b2 : Real.exp (-(6 / 9007199254740992)) ≤ 1 - 3 / 9007199254740992 := by
      have := Real.add_one_le_exp (6 / 9007199254740992 : ℝ)
      rw [Real.exp_neg, inv_le_comm₀ (Real.exp_pos _) (by norm_num)]
      refine le_trans ?_ this
      norm_num
    have b3 := mul_le_mul_of_nonneg_left b2 hE.le
    change _ ≤ rne _
    linarith
  · have hx : 0 < d.val + 1 / 10000000000 := by linarith
    have b1 : E.val * Real.exp (6 / 9007199254740992) ≤ (d.val + 1 / 10000000000) * Real.exp (q.val / 2 + 512 / 9007199254740992) := by
      rw [← Real.exp_log hx, ← Real.exp_log hE, ← Real.exp_add, ← Real.exp_add, Real.exp_le_exp]
      linarith
    have b2 := Real.add_one_le_exp (6 / 9007199254740992 : ℝ)
    have b3 := mul_le_mul_of_nonneg_left b2 hE.le
    change rne _ ≤ _
    linarith

/-- `log` followed by one of the two unquantizations: `z` is the grid point of the logarithm. -/
theorem log_unq (hl : AccurateLog m) (ht : ExactTrunc m) (x q : FP double) (y : ℝ) (hy1 : 1 / 32 ≤ y) (hy2 : y ≤ 1125899906842624)
    (h : |x.val - y| ≤ 1 / 9007199254740992 * y) (hq : 1 / 1048576 ≤ q.val) (hq1 : q.val ≤ 1) :
    ∃ (l : FP double) (z : ℤ), mathLog x = .ok l ∧ unquantizeMin l q = .ok ⟨rne ((z - 1 / 2) * q.val)⟩ ∧ unquantizeMax l q = .ok ⟨rne ((z + 1 / 2) * q.val)⟩ ∧
      |z * q.val - Real.log y| ≤ q.val / 2 + 136 / 9007199254740992 ∧ |z * q.val| ≤ 44 ∧
      (∀ k : ℤ, |k| ≤ 2 ^ 50 → Real.log y ≤ k * q.val + 60 / 9007199254740992 → z ≤ k) ∧
      (∀ k : ℤ, |k| ≤ 2 ^ 50 → k * q.val - 60 / 9007199254740992 ≤ Real.log y → k ≤ z) := by
  have e53 : (2 : ℝ) ^ (-53 : ℤ) = 1 / 9007199254740992 := by norm_num
  have hq0 : 0 < q.val := by linarith
  have hxp : (num 0 : FP double) < x := by
    change rne ((0 : ℕ) : ℝ) < _
    rw [Nat.cast_zero, rne_zero]
    obtain ⟨u1, u2⟩ := abs_le.mp h
    linarith
  have l2 := log_step hl (x := x) (y := y) (by linarith) hy2 (by norm_num) h
  have l3 := log_range (x := y) (by linarith) hy2
  have l1 : mathLog x = .ok (m.log x) := by unfold mathLog; rw [if_pos hxp]
  generalize m.log x = l at *
  obtain ⟨a1, a2⟩ := abs_le.mp l2
  have l4 : |l.val| ≤ 43 := by
    have := abs_add_le (l.val - Real.log y) (Real.log y)
    rw [sub_add_cancel] at this
    linarith
  obtain ⟨r, hr⟩ : ∃ r, r = l.val / q.val := ⟨_, rfl⟩
  have hrq : l.val = r * q.val := by rw [hr]; field_simp
  have hrb : |r| ≤ 2 ^ 27 := by
    rw [hr, abs_div, abs_of_pos hq0, div_le_iff₀ hq0]
    have : (2 : ℝ) ^ 27 * (1 / 1048576) ≤ 2 ^ 27 * q.val := by linarith
    have : (43 : ℝ) ≤ 2 ^ 27 * (1 / 1048576) := by norm_num
    linarith
  have hrb' : |rne r| ≤ ((2 ^ 27 : ℤ) : ℝ) := rne_abs_le_pow (by norm_num) (by push_cast; norm_num at hrb ⊢; exact hrb)
  have hz : rIntD ⟨rne r⟩ = rInt (rne r) := C99_exact_partial _ (isDouble_rne r) (lt_of_le_of_lt hrb' (by push_cast; norm_num))
  have hzb : |rInt (rne r)| ≤ 2 ^ 27 := rInt_abs_le hrb'
  have hn := (C85_nearest (rne r)).1
  have hrr : |rne r - r| ≤ 1 / 9007199254740992 * (|r| + 1) := by
    rw [← e53]
    refine rne_err_le (by linarith) (small_le ?_)
    have := abs_nonneg r
    linarith
  have mono1 : ∀ k : ℤ, |k| ≤ 2 ^ 50 → r ≤ k + 1 / 4 → rInt (rne r) ≤ k := by
    intro k hk h'
    have hkb := abs_le.mp hk
    have h1 := rne_mono h'
    rw [rne_of_isDouble (x := (k : ℝ) + 1 / 4) ⟨4 * k + 1, -2, abs_le.mpr ⟨by omega, by omega⟩, by norm_num, by push_cast; norm_num; ring⟩] at h1
    have h2 := rInt_mono h1
    rwa [rInt_eq_of_near (y := (k : ℝ) + 1 / 4) (k := k) (by rw [add_sub_cancel_left]; norm_num [abs_of_pos])] at h2
  have mono2 : ∀ k : ℤ, |k| ≤ 2 ^ 50 → k - 1 / 4 ≤ r → k ≤ rInt (rne r) := by
    intro k hk h'
    have hkb := abs_le.mp hk
    have h1 := rne_mono h'
    rw [rne_of_isDouble (x := (k : ℝ) - 1 / 4) ⟨4 * k - 1, -2, abs_le.mpr ⟨by omega, by omega⟩, by norm_num, by push_cast; norm_num; ring⟩] at h1
    have h2 := rInt_mono h1
    rwa [rInt_eq_of_near (y := (k : ℝ) - 1 / 4) (k := k) (by rw [sub_sub_cancel_left, abs_neg]; norm_num [abs_of_pos])] at h2
  have hzd := abs_le.mp hzb
  have f1 : rne ((rInt (rne r) : ℤ) : ℝ) = (rInt (rne r) : ℤ) := rne_of_isDouble (isDouble_int (hzb.trans (by norm_num)))
  have f2 : rne (((rInt (rne r) : ℤ) : ℝ) - 1 / 2) = (rInt (rne r) : ℤ) - 1 / 2 := rne_of_isDouble
    ⟨2 * rInt (rne r) - 1, -1, abs_le.mpr ⟨by omega, by omega⟩, by norm_num, by push_cast; norm_num; ring⟩
  have f3 : rne (((rInt (rne r) : ℤ) : ℝ) + 1 / 2) = (rInt (rne r) : ℤ) + 1 / 2 := rne_of_isDouble
    ⟨2 * rInt (rne r) + 1, -1, abs_le.mpr ⟨by omega, by omega⟩, by norm_num, by push_cast; norm_num; ring⟩
  have g1 : unquantizeMin l q = .ok ⟨rne ((rInt (rne r) - 1 / 2) * q.val)⟩ := by
    rw [unquantizeMin_lib ht]
    have := unquantizeMinD_eq l.val hq0.ne'
    rw [← hr, hz, f1, f2] at this
    exact this
  have g2 : unquantizeMax l q = .ok ⟨rne ((rInt (rne r) + 1 / 2) * q.val)⟩ := by
    rw [unquantizeMax_lib ht]
    have := unquantizeMaxD_eq l.val hq0.ne'
    rw [← hr, hz, f1, f3] at this
    exact this
  generalize rInt (rne r) = z at *
  have hzr : |(z : ℝ) - r| ≤ 1 / 2 + 1 / 9007199254740992 * (|r| + 1) := by
    have := abs_add_le ((z : ℝ) - rne r) (rne r - r)
    rw [sub_add_sub_cancel] at this
    linarith
  have hzl : |z * q.val - l.val| ≤ q.val / 2 + 44 / 9007199254740992 := by
    rw [hrq, ← sub_mul, abs_mul, abs_of_pos hq0]
    have h1 := mul_le_mul_of_nonneg_right hzr hq0.le
    have h2 : |r| * q.val = |l.val| := by rw [hrq, abs_mul, abs_of_pos hq0]
    nlinarith
  obtain ⟨b1, b2⟩ := abs_le.mp hzl
  refine ⟨l, z, l1, g1, g2, ?_, ?_, ?_, ?_⟩
  · rw [abs_le]; constructor <;> linarith
  · have := abs_add_le (z * q.val - l.val) l.val
    rw [sub_add_cancel] at this
    linarith
  · intro k hk h'
    refine mono1 k hk ?_
    have : r * q.val ≤ (k + 1 / 4) * q.val := by linarith
    exact le_of_mul_le_mul_right this hq0
  · intro k hk h'
    refine mono2 k hk ?_
    have : (k - 1 / 4) * q.val ≤ r * q.val := by linarith
    exact le_of_mul_le_mul_right this hq0

/-- The error of `exp`, including results that underflow. -/
theorem exp_abs (he : AccurateExp m) (x : FP double) :
    |(m.exp x).val - Real.exp x.val| ≤ 2 / 9007199254740992 * Real.exp x.val + 1 / 9007199254740992 := by
  have e52 : (2 : ℝ) ^ (-52 : ℤ) = 2 / 9007199254740992 := by norm_num
  have e53 : (2 : ℝ) ^ (-53 : ℤ) = 1 / 9007199254740992 := by norm_num
  have hp := Real.exp_pos x.val
  refine (he x).trans ((ulp_le hp.ne').trans (max_le ?_ ?_))
  · rw [e52, abs_of_pos hp]; linarith
  · refine (zpow_le_zpow_right₀ (n := -53) (by norm_num) (by norm_num)).trans ?_
    rw [e53]
    have : 0 ≤ 2 / 9007199254740992 * Real.exp x.val := by positivity
    linarith

/-- A number within `B` is rounded with an error of at most `B * 2 ** -53`. -/
theorem rne_within {x B : ℝ} (h : |x| ≤ B) (hB : 1 / 10000000000000 ≤ B) : |rne x - x| ≤ 1 / 9007199254740992 * B := by
  have e53 : (2 : ℝ) ^ (-53 : ℤ) = 1 / 9007199254740992 := by norm_num
  rw [← e53]; exact rne_err_le h (small_le hB)

theorem exp_small {a : ℝ} (h0 : 0 ≤ a) (h : a ≤ 1 / 2) : Real.exp a ≤ 1 + 2 * a := by
  have := Real.add_one_le_exp (-a)
  have hp := Real.exp_pos a
  have e : Real.exp (-a) * Real.exp a = 1 := by rw [← Real.exp_add]; simp
  nlinarith

theorem exp_sub_upper (he : AccurateExp m) {v w : ℝ} (h : v ≤ w) (hw : |w| ≤ 46) :
    (m.exp ⟨rne v⟩ - SERVER_EPS).val ≤ Real.exp w - 1 / 10000000000 + 100 / 9007199254740992 * (Real.exp w + 1) := by
  have h1 : rne v ≤ w + 46 / 9007199254740992 := by
    have a := rne_mono h
    obtain ⟨_, b⟩ := abs_le.mp (rne_within hw (by norm_num))
    linarith
  have h2 : Real.exp (rne v) ≤ Real.exp w * (1 + 92 / 9007199254740992) := by
    refine (Real.exp_le_exp.mpr h1).trans ?_
    rw [Real.exp_add]
    refine mul_le_mul_of_nonneg_left ?_ (Real.exp_pos w).le
    have := exp_small (a := 46 / 9007199254740992) (by norm_num) (by norm_num)
    linarith
  obtain ⟨_, h3⟩ := abs_le.mp (exp_abs he ⟨rne v⟩)
  obtain ⟨h4, _⟩ := abs_le.mp SERVER_EPS_near
  have hp := Real.exp_pos w
  change rne ((m.exp ⟨rne v⟩).val - (SERVER_EPS : FP double).val) ≤ _
  change _ ≤ 2 / 9007199254740992 * Real.exp (rne v) + 1 / 9007199254740992 at h3
  change _ - Real.exp (rne v) ≤ _ at h3
  have h5 : (m.exp ⟨rne v⟩).val - (SERVER_EPS : FP double).val ≤ Real.exp w - 1 / 10000000000 + 95 / 9007199254740992 * Real.exp w + 2 / 9007199254740992 := by
    linarith
  refine (rne_mono h5).trans ?_
  obtain ⟨_, h6⟩ := abs_le.mp (rne_within (x := Real.exp w - 1 / 10000000000 + 95 / 9007199254740992 * Real.exp w + 2 / 9007199254740992) (B := 2 * Real.exp w + 1)
    (by rw [abs_le]; constructor <;> linarith) (by linarith))
  linarith

theorem exp_sub_lower (he : AccurateExp m) {v w : ℝ} (h : w ≤ v) (hw : |w| ≤ 46) :
    Real.exp w - 1 / 10000000000 - 100 / 9007199254740992 * (Real.exp w + 1) ≤ (m.exp ⟨rne v⟩ - SERVER_EPS).val := by
  have h1 : w - 46 / 9007199254740992 ≤ rne v := by
    have a := rne_mono h
    obtain ⟨b, _⟩ := abs_le.mp (rne_within hw (by norm_num))
    linarith
  have h2 : Real.exp w * (1 - 46 / 9007199254740992) ≤ Real.exp (rne v) := by
    refine le_trans ?_ (Real.exp_le_exp.mpr h1)
    rw [sub_eq_add_neg w, Real.exp_add]
    refine mul_le_mul_of_nonneg_left ?_ (Real.exp_pos w).le
    have := Real.add_one_le_exp (-(46 / 9007199254740992 : ℝ))
    linarith
  obtain ⟨h3, _⟩ := abs_le.mp (exp_abs he ⟨rne v⟩)
  obtain ⟨_, h4⟩ := abs_le.mp SERVER_EPS_near
  have hp := Real.exp_pos w
  change _ ≤ rne ((m.exp ⟨rne v⟩).val - (SERVER_EPS : FP double).val)
  change -(2 / 9007199254740992 * Real.exp (rne v) + 1 / 9007199254740992) ≤ _ - Real.exp (rne v) at h3
  have h5 : Real.exp w - 1 / 10000000000 - 49 / 9007199254740992 * Real.exp w - 2 / 9007199254740992 ≤ (m.exp ⟨rne v⟩).val - (SERVER_EPS : FP double).val := by
    linarith
  refine le_trans ?_ (rne_mono h5)
  obtain ⟨h6, _⟩ := abs_le.mp (rne_within (x := Real.exp w - 1 / 10000000000 - 49 / 9007199254740992 * Real.exp w - 2 / 9007199254740992) (B := 2 * Real.exp w + 1)
    (by rw [abs_le]; constructor <;> linarith) (by linarith))
  linarith

/-- `unquantize_error` for the result `j` of `quantize_dist`: the two grid points of the logarithm. -/
theorem unq_core (hl : AccurateLog m) (ht : ExactTrunc m) (q : FP double) (j : ℤ) (hj : 1 ≤ j) (hj2 : j ≤ 2 ^ 50)
    (hr : rIntD ⟨rne (rne (j * rne (1 / 10)) / rne (1 / 10))⟩ = j) (hq : 1 / 1048576 ≤ q.val) (hq1 : q.val ≤ 1) :
    ∃ z w : ℤ, unquantizeError ⟨rne (j * rne (1 / 10))⟩ q =
        .ok (fabs ((m.exp ⟨rne ((w + 1 / 2) * q.val)⟩ - SERVER_EPS) - (m.exp ⟨rne ((z - 1 / 2) * q.val)⟩ - SERVER_EPS))) ∧
      |z * q.val - Real.log ((j - 1 / 2) * rne (1 / 10))| ≤ q.val / 2 + 136 / 9007199254740992 ∧ |z * q.val| ≤ 44 ∧
      (∀ k : ℤ, |k| ≤ 2 ^ 50 → Real.log ((j - 1 / 2) * rne (1 / 10)) ≤ k * q.val + 60 / 9007199254740992 → z ≤ k) ∧
      |w * q.val - Real.log ((j + 1 / 2) * rne (1 / 10))| ≤ q.val / 2 + 136 / 9007199254740992 ∧ |w * q.val| ≤ 44 ∧
      (∀ k : ℤ, |k| ≤ 2 ^ 50 → k * q.val - 60 / 9007199254740992 ≤ Real.log ((j + 1 / 2) * rne (1 / 10)) → k ≤ w) := by
  obtain ⟨t1, t2⟩ := abs_le.mp tenth_near
  have hjr : (1 : ℝ) ≤ j := by exact_mod_cast hj
  have hjr2 : (j : ℝ) ≤ 1125899906842624 := by
    have : (j : ℝ) ≤ ((2 ^ 50 : ℤ) : ℝ) := by exact_mod_cast hj2
    norm_num at this; exact this
  have ht0 : rne (1 / 10) ≠ 0 := by intro h; rw [h] at t1; norm_num at t1
  have htn : (num 1 / num 10 : FP double) = ⟨rne (1 / 10)⟩ := FP.ext tenth_val
  have hjd : rne (j : ℝ) = j := rne_of_isDouble (isDouble_int (abs_le.mpr ⟨by omega, by omega⟩))
  have f2 : rne ((j : ℝ) - 1 / 2) = j - 1 / 2 := rne_of_isDouble ⟨2 * j - 1, -1, abs_le.mpr ⟨by omega, by omega⟩, by norm_num, by push_cast; norm_num; ring⟩
  have f3 : rne ((j : ℝ) + 1 / 2) = j + 1 / 2 := rne_of_isDouble ⟨2 * j + 1, -1, abs_le.mpr ⟨by omega, by omega⟩, by norm_num, by push_cast; norm_num; ring⟩
  have g1 : unquantizeMin (⟨rne (j * rne (1 / 10))⟩ : FP double) (num 1 / num 10) = .ok ⟨rne ((j - 1 / 2) * rne (1 / 10))⟩ := by
    rw [unquantizeMin_lib ht, htn, unquantizeMinD_eq _ ht0, hr, hjd, f2]
  have g2 : unquantizeMax (⟨rne (j * rne (1 / 10))⟩ : FP double) (num 1 / num 10) = .ok ⟨rne ((j + 1 / 2) * rne (1 / 10))⟩ := by
    rw [unquantizeMax_lib ht, htn, unquantizeMaxD_eq _ ht0, hr, hjd, f3]
  have bd : ∀ a : ℝ, 1 / 2 ≤ a → a ≤ 1125899906842625 → 1 / 32 ≤ a * rne (1 / 10) ∧ a * rne (1 / 10) ≤ 1125899906842624 ∧
      |rne (a * rne (1 / 10)) - a * rne (1 / 10)| ≤ 1 / 9007199254740992 * (a * rne (1 / 10)) := by
    intro a ha ha2
    have c1 : 1 / 32 ≤ a * rne (1 / 10) := by nlinarith
    refine ⟨c1, by nlinarith, ?_⟩
    have c2 : 0 < a * rne (1 / 10) := lt_of_lt_of_le (by norm_num) c1
    have := rne_rel_num (x := a * rne (1 / 10)) (by rw [abs_of_pos c2]; exact small_le (le_trans (by norm_num) c1))
    rwa [abs_of_pos c2] at this
  obtain ⟨b1, b2, b3⟩ := bd (j - 1 / 2) (by linarith) (by linarith)
  obtain ⟨b4, b5, b6⟩ := bd (j + 1 / 2) (by linarith) (by linarith)
  obtain ⟨l, z, z1, z2, -, z3, z4, z5, -⟩ := log_unq hl ht ⟨rne ((j - 1 / 2) * rne (1 / 10))⟩ q _ b1 b2 b3 hq hq1
  obtain ⟨l', w, w1, -, w2, w3, w4, -, w5⟩ := log_unq hl ht ⟨rne ((j + 1 / 2) * rne (1 / 10))⟩ q _ b4 b5 b6 hq hq1
  refine ⟨z, w, ?_, z3, z4, z5, w3, w4, w5⟩
  unfold unquantizeError
  simp only [g1, g2, bind, Except.bind, z1, z2, w1, w2, pure, Except.pure]

set_option maxHeartbeats 1000000 in
/-- **C196** `unquantize_error` bounds, up to rounding, the difference of any two distances that are seen as `s`, and is not much larger than
the width of the two steps. -/
theorem C196_error (hl : AccurateLog m) (he : AccurateExp m) (ht : ExactTrunc m) (s q : FP double) (hq : (2 : ℝ) ^ (-20 : ℤ) ≤ q.val) (hq1 : q.val ≤ 1)
    (hs : s.val ≠ 0) (hseen : ∃ d : FP double, 0 ≤ d.val ∧ d.val ≤ (2 : ℝ) ^ 40 ∧ quantizeDist d q = .ok s) :
    ∃ err, unquantizeError s q = .ok err ∧
      (∀ d d' : FP double, 0 ≤ d.val → d.val ≤ (2 : ℝ) ^ 40 → 0 ≤ d'.val → d'.val ≤ (2 : ℝ) ^ 40 → quantizeDist d q = .ok s → quantizeDist d' q = .ok s →
        |d.val - d'.val| ≤ err.val + (2 : ℝ) ^ (-42 : ℤ) * (d.val + d'.val + 2)) ∧
      err.val ≤ (s.val + 1 / 20) * Real.exp q.val - (s.val - 1 / 20) * Real.exp (-q.val) + (2 : ℝ) ^ (-40 : ℤ) * (s.val + 1) := by
  have e42 : (2 : ℝ) ^ (-42 : ℤ) = 2048 / 9007199254740992 := by norm_num
  have e40' : (2 : ℝ) ^ (-40 : ℤ) = 8192 / 9007199254740992 := by norm_num
  have e20 : (2 : ℝ) ^ (-20 : ℤ) = 1 / 1048576 := by norm_num
  have e40 : (2 : ℝ) ^ 40 = 1099511627776 := by norm_num
  rw [e42, e40']
  rw [e40] at hseen ⊢
  rw [e20] at hq
  clear e42 e40' e20 e40
  obtain ⟨t1, t2⟩ := abs_le.mp tenth_near
  have hq0 : 0 < q.val := by linarith
  obtain ⟨d0, hd0, hd1, hd2⟩ := hseen
  obtain ⟨l, E, k, j, -, -, -, -, hE, -, hj2, h4, hr, h5, h6⟩ := quant_steps hl he ht d0 q hd0 hd1 hq hq1
  have hse : s = ⟨rne (j * rne (1 / 10))⟩ := by rw [hd2] at h4; exact Except.ok.inj h4
  have hj : 1 ≤ j := by
    by_contra hn
    rcases (show j = 0 ∨ j ≤ -1 by omega) with h | h
    · apply hs; rw [hse, h]; simp [rne_zero]
    · have : (j : ℝ) ≤ -1 := by exact_mod_cast h
      obtain ⟨a7, a8⟩ := abs_le.mp h5
      nlinarith
  have hjr : (1 : ℝ) ≤ j := by exact_mod_cast hj
  obtain ⟨z, w, hu, z1, z2, z3, w1, w2, w3⟩ := unq_core hl ht q j hj (abs_le.mp hj2).2 hr hq hq1
  obtain ⟨mn, hmn⟩ : ∃ mn, mn = m.exp ⟨rne ((z - 1 / 2) * q.val)⟩ - SERVER_EPS := ⟨_, rfl⟩
  obtain ⟨mx, hmx⟩ : ∃ mx, mx = m.exp ⟨rne ((w + 1 / 2) * q.val)⟩ - SERVER_EPS := ⟨_, rfl⟩
  rw [← hmn, ← hmx, ← hse] at hu
  -- every distance seen as `s` lies between the two
  have side : ∀ d : FP double, 0 ≤ d.val → d.val ≤ 1099511627776 → quantizeDist d q = .ok s →
      mn.val ≤ d.val + 600 / 9007199254740992 * (d.val + 1) ∧ d.val - 600 / 9007199254740992 * (d.val + 1) ≤ mx.val := by
    intro d hd hd' hds
    obtain ⟨l, E, k, j', a1, a2, a3, a4, hE, a5, -, a6, a7, a8, -⟩ := quant_steps hl he ht d q hd hd' hq hq1
    have hjj : j' = j := by
      have : s = ⟨rne (j' * rne (1 / 10))⟩ := by rw [hds] at a6; exact Except.ok.inj a6
      rw [hse] at this
      have hv : rne (j * rne (1 / 10)) = rne (j' * rne (1 / 10)) := congrArg FP.val this
      rw [← a7, ← hr, hv]
    subst hjj
    generalize rne (1 / 10) = t at *
    obtain ⟨b1, b2⟩ := abs_le.mp a1
    obtain ⟨b3, b4⟩ := abs_le.mp a3
    obtain ⟨b5, b6⟩ := abs_le.mp a5
    obtain ⟨b7, b8⟩ := abs_le.mp a8
    have hx : 0 < d.val + 1 / 10000000000 := by linarith
    have lr := log_range (x := d.val + 1 / 10000000000) (by linarith) (by linarith)
    obtain ⟨lr1, lr2⟩ := abs_le.mp lr
    have hy : 0 < (j' - 1 / 2) * t := mul_pos (by linarith) (by linarith)
    have hy' : 0 < (j' + 1 / 2) * t := mul_pos (by linarith) (by linarith)
    have ez : z ≤ k := by
      refine z3 k a2 ?_
      have c1 : (j' - 1 / 2) * t ≤ E.val * (1 + 1 / 9007199254740992) := by linarith
      have c2 := Real.log_le_log hy c1
      rw [Real.log_mul hE.ne' (by norm_num)] at c2
      have c3 := Real.log_le_sub_one_of_pos (x := 1 + 1 / 9007199254740992) (by norm_num)
      linarith
    have ew : k ≤ w := by
      refine w3 k a2 ?_
      have c1 : E.val * (1 - 1 / 9007199254740992) ≤ (j' + 1 / 2) * t := by linarith
      have c2 := Real.log_le_log (mul_pos hE (by norm_num)) c1
      rw [Real.log_mul hE.ne' (by norm_num)] at c2
      have c3 := Real.one_sub_inv_le_log_of_pos (x := 1 - 1 / 9007199254740992) (by norm_num)
      have c4 : -(2 / 9007199254740992 : ℝ) ≤ 1 - (1 - 1 / 9007199254740992)⁻¹ := by norm_num
      linarith
    have ezr : (z : ℝ) * q.val ≤ k * q.val := mul_le_mul_of_nonneg_right (by exact_mod_cast ez) hq0.le
    have ewr : (k : ℝ) * q.val ≤ w * q.val := mul_le_mul_of_nonneg_right (by exact_mod_cast ew) hq0.le
    constructor
    · have u1 := exp_sub_upper he (v := (z - 1 / 2) * q.val) (w := Real.log (d.val + 1 / 10000000000) + 140 / 9007199254740992) (by linarith)
        (by rw [abs_le]; constructor <;> linarith)
      rw [← hmn, Real.exp_add, Real.exp_log hx] at u1
      have u2 := exp_small (a := 140 / 9007199254740992) (by norm_num) (by norm_num)
      have u3 := mul_le_mul_of_nonneg_left u2 hx.le
      linarith
    · have u1 := exp_sub_lower he (v := (w + 1 / 2) * q.val) (w := Real.log (d.val + 1 / 10000000000) + -(140 / 9007199254740992)) (by linarith)
        (by rw [abs_le]; constructor <;> linarith)
      rw [← hmx, Real.exp_add, Real.exp_log hx] at u1
      have u2 := Real.add_one_le_exp (-(140 / 9007199254740992 : ℝ))
      have u3 := mul_le_mul_of_nonneg_left u2 hx.le
      linarith
  have habs : (fabs (mx - mn)).val = |rne (mx.val - mn.val)| := fp_fabs_val _
  refine ⟨_, hu, ?_, ?_⟩
  · intro d d' hd hd' hd1 hd1' hds hds'
    obtain ⟨p1, p2⟩ := side d hd hd' hds
    obtain ⟨p3, p4⟩ := side d' hd1 hd1' hds'
    rw [habs]
    have key : ∀ {a b : ℝ}, 0 ≤ a → 0 ≤ b → mn.val ≤ a + 600 / 9007199254740992 * (a + 1) → b - 600 / 9007199254740992 * (b + 1) ≤ mx.val →
        b - a ≤ |rne (mx.val - mn.val)| + 2048 / 9007199254740992 * (a + b + 2) := by
      intro a b ha hb h1 h2
      have h3 : b - a - 600 / 9007199254740992 * (a + b + 2) ≤ mx.val - mn.val := by linarith
      have h4 := rne_mono h3
      obtain ⟨h5, _⟩ := abs_le.mp (rne_within (x := b - a - 600 / 9007199254740992 * (a + b + 2)) (B := 2 * (a + b + 2)) (by rw [abs_le]; constructor <;> linarith) (by linarith))
      have h6 := le_abs_self (rne (mx.val - mn.val))
      linarith
    have k1 := key hd hd1 p1 p4
    have k2 := key hd1 hd p3 p2
    rw [abs_le]; constructor <;> linarith
  · rw [habs]
    have hsv : s.val = rne (j * rne (1 / 10)) := congrArg FP.val hse
    rw [← hsv] at h6
    generalize rne (1 / 10) = t at *
    have hjt : 0 < (j : ℝ) * t := mul_pos (by linarith) (by linarith)
    rw [abs_of_pos hjt] at h6
    obtain ⟨c1, c2⟩ := abs_le.mp h6
    have hjt2 : (j : ℝ) * t ≤ 2 * s.val := by linarith
    have hs0 : 0 < s.val := by linarith
    have hy : 0 < ((j : ℝ) - 1 / 2) * t := mul_pos (by linarith) (by linarith)
    have hy' : 0 < ((j : ℝ) + 1 / 2) * t := mul_pos (by linarith) (by linarith)
    obtain ⟨v1, v2⟩ := abs_le.mp z1
    obtain ⟨v3, v4⟩ := abs_le.mp w1
    obtain ⟨v5, v6⟩ := abs_le.mp z2
    obtain ⟨v7, v8⟩ := abs_le.mp w2
    have eq3 : Real.exp q.val ≤ 3 := by
      have := Real.exp_le_exp.mpr hq1
      have := Real.exp_one_lt_d9
      linarith
    have eq1 : 1 ≤ Real.exp q.val := Real.one_le_exp hq0.le
    have eqn : Real.exp (-q.val) ≤ 1 := Real.exp_le_one_iff.mpr (by linarith)
    have eqp : 0 < Real.exp (-q.val) := Real.exp_pos _
    have y1 : ((j : ℝ) - 1 / 2) * t ≤ 2 * s.val := by linarith
    have y2 : ((j : ℝ) + 1 / 2) * t ≤ s.val + 1 / 20 + 2 / 9007199254740992 * (s.val + 1) := by linarith
    have y3 : s.val - 1 / 20 - 2 / 9007199254740992 * (s.val + 1) ≤ ((j : ℝ) - 1 / 2) * t := by linarith
    have y4 : ((j : ℝ) - 1 / 2) * t ≤ ((j : ℝ) + 1 / 2) * t := by linarith
    have x2 := exp_small (a := 140 / 9007199254740992) (by norm_num) (by norm_num)
    have x3 := Real.add_one_le_exp (-(140 / 9007199254740992 : ℝ))
    -- the upper distance
    have A1 : mx.val ≤ (s.val + 1 / 20) * Real.exp q.val - 1 / 10000000000 + 3000 / 9007199254740992 * (s.val + 1) := by
      have u1 := exp_sub_upper he (v := (w + 1 / 2) * q.val) (w := Real.log ((j + 1 / 2) * t) + q.val + 140 / 9007199254740992) (by linarith)
        (by rw [abs_le]; constructor <;> linarith)
      rw [← hmx, Real.exp_add, Real.exp_add, Real.exp_log hy'] at u1
      have u2 : (j + 1 / 2) * t * Real.exp q.val * Real.exp (140 / 9007199254740992) ≤ (j + 1 / 2) * t * Real.exp q.val * (1 + 280 / 9007199254740992) :=
        mul_le_mul_of_nonneg_left (by linarith) (by positivity)
      have u3 : (j + 1 / 2) * t * Real.exp q.val ≤ (s.val + 1 / 20 + 2 / 9007199254740992 * (s.val + 1)) * Real.exp q.val := mul_le_mul_of_nonneg_right y2 (by linarith)
      have u4 : (s.val + 1) * Real.exp q.val ≤ (s.val + 1) * 3 := mul_le_mul_of_nonneg_left eq3 (by linarith)
      have u5 : (s.val + 1 / 20) * Real.exp q.val ≤ (s.val + 1 / 20) * 3 := mul_le_mul_of_nonneg_left eq3 (by linarith)
      linarith
    have A2 : ((j : ℝ) + 1 / 2) * t - 1 / 10000000000 - 1000 / 9007199254740992 * (s.val + 1) ≤ mx.val := by
      have u1 := exp_sub_lower he (v := (w + 1 / 2) * q.val) (w := Real.log ((j + 1 / 2) * t) + -(140 / 9007199254740992)) (by linarith)
        (by rw [abs_le]; constructor <;> linarith)
      rw [← hmx, Real.exp_add, Real.exp_log hy'] at u1
      have u2 := mul_le_mul_of_nonneg_left x3 hy'.le
      linarith
    have A3 : (s.val - 1 / 20) * Real.exp (-q.val) - 1 / 10000000000 - 1000 / 9007199254740992 * (s.val + 1) ≤ mn.val := by
      have u1 := exp_sub_lower he (v := (z - 1 / 2) * q.val) (w := Real.log ((j - 1 / 2) * t) + -q.val + -(140 / 9007199254740992)) (by linarith)
        (by rw [abs_le]; constructor <;> linarith)
      rw [← hmn, Real.exp_add, Real.exp_add, Real.exp_log hy] at u1
      have u2 : (j - 1 / 2) * t * Real.exp (-q.val) * (-(140 / 9007199254740992) + 1) ≤ (j - 1 / 2) * t * Real.exp (-q.val) * Real.exp (-(140 / 9007199254740992)) :=
        mul_le_mul_of_nonneg_left x3 (by positivity)
      have u3 : (s.val - 1 / 20 - 2 / 9007199254740992 * (s.val + 1)) * Real.exp (-q.val) ≤ (j - 1 / 2) * t * Real.exp (-q.val) := mul_le_mul_of_nonneg_right y3 eqp.le
      have u4 : (s.val + 1) * Real.exp (-q.val) ≤ s.val + 1 := mul_le_of_le_one_right (by linarith) eqn
      have u5 : (j - 1 / 2) * t * Real.exp (-q.val) ≤ 2 * s.val := (mul_le_of_le_one_right hy.le eqn).trans y1
      linarith
    have A4 : mn.val ≤ ((j : ℝ) - 1 / 2) * t - 1 / 10000000000 + 1000 / 9007199254740992 * (s.val + 1) := by
      have u1 := exp_sub_upper he (v := (z - 1 / 2) * q.val) (w := Real.log ((j - 1 / 2) * t) + 140 / 9007199254740992) (by linarith)
        (by rw [abs_le]; constructor <;> linarith)
      rw [← hmn, Real.exp_add, Real.exp_log hy] at u1
      have u2 := mul_le_mul_of_nonneg_left x2 hy.le
      linarith
    generalize Real.exp q.val = X at *
    generalize Real.exp (-q.val) = Y at *
    have G1 : (s.val + 1 / 20) * X ≤ (s.val + 1 / 20) * 3 := mul_le_mul_of_nonneg_left eq3 (by linarith)
    have G2 : (s.val + 1 / 20) * 1 ≤ (s.val + 1 / 20) * X := mul_le_mul_of_nonneg_left eq1 (by linarith)
    have G3 : (s.val + 1 / 20) * Y ≤ (s.val + 1 / 20) * 1 := mul_le_mul_of_nonneg_left eqn (by linarith)
    have G4 : 0 ≤ s.val * Y := by positivity
    have D1 : |mx.val - mn.val| ≤ (s.val + 1 / 20) * X - (s.val - 1 / 20) * Y + 4000 / 9007199254740992 * (s.val + 1) := by
      rw [abs_le]; constructor <;> linarith
    have D2 := rne_within D1 (by linarith)
    have D3 := abs_add_le (rne (mx.val - mn.val) - (mx.val - mn.val)) (mx.val - mn.val)
    rw [sub_add_cancel] at D3
    linarith

end

/-- A distance of 10 with step 1/8 is seen as a value near 10, and its uncertainty is computed. -/
example : ∃ s err, quantizeDist (⟨10⟩ : FP double) ⟨1 / 8⟩ = .ok s ∧ |s.val - 10| ≤ 2 ∧ unquantizeError s (⟨1 / 8⟩ : FP double) = .ok err ∧
    err.val ≤ (s.val + 1 / 20) * Real.exp (1 / 8) - (s.val - 1 / 20) * Real.exp (-(1 / 8)) + (2 : ℝ) ^ (-40 : ℤ) * (s.val + 1) := by
  obtain ⟨s, j, h1, -, h2, h3⟩ := C196_value accurateLog_double accurateExp_double exactTrunc_double ⟨10⟩ ⟨1 / 8⟩ (by norm_num) (by norm_num) (by norm_num) (by norm_num)
  have e44 : (2 : ℝ) ^ (-44 : ℤ) = 512 / 9007199254740992 := by norm_num
  have e53 : (2 : ℝ) ^ (-53 : ℤ) = 1 / 9007199254740992 := by norm_num
  have a1 := Real.add_one_le_exp (-((1 / 8 : ℝ) / 2 + (2 : ℝ) ^ (-44 : ℤ)))
  have a2 := exp_small (a := (1 / 8 : ℝ) / 2 + (2 : ℝ) ^ (-44 : ℤ)) (by positivity) (by norm_num)
  rw [e44] at a1 a2 h2 h3
  rw [e53] at h2 h3
  have b1 := mul_le_mul_of_nonneg_left a1 (show (0 : ℝ) ≤ 10 + 1 / 10 ^ 10 by norm_num)
  have b2 := mul_le_mul_of_nonneg_left a2 (show (0 : ℝ) ≤ 10 + 1 / 10 ^ 10 by norm_num)
  norm_num only at b1 b2 h2 h3
  have hs : |s.val - 10| ≤ 2 := by rw [abs_le]; constructor <;> linarith
  obtain ⟨err, h4, -, h5⟩ := C196_error accurateLog_double accurateExp_double exactTrunc_double s ⟨1 / 8⟩ (by norm_num) (by norm_num)
    (by intro h; rw [h] at hs; norm_num [abs_le] at hs) ⟨⟨10⟩, by norm_num, by norm_num, h1⟩
  exact ⟨s, err, h1, hs, h4, h5⟩

end PyrusGeom
