import Mathlib.Analysis.SpecialFunctions.Log.Basic
import Mathlib.Analysis.SpecialFunctions.Exponential
import Mathlib.Analysis.Complex.ExponentialBounds
import Verif.Props.SoccerMath

/-! # C140, C141: `quantize_dist` and `unquantize_error` of `soccer_math.py` -/

namespace PyrusGeom
namespace SoccerMath

/-! ## C140 -/

theorem tenth_real : (num 1 / num 10 : ℝ) = 1 / 10 := by simp

theorem quantizeDist_ok {d q : ℝ} (hd : 0 < d + SERVER_EPS) (hq : q ≠ 0) : quantizeDist d q =
    .ok ((rInt (Real.exp ((rInt (Real.log (d + SERVER_EPS) / q) : ℝ) * q) / (1 / 10)) : ℝ) * (1 / 10)) := by
  have h0 : (num 0 : ℝ) < d + SERVER_EPS := by simpa using hd
  have hl : mathLog (d + SERVER_EPS) = .ok (Real.log (d + SERVER_EPS)) := if_pos h0
  unfold quantizeDist
  rw [hl]
  change (quantize (Real.log (d + SERVER_EPS)) q).bind _ = _
  rw [quantize_ok _ hq]
  change quantize (Real.exp _) (num 1 / num 10) = _
  rw [tenth_real, quantize_ok _ (by norm_num)]

/-- **C140** For a positive step and a distance above `-1e-10`, `quantize_dist` returns a nonnegative multiple of `0.1`
that is, up to half a tenth, within the factor `exp (q / 2)` of the distance (`1e-10` added). -/
theorem C140_value (d q : ℝ) (hq : 0 < q) (hd : -(1 / 10 ^ 10) < d) : ∃ s, quantizeDist d q = .ok s ∧
    (∃ k : ℕ, s = k / 10) ∧
    (d + 1 / 10 ^ 10) * Real.exp (-(q / 2)) - 1 / 20 ≤ s ∧ s ≤ (d + 1 / 10 ^ 10) * Real.exp (q / 2) + 1 / 20 := by
  have he : (SERVER_EPS : ℝ) = 1 / 10 ^ 10 := by rw [SERVER_EPS_real]; norm_num
  have hp : 0 < d + SERVER_EPS := by rw [he]; linarith
  refine ⟨_, quantizeDist_ok hp hq.ne', ?_, ?_⟩
  · have : 0 ≤ rInt (Real.exp ((rInt (Real.log (d + SERVER_EPS) / q) : ℝ) * q) / (1 / 10)) := by
      rw [rInt_of_nonneg (by positivity)]
      exact Int.floor_nonneg.mpr (by positivity)
    obtain ⟨k, hk⟩ := Int.eq_ofNat_of_zero_le this
    exact ⟨k, by rw [hk]; push_cast; ring⟩
  · obtain ⟨e, h1, -, h3, -⟩ := C85_quantize (Real.log (d + SERVER_EPS)) q hq
    rw [quantize_ok _ hq.ne'] at h1
    have h1 := Except.ok.inj h1
    obtain ⟨s, h4, -, h5, -⟩ := C85_quantize (Real.exp e) (1 / 10) (by norm_num)
    rw [quantize_ok _ (by norm_num)] at h4
    have h4 := Except.ok.inj h4
    rw [h1, h4, ← he]
    obtain ⟨h5a, h5b⟩ := abs_le.mp h5
    obtain ⟨h3a, h3b⟩ := abs_le.mp h3
    have lo : (d + SERVER_EPS) * Real.exp (-(q / 2)) ≤ Real.exp e := by
      rw [← Real.exp_log hp, ← Real.exp_add]
      exact Real.exp_le_exp.mpr (by linarith)
    have hi : Real.exp e ≤ (d + SERVER_EPS) * Real.exp (q / 2) := by
      rw [← Real.exp_log hp, ← Real.exp_add]
      exact Real.exp_le_exp.mpr (by linarith)
    constructor <;> linarith

/-- **C140** It raises `ValueError` exactly at and below `-1e-10`, and `ZeroDivisionError` for the step `0`. -/
theorem C140_error (d q : ℝ) : (quantizeDist d q = .error .valueError ↔ d ≤ -(1 / 10 ^ 10)) ∧
    (-(1 / 10 ^ 10) < d → quantizeDist d 0 = .error .zeroDivision) := by
  have he : (SERVER_EPS : ℝ) = 1 / 10 ^ 10 := by rw [SERVER_EPS_real]; norm_num
  refine ⟨⟨fun h => ?_, fun h => ?_⟩, fun h => ?_⟩
  · by_contra hn
    have hp : 0 < d + SERVER_EPS := by rw [he]; linarith
    by_cases hq : q = 0
    · have h0 : (num 0 : ℝ) < d + SERVER_EPS := by simpa using hp
      have hl : mathLog (d + SERVER_EPS) = .ok (Real.log (d + SERVER_EPS)) := if_pos h0
      simp [quantizeDist, hl, bind, Except.bind, hq, C85_zero_step] at h
    · rw [quantizeDist_ok hp hq] at h; cases h
  · have hl : mathLog (d + SERVER_EPS) = .error .valueError :=
      if_neg (by rw [he]; simp only [num_real, Nat.cast_zero, not_lt]; linarith)
    simp [quantizeDist, hl, bind, Except.bind]
  · have hl : mathLog (d + SERVER_EPS) = .ok (Real.log (d + SERVER_EPS)) :=
      if_pos (by rw [he]; simp only [num_real, Nat.cast_zero]; linarith)
    simp [quantizeDist, hl, bind, Except.bind, C85_zero_step]

/-- **C140** A larger distance is never seen as smaller. -/
theorem C140_monotone {d d' q s s' : ℝ} (hq : 0 < q) (h : d ≤ d') (hs : quantizeDist d q = .ok s)
    (hs' : quantizeDist d' q = .ok s') : s ≤ s' := by
  have hp : 0 < d + SERVER_EPS := by
    by_contra hn
    have he : (SERVER_EPS : ℝ) = 1 / 10 ^ 10 := by rw [SERVER_EPS_real]; norm_num
    rw [(C140_error d q).1.mpr (by rw [he] at hn; linarith)] at hs
    cases hs
  rw [quantizeDist_ok hp hq.ne'] at hs
  rw [quantizeDist_ok (by linarith) hq.ne'] at hs'
  rw [← Except.ok.inj hs, ← Except.ok.inj hs']
  refine mul_le_mul_of_nonneg_right ?_ (by norm_num)
  refine Int.cast_le.mpr (C85_monotone (div_le_div_of_nonneg_right (Real.exp_le_exp.mpr ?_) (by norm_num)))
  refine mul_le_mul_of_nonneg_right (Int.cast_le.mpr (C85_monotone ?_)) hq.le
  exact div_le_div_of_nonneg_right (Real.log_le_log hp (by linarith)) hq.le

/-- The distance `1 - 1e-10` is seen as `1`. -/
theorem quantizeDist_one : quantizeDist (1 - 1 / 10 ^ 10 : ℝ) (1 / 10) = .ok 1 := by
  have he : (SERVER_EPS : ℝ) = 1 / 10 ^ 10 := by rw [SERVER_EPS_real]; norm_num
  have h1 : (1 - 1 / 10 ^ 10 + SERVER_EPS : ℝ) = 1 := by rw [he]; ring
  rw [quantizeDist_ok (by rw [h1]; norm_num) (by norm_num), h1, Real.log_one, zero_div]
  have : rInt (0 : ℝ) = 0 := by have := C85_integer 0; simpa using this
  rw [this]
  have h10 : rInt (10 : ℝ) = 10 := by have := C85_integer 10; simpa using this
  norm_num [h10]

example : ∃ s, quantizeDist (20 : ℝ) (1 / 10) = .ok s ∧ 18 ≤ s ∧ s ≤ 22 := by
  obtain ⟨s, h, -, h1, h2⟩ := C140_value 20 (1 / 10) (by norm_num) (by norm_num)
  refine ⟨s, h, ?_, ?_⟩
  · have : (1 : ℝ) - 1 / 20 ≤ Real.exp (-(1 / 10 / 2)) := by
      have := Real.add_one_le_exp (-(1 / 10 / 2) : ℝ); linarith
    nlinarith
  · have h3 : (1 : ℝ) - 1 / 20 ≤ Real.exp (-(1 / 10 / 2)) := by
      have := Real.add_one_le_exp (-(1 / 10 / 2) : ℝ); linarith
    have h4 : Real.exp (1 / 10 / 2 : ℝ) * Real.exp (-(1 / 10 / 2)) = 1 := by rw [← Real.exp_add]; simp
    have h5 : Real.exp (1 / 10 / 2 : ℝ) ≤ 20 / 19 := by nlinarith [Real.exp_pos (1 / 10 / 2 : ℝ)]
    have h6 : (20 + 1 / 10 ^ 10 : ℝ) * Real.exp (1 / 10 / 2) ≤ (20 + 1 / 10 ^ 10) * (20 / 19) :=
      mul_le_mul_of_nonneg_left h5 (by norm_num)
    norm_num at h6 h2 ⊢
    linarith

/-! ## C141 -/

/-- Evaluation of `unquantize_error` on a positive multiple of a tenth. -/
theorem unquantizeError_ok {k : ℕ} (hk : 0 < k) {q : ℝ} (hq : q ≠ 0) : unquantizeError ((k : ℝ) / 10) q =
    .ok |(Real.exp (((rInt (Real.log (k / 10 + 1 / 20) / q) : ℝ) + 1 / 2) * q) - SERVER_EPS) -
      (Real.exp (((rInt (Real.log (k / 10 - 1 / 20) / q) : ℝ) - 1 / 2) * q) - SERVER_EPS)| := by
  have hr : rInt ((k : ℝ) / 10 / (1 / 10)) = k := by
    rw [show (k : ℝ) / 10 / (1 / 10) = ((k : ℤ) : ℝ) by push_cast; field_simp, C85_integer]
  have hk' : (1 : ℝ) ≤ k := by exact_mod_cast hk
  have e1 : unquantizeMin ((k : ℝ) / 10) (num 1 / num 10) = .ok (k / 10 - 1 / 20) := by
    rw [tenth_real]
    have : pyDiv ((k : ℝ) / 10) (1 / 10) = .ok ((k : ℝ) / 10 / (1 / 10)) := by rw [pyDiv_real, if_neg (by norm_num)]
    simp only [unquantizeMin, this, bind, Except.bind, pure, Except.pure, hr]
    simp; ring
  have e2 : unquantizeMax ((k : ℝ) / 10) (num 1 / num 10) = .ok (k / 10 + 1 / 20) := by
    rw [tenth_real]
    have : pyDiv ((k : ℝ) / 10) (1 / 10) = .ok ((k : ℝ) / 10 / (1 / 10)) := by rw [pyDiv_real, if_neg (by norm_num)]
    simp only [unquantizeMax, this, bind, Except.bind, pure, Except.pure, hr]
    simp; ring
  have l1 : mathLog ((k : ℝ) / 10 - 1 / 20) = .ok (Real.log (k / 10 - 1 / 20)) :=
    if_pos (by simp only [num_real, Nat.cast_zero]; linarith)
  have l2 : mathLog ((k : ℝ) / 10 + 1 / 20) = .ok (Real.log (k / 10 + 1 / 20)) :=
    if_pos (by simp only [num_real, Nat.cast_zero]; linarith)
  have m1 : ∀ x : ℝ, unquantizeMin x q = .ok (((rInt (x / q) : ℝ) - 1 / 2) * q) := by
    intro x; simp [unquantizeMin, pyDiv_real, hq, bind, Except.bind, pure, Except.pure]
  have m2 : ∀ x : ℝ, unquantizeMax x q = .ok (((rInt (x / q) : ℝ) + 1 / 2) * q) := by
    intro x; simp [unquantizeMax, pyDiv_real, hq, bind, Except.bind, pure, Except.pure]
  simp only [unquantizeError, e1, e2, l1, l2, m1, m2, bind, Except.bind, pure, Except.pure, fabs_real]
  rfl

/-- **C141** (part) If the seen distance `s` is not `0`, `unquantize_error(s, q)` returns a number that bounds the
difference of any two distances that are seen as `s`, and which is at most `(s + 0.05) e^q - (s - 0.05) e^-q`. -/
theorem C141_partial (s q : ℝ) (hq : 0 < q) (hs : s ≠ 0) (hr : ∃ d, quantizeDist d q = .ok s) :
    ∃ err, unquantizeError s q = .ok err ∧
      (∀ d d', quantizeDist d q = .ok s → quantizeDist d' q = .ok s → |d - d'| ≤ err) ∧
      err ≤ (s + 1 / 20) * Real.exp q - (s - 1 / 20) * Real.exp (-q) := by
  have he : (SERVER_EPS : ℝ) = 1 / 10 ^ 10 := by rw [SERVER_EPS_real]; norm_num
  have pos : ∀ d, quantizeDist d q = .ok s → 0 < d + SERVER_EPS := by
    intro d hd
    by_contra hn
    have := (C140_error d q).1.mpr (by rw [he] at hn; linarith)
    rw [this] at hd; cases hd
  obtain ⟨d0, hd0⟩ := hr
  obtain ⟨s0, h0, ⟨k, hk⟩, -, -⟩ := C140_value d0 q hq (by have := pos d0 hd0; rw [he] at this; linarith)
  rw [h0] at hd0
  obtain rfl : s0 = s := Except.ok.inj hd0
  have hk0 : 0 < k := by
    rcases Nat.eq_zero_or_pos k with h | h
    · exact absurd (by rw [hk, h]; simp) hs
    · exact h
  have hk1 : (1 : ℝ) ≤ k := by exact_mod_cast hk0
  set hi := ((rInt (Real.log ((k : ℝ) / 10 + 1 / 20) / q) : ℝ) + 1 / 2) * q with hhi
  set lo := ((rInt (Real.log ((k : ℝ) / 10 - 1 / 20) / q) : ℝ) - 1 / 2) * q with hlo
  have bracket : ∀ d, quantizeDist d q = .ok s0 → Real.exp lo ≤ d + SERVER_EPS ∧ d + SERVER_EPS ≤ Real.exp hi := by
    intro d hd
    have hp := pos d hd
    rw [quantizeDist_ok hp hq.ne'] at hd
    obtain ⟨e, h1, ⟨m, hm⟩, h3, -⟩ := C85_quantize (Real.log (d + SERVER_EPS)) q hq
    rw [quantize_ok _ hq.ne'] at h1
    have h1 := Except.ok.inj h1
    obtain ⟨s', h4, -, h5, -⟩ := C85_quantize (Real.exp e) (1 / 10) (by norm_num)
    rw [quantize_ok _ (by norm_num)] at h4
    have h4 := Except.ok.inj h4
    rw [h1, h4] at hd
    obtain rfl : s' = s0 := Except.ok.inj hd
    obtain ⟨h5a, h5b⟩ := abs_le.mp h5
    obtain ⟨h3a, h3b⟩ := abs_le.mp h3
    have hmq : rInt (e / q) = m := by rw [hm, mul_div_assoc, div_self hq.ne', mul_one, C85_integer]
    constructor
    · rw [← Real.exp_log hp]
      refine Real.exp_le_exp.mpr ?_
      have h6 : Real.log ((k : ℝ) / 10 - 1 / 20) ≤ e := by
        rw [← Real.log_exp e]; exact Real.log_le_log (by linarith) (by rw [← hk]; linarith)
      have h7 : rInt (Real.log ((k : ℝ) / 10 - 1 / 20) / q) ≤ m :=
        hmq ▸ C85_monotone (div_le_div_of_nonneg_right h6 hq.le)
      have h8 : (rInt (Real.log ((k : ℝ) / 10 - 1 / 20) / q) : ℝ) ≤ m := by exact_mod_cast h7
      have h9 := mul_le_mul_of_nonneg_right h8 hq.le
      rw [hlo, sub_mul]
      linarith
    · rw [← Real.exp_log hp]
      refine Real.exp_le_exp.mpr ?_
      have h6 : e ≤ Real.log ((k : ℝ) / 10 + 1 / 20) := by
        rw [← Real.log_exp e]; exact Real.log_le_log (Real.exp_pos _) (by rw [← hk]; linarith)
      have h7 : m ≤ rInt (Real.log ((k : ℝ) / 10 + 1 / 20) / q) :=
        hmq ▸ C85_monotone (div_le_div_of_nonneg_right h6 hq.le)
      have h8 : (m : ℝ) ≤ (rInt (Real.log ((k : ℝ) / 10 + 1 / 20) / q) : ℝ) := by exact_mod_cast h7
      have h9 := mul_le_mul_of_nonneg_right h8 hq.le
      rw [hhi, add_mul]
      linarith
  have key := unquantizeError_ok hk0 hq.ne'
  rw [← hhi, ← hlo, ← hk] at key
  refine ⟨_, key, ?_, ?_⟩
  · intro d d' hd hd'
    obtain ⟨a1, a2⟩ := bracket d hd
    obtain ⟨b1, b2⟩ := bracket d' hd'
    refine le_trans ?_ (le_abs_self _)
    rw [abs_le]
    constructor <;> linarith
  · have near : ∀ x : ℝ, |(rInt (x / q) : ℝ) * q - x| ≤ q / 2 := by
      intro x
      obtain ⟨e, h1, -, h3, -⟩ := C85_quantize x q hq
      rw [quantize_ok _ hq.ne'] at h1
      rw [Except.ok.inj h1]; exact h3
    obtain ⟨-, n2⟩ := abs_le.mp (near (Real.log ((k : ℝ) / 10 + 1 / 20)))
    obtain ⟨n1, -⟩ := abs_le.mp (near (Real.log ((k : ℝ) / 10 - 1 / 20)))
    have u : Real.exp hi ≤ (k / 10 + 1 / 20) * Real.exp q := by
      rw [← Real.exp_log (show (0 : ℝ) < k / 10 + 1 / 20 by positivity), ← Real.exp_add]
      refine Real.exp_le_exp.mpr ?_
      rw [hhi, add_mul]; linarith
    have l : (k / 10 - 1 / 20) * Real.exp (-q) ≤ Real.exp lo := by
      have : (0 : ℝ) < k / 10 - 1 / 20 := by linarith
      rw [← Real.exp_log this, ← Real.exp_add]
      refine Real.exp_le_exp.mpr ?_
      rw [hlo, sub_mul]; linarith
    have ord : Real.exp lo ≤ Real.exp hi := (bracket d0 h0).1.trans (bracket d0 h0).2
    rw [abs_of_nonneg (by linarith), hk]
    linarith

/-- **C141** is refuted: every distance up to a bound is seen as `0`, for which `unquantize_error` raises `ValueError`
(the logarithm of `-0.05`). -/
theorem C141_zero (q : ℝ) : unquantizeError 0 q = .error .valueError := by
  have h0 : rInt (0 : ℝ) = 0 := by have := C85_integer 0; simpa using this
  have e1 : unquantizeMin (0 : ℝ) (num 1 / num 10) = .ok (-(1 / 20)) := by
    rw [tenth_real]
    have : pyDiv (0 : ℝ) (1 / 10) = .ok 0 := by rw [pyDiv_real, if_neg (by norm_num)]; simp
    simp only [unquantizeMin, this, bind, Except.bind, pure, Except.pure, h0]
    norm_num
  have l1 : mathLog (-(1 / 20) : ℝ) = .error .valueError := if_neg (by norm_num)
  simp only [unquantizeError, e1, l1, bind, Except.bind]

/-- **C141** Which distances these are: all `d` with `(d + 1e-10) e^(q/2) < 0.05`; none with `(d + 1e-10) e^(-q/2) > 0.05`. -/
theorem C141_seen_zero (d q : ℝ) (hq : 0 < q) (hd : -(1 / 10 ^ 10) < d) :
    ((d + 1 / 10 ^ 10) * Real.exp (q / 2) < 1 / 20 → quantizeDist d q = .ok 0) ∧
    (1 / 20 < (d + 1 / 10 ^ 10) * Real.exp (-(q / 2)) → quantizeDist d q ≠ .ok 0) := by
  obtain ⟨s, hs, ⟨k, hk⟩, h1, h2⟩ := C140_value d q hq hd
  constructor
  · intro h
    rw [hs]
    have : (k : ℝ) < 1 := by rw [hk] at h2; linarith
    have : k = 0 := by have : k < 1 := by exact_mod_cast this
                       omega
    rw [hk, this]; simp
  · intro h h'
    rw [hs] at h'
    have := Except.ok.inj h'
    linarith

theorem C141_refuted : ∃ d q s : ℝ, 0 ≤ d ∧ 0 < q ∧ quantizeDist d q = .ok s ∧ ∀ err, unquantizeError s q ≠ .ok err := by
  refine ⟨0, 1, 0, le_rfl, one_pos, (C141_seen_zero 0 1 one_pos (by norm_num)).1 ?_, fun err h => ?_⟩
  · have : Real.exp (1 / 2 : ℝ) ≤ Real.exp 1 := Real.exp_le_exp.mpr (by norm_num)
    have h2 := Real.exp_one_lt_d9
    rw [zero_add]
    linarith
  · rw [C141_zero] at h; cases h

example : ∃ err, unquantizeError (1 : ℝ) (1 / 10) = .ok err ∧
    (∀ d d' : ℝ, quantizeDist d (1 / 10) = .ok 1 → quantizeDist d' (1 / 10) = .ok 1 → |d - d'| ≤ err) := by
  obtain ⟨err, h1, h2, -⟩ := C141_partial 1 (1 / 10) (by norm_num) (by norm_num) ⟨_, quantizeDist_one⟩
  exact ⟨err, h1, h2⟩

end SoccerMath
end PyrusGeom
