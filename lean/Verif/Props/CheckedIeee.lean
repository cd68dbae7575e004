import Verif.Props.Checked
import Verif.Props.Ieee

/-! # C163: which doubles make a function raise -/

namespace PyrusGeom
open Spec PyMathE Ieee

/-- An infinity. -/
def Spec.IsInf : Ieee → Prop
  | inf _ => True
  | _ => False

/-- A finite number whose square, rounded, is beyond the largest double: its absolute value is at least about 1.34e154.
`(2^54 - 1) · 2^970` is the middle between the largest double and 2^1024. -/
def Spec.SqOverflow : Ieee → Prop
  | fin x => (2 ^ 54 - 1) * 2 ^ 970 ≤ x * x
  | _ => False

/-! ## Rounding at the two ends of the range -/

theorem maxDouble_eq : maxDouble = (2 ^ 54 - 1) * 2 ^ 970 - 2 ^ 970 := by
  have z : (2 : ℝ) ^ (971 : ℤ) = 2 ^ 970 * 2 := by
    rw [show (971 : ℤ) = ((971 : ℕ) : ℤ) from rfl, zpow_natCast, pow_succ]
  unfold maxDouble
  rw [z]
  generalize (2 : ℝ) ^ 970 = P
  ring

theorem rne_overflow_iff {y : ℝ} (h0 : 0 ≤ y) : maxDouble < rne y ↔ (2 ^ 54 - 1) * 2 ^ 970 ≤ y := by
  have z : (2 : ℝ) ^ (1023 - 52 : ℤ) = 2 ^ 970 * 2 := by
    rw [show (1023 - 52 : ℤ) = ((971 : ℕ) : ℤ) from rfl, zpow_natCast, pow_succ]
  have z1 : (2 : ℝ) ^ (1023 : ℤ) = 2 ^ 53 * 2 ^ 970 := by
    rw [← pow_add, show (1023 : ℤ) = ((53 + 970 : ℕ) : ℤ) from rfl, zpow_natCast]
  have z2 : (2 : ℝ) ^ (1023 + 1 : ℤ) = 2 ^ 54 * 2 ^ 970 := by
    rw [← pow_add, show (1023 + 1 : ℤ) = ((54 + 970 : ℕ) : ℤ) from rfl, zpow_natCast]
  have p : (0 : ℝ) < 2 ^ 970 := by positivity
  have hd := isDouble_maxDouble
  rw [maxDouble_eq] at hd ⊢
  generalize (2 : ℝ) ^ 970 = P at z z1 z2 p hd ⊢
  have p2 : 0 < P * 2 := by linarith only [p]
  have key : rne ((2 ^ 54 - 1) * P) = P * 2 * 2 ^ 53 := by
    have hp : (0 : ℝ) ≤ (2 ^ 54 - 1) * P := mul_nonneg (by norm_num) p.le
    have h := rne_eq_even (x := (2 ^ 54 - 1) * P) 1023 (2 ^ 53) (by norm_num)
      (by rw [abs_of_nonneg hp, z1]; exact mul_le_mul_of_nonneg_right (by norm_num) p.le)
      (by rw [abs_of_nonneg hp, z2]; exact mul_lt_mul_of_pos_right (by norm_num) p)
      (by
        rw [z, mul_comm _ P, mul_div_mul_left _ _ p.ne', abs_le]
        constructor <;> norm_num)
      ⟨2 ^ 52, by norm_num⟩
    rw [h, z]
    push_cast
    norm_num
  constructor
  · intro h
    by_contra h'
    push Not at h'
    refine absurd h (not_lt.mpr ?_)
    rcases le_total y ((2 ^ 54 - 1) * P - P) with hm | hm
    · have := rne_mono hm
      rwa [rne_of_isDouble hd] at this
    · have h := rne_eq (x := y) 1023 (2 ^ 53 - 1) (by norm_num)
        (by rw [abs_of_nonneg h0, z1]; linarith only [hm, p])
        (by rw [abs_of_nonneg h0, z2]; linarith only [h', p])
        (by
          rw [z, abs_lt]
          push_cast
          constructor
          · have : (2 ^ 53 - 1 : ℝ) ≤ y / (P * 2) := by
              rw [le_div_iff₀ p2]; linarith only [hm, p]
            linarith only [this]
          · have : y / (P * 2) < (2 ^ 53 - 1 / 2 : ℝ) := by
              rw [div_lt_iff₀ p2]; linarith only [h', p]
            linarith only [this])
      rw [h, z]
      push_cast
      linarith only [p]
  · intro h
    have h1 := rne_mono h
    rw [key] at h1
    linarith only [h1, p]

theorem isDouble_pos_ge {x : ℝ} (h : IsDouble x) (h0 : 0 < x) : (2 : ℝ) ^ (-1074 : ℤ) ≤ x := by
  have := IsDouble.gap isDouble_zero h h0
  linarith

/-- A nonnegative number is rounded to zero exactly up to half of the smallest positive double. -/
theorem rne_eq_zero_iff {y : ℝ} (h0 : 0 ≤ y) : rne y = 0 ↔ y ≤ (2 : ℝ) ^ (-1075 : ℤ) := by
  have hu : ∀ t : ℝ, 0 < t → t < (2 : ℝ) ^ (-1022 : ℤ) → ulp t = (2 : ℝ) ^ (-1074 : ℤ) := by
    intro t ht ht'
    unfold ulp
    rw [max_eq_right, show (-1022 - 52 : ℤ) = -1074 by norm_num]
    rw [abs_of_pos ht]
    have := (Int.lt_zpow_iff_log_lt (R := ℝ) (b := 2) one_lt_two ht (x := -1022)).mp (by exact_mod_cast ht')
    omega
  have hh : (2 : ℝ) ^ (-1074 : ℤ) = 2 * (2 : ℝ) ^ (-1075 : ℤ) := by
    rw [show (-1074 : ℤ) = 1 + -1075 by norm_num, zpow_add₀ two_ne_zero, zpow_one]
  have p : (0 : ℝ) < (2 : ℝ) ^ (-1075 : ℤ) := by positivity
  have hlt : (2 : ℝ) ^ (-1074 : ℤ) < (2 : ℝ) ^ (-1022 : ℤ) := zpow_lt_zpow_right₀ one_lt_two (by norm_num)
  constructor
  · intro h
    by_contra h'
    push Not at h'
    rcases le_total ((2 : ℝ) ^ (-1074 : ℤ)) y with h1 | h1
    · have := rne_mono h1
      rw [h, rne_of_isDouble (isDouble_pow (-1074) (by norm_num))] at this
      linarith
    · have hy : 0 < y := p.trans h'
      unfold rne at h
      rw [hu y hy (h1.trans_lt hlt)] at h
      have h1' : y / (2 : ℝ) ^ (-1074 : ℤ) ≤ 1 := by rw [div_le_one (by positivity)]; exact h1
      have h2' : 1 / 2 < y / (2 : ℝ) ^ (-1074 : ℤ) := by rw [lt_div_iff₀ (by positivity), hh]; linarith
      rw [roundEven_eq (n := 1) (by rw [abs_lt]; push_cast; constructor <;> linarith)] at h
      simp at h
  · intro h
    rcases h0.eq_or_lt with h1 | h1
    · rw [← h1, rne_zero]
    · unfold rne
      have h2' : y / (2 : ℝ) ^ (-1074 : ℤ) ≤ 1 / 2 := by rw [div_le_iff₀ (by positivity), hh]; linarith
      have h3' : 0 < y / (2 : ℝ) ^ (-1074 : ℤ) := by positivity
      rw [hu y h1 (by linarith), roundEven_eq_even (n := 0) (by rw [abs_le]; push_cast; constructor <;> linarith) (by simp)]
      simp

/-! ## Numbers -/

theorem num_ieee {n : ℕ} (h : n ≤ 2 ^ 53) : (num n : Ieee) = fin n := by
  change Ieee.ofReal (n : ℝ) = _
  have : |(n : ℝ)| ≤ 2 ^ 53 := by rw [abs_of_nonneg (Nat.cast_nonneg _)]; exact_mod_cast h
  rw [Ieee.ofReal_of_le (n := 53) (by norm_num) this, rne_of_isDouble (isDouble_nat h)]

@[simp] theorem num_ieee_zero : (num 0 : Ieee) = fin 0 := by rw [num_ieee (by norm_num)]; simp

theorem beq_zero_iff {x : Ieee} : (x == num 0) = true ↔ x = fin 0 := by
  rw [num_ieee_zero, Ieee.beq_iff]
  cases x <;> simp [Ieee.same]

theorem pyDiv_ieee {x y : Ieee} (h : y ≠ fin 0) : pyDiv x y = .ok (x / y) := by
  unfold pyDiv
  rw [if_neg]
  intro h'
  exact h (beq_zero_iff.mp h')

theorem pyDiv_ieee_zero (x : Ieee) : pyDiv x (fin 0) = .error .zeroDivision := by
  unfold pyDiv
  rw [if_pos (beq_zero_iff.mpr rfl)]

theorem ne_zero_of_fabs_ieee {x : Ieee} (h : ¬ fabs x < EPSILON) : x ≠ fin 0 := by
  rintro rfl; exact h fabs_fin_zero_lt

/-- Arguments of `math.sqrt` that do not raise. -/
def Ieee.NN : Ieee → Prop
  | nan => True
  | inf s => s = false
  | fin x => 0 ≤ x

theorem sqrtE_nn {x : Ieee} (h : x.NN) : sqrtE x = .ok (PyMath.sqrt x) := by
  cases x with
  | nan => rfl
  | inf s => simp only [Ieee.NN] at h; subst h; rfl
  | fin x => exact if_neg (not_lt.mpr h)

theorem rne_nonneg' {x : ℝ} (h : 0 ≤ x) : 0 ≤ rne x := by
  have := rne_mono h; rwa [rne_zero] at this

theorem Ieee.NN.ofReal {x : ℝ} (h : 0 ≤ x) : (Ieee.ofReal x).NN := by
  unfold Ieee.ofReal
  split_ifs
  · exact rne_nonneg' h
  · simp [Ieee.NN, h]

theorem Ieee.NN.add {x y : Ieee} (hx : x.NN) (hy : y.NN) : (x + y).NN := by
  cases x <;> cases y <;> simp only [Ieee.NN] at hx hy <;> try trivial
  · rw [hx, hy]; rfl
  · exact Ieee.NN.ofReal (add_nonneg hx hy)

theorem Ieee.NN.mul_self (x : Ieee) : (x * x).NN := by
  cases x with
  | nan => trivial
  | inf s => cases s <;> rfl
  | fin x => exact Ieee.NN.ofReal (mul_self_nonneg x)

theorem Ieee.NN.pyMin {x y : Ieee} (hx : x.NN) (hy : y.NN) : (pyMin x y).NN := by
  unfold PyrusGeom.pyMin; split_ifs <;> assumption
theorem Ieee.NN.pyMax {x y : Ieee} (hx : x.NN) (hy : y.NN) : (pyMax x y).NN := by
  unfold PyrusGeom.pyMax; split_ifs <;> assumption

theorem isInf_ofReal_nonneg {y : ℝ} (h0 : 0 ≤ y) : IsInf (Ieee.ofReal y) ↔ (2 ^ 54 - 1) * 2 ^ 970 ≤ y := by
  rw [← rne_overflow_iff h0]
  unfold Ieee.ofReal
  rw [abs_of_nonneg (rne_nonneg' h0)]
  split_ifs with h
  · simp [IsInf, h]
  · simpa [IsInf] using h

open Classical in
/-- `math.pow(x, 2)` -/
theorem powE_two_ieee (x : Ieee) : powE x 2 = if SqOverflow x then .error .overflow else .ok (PyrusGeom.sq x) := by
  cases x with
  | nan => rw [if_neg (by exact id)]; rfl
  | inf s =>
    change Except.ok (PyMath.powi (inf s) 2) = _
    rw [if_neg (by exact id)]
    cases s <;> rfl
  | fin x =>
    have e : (PyMath.powi (fin x) 2 : Ieee) = Ieee.ofReal (x * x) := by
      change Ieee.ofReal (x ^ (2 : ℤ)) = _
      congr 1
      rw [show (2 : ℤ) = ((2 : ℕ) : ℤ) from rfl, zpow_natCast, pow_two]
    have e2 : PyrusGeom.sq (fin x) = Ieee.ofReal (x * x) := rfl
    have h0 : ¬ (x = 0 ∧ (2 : ℤ) < 0) := by simp
    change (if x = 0 ∧ (2 : ℤ) < 0 then _ else noInf (PyMath.powi (fin x) 2)) = _
    rw [if_neg h0, e, e2]
    have h := isInf_ofReal_nonneg (mul_self_nonneg x)
    by_cases c : SqOverflow (fin x)
    · rw [if_pos c]
      have := h.mpr c
      revert this
      cases Ieee.ofReal (x * x) <;> simp [IsInf, noInf]
    · rw [if_neg c]
      have := mt h.mp c
      revert this
      cases Ieee.ofReal (x * x) <;> simp [IsInf, noInf]

open Classical in
theorem cosE_ieee (x : Ieee) : PyMathE.cosE x = if IsInf x then .error .valueError else .ok (PyMath.cos x) := by
  cases x <;> simp [PyMathE.cosE, finArg, IsInf]
open Classical in
theorem sinE_ieee (x : Ieee) : PyMathE.sinE x = if IsInf x then .error .valueError else .ok (PyMath.sin x) := by
  cases x <;> simp [PyMathE.sinE, finArg, IsInf]
open Classical in
theorem tanE_ieee (x : Ieee) : PyMathE.tanE x = if IsInf x then .error .valueError else .ok (PyMath.tan x) := by
  cases x <;> simp [PyMathE.tanE, finArg, IsInf]

/-- NaN, or a number of at most `2 ^ n`. -/
def Ieee.Small (n : ℕ) (x : Ieee) : Prop := x = nan ∨ ∃ r, x = fin r ∧ |r| ≤ 2 ^ n

namespace Ieee.Small
variable {n m : ℕ} {x y : Ieee}

theorem not_inf (h : Small n x) : ¬ IsInf x := by
  rcases h with rfl | ⟨r, rfl, _⟩ <;> exact id

theorem mono (h : Small n x) (hn : n ≤ m) : Small m x := by
  rcases h with rfl | ⟨r, rfl, hr⟩
  · exact .inl rfl
  · exact .inr ⟨r, rfl, hr.trans (pow_le_pow_right₀ one_le_two hn)⟩

theorem ofReal {r : ℝ} (h : |r| ≤ 2 ^ n) (hn : n ≤ 1023) : Small n (Ieee.ofReal r) :=
  .inr ⟨_, Ieee.ofReal_of_le hn h, rne_abs_le_two_pow h⟩

theorem fin {r : ℝ} (h : |r| ≤ 2 ^ n) : Small n (Ieee.fin r) := .inr ⟨r, rfl, h⟩

theorem num {k : ℕ} (h : k ≤ 2 ^ n) (hn : n ≤ 53) : Small n (num k : Ieee) := by
  rw [num_ieee (h.trans (Nat.pow_le_pow_right (by norm_num) hn))]
  refine fin ?_
  rw [abs_of_nonneg (Nat.cast_nonneg _)]; exact_mod_cast h

theorem neg (h : Small n x) : Small n (-x) := by
  rcases h with rfl | ⟨r, rfl, hr⟩
  · exact .inl rfl
  · exact .inr ⟨-r, rfl, by rwa [abs_neg]⟩

theorem add (h : Small n x) (h' : Small n y) (hn : n + 1 ≤ 1023) : Small (n + 1) (x + y) := by
  rcases h with rfl | ⟨r, rfl, hr⟩
  · exact .inl (nan_add _)
  rcases h' with rfl | ⟨t, rfl, ht⟩
  · exact .inl (add_nan _)
  exact ofReal (by rw [pow_succ]; linarith [abs_add_le r t]) hn

theorem sub (h : Small n x) (h' : Small n y) (hn : n + 1 ≤ 1023) : Small (n + 1) (x - y) := h.add h'.neg hn

theorem mul (h : Small n x) (h' : Small m y) (hn : n + m ≤ 1023) : Small (n + m) (x * y) := by
  rcases h with rfl | ⟨r, rfl, hr⟩
  · exact .inl (nan_mul _)
  rcases h' with rfl | ⟨t, rfl, ht⟩
  · exact .inl (mul_nan _)
  exact ofReal (by rw [abs_mul, pow_add]; exact mul_le_mul hr ht (abs_nonneg _) (by positivity)) hn

theorem ite {p : Prop} [Decidable p] (h : Small n x) (h' : Small n y) : Small n (if p then x else y) := by
  split_ifs <;> assumption

end Ieee.Small

theorem pi_ieee : ∃ r : ℝ, (PyMath.pi : Ieee) = fin r ∧ 2 ≤ r ∧ r ≤ 4 := by
  have h4 := Real.pi_le_four
  refine ⟨rne Real.pi, Ieee.ofReal_of_le (n := 2) (by norm_num) (by rw [abs_of_pos Real.pi_pos]; norm_num; exact h4), ?_, ?_⟩
  · have := rne_mono Real.two_le_pi
    rwa [rne_of_isDouble (show IsDouble 2 by simpa using isDouble_nat (n := 2) (by norm_num))] at this
  · have := rne_mono h4
    rwa [rne_of_isDouble (show IsDouble 4 by simpa using isDouble_nat (n := 4) (by norm_num))] at this

theorem small_DEG2RAD : Small 0 (DEG2RAD : Ieee) := by
  obtain ⟨r, hr, h1, h2⟩ := pi_ieee
  unfold DEG2RAD
  rw [hr, num_ieee (by norm_num)]
  refine Small.ofReal ?_ (by norm_num)
  push_cast
  rw [abs_of_nonneg (by positivity), div_le_iff₀ (by norm_num)]
  linarith

theorem small_RAD2DEG : Small 7 (RAD2DEG : Ieee) := by
  obtain ⟨r, hr, h1, h2⟩ := pi_ieee
  unfold RAD2DEG
  rw [hr, num_ieee (by norm_num)]
  refine Small.ofReal ?_ (by norm_num)
  push_cast
  rw [abs_of_nonneg (by positivity), div_le_iff₀ (by linarith)]
  linarith

/-! ## Angles -/

/-- The degrees of an angle built by the constructor (`C163_angle`): NaN or a number of at most 360. -/
def Spec.Made (a : AngleDeg Ieee) : Prop := a.deg = nan ∨ ∃ x, a.deg = fin x ∧ |x| ≤ 360

theorem Spec.Made.small {a : AngleDeg Ieee} (h : Made a) : Small 9 a.deg := by
  rcases h with h | ⟨x, h, hx⟩
  · exact .inl h
  · exact .inr ⟨x, h, hx.trans (by norm_num)⟩

namespace AngleDeg

theorem made_normal {d : Ieee} (h : ¬ IsInf d) : Made ⟨normalDeg d⟩ := by
  cases d with
  | nan => exact .inl normalDeg_nan
  | inf s => exact absurd trivial h
  | fin x =>
    obtain ⟨h1, h2, h3⟩ := C132_finite x
    exact .inr ⟨_, h1, by rw [abs_le]; constructor <;> linarith⟩

theorem made_ofNum {d : Ieee} (h : ¬ IsInf d) : Made (ofNum d) := made_normal h

open Classical in
theorem normalDegE_ieee (d : Ieee) : normalDegE d = if IsInf d then .error .valueError else .ok (normalDeg d) := by
  have e : (num 360 : Ieee) = fin 360 := by rw [num_ieee (by norm_num)]; norm_num
  unfold normalDegE normalDeg
  rw [e]
  cases d with
  | nan => rw [if_neg (show ¬ IsInf nan from id)]; simp [pure, Except.pure]
  | inf s =>
    rw [if_pos (show IsInf (inf s) from trivial), if_pos (by cases s; exact .inr rfl; exact .inl rfl)]
    rfl
  | fin x =>
    rw [if_neg (show ¬ IsInf (fin x) from id)]
    by_cases c : fin x < -(fin 360) ∨ (fin 360 : Ieee) < fin x
    · rw [if_pos c, if_pos c]
      have : fmodE (fin x) (fin 360) = .ok (PyMath.fmod (fin x) (fin 360)) := if_neg (by norm_num)
      rw [this]; rfl
    · rw [if_neg c, if_neg c]; rfl

variable {a b c : AngleDeg Ieee}

theorem normalDegE_of {d : Ieee} (h : ¬ IsInf d) : normalDegE d = .ok (normalDeg d) := by
  classical rw [normalDegE_ieee, if_neg h]
theorem ofNumE_of {d : Ieee} (h : ¬ IsInf d) : ofNumE d = .ok (ofNum d) := by
  unfold ofNumE; rw [normalDegE_of h]; rfl
theorem ofNumE_inf {d : Ieee} (h : IsInf d) : ofNumE d = .error .valueError := by
  classical unfold ofNumE; rw [normalDegE_ieee, if_pos h]; rfl
theorem small_degree (h : Made a) : Small 9 a.degree := (made_ofNum h.small.not_inf).small
theorem degreeE_of (h : Made a) : a.degreeE = .ok a.degree := normalDegE_of h.small.not_inf
theorem ofAngleE_of (h : Made a) : a.ofAngleE = .ok (ofAngle a) := by
  unfold ofAngleE
  rw [degreeE_of h, except_ok_bind, ofNumE_of (small_degree h).not_inf]; rfl
theorem made_ofAngle (h : Made a) : Made (ofAngle a) := made_ofNum (small_degree h).not_inf
theorem subE_of (h : Made a) (h' : Made b) : a.subE b = .ok (a.sub b) :=
  ofNumE_of (h.small.sub h'.small (by norm_num)).not_inf
theorem made_sub (h : Made a) (h' : Made b) : Made (a.sub b) :=
  made_ofNum (h.small.sub h'.small (by norm_num)).not_inf
theorem absE_of (h : Made a) : a.absE = .ok a.abs := by
  unfold absE; rw [degreeE_of h]; rfl
theorem cosE_of (h : Made a) : a.cosE = .ok a.cos := by
  classical
  unfold cosE; rw [cosE_ieee, if_neg (h.small.mul small_DEG2RAD (by norm_num)).not_inf]; rfl
theorem sinE_of (h : Made a) : a.sinE = .ok a.sin := by
  classical
  unfold sinE; rw [sinE_ieee, if_neg (h.small.mul small_DEG2RAD (by norm_num)).not_inf]; rfl
theorem tanE_of (h : Made a) : a.tanE = .ok a.tan := by
  classical
  unfold tanE; rw [tanE_ieee, if_neg (h.small.mul small_DEG2RAD (by norm_num)).not_inf]; rfl
theorem isLeftEqualOfE_of (h' : Made b) : a.isLeftEqualOfE b = .ok (a.isLeftEqualOf b) := by
  unfold isLeftEqualOfE; rw [degreeE_of h']; rfl
theorem isWithinE_of (ha : Made a) (hc : Made c) : a.isWithinE b c = .ok (a.isWithin b c) := by
  unfold isWithinE isWithin
  rw [isLeftEqualOfE_of hc, isLeftEqualOfE_of hc, isLeftEqualOfE_of ha]
  cases h1 : b.isLeftEqualOf c <;> cases h2 : b.isLeftEqualOf a <;> cases h3 : a.isLeftEqualOf c <;> rfl

/-- The half of a Made angle's degrees and a Made angle: no overflow. -/
theorem bisectE_of {x y : Ieee} (hx : ¬ IsInf x) (hy : ¬ IsInf y) :
    bisectE x y = .ok (bisect x y) ∧ Made (bisect x y) := by
  have m1 := made_ofNum hx
  have m2 := made_ofNum hy
  have m3 := made_sub m2 m1
  have m4 := made_ofAngle m3
  have s4 := small_degree m4
  have sh : Small 0 (num 1 / num 2 : Ieee) := by
    rw [num_ieee (by norm_num), num_ieee (by norm_num)]
    exact Small.ofReal (by norm_num [abs_of_nonneg]) (by norm_num)
  have s5 : Small 10 ((ofNum x).deg + (ofAngle ((ofNum y).sub (ofNum x))).degree * (num 1 / num 2)) :=
    m1.small.add (s4.mul sh (by norm_num)) (by norm_num)
  have m6 := made_ofNum s5.not_inf
  have s7 : Small 10 ((ofNum ((ofNum x).deg + (ofAngle ((ofNum y).sub (ofNum x))).degree * (num 1 / num 2))).deg + num 180) :=
    m6.small.add (Small.num (n := 9) (by norm_num) (by norm_num)) (by norm_num)
  have m8 := made_ofNum s7.not_inf
  constructor
  · unfold bisectE bisect addNumE iaddNum addNum
    dsimp only
    rw [ofNumE_of hx, except_ok_bind, ofNumE_of hy, except_ok_bind, subE_of m2 m1, except_ok_bind, ofAngleE_of m3,
      except_ok_bind, degreeE_of m1, except_ok_bind, except_ok_bind, degreeE_of m2, except_ok_bind, degreeE_of m4, except_ok_bind,
      ofNumE_of s5.not_inf, except_ok_bind]
    split_ifs
    · rfl
    · exact ofNumE_of s7.not_inf
  · unfold bisect iaddNum addNum
    dsimp only
    split_ifs
    · exact m6
    · exact m8

open Classical in
/-- **C163** Building an angle from a number, and rotating by a number, raise `ValueError` exactly when the number handed to
`math.fmod` (to `math.cos`) is an infinity; a division by the number zero raises. -/
theorem C163_angle_number (a : AngleDeg Ieee) (d : Ieee) :
    ofNumE d = (if IsInf d then .error .valueError else .ok (ofNum d)) ∧
    (¬ IsInf d → Made (ofNum d)) ∧
    a.addNumE d = (if IsInf (a.deg + d) then .error .valueError else .ok (a.addNum d)) ∧
    a.subNumE d = (if IsInf (a.deg - d) then .error .valueError else .ok (a.subNum d)) ∧
    a.mulE d = (if IsInf (a.deg * d) then .error .valueError else .ok (a.mul d)) ∧
    a.divE d = (if d = fin 0 then .error .zeroDivision else if IsInf (a.deg / d) then .error .valueError else a.floordiv d) ∧
    cosDegE d = (if IsInf (d * DEG2RAD) then .error .valueError else .ok (cosDeg d)) ∧
    sinDegE d = (if IsInf (d * DEG2RAD) then .error .valueError else .ok (sinDeg d)) ∧
    tanDegE d = (if IsInf (d * DEG2RAD) then .error .valueError else .ok (tanDeg d)) ∧
    (acosDegE d = acosDeg d ∧ ∃ x, acosDeg d = .ok x) ∧ (asinDegE d = asinDeg d ∧ ∃ x, asinDeg d = .ok x) ∧
    normalizeAngleE d = .ok (normalizeAngle d) := by
  have key : ∀ d : Ieee, ofNumE d = if IsInf d then .error .valueError else .ok (ofNum d) := by
    intro d; split_ifs with h
    · exact ofNumE_inf h
    · exact ofNumE_of h
  have e1 : (num 1 : Ieee) = fin 1 := by rw [num_ieee (by norm_num)]; norm_num
  have e360 : (num 360 : Ieee) = fin 360 := by rw [num_ieee (by norm_num)]; norm_num
  have hdiv : ∀ x y : Ieee, y = fin 0 → pyDiv x y = .error .zeroDivision := by rintro x y rfl; exact pyDiv_ieee_zero x
  refine ⟨key d, made_ofNum, key _, key _, key _, ?_, cosE_ieee _, sinE_ieee _, tanE_ieee _, ?_, ?_, ?_⟩
  · unfold divE floordiv
    split_ifs with h1 h2
    · rw [hdiv _ _ h1]; rfl
    · rw [pyDiv_ieee h1]; exact ofNumE_inf h2
    · rw [pyDiv_ieee h1]; exact ofNumE_of h2
  · unfold acosDegE acosDeg mathAcos
    rw [e1]
    split_ifs with h1 h2 h3
    · exact ⟨rfl, _, rfl⟩
    · exact ⟨rfl, _, rfl⟩
    · exfalso
      cases d with
      | nan => simp at h3
      | inf s => cases s; exact h1 rfl; exact h2 rfl
      | fin x =>
        have a1 : ¬ (1 : ℝ) ≤ x := h1
        have a2 : ¬ x ≤ -1 := h2
        rcases h3 with h | h
        · exact a1 (le_of_lt (show (1 : ℝ) < x from h))
        · exact a2 (le_of_lt (show x < -1 from h))
    · cases d with
      | nan => exact ⟨rfl, _, rfl⟩
      | inf s => cases s; exact absurd rfl h1; exact absurd rfl h2
      | fin x =>
        have a3 : ¬ (x < -1 ∨ 1 < x) := fun h => h3 (h.symm)
        have : acosE (fin x) = .ok (PyMath.acos (fin x)) := if_neg a3
        rw [this]; exact ⟨rfl, _, rfl⟩
  · unfold asinDegE asinDeg mathAsin
    rw [e1]
    split_ifs with h1 h2 h3
    · exact ⟨rfl, _, rfl⟩
    · exact ⟨rfl, _, rfl⟩
    · exfalso
      cases d with
      | nan => simp at h3
      | inf s => cases s; exact h1 rfl; exact h2 rfl
      | fin x =>
        have a1 : ¬ (1 : ℝ) ≤ x := h1
        have a2 : ¬ x ≤ -1 := h2
        rcases h3 with h | h
        · exact a1 (le_of_lt (show (1 : ℝ) < x from h))
        · exact a2 (le_of_lt (show x < -1 from h))
    · cases d with
      | nan => exact ⟨rfl, _, rfl⟩
      | inf s => cases s; exact absurd rfl h1; exact absurd rfl h2
      | fin x =>
        have a3 : ¬ (x < -1 ∨ 1 < x) := fun h => h3 (h.symm)
        have : asinE (fin x) = .ok (PyMath.asin (fin x)) := if_neg a3
        rw [this]; exact ⟨rfl, _, rfl⟩
  · unfold normalizeAngleE normalizeAngle
    rw [e360]
    have : ∀ x : Ieee, pmodE x (fin 360) = .ok (PyMath.pmod x (fin 360)) := by
      intro x; cases x <;> exact if_neg (by norm_num)
    rw [this]
    split_ifs <;> rfl

/-- **C163** Nothing that takes only angles (built by the constructor) raises, NaN included. -/
theorem C163_angle (ha : Made a) (hb : Made b) (hc : Made c) :
    a.degreeE = .ok a.degree ∧ (a.ofAngleE = .ok (ofAngle a) ∧ Made (ofAngle a)) ∧ a.setAngleE b = .ok (a.setAngle b) ∧
    a.absE = .ok a.abs ∧ a.radianE = .ok a.radian ∧ a.copyE = .ok a.copy ∧
    (a.reverseAngleE = .ok a.reverseAngle ∧ Made a.reverseAngle) ∧
    a.getNormalizedE = .ok a.getNormalized ∧ a.isLeftOfE b = .ok (a.isLeftOf b) ∧ a.isRightOfE b = .ok (a.isRightOf b) ∧
    a.isLeftEqualOfE b = .ok (a.isLeftEqualOf b) ∧ a.isRightEqualOfE b = .ok (a.isRightEqualOf b) ∧
    a.isWithinE b c = .ok (a.isWithin b c) ∧ (a.addE b = .ok (a.add b) ∧ Made (a.add b)) ∧
    (a.isubE b = .ok (a.isub b) ∧ Made (a.isub b)) ∧ (a.subE b = .ok (a.sub b) ∧ Made (a.sub b)) ∧
    (a.negE = .ok a.neg ∧ Made a.neg) ∧ a.eqE b = .ok (a.eq b) ∧ a.cosE = .ok a.cos ∧ a.sinE = .ok a.sin ∧ a.tanE = .ok a.tan := by
  have e360 : (num 360 : Ieee) = fin 360 := by rw [num_ieee (by norm_num)]; norm_num
  have n0 : (fin 360 : Ieee) ≠ fin 0 := by simp
  have i1 := (ha.small.add (small_degree hb) (by norm_num)).not_inf
  have i2 := (ha.small.sub (small_degree hb) (by norm_num)).not_inf
  have mo : ∀ {x : Ieee}, ¬ IsInf x → Made ⟨normalDeg x⟩ := made_normal
  refine ⟨degreeE_of ha, ⟨ofAngleE_of ha, made_ofAngle ha⟩, ?_, absE_of ha, ?_, ofNumE_of ha.small.not_inf, ⟨?_, ?_⟩, ?_, ?_, ?_,
    isLeftEqualOfE_of hb, ?_, isWithinE_of ha hc, ⟨?_, mo i1⟩, ⟨?_, mo i2⟩, ⟨subE_of ha hb, made_sub ha hb⟩,
    ⟨ofNumE_of ha.small.neg.not_inf, mo ha.small.neg.not_inf⟩, ?_, cosE_of ha, sinE_of ha, tanE_of ha⟩
  · unfold setAngleE; rw [degreeE_of hb]; rfl
  · unfold radianE; rw [degreeE_of ha]; rfl
  · unfold reverseAngleE; rw [degreeE_of ha, except_ok_bind, ofNumE_of (small_degree ha).not_inf]; rfl
  · unfold reverseAngle
    obtain h | ⟨x, h, hx⟩ := show (ofNum a.degree).deg = nan ∨ ∃ x, (ofNum a.degree).deg = fin x ∧ |x| ≤ 180 by
      cases hd : a.degree with
      | nan => exact .inl normalDeg_nan
      | inf s => exact absurd (show IsInf a.degree by rw [hd]; trivial) (small_degree ha).not_inf
      | fin x =>
        obtain ⟨h1, h2, h3⟩ := C132_finite x
        exact .inr ⟨_, h1, abs_le.mpr ⟨h2, h3⟩⟩
    · refine .inl ?_
      unfold reverse; rw [h]; simp
    · have e180 : (num 180 : Ieee) = fin 180 := by rw [num_ieee (by norm_num)]; norm_num
      have hb' : ∀ t : ℝ, |t| ≤ 360 → ∃ y, Ieee.ofReal t = fin y ∧ |y| ≤ 360 := by
        intro t ht
        refine ⟨rne t, Ieee.ofReal_of_le (n := 9) (by norm_num) (ht.trans (by norm_num)), ?_⟩
        rw [rne_abs]
        have := rne_mono ht
        rwa [rne_of_isDouble isDouble_360] at this
      have hx' := abs_le.mp hx
      unfold reverse
      rw [h, e180]
      split_ifs
      · obtain ⟨y, hy, hy'⟩ := hb' (180 + -x) (by rw [abs_le]; constructor <;> linarith)
        refine .inr ⟨-y, ?_, by rwa [abs_neg]⟩
        change -(Ieee.ofReal (180 + -x)) = _
        rw [hy]; rfl
      · obtain ⟨y, hy, hy'⟩ := hb' (180 + x) (by rw [abs_le]; constructor <;> linarith)
        exact .inr ⟨y, hy, hy'⟩
  · unfold getNormalizedE getNormalized; rw [degreeE_of ha, e360, except_ok_bind, pyDiv_ieee n0]
  · unfold isLeftOfE; rw [degreeE_of ha, degreeE_of hb]; rfl
  · unfold isRightOfE; rw [degreeE_of ha, degreeE_of hb]; rfl
  · unfold isRightEqualOfE; rw [degreeE_of ha, degreeE_of hb]; rfl
  · unfold addE; rw [degreeE_of hb, except_ok_bind]; exact ofNumE_of i1
  · unfold isubE; rw [degreeE_of hb, except_ok_bind]; exact ofNumE_of i2
  · unfold eqE; rw [degreeE_of hb]; rfl

/-- Non-vacuity: `AngleDeg(math.inf)` raises, `AngleDeg(math.nan)` does not, and `AngleDeg(90.0) * 1e308` raises (1.1e307 · 90 is
beyond the largest double). -/
example : ofNumE (inf false) = .error .valueError ∧ ofNumE nan = .ok ⟨nan⟩ ∧
    (AngleDeg.mk (fin 90)).mulE (fin (2 ^ 1020)) = .error .valueError := by
  refine ⟨ofNumE_inf trivial, ?_, ofNumE_inf ?_⟩
  · rw [ofNumE_of (d := nan) id]; unfold ofNum; rw [normalDeg_nan]
  · change IsInf (Ieee.ofReal (90 * 2 ^ 1020))
    rw [isInf_ofReal_nonneg (by positivity), show (2 : ℝ) ^ 1020 = 2 ^ 50 * 2 ^ 970 by rw [← pow_add], ← mul_assoc]
    exact mul_le_mul_of_nonneg_right (by norm_num) (by positivity)

end AngleDeg

/-! ## Vectors -/

namespace Vec

/-- The squares of the differences of the coordinates, as `dist` computes them, are too large. -/
def _root_.PyrusGeom.Spec.DistOverflow (v o : Vec Ieee) : Prop := SqOverflow (v.x - o.x) ∨ SqOverflow (v.y - o.y)

theorem rE_of (v : Vec Ieee) : v.rE = .ok v.r := sqrtE_nn (.add (.mul_self _) (.mul_self _))

theorem small_atan2 (y x : Ieee) : Small 2 (PyMath.atan2 y x) := by
  have h4 := Real.pi_le_four
  have h0 := Real.pi_pos
  have key : ∀ t : ℝ, |t| ≤ Real.pi → Small 2 (Ieee.ofReal t) := fun t ht =>
    Small.ofReal (ht.trans (h4.trans (by norm_num))) (by norm_num)
  cases y with
  | nan => exact .inl (by cases x <;> rfl)
  | inf s =>
    cases x with
    | nan => exact .inl rfl
    | inf t =>
      refine key _ ?_
      cases s <;> cases t <;> rw [abs_le] <;> constructor <;> simp <;> linarith
    | fin x =>
      refine key _ ?_
      cases s <;> rw [abs_le] <;> constructor <;> simp <;> linarith
  | fin y =>
    cases x with
    | nan => exact .inl rfl
    | inf t =>
      cases t
      · exact .inr ⟨0, rfl, by norm_num⟩
      · classical
        refine key (if y < 0 then -Real.pi else Real.pi) ?_
        split_ifs <;> rw [abs_le] <;> constructor <;> linarith
    | fin x => exact key _ (Complex.abs_arg_le_pi _)

theorem small_atan2Deg (y x : Ieee) : Small 9 (AngleDeg.atan2Deg y x) := by
  unfold AngleDeg.atan2Deg AngleDeg.rad2deg
  exact Small.ite (Small.num (by norm_num) (by norm_num)) ((small_atan2 y x).mul small_RAD2DEG (by norm_num))

theorem thE_of (v : Vec Ieee) : v.thE = .ok v.th := AngleDeg.ofNumE_of (small_atan2Deg _ _).not_inf
theorem made_th (v : Vec Ieee) : Made v.th := AngleDeg.made_ofNum (small_atan2Deg _ _).not_inf

theorem sq_nn (x : Ieee) : (PyrusGeom.sq x).NN := .mul_self x
theorem dist2_nn (v o : Vec Ieee) : (v.dist2 o).NN := .add (.mul_self _) (.mul_self _)

theorem dist2E_of {v o : Vec Ieee} (h : ¬ DistOverflow v o) : v.dist2E o = .ok (v.dist2 o) := by
  classical
  unfold DistOverflow at h; push Not at h
  unfold dist2E
  rw [powE_two_ieee, if_neg h.1, except_ok_bind, powE_two_ieee, if_neg h.2]; rfl

theorem dist2E_over {v o : Vec Ieee} (h : DistOverflow v o) : v.dist2E o = .error .overflow := by
  classical
  unfold dist2E
  rw [powE_two_ieee]
  by_cases h1 : SqOverflow (v.x - o.x)
  · rw [if_pos h1]; rfl
  · rw [if_neg h1, except_ok_bind, powE_two_ieee, if_pos (h.resolve_left h1)]; rfl

theorem distE_of {v o : Vec Ieee} (h : ¬ DistOverflow v o) : v.distE o = .ok (v.dist o) := by
  unfold distE; rw [dist2E_of h, except_ok_bind, sqrtE_nn (dist2_nn v o)]; rfl
theorem distE_over {v o : Vec Ieee} (h : DistOverflow v o) : v.distE o = .error .overflow := by
  unfold distE; rw [dist2E_over h]; rfl

theorem fromPolarE_of {a : AngleDeg Ieee} (h : Made a) (m : Ieee) : fromPolarE m a = .ok (fromPolar m a) := by
  unfold fromPolarE; rw [AngleDeg.cosE_of h, AngleDeg.sinE_of h]; rfl

theorem EPSILON_lt_ne {x : Ieee} (h : EPSILON < x) : x ≠ fin 0 := by
  rintro rfl
  rw [EPSILON_sim.eq] at h
  exact absurd (show (EPSILON : FP double).val < 0 from h) (not_lt.mpr fp_EPSILON.1.le)

open Classical in
/-- **C163** Of the methods of a vector, `dist` and `dist2` raise `OverflowError` exactly when a difference of coordinates is finite
but its square is not; `rotate` raises for an infinite angle; a division by the number zero raises. Nothing else does, for any doubles
whatsoever (infinities and NaN included). -/
theorem C163_vector (v o : Vec Ieee) (x : Ieee) (a : AngleDeg Ieee) (ha : Made a) :
    v.rE = .ok v.r ∧ (v.thE = .ok v.th ∧ Made v.th) ∧ v.setLengthE x = .ok (v.setLength x) ∧
    v.setPolarE x a = .ok (v.setPolar x a) ∧ v.setDirE a = .ok (v.setDir a) ∧ fromPolarE x a = .ok (fromPolar x a) ∧
    v.dist2E o = (if DistOverflow v o then .error .overflow else .ok (v.dist2 o)) ∧
    v.distE o = (if DistOverflow v o then .error .overflow else .ok (v.dist o)) ∧
    v.rotateE x = (if IsInf (x * DEG2RAD) then .error .valueError else .ok (v.rotate x)) ∧
    v.truediv x = (if x = fin 0 then .error .zeroDivision else .ok (ofXY (v.x / x) (v.y / x))) := by
  refine ⟨rE_of v, ⟨thE_of v, made_th v⟩, ?_, ?_, ?_, fromPolarE_of ha x, ?_, ?_, ?_, ?_⟩
  · unfold setLengthE setLength
    rw [rE_of, except_ok_bind]
    dsimp only
    split_ifs with h
    · rw [pyDiv_ieee (EPSILON_lt_ne h)]; rfl
    · rfl
  · unfold setPolarE; rw [AngleDeg.cosE_of ha, AngleDeg.sinE_of ha]; rfl
  · unfold setDirE; rw [rE_of, AngleDeg.cosE_of ha, AngleDeg.sinE_of ha]; rfl
  · split_ifs with h
    · exact dist2E_over h
    · exact dist2E_of h
  · split_ifs with h
    · exact distE_over h
    · exact distE_of h
  · unfold rotateE
    rw [cosE_ieee]
    split_ifs with h
    · rfl
    · rw [except_ok_bind, sinE_ieee, if_neg h]; rfl
  · unfold truediv
    split_ifs with h
    · subst h; rw [pyDiv_ieee_zero]; rfl
    · rw [pyDiv_ieee h, pyDiv_ieee h]; rfl

/-- **C163** refuted as "finite vectors never raise": the distance of (2^600, 0) from the origin raises, while the length of the same
vector is returned (as infinity). -/
theorem C163_refuted : (⟨fin (2 ^ 600), fin 0, true⟩ : Vec Ieee).distE ⟨fin 0, fin 0, true⟩ = .error .overflow ∧
    (⟨fin (2 ^ 600), fin 0, true⟩ : Vec Ieee).rE = .ok (inf false) := by
  have h2 : (fin (2 ^ 600) * fin (2 ^ 600) : Ieee) = inf false := by
    change Ieee.ofReal (2 ^ 600 * 2 ^ 600) = _
    rw [Ieee.ofReal_big]
    · rw [decide_eq_false (not_lt.mpr (by positivity))]
    · rw [abs_of_pos (by positivity), ← pow_add]
      exact pow_le_pow_right₀ one_le_two (by norm_num)
  have h0 : (fin 0 * fin 0 : Ieee) = fin 0 := by
    change Ieee.ofReal (0 * 0) = _
    rw [Ieee.ofReal_of_le (n := 0) (by norm_num) (by norm_num), mul_zero, rne_zero]
  constructor
  · refine distE_over (.inl ?_)
    have e : (fin (2 ^ 600) - fin 0 : Ieee) = fin (2 ^ 600) := by
      change Ieee.ofReal (2 ^ 600 + -0) = _
      rw [Ieee.ofReal_of_le (n := 600) (by norm_num) (by rw [neg_zero, add_zero, abs_of_pos (by positivity)]), neg_zero, add_zero,
        rne_of_isDouble]
      have := isDouble_pow 600 (by norm_num)
      rwa [show (600 : ℤ) = ((600 : ℕ) : ℤ) from rfl, zpow_natCast] at this
    simp only [e]
    change (2 ^ 54 - 1) * 2 ^ 970 ≤ (2 : ℝ) ^ 600 * 2 ^ 600
    rw [← pow_add, show (2 : ℝ) ^ (600 + 600) = 2 ^ 230 * 2 ^ 970 by rw [← pow_add]]
    exact mul_le_mul_of_nonneg_right ((sub_le_self _ zero_le_one).trans (pow_le_pow_right₀ one_le_two (by norm_num))) (by positivity)
  · rw [rE_of]
    unfold r r2
    simp only [h2, h0]
    rfl

/-- Coordinates up to 2^510 are safe. -/
theorem DistOverflow.not_of_le {v o : Vec Ieee} (h : ∀ z ∈ [v.x, v.y, o.x, o.y], Small 510 z) : ¬ DistOverflow v o := by
  have key : ∀ z w : Ieee, Small 510 z → Small 510 w → ¬ SqOverflow (z - w) := by
    intro z w hz hw
    rcases hz.sub hw (by norm_num) with e | ⟨r, e, hr⟩
    · rw [e]; exact id
    · rw [e]
      change ¬ ((2 ^ 54 - 1) * 2 ^ 970 ≤ r * r)
      rw [not_le, ← abs_mul_abs_self]
      calc |r| * |r| ≤ 2 ^ (510 + 1) * 2 ^ (510 + 1) := mul_le_mul hr hr (abs_nonneg _) (by positivity)
        _ = 2 ^ 52 * 2 ^ 970 := by rw [← pow_add, ← pow_add]
        _ < _ := mul_lt_mul_of_pos_right (by norm_num) (by positivity)
  rintro (h1 | h1)
  · exact key _ _ (h _ (by simp)) (h _ (by simp)) h1
  · exact key _ _ (h _ (by simp)) (h _ (by simp)) h1

/-- **C163** (partial: coordinates NaN or at most 2^510 ≈ 3.4e153 in absolute value). `dist` and `dist2` return. -/
theorem C163_dist_partial (v o : Vec Ieee) (h : ∀ z ∈ [v.x, v.y, o.x, o.y], Small 510 z) :
    v.dist2E o = .ok (v.dist2 o) ∧ v.distE o = .ok (v.dist o) :=
  ⟨dist2E_of (DistOverflow.not_of_le h), distE_of (DistOverflow.not_of_le h)⟩

end Vec

/-! ## Lines -/

namespace Line

theorem intersectionE_of (l m : Line Ieee) : l.intersectionE m = .ok (l.intersection m) := by
  unfold intersectionE intersection
  dsimp only
  split_ifs with h
  · rfl
  · rw [pyDiv_ieee (ne_zero_of_fabs_ieee h), pyDiv_ieee (ne_zero_of_fabs_ieee h)]; rfl

theorem getXE_of (l : Line Ieee) (y : Ieee) : l.getXE y = .ok (l.getX y) := by
  unfold getXE getX
  split_ifs with h
  · rfl
  · rw [pyDiv_ieee (ne_zero_of_fabs_ieee h)]

theorem getYE_of (l : Line Ieee) (y : Ieee) : l.getYE y = .ok (l.getY y) := by
  unfold getYE getY
  split_ifs with h
  · rfl
  · rw [pyDiv_ieee (ne_zero_of_fabs_ieee h)]

theorem ofAngleE_of {a : AngleDeg Ieee} (h : Made a) (p : Vec Ieee) : ofAngleE p a = .ok (ofAngle p a) := by
  unfold ofAngleE; rw [AngleDeg.sinE_of h, AngleDeg.cosE_of h]; rfl

theorem angleBisectorE_of {a b : AngleDeg Ieee} (ha : Made a) (hb : Made b) (p : Vec Ieee) :
    angleBisectorE p a b = .ok (angleBisector p a b) := by
  unfold angleBisectorE angleBisector
  obtain ⟨h1, h2⟩ := AngleDeg.bisectE_of (AngleDeg.small_degree ha).not_inf (AngleDeg.small_degree hb).not_inf
  rw [AngleDeg.degreeE_of ha, AngleDeg.degreeE_of hb, except_ok_bind, except_ok_bind, h1, except_ok_bind, ofAngleE_of h2]

/-- `a * a + b * b` is zero in double arithmetic. -/
theorem norm_zero_iff (l : Line Ieee) : l.a * l.a + l.b * l.b = fin 0 ↔
    ∃ a b : ℝ, l.a = fin a ∧ l.b = fin b ∧ a * a ≤ (2 : ℝ) ^ (-1075 : ℤ) ∧ b * b ≤ (2 : ℝ) ^ (-1075 : ℤ) := by
  obtain ⟨la, lb, lc⟩ := l
  dsimp only
  have hle : (2 : ℝ) ^ (-1075 : ℤ) ≤ 2 ^ 0 := by
    rw [pow_zero]; exact zpow_le_one_of_nonpos₀ one_le_two (by norm_num)
  have hz : ∀ a : ℝ, a * a ≤ (2 : ℝ) ^ (-1075 : ℤ) → Ieee.ofReal (a * a) = fin 0 := by
    intro a ha
    rw [Ieee.ofReal_of_le (n := 0) (by norm_num) (by rw [abs_of_nonneg (mul_self_nonneg a)]; exact ha.trans hle),
      (rne_eq_zero_iff (mul_self_nonneg a)).mpr ha]
  have hpos : ∀ a : ℝ, ¬ a * a ≤ (2 : ℝ) ^ (-1075 : ℤ) → Ieee.ofReal (a * a) = inf false ∨
      ∃ t : ℝ, Ieee.ofReal (a * a) = fin t ∧ (2 : ℝ) ^ (-1074 : ℤ) ≤ t := by
    intro a ha
    unfold Ieee.ofReal
    split_ifs
    · refine .inr ⟨_, rfl, isDouble_pos_ge (isDouble_rne _) (lt_of_le_of_ne (rne_nonneg' (mul_self_nonneg a)) ?_)⟩
      exact fun h => ha ((rne_eq_zero_iff (mul_self_nonneg a)).mp h.symm)
    · rw [decide_eq_false (not_lt.mpr (mul_self_nonneg a))]; exact .inl rfl
  have hnn : ∀ x : Ieee, (x * x).NN := fun x => .mul_self x
  -- one summand at least 2^-1074, the other not negative
  have big : ∀ x y : Ieee, x.NN → (y = inf false ∨ ∃ t : ℝ, y = fin t ∧ (2 : ℝ) ^ (-1074 : ℤ) ≤ t) → x + y ≠ fin 0 ∧ y + x ≠ fin 0 := by
    intro x y hx hy
    have p : (0 : ℝ) < (2 : ℝ) ^ (-1074 : ℤ) := by positivity
    cases x with
    | nan => simp
    | inf s =>
      simp only [Ieee.NN] at hx; subst hx
      rcases hy with rfl | ⟨t, rfl, ht⟩ <;> constructor <;> intro h <;> cases h
    | fin x =>
      simp only [Ieee.NN] at hx
      rcases hy with rfl | ⟨t, rfl, ht⟩
      · constructor <;> intro h <;> cases h
      · have key : Ieee.ofReal (x + t) ≠ fin 0 := by
          have h1 : (2 : ℝ) ^ (-1074 : ℤ) ≤ rne (x + t) := by
            have := rne_mono (show (2 : ℝ) ^ (-1074 : ℤ) ≤ x + t by linarith)
            rwa [rne_of_isDouble (isDouble_pow (-1074) (by norm_num))] at this
          unfold Ieee.ofReal
          split_ifs
          · intro h; injection h with h; rw [h] at h1; linarith
          · intro h; cases h
        refine ⟨key, ?_⟩
        change Ieee.ofReal (t + x) ≠ fin 0
        rwa [add_comm]
  constructor
  · intro h
    cases la with
    | nan => simp at h
    | inf s =>
      exfalso
      have e : (inf s * inf s : Ieee) = inf false := by cases s <;> rfl
      rw [e] at h
      exact (big _ _ (hnn lb) (.inl rfl)).2 h
    | fin a =>
      cases lb with
      | nan => simp at h
      | inf s =>
        exfalso
        have e : (inf s * inf s : Ieee) = inf false := by cases s <;> rfl
        rw [e] at h
        exact (big _ _ (hnn (fin a)) (.inl rfl)).1 h
      | fin b =>
        refine ⟨a, b, rfl, rfl, ?_, ?_⟩
        · by_contra c
          exact (big _ _ (hnn (fin b)) (hpos a c)).2 h
        · by_contra c
          exact (big _ _ (hnn (fin a)) (hpos b c)).1 h
  · rintro ⟨a, b, rfl, rfl, h1, h2⟩
    change Ieee.ofReal (a * a) + Ieee.ofReal (b * b) = _
    rw [hz a h1, hz b h2]
    change Ieee.ofReal (0 + 0) = _
    rw [Ieee.ofReal_of_le (n := 0) (by norm_num) (by norm_num), add_zero, rne_zero]

theorem norm_sqrt_zero_iff (l : Line Ieee) :
    PyMath.sqrt (l.a * l.a + l.b * l.b) = fin 0 ↔ l.a * l.a + l.b * l.b = fin 0 := by
  have hn : (l.a * l.a + l.b * l.b).NN := .add (.mul_self _) (.mul_self _)
  have hd : ∀ t, l.a * l.a + l.b * l.b = fin t → IsDouble t := by
    have hm : ∀ (r t : ℝ), Ieee.ofReal r = fin t → IsDouble t := by
      intro r t h
      unfold Ieee.ofReal at h
      split_ifs at h
      · injection h with h; rw [← h]; exact isDouble_rne _
    intro t h
    revert h
    generalize l.a * l.a = x
    generalize l.b * l.b = y
    intro h
    cases x with
    | nan => simp at h
    | inf s =>
      exfalso
      cases y with
      | nan => simp at h
      | inf t => cases s <;> cases t <;> cases h
      | fin y => cases h
    | fin x =>
      cases y with
      | nan => simp at h
      | inf t => cases h
      | fin y => exact hm _ _ h
  cases h : l.a * l.a + l.b * l.b with
  | nan => constructor <;> intro h <;> cases h
  | inf s =>
    rw [h] at hn; simp only [Ieee.NN] at hn; subst hn
    constructor <;> intro h <;> cases h
  | fin t =>
    rw [h] at hn
    have h0 : 0 ≤ t := hn
    have e : (PyMath.sqrt (fin t) : Ieee) = Ieee.ofReal (Real.sqrt t) := if_pos h0
    rw [e]
    constructor
    · intro h'
      by_contra c
      have ht : 0 < t := lt_of_le_of_ne h0 (fun k => c (by rw [k]))
      have h1 := isDouble_pos_ge (hd t h) ht
      have h2 : (2 : ℝ) ^ (-537 : ℤ) ≤ Real.sqrt t := by
        apply Real.le_sqrt_of_sq_le
        rw [← zpow_natCast, ← zpow_mul]
        exact h1
      have h3 := rne_mono h2
      rw [rne_of_isDouble (isDouble_pow (-537) (by norm_num))] at h3
      have p : (0 : ℝ) < (2 : ℝ) ^ (-537 : ℤ) := by positivity
      unfold Ieee.ofReal at h'
      split_ifs at h'
      injection h' with h'
      linarith
    · intro h'
      injection h' with h'
      rw [h', Real.sqrt_zero, Ieee.ofReal_of_le (n := 0) (by norm_num) (by norm_num), rne_zero]

/-- **C163** Of the methods of a line, `dist` and `dist2` raise `ZeroDivisionError` exactly when both coefficients are finite with
squares of at most 2^-1075, i.e. up to about 1.57e-162: the squares are rounded to zero. Nothing else raises, for any doubles
whatsoever. -/
theorem C163_line (l m : Line Ieee) (p : Vec Ieee) (x : Ieee) (a b : AngleDeg Ieee) (ha : Made a) (hb : Made b) :
    ofAngleE p a = .ok (ofAngle p a) ∧ l.getXE x = .ok (l.getX x) ∧ l.getYE x = .ok (l.getY x) ∧
    l.intersectionE m = .ok (l.intersection m) ∧ l.projectionE p = .ok (l.projection p) ∧
    angleBisectorE p a b = .ok (angleBisector p a b) ∧ l.distE p = l.dist p ∧
    (∀ e, l.dist p = .error e ↔ e = .zeroDivision ∧
      ∃ a b : ℝ, l.a = fin a ∧ l.b = fin b ∧ a * a ≤ (2 : ℝ) ^ (-1075 : ℤ) ∧ b * b ≤ (2 : ℝ) ^ (-1075 : ℤ)) ∧
    (∀ e, l.dist2 p = .error e ↔ e = .zeroDivision ∧
      ∃ a b : ℝ, l.a = fin a ∧ l.b = fin b ∧ a * a ≤ (2 : ℝ) ^ (-1075 : ℤ) ∧ b * b ≤ (2 : ℝ) ^ (-1075 : ℤ)) := by
  refine ⟨ofAngleE_of ha p, getXE_of l x, getYE_of l x, intersectionE_of l m, intersectionE_of _ _, angleBisectorE_of ha hb p, ?_,
    ?_, ?_⟩
  · unfold distE dist
    rw [sqrtE_nn (.add (.mul_self _) (.mul_self _)), except_ok_bind]
  · intro e
    rw [← norm_zero_iff, ← norm_sqrt_zero_iff]
    unfold dist
    by_cases h : PyMath.sqrt (l.a * l.a + l.b * l.b) = fin 0
    · rw [h, pyDiv_ieee_zero]
      simp [eq_comm]
    · rw [pyDiv_ieee h]
      simp [h, pure, Except.pure]
  · intro e
    rw [← norm_zero_iff]
    unfold dist2
    by_cases h : l.a * l.a + l.b * l.b = fin 0
    · rw [h, pyDiv_ieee_zero]
      simp [eq_comm]
    · rw [pyDiv_ieee h]
      simp [h]

/-- **C163** refuted for `Line2D.dist` as in C22 (a line with a direction has distances): the line 2^-600·x + 2^-600·y = 0. -/
theorem C163_refuted_line (p : Vec Ieee) :
    (⟨fin ((2 : ℝ) ^ (-600 : ℤ)), fin ((2 : ℝ) ^ (-600 : ℤ)), fin 0⟩ : Line Ieee).distE p = .error .zeroDivision := by
  have h := C163_line ⟨fin ((2 : ℝ) ^ (-600 : ℤ)), fin ((2 : ℝ) ^ (-600 : ℤ)), fin 0⟩ ⟨nan, nan, nan⟩ p nan ⟨nan⟩ ⟨nan⟩ (.inl rfl) (.inl rfl)
  have k : ((2 : ℝ) ^ (-600 : ℤ)) * ((2 : ℝ) ^ (-600 : ℤ)) ≤ (2 : ℝ) ^ (-1075 : ℤ) := by
    rw [← zpow_add₀ two_ne_zero]
    exact zpow_le_zpow_right₀ one_le_two (by norm_num)
  rw [h.2.2.2.2.2.2.1, h.2.2.2.2.2.2.2.1]
  exact ⟨rfl, _, _, rfl, rfl, k, k⟩

end Line

/-! ## Rays -/

namespace Ray

theorem lineE_of {r : Ray Ieee} (h : Made r.dir) : r.lineE = .ok r.line := Line.ofAngleE_of h _

theorem inRightDirE_of {r : Ray Ieee} (h : Made r.dir) (p : Vec Ieee) (t : Ieee) : r.inRightDirE p t = .ok (r.inRightDir p t) := by
  unfold inRightDirE inRightDir
  rw [Vec.thE_of, except_ok_bind, AngleDeg.subE_of (Vec.made_th _) h, except_ok_bind,
    AngleDeg.absE_of (AngleDeg.made_sub (Vec.made_th _) h)]; rfl

/-- **C163** Nothing about rays raises, for any doubles whatsoever. -/
theorem C163_ray (r o : Ray Ieee) (hr : Made r.dir) (ho : Made o.dir) (l : Line Ieee) (p q : Vec Ieee) (a : AngleDeg Ieee) (ha : Made a)
    (t : Ieee) :
    (ofAngleE p a = .ok (ofAngle p a) ∧ Made (ofAngle p a).dir) ∧ (ofPointE p q = .ok (ofPoint p q) ∧ Made (ofPoint p q).dir) ∧
    r.lineE = .ok r.line ∧ r.inRightDirE p t = .ok (r.inRightDir p t) ∧ r.intersectionLineE l = .ok (r.intersectionLine l) ∧
    r.intersectionRayE o = .ok (r.intersectionRay o) ∧ r.eqE o = .ok (r.eq o) := by
  refine ⟨⟨?_, AngleDeg.made_ofAngle ha⟩, ⟨?_, Vec.made_th _⟩, lineE_of hr, inRightDirE_of hr p t, ?_, ?_, ?_⟩
  · unfold ofAngleE; rw [AngleDeg.ofAngleE_of ha]; rfl
  · unfold ofPointE; rw [Vec.thE_of]; rfl
  · unfold intersectionLineE intersectionLine
    rw [lineE_of hr, except_ok_bind, Line.intersectionE_of, except_ok_bind, inRightDirE_of hr]
    dsimp only
    generalize r.inRightDir (r.line.intersection l) (num 10) = A
    cases (r.line.intersection l).valid <;> cases A <;> rfl
  · unfold intersectionRayE intersectionRay
    rw [lineE_of hr, except_ok_bind, lineE_of ho, except_ok_bind, Line.intersectionE_of, except_ok_bind, inRightDirE_of hr,
      inRightDirE_of ho]
    dsimp only
    generalize r.inRightDir (r.line.intersection o.line) (num 10) = A
    generalize o.inRightDir (r.line.intersection o.line) (num 10) = B
    cases (r.line.intersection o.line).valid <;> cases A <;> cases B <;> rfl
  · unfold eqE
    rw [AngleDeg.subE_of hr ho, except_ok_bind, AngleDeg.degreeE_of (AngleDeg.made_sub hr ho)]; rfl

end Ray

/-! ## Segments -/

namespace Seg

theorem not_lt_EPSILON_ne {x : Ieee} (h : ¬ x < EPSILON) : x ≠ fin 0 := by
  rintro rfl
  rw [EPSILON_sim.eq] at h
  exact h fp_EPSILON.1

theorem projectionE_of (s : Seg Ieee) (p : Vec Ieee) : s.projectionE p = .ok (s.projection p) := by
  unfold projectionE projection
  dsimp only
  rw [Vec.rE_of, except_ok_bind]
  by_cases h : (s.terminal.sub s.origin).r < EPSILON
  · rw [if_pos h, if_pos h]; rfl
  · rw [if_neg h, if_neg h, pyDiv_ieee (not_lt_EPSILON_ne h), except_ok_bind, pyDiv_ieee (not_lt_EPSILON_ne h), except_ok_bind]
    split_ifs <;> rfl

theorem nearestPointE_of (s : Seg Ieee) (p : Vec Ieee) : s.nearestPointE p = .ok (s.nearestPoint p) := by
  unfold nearestPointE nearestPoint
  dsimp only
  by_cases h : (s.terminal.sub s.origin).r2 = fin 0
  · have := beq_zero_iff.mpr h
    rw [if_pos this, if_pos this]
  · have h' : ¬ ((s.terminal.sub s.origin).r2 == num 0) = true := fun c => h (beq_zero_iff.mp c)
    rw [if_neg h', if_neg h']
    split_ifs
    · rfl
    · rfl
    · unfold Vec.truediv
      rw [pyDiv_ieee h, pyDiv_ieee h]; rfl

open Classical in
/-- `dist` of a point: an `OverflowError` of one of the distances it needs, or a value. -/
theorem distPointE_of {s : Seg Ieee} {p : Vec Ieee} (h1 : ¬ DistOverflow s.origin s.terminal) (h2 : ¬ DistOverflow s.origin p)
    (h3 : ¬ DistOverflow s.terminal p) : s.distPointE p = .ok (s.distPoint p) := by
  unfold distPointE distPoint
  have hl : s.lengthE = .ok s.length := Vec.distE_of h1
  rw [hl, except_ok_bind]
  by_cases h : s.length = fin 0
  · have := beq_zero_iff.mpr h
    rw [if_pos this, if_pos this, Vec.distE_of h2]
  · have h' : ¬ (s.length == num 0) = true := fun c => h (beq_zero_iff.mp c)
    rw [if_neg h', if_neg h']
    dsimp only
    rw [pyDiv_ieee h, Vec.dist2E_of h2, Vec.dist2E_of h3, except_ok_bind, except_ok_bind, except_ok_bind,
      sqrtE_nn ((Vec.dist2_nn _ _).pyMin (Vec.dist2_nn _ _))]
    split_ifs <;> rfl

theorem distPointE_error {s : Seg Ieee} {p : Vec Ieee} {e : PyErr} (h : s.distPointE p = .error e) :
    e = .overflow ∧ (DistOverflow s.origin s.terminal ∨ DistOverflow s.origin p ∨ DistOverflow s.terminal p) := by
  have hor : DistOverflow s.origin s.terminal ∨ DistOverflow s.origin p ∨ DistOverflow s.terminal p := by
    by_contra c
    push Not at c
    rw [distPointE_of c.1 c.2.1 c.2.2] at h; cases h
  refine ⟨?_, hor⟩
  unfold distPointE lengthE at h
  by_cases h1 : DistOverflow s.origin s.terminal
  · rw [Vec.distE_over h1] at h; cases h; rfl
  · rw [Vec.distE_of h1, except_ok_bind] at h
    by_cases h0 : s.origin.dist s.terminal = fin 0
    · rw [if_pos (beq_zero_iff.mpr h0)] at h
      by_cases h2 : DistOverflow s.origin p
      · rw [Vec.distE_over h2] at h; cases h; rfl
      · rw [Vec.distE_of h2] at h; cases h
    · rw [if_neg (fun c => h0 (beq_zero_iff.mp c))] at h
      dsimp only at h
      rw [pyDiv_ieee h0, except_ok_bind] at h
      split_ifs at h
      · cases h
      · by_cases h2 : DistOverflow s.origin p
        · rw [Vec.dist2E_over h2] at h; cases h; rfl
        · by_cases h3 : DistOverflow s.terminal p
          · rw [Vec.dist2E_of h2, Vec.dist2E_over h3] at h; cases h; rfl
          · rw [Vec.dist2E_of h2, Vec.dist2E_of h3, except_ok_bind, except_ok_bind,
              sqrtE_nn ((Vec.dist2_nn _ _).pyMin (Vec.dist2_nn _ _))] at h
            cases h

open Classical in
/-- **C163** Of the methods of a segment, only the distances raise: `length` and `farthest_dist` exactly when a difference of coordinates
is finite but its square is not, `dist` only then, with `OverflowError`. Nothing else does, for any doubles whatsoever. -/
theorem C163_segment (s o : Seg Ieee) (l : Line Ieee) (p : Vec Ieee) (x : Ieee) (a : AngleDeg Ieee) (ha : Made a) (b : Bool) :
    ofPolarE p x a = .ok (ofPolar p x a) ∧ s.directionE = .ok s.direction ∧ s.projectionE p = .ok (s.projection p) ∧
    s.intersectionLineE l = .ok (s.intersectionLine l) ∧ s.intersectionSegE o b = .ok (s.intersectionSeg o b) ∧
    s.nearestPointE p = .ok (s.nearestPoint p) ∧ s.onSegmentWeaklyE p = .ok (s.onSegmentWeakly p) ∧
    s.lengthE = (if DistOverflow s.origin s.terminal then .error .overflow else .ok s.length) ∧
    s.farthestDistE p = (if DistOverflow s.origin p ∨ DistOverflow s.terminal p then .error .overflow else .ok (s.farthestDist p)) ∧
    (∀ e, s.distPointE p = .error e → e = .overflow ∧
      (DistOverflow s.origin s.terminal ∨ DistOverflow s.origin p ∨ DistOverflow s.terminal p)) ∧
    (DistOverflow s.origin s.terminal → s.distPointE p = .error .overflow) ∧
    (∀ d, s.distPointE p = .ok d → d = s.distPoint p) := by
  have hlen : s.lengthE = (if DistOverflow s.origin s.terminal then .error .overflow else .ok s.length) := by
    split_ifs with h
    · exact Vec.distE_over h
    · exact Vec.distE_of h
  refine ⟨?_, Vec.thE_of _, projectionE_of s p, ?_, ?_, nearestPointE_of s p, ?_, hlen, ?_, fun e he => distPointE_error he, ?_, ?_⟩
  · unfold ofPolarE; rw [Vec.fromPolarE_of ha]; rfl
  · unfold intersectionLineE; rw [Line.intersectionE_of]; rfl
  · unfold intersectionSegE; rw [Line.intersectionE_of]; rfl
  · unfold onSegmentWeaklyE; rw [projectionE_of]; rfl
  · unfold farthestDistE farthestDist
    by_cases h1 : DistOverflow s.origin p
    · rw [Vec.dist2E_over h1, if_pos (.inl h1)]; rfl
    · by_cases h2 : DistOverflow s.terminal p
      · rw [Vec.dist2E_of h1, Vec.dist2E_over h2, if_pos (.inr h2)]; rfl
      · rw [Vec.dist2E_of h1, Vec.dist2E_of h2, except_ok_bind, except_ok_bind,
          sqrtE_nn ((Vec.dist2_nn _ _).pyMax (Vec.dist2_nn _ _)), if_neg (by rintro (h | h); exacts [h1 h, h2 h])]
  · intro h
    unfold distPointE
    rw [hlen, if_pos h]; rfl
  · intro d h
    unfold distPointE at h
    unfold distPoint
    by_cases h1 : DistOverflow s.origin s.terminal
    · rw [hlen, if_pos h1] at h; cases h
    · rw [hlen, if_neg h1, except_ok_bind] at h
      by_cases h0 : s.length = fin 0
      · have := beq_zero_iff.mpr h0
        rw [if_pos this] at h ⊢
        by_cases h2 : DistOverflow s.origin p
        · rw [Vec.distE_over h2] at h; cases h
        · rw [Vec.distE_of h2] at h; cases h; rfl
      · have h' : ¬ (s.length == num 0) = true := fun c => h0 (beq_zero_iff.mp c)
        rw [if_neg h'] at h ⊢
        dsimp only at h ⊢
        rw [pyDiv_ieee h0, except_ok_bind] at h
        split_ifs at h ⊢
        · cases h; rfl
        · by_cases h2 : DistOverflow s.origin p
          · rw [Vec.dist2E_over h2] at h; cases h
          · by_cases h3 : DistOverflow s.terminal p
            · rw [Vec.dist2E_of h2, Vec.dist2E_over h3] at h; cases h
            · rw [Vec.dist2E_of h2, Vec.dist2E_of h3, except_ok_bind, except_ok_bind,
                sqrtE_nn ((Vec.dist2_nn _ _).pyMin (Vec.dist2_nn _ _))] at h
              cases h; rfl

end Seg

/-! ## Triangles and circles -/

namespace Tri

theorem ne_zero_of_fabs_tiny {x : Ieee} (h : ¬ fabs x < (num 1 / num 10000000000 : Ieee)) : x ≠ fin 0 := by
  rintro rfl
  refine h ?_
  have h10 : (num 1 / num 10000000000 : Ieee) = Ieee.ofReal (1 / 10000000000) := by
    rw [num_ieee (by norm_num), num_ieee (by norm_num)]
    change Ieee.ofReal (_ / _) = _
    norm_num
  have e : fabs (fin 0) = fin 0 := by
    unfold fabs
    rw [num_ieee_zero, if_neg (show ¬ (fin 0 : Ieee) < fin 0 from lt_irrefl (0 : ℝ))]
  rw [e, h10, Ieee.ofReal_of_le (n := 0) (by norm_num) (by rw [abs_of_nonneg] <;> norm_num)]
  have h1 : rne ((2 : ℝ) ^ (-34 : ℤ)) ≤ rne (1 / 10000000000) := rne_mono (by norm_num)
  rw [rne_of_isDouble (isDouble_pow (-34) (by norm_num))] at h1
  exact lt_of_lt_of_le (by positivity : (0 : ℝ) < 2 ^ (-34 : ℤ)) h1

theorem triCircumcenterE_of (a b c : Vec Ieee) : triCircumcenterE a b c = .ok (triCircumcenter a b c) := by
  have hf : circumFormulaE a b c = .ok (
      let ab := b.sub a
      let ca := c.sub a
      let tmp := ab.outerProduct ca
      if fabs tmp < num 1 / num 10000000000 then Vec.invalid
      else
        let inv := (num 1 / num 2) / tmp
        let abLen2 := ab.r2
        let caLen2 := ca.r2
        let xcc := inv * (abLen2 * ca.y - caLen2 * ab.y)
        let ycc := inv * (ab.x * caLen2 - ca.x * abLen2)
        Vec.ofXY (a.x + xcc) (a.y + ycc)) := by
    unfold circumFormulaE
    dsimp only
    by_cases h : fabs ((b.sub a).outerProduct (c.sub a)) < (num 1 / num 10000000000 : Ieee)
    · rw [if_pos h, if_pos h]
    · rw [if_neg h, if_neg h, pyDiv_ieee (ne_zero_of_fabs_tiny h)]; rfl
  unfold triCircumcenterE triCircumcenter
  simp only [Line.intersectionE_of, except_ok_bind, hf, pure, Except.pure]
  split_ifs <;> rfl

/-- **C163** The centers of a triangle (other than the centroid) do not raise, for any doubles whatsoever. -/
theorem C163_triangle (a b c : Vec Ieee) :
    triIncenterE a b c = .ok (triIncenter a b c) ∧ triCircumcenterE a b c = .ok (triCircumcenter a b c) ∧
    triOrthocenterE a b c = .ok (triOrthocenter a b c) := by
  refine ⟨?_, triCircumcenterE_of a b c, Line.intersectionE_of _ _⟩
  have m := Vec.made_th
  unfold triIncenterE
  simp only [Vec.thE_of, except_ok_bind, Line.angleBisectorE_of (m _) (m _), Line.intersectionE_of]
  rfl

end Tri

theorem not_neg_nn {x : Ieee} (h : ¬ x < num 0) : x.NN := by
  rw [num_ieee_zero] at h
  cases x with
  | nan => trivial
  | inf s => cases s; rfl; exact absurd rfl h
  | fin x => exact not_lt.mp h

/-- A leading coefficient `1 + (b/a)²`: NaN, infinity or at least 1. -/
theorem one_add_sq_ne (t : Ieee) : num 1 + t * t ≠ (fin 0 : Ieee) ∧ num 2 * (num 1 + t * t) ≠ (fin 0 : Ieee) := by
  have e1 : (num 1 : Ieee) = fin 1 := by rw [num_ieee (by norm_num)]; norm_num
  have e2 : (num 2 : Ieee) = fin 2 := by rw [num_ieee (by norm_num)]; norm_num
  have n2 : ∀ s, Ieee.mul (fin 2) (inf s) ≠ fin 0 := by
    intro s; simp [Ieee.mul]
  have key : t * t = nan ∨ t * t = inf false ∨ ∃ r : ℝ, t * t = fin r ∧ 0 ≤ r := by
    have := NN.mul_self t
    cases h : t * t with
    | nan => exact .inl rfl
    | inf s => rw [h] at this; simp only [Ieee.NN] at this; subst this; exact .inr (.inl rfl)
    | fin r => rw [h] at this; exact .inr (.inr ⟨r, rfl, this⟩)
  have k2 : ∀ r : ℝ, 1 ≤ r → ∀ z, Ieee.ofReal r = fin z → 1 ≤ z := by
    intro r hr z h
    unfold Ieee.ofReal at h
    split_ifs at h
    injection h with h
    have := rne_mono hr
    rw [rne_of_isDouble isDouble_one] at this
    linarith
  rw [e1, e2]
  rcases key with h | h | ⟨r, h, hr⟩
  · rw [h]; constructor <;> simp
  · rw [h]
    constructor
    · intro h; cases h
    · exact n2 false
  · rw [h]
    change Ieee.ofReal (1 + r) ≠ _ ∧ Ieee.mul (fin 2) (Ieee.ofReal (1 + r)) ≠ _
    constructor
    · intro h
      have := k2 (1 + r) (by linarith) 0 h
      linarith
    · cases h' : Ieee.ofReal (1 + r) with
      | nan => intro h; cases h
      | inf s => exact n2 s
      | fin z =>
        have hz := k2 _ (by linarith) z h'
        intro h
        have := k2 (2 * z) (by linarith) 0 h
        linarith

theorem quadraticFE_of {a : Ieee} (h1 : a ≠ fin 0) (h2 : num 2 * a ≠ (fin 0 : Ieee)) (b c : Ieee) :
    quadraticFE a b c = quadraticF a b c ∧ ∃ s, quadraticF a b c = .ok s := by
  have h1' : ¬ (a == num 0) = true := fun k => h1 (beq_zero_iff.mp k)
  unfold quadraticFE quadraticF
  dsimp only
  rw [if_neg h1', if_neg h1']
  simp only [pyDiv_ieee h2, except_ok_bind]
  split_ifs with c1 c2
  · exact ⟨rfl, _, rfl⟩
  · exact ⟨rfl, _, rfl⟩
  · rw [sqrtE_nn (not_neg_nn c2)]; exact ⟨rfl, _, rfl⟩

namespace Circle

theorem solPointsE_of {mk : Ieee → Vec Ieee} {mkE : Ieee → Except PyErr (Vec Ieee)} (h : ∀ s, mkE s = .ok (mk s)) (l : List Ieee) :
    solPointsE mkE l = .ok (solPoints mk l) := by
  unfold solPointsE solPoints
  match l with
  | [] => rfl
  | [_] => rfl
  | _ :: _ :: _ => simp [h, pure, Except.pure]

theorem dropRejectedE_of {ok : Vec Ieee → Bool} {okE : Vec Ieee → Except PyErr Bool} (h : ∀ s, okE s = .ok (ok s))
    (l : List (Vec Ieee)) : dropRejectedE okE l = .ok (dropRejected ok l) := by
  unfold dropRejectedE dropRejected
  match l with
  | [] => rfl
  | [a] => cases h1 : ok a <;> simp [h, h1, Except.map]
  | a :: b :: r => cases h1 : ok a <;> cases h2 : ok b <;> simp [h, h1, h2, Except.map]

/-- One of the three squares in `intersection(Line2D)` overflows. -/
def _root_.PyrusGeom.Spec.InterOverflow (c : Circle Ieee) (l : Line Ieee) : Prop :=
  if fabs l.a < EPSILON then
    ¬ fabs l.b < EPSILON ∧ (SqOverflow c.center.x ∨ SqOverflow (l.c / l.b + c.center.y) ∨ SqOverflow c.radius)
  else SqOverflow (l.c / l.a + c.center.x) ∨ SqOverflow c.center.y ∨ SqOverflow c.radius

open Classical in
/-- Three `math.pow` calls one after the other. -/
theorem three_pows {α : Type} (x y z : Ieee) (f : Ieee → Ieee → Ieee → Except PyErr α) :
    (powE x 2 >>= fun p => powE y 2 >>= fun q => powE z 2 >>= fun r => f p q r) =
      if SqOverflow x ∨ SqOverflow y ∨ SqOverflow z then .error .overflow
      else f (PyrusGeom.sq x) (PyrusGeom.sq y) (PyrusGeom.sq z) := by
  rw [powE_two_ieee]
  by_cases h1 : SqOverflow x
  · rw [if_pos h1, if_pos (.inl h1)]; rfl
  · rw [if_neg h1, except_ok_bind, powE_two_ieee]
    by_cases h2 : SqOverflow y
    · rw [if_pos h2, if_pos (.inr (.inl h2))]; rfl
    · rw [if_neg h2, except_ok_bind, powE_two_ieee]
      by_cases h3 : SqOverflow z
      · rw [if_pos h3, if_pos (.inr (.inr h3))]; rfl
      · rw [if_neg h3, if_neg (by simp [h1, h2, h3])]; rfl

open Classical in
theorem intersectionLineE_ieee (c : Circle Ieee) (l : Line Ieee) :
    c.intersectionLineE l = (if InterOverflow c l then .error .overflow else c.intersectionLine l) ∧
      ∃ s, c.intersectionLine l = .ok s := by
  have hone : num 1 ≠ (fin 0 : Ieee) ∧ num 2 * num 1 ≠ (fin 0 : Ieee) := by
    have e1 : (num 1 : Ieee) = fin 1 := by rw [num_ieee (by norm_num)]; norm_num
    have e2 : (num 2 : Ieee) = fin 2 := by rw [num_ieee (by norm_num)]; norm_num
    rw [e1, e2]
    refine ⟨by simp, ?_⟩
    change Ieee.ofReal (2 * 1) ≠ _
    rw [Ieee.ofReal_of_le (n := 1) (by norm_num) (by norm_num), mul_one,
      rne_of_isDouble (show IsDouble 2 by simpa using isDouble_nat (n := 2) (by norm_num))]
    simp
  unfold InterOverflow intersectionLineE intersectionLine
  by_cases ha : fabs l.a < EPSILON
  · by_cases hb : fabs l.b < EPSILON
    · simp only [if_pos ha, if_pos hb]
      rw [if_neg (by simp [hb])]
      exact ⟨rfl, _, rfl⟩
    · simp only [if_pos ha, if_neg hb, pyDiv_ieee (ne_zero_of_fabs_ieee hb), except_ok_bind]
      rw [three_pows]
      simp only [hb, not_false_eq_true, true_and]
      obtain ⟨h1, s, hs⟩ := quadraticFE_of hone.1 hone.2 (-(num 2) * c.center.x)
        (PyrusGeom.sq c.center.x + PyrusGeom.sq (l.c / l.b + c.center.y) - PyrusGeom.sq c.radius)
      rw [h1, hs]
      constructor
      · congr 1
        exact solPointsE_of (fun s => rfl) s
      · exact ⟨_, rfl⟩
  · simp only [if_neg ha, pyDiv_ieee (ne_zero_of_fabs_ieee ha), except_ok_bind]
    rw [three_pows]
    obtain ⟨h1, s, hs⟩ := quadraticFE_of (one_add_sq_ne (l.b / l.a)).1 (one_add_sq_ne (l.b / l.a)).2
      (num 2 * (-c.center.y + (l.c / l.a + c.center.x) * (l.b / l.a)))
      (PyrusGeom.sq (l.c / l.a + c.center.x) + PyrusGeom.sq c.center.y - PyrusGeom.sq c.radius)
    rw [h1, hs]
    constructor
    · congr 1
      exact solPointsE_of (fun s => by rw [Line.getXE_of]; rfl) s
    · exact ⟨_, rfl⟩

open Classical in
/-- **C163** Of the methods of a circle, `contains` raises `OverflowError` exactly when a difference of coordinates is finite but its square
is not, and the intersections exactly when one of the three squares of the quadratic equation they solve is too large. Nothing else raises. -/
theorem C163_circle (c o : Circle Ieee) (l : Line Ieee) (r : Ray Ieee) (hr : Made r.dir) (s : Seg Ieee) (p p0 p1 p2 : Vec Ieee) :
    c.containsE p = (if DistOverflow c.center p then .error .overflow else .ok (c.contains p)) ∧
    c.intersectionLineE l = (if InterOverflow c l then .error .overflow else c.intersectionLine l) ∧
    c.intersectionRayE r = (if InterOverflow c (Line.ofAngle (Vec.ofVec r.origin) (AngleDeg.ofAngle r.dir)) then .error .overflow
      else c.intersectionRay r) ∧
    c.intersectionSegE s = (if InterOverflow c s.line then .error .overflow else c.intersectionSeg s) ∧
    ((∃ x, c.intersectionLine l = .ok x) ∧ (∃ x, c.intersectionRay r = .ok x) ∧ (∃ x, c.intersectionSeg s = .ok x) ∧
      ∃ x, c.intersectionCircle o = .ok x) ∧
    (∀ e, c.intersectionCircleE o = .error e → e = .overflow) ∧
    (∀ x, c.intersectionCircleE o = .ok x → c.intersectionCircle o = .ok x) ∧
    circumCircleE p0 p1 p2 = (if (Tri.triCircumcenter p0 p1 p2).valid = true ∧ DistOverflow (Tri.triCircumcenter p0 p1 p2) p0
      then .error .overflow else .ok (circumCircle p0 p1 p2)) := by
  have hl := fun l => intersectionLineE_ieee c l
  refine ⟨?_, (hl l).1, ?_, ?_, ⟨(hl l).2, ?_, ?_, ?_⟩, ?_, ?_, ?_⟩
  · unfold containsE
    split_ifs with h
    · rw [Vec.dist2E_over h]; rfl
    · rw [Vec.dist2E_of h]; rfl
  · unfold intersectionRayE intersectionRay
    rw [AngleDeg.ofAngleE_of hr, except_ok_bind, Line.ofAngleE_of (AngleDeg.made_ofAngle hr), except_ok_bind, (hl _).1]
    obtain ⟨x, hx⟩ := (hl (Line.ofAngle (Vec.ofVec r.origin) (AngleDeg.ofAngle r.dir))).2
    rw [hx]
    split_ifs
    · rfl
    · exact dropRejectedE_of (fun p => Ray.inRightDirE_of hr p _) x
  · unfold intersectionSegE intersectionSeg
    rw [(hl _).1]
    split_ifs <;> rfl
  · obtain ⟨x, hx⟩ := (hl (Line.ofAngle (Vec.ofVec r.origin) (AngleDeg.ofAngle r.dir))).2
    unfold intersectionRay; rw [hx]; exact ⟨_, rfl⟩
  · obtain ⟨x, hx⟩ := (hl s.line).2
    unfold intersectionSeg; rw [hx]; exact ⟨_, rfl⟩
  · unfold intersectionCircle
    dsimp only
    split_ifs
    · exact ⟨_, rfl⟩
    · exact (hl _).2
  · intro e h
    unfold intersectionCircleE at h
    dsimp only at h
    rw [sqrtE_nn (.add (.mul_self _) (.mul_self _)), except_ok_bind, (hl _).1] at h
    split_ifs at h with h1 h2
    · cases h
    · cases h; rfl
    · obtain ⟨x, hx⟩ := (hl _).2
      rw [hx] at h; cases h
  · intro x h
    unfold intersectionCircleE at h
    unfold intersectionCircle
    dsimp only at h ⊢
    rw [sqrtE_nn (.add (.mul_self _) (.mul_self _)), except_ok_bind, (hl _).1] at h
    split_ifs at h ⊢
    · exact h
    · exact h
  · unfold circumCircleE circumCircle
    rw [Tri.triCircumcenterE_of, except_ok_bind]
    cases hv : (Tri.triCircumcenter p0 p1 p2).valid
    · simp [hv, pure, Except.pure]
    · by_cases h : DistOverflow (Tri.triCircumcenter p0 p1 p2) p0
      · simp [hv, h, Vec.distE_over h]
      · simp [hv, h, Vec.distE_of h, pure, Except.pure]

end Circle

/-! ## Matrices, sectors, rectangles, polygons -/

/-- **C163** Nothing about matrices, sectors, sizes and rectangles raises (apart from the methods that always do), for any doubles
whatsoever, with angles built by the constructor. -/
theorem C163_other (m : Mat Ieee) (a b : AngleDeg Ieee) (ha : Made a) (hb : Made b) (s : Sector Ieee) (hs : Made s.start) (ht : Made s.stop)
    (p : Vec Ieee) (x y : Ieee) (z : Size Ieee) (r : Rect Ieee) (l : Line Ieee) (ray : Ray Ieee) (hr : Made ray.dir) (g : Seg Ieee) :
    (m.invertedE = .ok m.inverted ∧ m.rotateE a = .ok (m.rotate a) ∧ Mat.makeRotationE a = .ok (Mat.makeRotation a)) ∧
    (Sector.ofArgsE p x y a b = .ok (Sector.ofArgs p x y a b) ∧ s.areaE = .ok s.area ∧ s.containsE p = .ok (s.contains p) ∧
      s.circumferenceMinE = .ok s.circumferenceMin ∧ s.circumferenceMaxE = .ok s.circumferenceMax) ∧
    (z.diagonalE = .ok z.diagonal ∧ r.intersectionLineE l = .ok (r.intersectionLine l) ∧
      r.intersectionRayE ray = .ok (r.intersectionRay ray) ∧ r.intersectionSegE g = .ok (r.intersectionSeg g)) := by
  have e360 : (num 360 : Ieee) ≠ fin 0 := by rw [num_ieee (by norm_num)]; simp
  have harc : s.arcDegE = .ok s.arcDeg := by
    unfold Sector.arcDegE; rw [AngleDeg.subE_of ht hs]; rfl
  have hil : ∀ l, r.intersectionLineE l = .ok (r.intersectionLine l) := by
    intro l
    unfold Rect.intersectionLineE
    simp only [Line.intersectionE_of, except_ok_bind]; rfl
  refine ⟨⟨?_, ?_, ?_⟩, ⟨?_, ?_, ?_, ?_, ?_⟩, ⟨sqrtE_nn (.add (.mul_self _) (.mul_self _)), hil l, ?_, ?_⟩⟩
  · unfold Mat.invertedE Mat.inverted
    dsimp only
    by_cases h : m.det = fin 0
    · rw [if_pos (beq_zero_iff.mpr h), if_pos (beq_zero_iff.mpr h)]
    · have h' : ¬ (m.det == num 0) = true := fun c => h (beq_zero_iff.mp c)
      rw [if_neg h', if_neg h', pyDiv_ieee h]; rfl
  · unfold Mat.rotateE; rw [AngleDeg.sinE_of ha, AngleDeg.cosE_of ha]; rfl
  · unfold Mat.makeRotationE; rw [AngleDeg.sinE_of ha, AngleDeg.cosE_of ha]; rfl
  · unfold Sector.ofArgsE; rw [AngleDeg.ofAngleE_of ha, AngleDeg.ofAngleE_of hb]; rfl
  · unfold Sector.areaE; rw [harc, except_ok_bind, pyDiv_ieee e360]; rfl
  · unfold Sector.containsE Sector.contains
    dsimp only
    by_cases h : s.minR * s.minR ≤ (p.sub s.center).r2 ∧ (p.sub s.center).r2 ≤ s.maxR * s.maxR
    · rw [if_pos h, Vec.thE_of, except_ok_bind, AngleDeg.isWithinE_of (Vec.made_th _) ht]
      simp [h.1, h.2]
    · rw [if_neg h]
      by_cases h1 : s.minR * s.minR ≤ (p.sub s.center).r2
      · have h2 : ¬ (p.sub s.center).r2 ≤ s.maxR * s.maxR := fun k => h ⟨h1, k⟩
        simp [h2, pure, Except.pure]
      · simp [h1, pure, Except.pure]
  · unfold Sector.circumferenceMinE; rw [harc, except_ok_bind, pyDiv_ieee e360]; rfl
  · unfold Sector.circumferenceMaxE; rw [harc, except_ok_bind, pyDiv_ieee e360]; rfl
  · unfold Rect.intersectionRayE
    rw [Ray.lineE_of hr, except_ok_bind, hil, except_ok_bind]
    exact Circle.dropRejectedE_of (fun p => Ray.inRightDirE_of hr p _) _
  · unfold Rect.intersectionSegE; rw [hil]; rfl

theorem boundingBox_ok_ieee (g : Poly Ieee) (h : g.vertices ≠ []) : ∃ r, g.boundingBox = .ok r := by
  have key : ∀ (vs : List (Vec Ieee)) (b : Poly.Bounds Ieee), (b.xMin.isSome ∧ b.xMax.isSome ∧ b.yMin.isSome ∧ b.yMax.isSome) →
      ((vs.foldl Poly.boundsStep b).xMin.isSome ∧ (vs.foldl Poly.boundsStep b).xMax.isSome ∧
        (vs.foldl Poly.boundsStep b).yMin.isSome ∧ (vs.foldl Poly.boundsStep b).yMax.isSome) := by
    have u1 : ∀ (m : Option Ieee) v, (Poly.updMin m v).isSome := by
      intro m v; cases m
      · rfl
      · unfold Poly.updMin; dsimp only; split_ifs <;> rfl
    have u2 : ∀ (m : Option Ieee) v, (Poly.updMax m v).isSome := by
      intro m v; cases m
      · rfl
      · unfold Poly.updMax; dsimp only; split_ifs <;> rfl
    intro vs
    induction vs with
    | nil => exact fun b hb => hb
    | cons v vs ih =>
      intro b _
      exact ih _ ⟨u1 _ _, u2 _ _, u1 _ _, u2 _ _⟩
  obtain ⟨vs⟩ := g
  match vs with
  | [] => exact absurd rfl h
  | v :: vs =>
    have := key vs (Poly.boundsStep {} v) ⟨rfl, rfl, rfl, rfl⟩
    unfold Poly.boundingBox
    dsimp only
    rw [List.foldl_cons]
    revert this
    generalize vs.foldl Poly.boundsStep (Poly.boundsStep {} v) = b
    obtain ⟨x0, x1, y0, y1⟩ := b
    cases x0 <;> cases x1 <;> cases y0 <;> cases y1 <;> simp

theorem containsE_poly_of (g : Poly Ieee) (p : Vec Ieee) (b : Bool) : g.containsE p b = .ok (g.contains p b) := by
  obtain ⟨vs⟩ := g
  match vs with
  | [] => rfl
  | [v] => rfl
  | v0 :: v1 :: vs =>
    obtain ⟨r, hr⟩ := boundingBox_ok_ieee ⟨v0 :: v1 :: vs⟩ (by simp)
    simp only [Poly.containsE, Poly.contains, hr, except_ok_bind, Poly.halfLineE, Vec.rE_of, pure, Except.pure]
    split_ifs <;> rfl

theorem chainPairs_sub {α : Type} (l : List α) : ∀ e ∈ chainPairs l, e.1 ∈ l ∧ e.2 ∈ l := by
  intro e he
  unfold chainPairs at he
  obtain ⟨h1, h2⟩ := List.of_mem_zip (show (e.1, e.2) ∈ _ from he)
  exact ⟨h1, List.mem_of_mem_tail h2⟩

/-- **C163** `Polygon2D.contains` does not raise for vertices without NaN, and the distances of a polygon only `OverflowError`, only if a
difference of coordinates of two of the points is finite but its square is not. -/
theorem C163_polygon (g : Poly Ieee) (_ : ∀ v ∈ g.vertices, ¬ v.HasNan) (p : Vec Ieee) (b : Bool) :
    g.containsE p b = .ok (g.contains p b) ∧
    (∀ e, g.distE p b = .error e → e = .overflow ∧ ∃ u ∈ p :: g.vertices, ∃ v ∈ p :: g.vertices, DistOverflow u v) := by
  refine ⟨containsE_poly_of g p b, ?_⟩
  obtain ⟨vs⟩ := g
  have step : ∀ (m : Option Ieee) (d : Vec Ieee × Vec Ieee) (e : PyErr), d.1 ∈ vs → d.2 ∈ vs → Poly.distStepE p m d = .error e →
      e = .overflow ∧ ∃ u ∈ p :: vs, ∃ v ∈ p :: vs, DistOverflow u v := by
    intro m d e h1 h2 h
    unfold Poly.distStepE at h
    cases hd : (Seg.ofPoints d.1 d.2).distPointE p with
    | ok x => rw [hd] at h; cases h
    | error e' =>
      rw [hd] at h
      cases h
      obtain ⟨k1, k2⟩ := Seg.distPointE_error hd
      refine ⟨k1, ?_⟩
      rcases k2 with k | k | k
      · exact ⟨d.1, List.mem_cons_of_mem _ h1, d.2, List.mem_cons_of_mem _ h2, k⟩
      · exact ⟨d.1, List.mem_cons_of_mem _ h1, p, List.mem_cons_self, k⟩
      · exact ⟨d.2, List.mem_cons_of_mem _ h2, p, List.mem_cons_self, k⟩
  have loop : ∀ (l : List (Vec Ieee × Vec Ieee)) (m : Option Ieee) (e : PyErr), (∀ d ∈ l, d.1 ∈ vs ∧ d.2 ∈ vs) →
      l.foldlM (Poly.distStepE p) m = .error e → e = .overflow ∧ ∃ u ∈ p :: vs, ∃ v ∈ p :: vs, DistOverflow u v := by
    intro l
    induction l with
    | nil => intro m e _ h; cases h
    | cons d l ih =>
      intro m e hl h
      rw [List.foldlM_cons] at h
      cases hd : Poly.distStepE p m d with
      | error e' =>
        rw [hd] at h; cases h
        exact step m d _ (hl d List.mem_cons_self).1 (hl d List.mem_cons_self).2 hd
      | ok x =>
        rw [hd, except_ok_bind] at h
        exact ih x e (fun d hd => hl d (List.mem_cons_of_mem _ hd)) h
  have main : ∀ (e : PyErr) (last : Option Ieee → Except PyErr (Option Ieee)),
      (∀ m e, last m = .error e → e = .overflow ∧ ∃ u ∈ p :: vs, ∃ v ∈ p :: vs, DistOverflow u v) →
      ((do
        let inside ← if b then Poly.containsE ⟨vs⟩ p true else .ok false
        if inside then return some (num 0)
        else
          let m ← (chainPairs vs).foldlM (Poly.distStepE p) none
          last m) : Except PyErr (Option Ieee)) = .error e →
      e = .overflow ∧ ∃ u ∈ p :: vs, ∃ v ∈ p :: vs, DistOverflow u v := by
    intro e last hlast h
    have hin : ∃ t : Bool, ((if t then return some (num 0)
        else do
          let m ← (chainPairs vs).foldlM (Poly.distStepE p) none
          last m) : Except PyErr (Option Ieee)) = .error e := by
      cases b
      · exact ⟨false, h⟩
      · simp only [if_true] at h
        rw [containsE_poly_of, except_ok_bind] at h
        exact ⟨_, h⟩
    obtain ⟨t, h⟩ := hin
    cases t
    · simp only [Bool.false_eq_true, if_false] at h
      cases hf : (chainPairs vs).foldlM (Poly.distStepE p) none with
      | error e' => rw [hf] at h; cases h; exact loop _ _ _ (chainPairs_sub vs) hf
      | ok x => rw [hf, except_ok_bind] at h; exact hlast x e h
    · cases h
  intro e h
  unfold Poly.distE at h
  match vs, step, loop, main, h with
  | [], _, _, main, h => exact main e _ (fun m e h => by cases h) h
  | [v], _, _, _, h => dsimp only at h; rw [Vec.rE_of] at h; cases h
  | [v, w], _, _, main, h => exact main e _ (fun m e h => by cases h) h
  | v0 :: v1 :: v2 :: r, step, _, main, h =>
    refine main e _ (fun m e h => step m _ e ?_ List.mem_cons_self h) h
    exact List.mem_cons_of_mem _ (List.mem_cons_of_mem _ (List.getLast_mem _))

/-! ## soccer_math -/

namespace SoccerMath

/-- **C163** `int()` raises for NaN and infinities; so do the quantisation functions. -/
theorem C163_quantize (x q : Ieee) :
    (rIntE nan = .error .valueError ∧ (∀ s, rIntE (inf s) = .error .overflow) ∧ ∀ r : ℝ, rIntE (fin r) = .ok (rInt (fin r))) ∧
    (quantizeE x (fin 0) = .error .zeroDivision ∧ (q ≠ fin 0 → x / q = nan → quantizeE x q = .error .valueError) ∧
      (q ≠ fin 0 → IsInf (x / q) → quantizeE x q = .error .overflow) ∧
      (q ≠ fin 0 → (∃ r, x / q = fin r) → quantizeE x q = quantize x q ∧ ∃ y, quantize x q = .ok y)) := by
  refine ⟨⟨rfl, fun s => rfl, fun r => rfl⟩, ?_, ?_, ?_, ?_⟩
  · unfold quantizeE; rw [pyDiv_ieee_zero]; rfl
  · intro h h'; unfold quantizeE; rw [pyDiv_ieee h, except_ok_bind, h']; rfl
  · intro h h'; unfold quantizeE; rw [pyDiv_ieee h, except_ok_bind]
    revert h'
    cases x / q with
    | inf s => intro _; rfl
    | nan => exact fun k => k.elim
    | fin r => exact fun k => k.elim
  · rintro h ⟨r, hr⟩
    unfold quantizeE quantize
    rw [pyDiv_ieee h, except_ok_bind, hr]
    exact ⟨rfl, _, rfl⟩

/-- **C163** `inertia_n_step_distance` and `calc_first_term_geom_series`: the exceptions of `math.pow` come first, then the division. -/
theorem C163_pow (speed decay : Ieee) (n : ℤ) :
    (decay = fin 0 → n < 0 → inertiaNStepDistanceE speed n decay = .error .valueError ∧
      calcFirstTermGeomSeriesE speed decay n = .error .valueError) ∧
    (∀ r : ℝ, decay = fin r → ¬ (r = 0 ∧ n < 0) → IsInf (PyMath.powi decay n) → 
      inertiaNStepDistanceE speed n decay = .error .overflow ∧ calcFirstTermGeomSeriesE speed decay n = .error .overflow) ∧
    ((∀ r : ℝ, decay = fin r → ¬ (r = 0 ∧ n < 0) ∧ ¬ IsInf (PyMath.powi decay n)) →
      inertiaNStepDistanceE speed n decay = inertiaNStepDistance speed n decay ∧
      calcFirstTermGeomSeriesE speed decay n = calcFirstTermGeomSeries speed decay n) := by
  have hp0 : ∀ r : ℝ, (r = 0 ∧ n < 0) → powE (fin r) n = .error .valueError := fun r h => if_pos h
  have hp1 : ∀ r : ℝ, ¬ (r = 0 ∧ n < 0) → powE (fin r) n = noInf (PyMath.powi (fin r) n) := fun r h => if_neg h
  refine ⟨?_, ?_, ?_⟩
  · rintro rfl h
    unfold inertiaNStepDistanceE calcFirstTermGeomSeriesE
    rw [hp0 0 ⟨rfl, h⟩]; exact ⟨rfl, rfl⟩
  · rintro r rfl h h'
    unfold inertiaNStepDistanceE calcFirstTermGeomSeriesE
    rw [hp1 r h]
    revert h'
    cases (PyMath.powi (fin r) n : Ieee) with
    | inf s => intro _; exact ⟨rfl, rfl⟩
    | nan => exact fun k => k.elim
    | fin r => exact fun k => k.elim
  · intro h
    have key : powE decay n = mathPow decay n := by
      unfold mathPow
      cases decay with
      | nan => rw [if_neg (by simp)]; rfl
      | inf s => 
        rw [if_neg (by rw [Bool.and_eq_true, beq_zero_iff]; rintro ⟨h, _⟩; cases h)]; rfl
      | fin r =>
        obtain ⟨h1, h2⟩ := h r rfl
        have : ¬ (((fin r : Ieee) == num 0) && decide (n < 0)) = true := by
          intro k
          rw [Bool.and_eq_true, beq_zero_iff, decide_eq_true_eq] at k
          exact h1 ⟨by injection k.1, k.2⟩
        rw [if_neg this, hp1 r h1]
        revert h2
        cases (PyMath.powi (fin r) n : Ieee) with
        | inf s => exact fun k => absurd trivial k
        | nan => intro _; rfl
        | fin r => intro _; rfl
    unfold inertiaNStepDistanceE calcFirstTermGeomSeriesE inertiaNStepDistance calcFirstTermGeomSeries
    rw [key]; exact ⟨rfl, rfl⟩

end SoccerMath

end PyrusGeom
