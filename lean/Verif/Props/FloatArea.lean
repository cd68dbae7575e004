import Verif.Model.Sector
import Verif.Props.Float
import Verif.Props.FloatVec

/-! # C194: areas, arc lengths and diagonals in double precision -/

namespace PyrusGeom

/-- Rounding error of a number of size at most `B`. -/
theorem rne_err_le {x B : ℝ} (h : |x| ≤ B) (hB : (2 : ℝ) ^ (-1022 : ℤ) ≤ B) : |rne x - x| ≤ (2 : ℝ) ^ (-53 : ℤ) * B := by
  rcases eq_or_ne x 0 with rfl | hx
  · rw [rne_zero, sub_zero, abs_zero]
    exact mul_nonneg (by positivity) (le_trans (by positivity) hB)
  rcases le_or_gt ((2 : ℝ) ^ (-1022 : ℤ)) |x| with c | c
  · exact (rne_rel_error c).trans (mul_le_mul_of_nonneg_left h (by positivity))
  · refine (rne_error x).trans ?_
    have hu : ulp x ≤ (2 : ℝ) ^ (-1074 : ℤ) := by
      unfold ulp
      refine zpow_le_zpow_right₀ (by norm_num) ?_
      have : Int.log 2 |x| ≤ -1022 := by
        have := (Int.lt_zpow_iff_log_lt (b := 2) (by norm_num) (abs_pos.mpr hx) (x := -1022)).mp (by exact_mod_cast c)
        omega
      omega
    have e : (2 : ℝ) ^ (-1074 : ℤ) / 2 = (2 : ℝ) ^ (-53 : ℤ) * (2 : ℝ) ^ (-1022 : ℤ) := by
      rw [← zpow_add₀ two_ne_zero, div_eq_mul_inv, ← zpow_neg_one (2 : ℝ), ← zpow_add₀ two_ne_zero]; norm_num
    calc ulp x / 2 ≤ (2 : ℝ) ^ (-1074 : ℤ) / 2 := by linarith
      _ = _ := e
      _ ≤ _ := mul_le_mul_of_nonneg_left hB (by positivity)

theorem pi_err : |rne Real.pi - Real.pi| ≤ (2 : ℝ) ^ (-53 : ℤ) * 4 := by
  refine rne_err_le ?_ ?_
  · rw [abs_of_pos Real.pi_pos]; exact Real.pi_le_four
  · exact (zpow_le_zpow_right₀ (by norm_num) (by norm_num : (-1022 : ℤ) ≤ 2)).trans (by norm_num)

/-- Rounded product of perturbed factors. -/
theorem rne_mul_err {a b x y X Y d e : ℝ} (hx : |x| ≤ X) (hb : |b| ≤ Y) (ha : |a - x| ≤ d) (hy : |b - y| ≤ e) (hB : (2 : ℝ) ^ (-1022 : ℤ) ≤ (X + d) * Y) :
    |rne (a * b) - x * y| ≤ (2 : ℝ) ^ (-53 : ℤ) * ((X + d) * Y) + (d * Y + X * e) := by
  have h1 : |a| ≤ X + d := by
    have := abs_add_le (a - x) x
    rw [sub_add_cancel] at this
    linarith
  have h2 : |a * b| ≤ (X + d) * Y := by
    rw [abs_mul]
    exact mul_le_mul h1 hb (abs_nonneg _) ((abs_nonneg _).trans h1)
  have h3 := rne_err_le h2 hB
  have h4 : |a * b - x * y| ≤ d * Y + X * e := by
    have e1 : a * b - x * y = (a - x) * b + x * (b - y) := by ring
    rw [e1]
    refine (abs_add_le _ _).trans (add_le_add ?_ ?_)
    · rw [abs_mul]; exact mul_le_mul ha hb (abs_nonneg _) ((abs_nonneg _).trans ha)
    · rw [abs_mul]; exact mul_le_mul hx hy (abs_nonneg _) ((abs_nonneg _).trans hx)
  have := abs_add_le (rne (a * b) - a * b) (a * b - x * y)
  rw [sub_add_sub_cancel] at this
  linarith

theorem rne_pi_bounds : |rne Real.pi| ≤ 4 := by
  rw [abs_of_nonneg (rne_nonneg Real.pi_pos.le)]
  have := rne_mono Real.pi_le_four
  have h4 := rne_of_isDouble (isDouble_nat (n := 4) (by norm_num))
  push_cast at h4
  rwa [h4] at this

/-- **C194** The area of a circle. -/
theorem C194_circle (c : Circle (FP double)) (h : (2 : ℝ) ^ (-500 : ℤ) ≤ c.radius.val) :
    |c.area.val - Real.pi * c.radius.val ^ 2| ≤ (2 : ℝ) ^ (-49 : ℤ) * c.radius.val ^ 2 := by
  set r := c.radius.val with hr
  have r0 : 0 < r := lt_of_lt_of_le (by positivity) h
  have rr : (2 : ℝ) ^ (-1000 : ℤ) ≤ r * r := by
    have := mul_le_mul h h (by positivity) r0.le
    rwa [← zpow_add₀ two_ne_zero] at this
  have t : (2 : ℝ) ^ (-1022 : ℤ) ≤ (2 : ℝ) ^ (-1000 : ℤ) := zpow_le_zpow_right₀ (by norm_num) (by norm_num)
  have t' : (2 : ℝ) ^ (-1022 : ℤ) ≤ (2 : ℝ) ^ (-500 : ℤ) := zpow_le_zpow_right₀ (by norm_num) (by norm_num)
  have hpi := pi_err
  have e53 : (2 : ℝ) ^ (-53 : ℤ) = 1 / 9007199254740992 := by norm_num
  have e49 : (2 : ℝ) ^ (-49 : ℤ) = 1 / 562949953421312 := by norm_num
  have ra : |r| ≤ r := (abs_of_pos r0).le
  have h1 := rne_mul_err (a := rne Real.pi) (b := r) (x := Real.pi) (y := r) (X := 4) (Y := r) (d := (2 : ℝ) ^ (-53 : ℤ) * 4) (e := 0)
    (by rw [abs_of_pos Real.pi_pos]; exact Real.pi_le_four) ra hpi (by simp) (by rw [e53]; nlinarith)
  have h2 := rne_mul_err (a := rne (rne Real.pi * r)) (b := r) (x := Real.pi * r) (y := r) (X := 4 * r) (Y := r) (d := 9 * (2 : ℝ) ^ (-53 : ℤ) * r) (e := 0)
    (by rw [abs_mul, abs_of_pos Real.pi_pos, abs_of_pos r0]; exact mul_le_mul_of_nonneg_right Real.pi_le_four r0.le) ra
    (h1.trans (by rw [e53]; nlinarith)) (by simp) (by rw [e53]; nlinarith)
  have e : c.area.val = rne (rne (rne Real.pi * r) * r) := rfl
  rw [e, pow_two, ← mul_assoc]
  refine h2.trans ?_
  rw [e53, e49]
  nlinarith

/-- **C194** Area of a rectangle and diagonal of a size. -/
theorem C194_rect (s : Size (FP double)) (tl : Vec (FP double)) (hdl : IsDouble s.length.val) (hdw : IsDouble s.width.val)
    (hl : (2 : ℝ) ^ (-500 : ℤ) ≤ s.length.val) (hw : (2 : ℝ) ^ (-500 : ℤ) ≤ s.width.val) :
    |(⟨tl, s⟩ : Rect (FP double)).area.val - s.length.val * s.width.val| ≤ (2 : ℝ) ^ (-53 : ℤ) * (s.length.val * s.width.val) ∧
    |s.diagonal.val - √(s.length.val ^ 2 + s.width.val ^ 2)| ≤ (2 : ℝ) ^ (-49 : ℤ) * √(s.length.val ^ 2 + s.width.val ^ 2) := by
  have l0 : 0 < s.length.val := lt_of_lt_of_le (by positivity) hl
  have w0 : 0 < s.width.val := lt_of_lt_of_le (by positivity) hw
  constructor
  · refine rne_err_le (abs_of_pos (mul_pos l0 w0)).le ?_
    have := mul_le_mul hl hw (by positivity) l0.le
    rw [← zpow_add₀ two_ne_zero] at this
    exact le_trans (zpow_le_zpow_right₀ (by norm_num) (by norm_num)) this
  · refine C173_length ⟨s.length, s.width, true⟩ ⟨hdl, hdw⟩ (hl.trans ?_)
    exact Real.le_sqrt_of_sq_le (le_add_of_nonneg_right (by positivity))

theorem arc_period (x : ℝ) : ∃ k : ℤ, AngleDeg.normalDeg x - x = 360 * k := by
  obtain ⟨k, hk⟩ := AngleDeg.ofNum_angleEq x
  exact ⟨k, hk⟩

/-- **C194** The angle of a sector: between 0 and 360, and equal to the difference of its ends up to full turns. -/
theorem C194_arc (s : Sector (FP double)) (h1 : |s.start.deg.val| ≤ 180) (h2 : |s.stop.deg.val| ≤ 180) :
    0 ≤ s.arcDeg.val ∧ s.arcDeg.val ≤ 360 ∧ ∃ k : ℤ, |s.arcDeg.val - (s.stop.deg.val - s.start.deg.val + 360 * k)| ≤ (2 : ℝ) ^ (-43 : ℤ) := by
  obtain ⟨a1, a2⟩ := abs_le.mp h1
  obtain ⟨b1, b2⟩ := abs_le.mp h2
  have t : (2 : ℝ) ^ (-1022 : ℤ) ≤ 360 := (zpow_le_one_of_nonpos₀ (by norm_num) (by norm_num)).trans (by norm_num)
  have e53 : (2 : ℝ) ^ (-53 : ℤ) = 1 / 9007199254740992 := by norm_num
  have e43 : (2 : ℝ) ^ (-43 : ℤ) = 1 / 8796093022208 := by norm_num
  have hd := rne_err_le (x := s.stop.deg.val - s.start.deg.val) (B := 360) (abs_le.mpr ⟨by linarith, by linarith⟩) t
  set d := rne (s.stop.deg.val - s.start.deg.val) with hdd
  have hdiv : (s.stop.sub s.start).degree_.val = AngleDeg.normalDeg d := (C96_double_exact (isDouble_rne (s.stop.deg.val - s.start.deg.val))).1
  have hr := C96_normal double (⟨d⟩ : FP double)
  rw [show (AngleDeg.normalDeg (⟨d⟩ : FP double)).val = AngleDeg.normalDeg d from hdiv] at hr
  obtain ⟨k, hk⟩ : ∃ k : ℤ, AngleDeg.normalDeg d = d + 360 * k := by
    obtain ⟨k, hk⟩ := arc_period d
    exact ⟨k, by linarith⟩
  have h0 : (num 0 : FP double).val = 0 := by
    change rne ((0 : ℕ) : ℝ) = 0
    rw [Nat.cast_zero, rne_zero]
  have h360 : (num 360 : FP double).val = 360 := by
    change rne ((360 : ℕ) : ℝ) = 360
    rw [rne_of_isDouble (isDouble_nat (n := 360) (by norm_num))]
    norm_num
  rw [e53] at hd
  rw [e43]
  obtain ⟨d1, d2⟩ := abs_le.mp hd
  unfold Sector.arcDeg
  dsimp only
  by_cases c : (s.stop.sub s.start).degree_ < num 0
  · rw [if_pos c]
    have c' : (s.stop.sub s.start).degree_.val < (num 0 : FP double).val := c
    rw [h0, hdiv] at c'
    have ev : ((s.stop.sub s.start).degree_ + num 360 : FP double).val = rne (AngleDeg.normalDeg d + 360) := by
      change rne (_ + _) = _
      rw [hdiv, h360]
    rw [ev]
    have he := rne_err_le (x := AngleDeg.normalDeg d + 360) (B := 360) (abs_le.mpr ⟨by linarith, by linarith⟩) t
    rw [e53] at he
    obtain ⟨e1, e2⟩ := abs_le.mp he
    refine ⟨rne_nonneg (by linarith), ?_, k + 1, ?_⟩
    · have := rne_mono (show AngleDeg.normalDeg d + 360 ≤ 360 by linarith)
      rwa [show rne (360 : ℝ) = 360 by simpa using rne_of_isDouble (isDouble_nat (n := 360) (by norm_num))] at this
    · push_cast
      rw [abs_le]
      constructor <;> linarith
  · rw [if_neg c]
    have c' : ¬ (s.stop.sub s.start).degree_.val < (num 0 : FP double).val := c
    rw [h0, not_lt] at c'
    refine ⟨c', by rw [hdiv]; linarith, k, ?_⟩
    rw [hdiv, hk, abs_le]
    constructor <;> linarith

/-- **C194** The area of a sector, the computed angle given. -/
theorem C194_sector (s : Sector (FP double)) (hM : (2 : ℝ) ^ (-400 : ℤ) ≤ s.maxR.val) (h0 : 0 ≤ s.minR.val) (hm : s.minR.val ≤ s.maxR.val)
    (hA : s.arcDeg.val = 0 ∨ (2 : ℝ) ^ (-100 : ℤ) ≤ s.arcDeg.val) :
    |s.area.val - Real.pi * (s.maxR.val ^ 2 - s.minR.val ^ 2) * s.arcDeg.val / 360| ≤ (2 : ℝ) ^ (-47 : ℤ) * (s.maxR.val ^ 2 * s.arcDeg.val / 360) := by
  have h360 : (num 360 : FP double).val = 360 := by
    change rne ((360 : ℕ) : ℝ) = 360
    rw [rne_of_isDouble (isDouble_nat (n := 360) (by norm_num))]
    norm_num
  have ev : s.area.val = rne (rne (rne (rne (rne (s.maxR.val * s.maxR.val) * rne Real.pi) - rne (rne (s.minR.val * s.minR.val) * rne Real.pi)) *
      s.arcDeg.val) / 360) := by
    change rne (rne (rne (rne (rne (s.maxR.val * s.maxR.val) * rne Real.pi) - rne (rne (s.minR.val * s.minR.val) * rne Real.pi)) *
      s.arcDeg.val) / (num 360 : FP double).val) = _
    rw [h360]
  rw [ev]
  generalize s.arcDeg.val = A at *
  generalize s.maxR.val = M at *
  generalize s.minR.val = m at *
  rcases hA with rfl | hA
  · simp [rne_zero]
  have M0 : 0 < M := lt_of_lt_of_le (by positivity) hM
  have A0 : 0 < A := lt_of_lt_of_le (by positivity) hA
  have e53 : (2 : ℝ) ^ (-53 : ℤ) = 1 / 9007199254740992 := by norm_num
  have e47 : (2 : ℝ) ^ (-47 : ℤ) = 1 / 140737488355328 := by norm_num
  have pz : ∀ n : ℤ, 0 < (2 : ℝ) ^ n := fun n => zpow_pos (by norm_num) n
  rw [pow_two, pow_two]
  have hS : (2 : ℝ) ^ (-800 : ℤ) ≤ M * M := by
    have := mul_le_mul hM hM (pz _).le M0.le
    rwa [← zpow_add₀ two_ne_zero] at this
  have hmS : m * m ≤ M * M := mul_self_le_mul_self h0 hm
  have hm0 : 0 ≤ m * m := mul_self_nonneg m
  generalize M * M = S at *
  generalize m * m = T at *
  have S0 : 0 < S := lt_of_lt_of_le (pz _) hS
  have hSA : (2 : ℝ) ^ (-900 : ℤ) ≤ S * A := by
    have := mul_le_mul hS hA (pz _).le S0.le
    rwa [← zpow_add₀ two_ne_zero] at this
  have P0 : 0 < S * A := mul_pos S0 A0
  have tS : (2 : ℝ) ^ (-1022 : ℤ) ≤ S := le_trans (zpow_le_zpow_right₀ (by norm_num) (by norm_num)) hS
  have tP : (2 : ℝ) ^ (-1022 : ℤ) ≤ S * A / 360 := by
    have h1 : (2 : ℝ) ^ (-910 : ℤ) ≤ S * A / 360 := by
      rw [le_div_iff₀ (by norm_num)]
      refine le_trans ?_ hSA
      rw [show (-900 : ℤ) = -910 + 10 by norm_num, zpow_add₀ two_ne_zero]
      exact mul_le_mul_of_nonneg_left (by norm_num) (pz _).le
    exact le_trans (zpow_le_zpow_right₀ (by norm_num) (by norm_num)) h1
  have base : ∀ {x B : ℝ}, |x| ≤ B → S ≤ B ∨ S * A / 360 ≤ B → |rne x - x| ≤ 1 / 9007199254740992 * B := by
    intro x B h h'
    rw [← e53]
    exact rne_err_le h (h'.elim tS.trans tP.trans)
  have prod : ∀ {a b x y X Y d e : ℝ}, |x| ≤ X → |b| ≤ Y → |a - x| ≤ d → |b - y| ≤ e → S ≤ (X + d) * Y ∨ S * A / 360 ≤ (X + d) * Y →
      |rne (a * b) - x * y| ≤ 1 / 9007199254740992 * ((X + d) * Y) + (d * Y + X * e) := by
    intro a b x y X Y d e h1 h2 h3 h4 h'
    rw [← e53]
    exact rne_mul_err h1 h2 h3 h4 (h'.elim tS.trans tP.trans)
  have hpi := pi_err
  have hpb := rne_pi_bounds
  rw [e53] at hpi
  rw [e47]
  have pi4 := Real.pi_le_four
  have pi0 := Real.pi_pos
  clear tS tP hS hSA hM hA e53 e47 pz
  have u1 := base (x := S) (B := S) (abs_of_pos S0).le (.inl le_rfl)
  have v1 := base (x := T) (B := S) (by rw [abs_of_nonneg hm0]; exact hmS) (.inl le_rfl)
  have u2 := prod (a := rne S) (b := rne Real.pi) (x := S) (y := Real.pi) (X := S) (Y := 4) (abs_of_pos S0).le hpb u1 hpi (.inl (by linarith))
  have v2 := prod (a := rne T) (b := rne Real.pi) (x := T) (y := Real.pi) (X := S) (Y := 4) (by rw [abs_of_nonneg hm0]; exact hmS) hpb v1 hpi
    (.inl (by linarith))
  generalize rne (rne S * rne Real.pi) = U at *
  generalize rne (rne T * rne Real.pi) = V at *
  have hSp : S * Real.pi ≤ S * 4 := mul_le_mul_of_nonneg_left pi4 S0.le
  have hTp : T * Real.pi ≤ T * 4 := mul_le_mul_of_nonneg_left pi4 hm0
  have hSp0 : 0 ≤ S * Real.pi := mul_nonneg S0.le pi0.le
  have hTp0 : 0 ≤ T * Real.pi := mul_nonneg hm0 pi0.le
  have hTS : T * Real.pi ≤ S * Real.pi := mul_le_mul_of_nonneg_right hmS pi0.le
  obtain ⟨u3, u4⟩ := abs_le.mp u2
  obtain ⟨v3, v4⟩ := abs_le.mp v2
  have c1 := base (x := U - V) (B := 9 * S) (abs_le.mpr ⟨by linarith, by linarith⟩) (.inl (by linarith))
  obtain ⟨c2, c3⟩ := abs_le.mp c1
  have c4 : |rne (U - V) - (S * Real.pi - T * Real.pi)| ≤ 36 / 9007199254740992 * S := abs_le.mpr ⟨by linarith, by linarith⟩
  have w1 := prod (a := rne (U - V)) (b := A) (x := S * Real.pi - T * Real.pi) (y := A) (X := 4 * S) (Y := A) (e := 0)
    (abs_le.mpr ⟨by linarith, by linarith⟩) (abs_of_pos A0).le c4 (by simp) (.inr (by
      have : (4 * S + 36 / 9007199254740992 * S) * A = (4 + 36 / 9007199254740992) * (S * A) := by ring
      rw [this]; linarith))
  generalize rne (rne (U - V) * A) = W at *
  have eA : (4 * S + 36 / 9007199254740992 * S) * A = (4 + 36 / 9007199254740992) * (S * A) := by ring
  have eB : 36 / 9007199254740992 * S * A = 36 / 9007199254740992 * (S * A) := by ring
  rw [eA, eB, mul_zero, add_zero] at w1
  have hx1 : (S * Real.pi - T * Real.pi) * A ≤ 4 * (S * A) := by
    have := mul_le_mul_of_nonneg_right (show S * Real.pi - T * Real.pi ≤ 4 * S by linarith) A0.le
    linarith
  have hx0 : 0 ≤ (S * Real.pi - T * Real.pi) * A := mul_nonneg (by linarith) A0.le
  have eX : Real.pi * (S - T) * A / 360 = (S * Real.pi - T * Real.pi) * A / 360 := by ring
  rw [eX]
  generalize (S * Real.pi - T * Real.pi) * A = X at *
  obtain ⟨w2, w3⟩ := abs_le.mp w1
  generalize S * A = P at *
  have z := base (x := W / 360) (B := 5 * P / 360) (by
    rw [abs_le]; constructor <;> linarith) (.inr (by linarith))
  obtain ⟨z1, z2⟩ := abs_le.mp z
  rw [abs_le]
  constructor <;> linarith

/-- **C194** The lengths of the two arcs of a sector, the computed angle given. -/
theorem C194_arcs (s : Sector (FP double)) (hA : s.arcDeg.val = 0 ∨ (2 : ℝ) ^ (-100 : ℤ) ≤ s.arcDeg.val) :
    ((2 : ℝ) ^ (-400 : ℤ) ≤ s.maxR.val →
      |s.circumferenceMax.val - 2 * Real.pi * s.maxR.val * s.arcDeg.val / 360| ≤ (2 : ℝ) ^ (-46 : ℤ) * (s.maxR.val * s.arcDeg.val / 360)) ∧
    ((2 : ℝ) ^ (-400 : ℤ) ≤ s.minR.val →
      |s.circumferenceMin.val - 2 * Real.pi * s.minR.val * s.arcDeg.val / 360| ≤ (2 : ℝ) ^ (-46 : ℤ) * (s.minR.val * s.arcDeg.val / 360)) := by
  have h360 : (num 360 : FP double).val = 360 := by
    change rne ((360 : ℕ) : ℝ) = 360
    rw [rne_of_isDouble (isDouble_nat (n := 360) (by norm_num))]
    norm_num
  have h2 : (num 2 : FP double).val = 2 := by
    change rne ((2 : ℕ) : ℝ) = 2
    rw [rne_of_isDouble (isDouble_nat (n := 2) (by norm_num))]
    norm_num
  have key : ∀ R : FP double, (2 : ℝ) ^ (-400 : ℤ) ≤ R.val →
      |((num 2 * R * PyMath.pi) * (s.arcDeg / num 360) : FP double).val - 2 * Real.pi * R.val * s.arcDeg.val / 360| ≤
        (2 : ℝ) ^ (-46 : ℤ) * (R.val * s.arcDeg.val / 360) := by
    intro R hM
    have ev : ((num 2 * R * PyMath.pi) * (s.arcDeg / num 360) : FP double).val = rne (rne (rne (2 * R.val) * rne Real.pi) * rne (s.arcDeg.val / 360)) := by
      change rne (rne (rne ((num 2 : FP double).val * R.val) * rne Real.pi) * rne (s.arcDeg.val / (num 360 : FP double).val)) = _
      rw [h360, h2]
    rw [ev]
    generalize s.arcDeg.val = A at *
    generalize R.val = M at *
    rcases hA with rfl | hA
    · simp [rne_zero]
    have e53 : (2 : ℝ) ^ (-53 : ℤ) = 1 / 9007199254740992 := by norm_num
    have e46 : (2 : ℝ) ^ (-46 : ℤ) = 1 / 70368744177664 := by norm_num
    have pz : ∀ n : ℤ, 0 < (2 : ℝ) ^ n := fun n => zpow_pos (by norm_num) n
    have M0 : 0 < M := lt_of_lt_of_le (pz _) hM
    have A0 : 0 < A := lt_of_lt_of_le (pz _) hA
    have hD : (2 : ℝ) ^ (-110 : ℤ) ≤ A / 360 := by
      rw [le_div_iff₀ (by norm_num)]
      refine le_trans ?_ hA
      rw [show (-100 : ℤ) = -110 + 10 by norm_num, zpow_add₀ two_ne_zero]
      exact mul_le_mul_of_nonneg_left (by norm_num) (pz _).le
    have eA : 2 * Real.pi * M * A / 360 = (2 * M * Real.pi) * (A / 360) := by ring
    have eB : M * A / 360 = M * (A / 360) := by ring
    rw [eA, eB]
    have D0 : 0 < A / 360 := by positivity
    generalize A / 360 = D at *
    have hMD : (2 : ℝ) ^ (-510 : ℤ) ≤ M * D := by
      have := mul_le_mul hM hD (pz _).le M0.le
      rwa [← zpow_add₀ two_ne_zero] at this
    have P0 : 0 < M * D := mul_pos M0 D0
    have tM : (2 : ℝ) ^ (-1022 : ℤ) ≤ M := le_trans (zpow_le_zpow_right₀ (by norm_num) (by norm_num)) hM
    have tD : (2 : ℝ) ^ (-1022 : ℤ) ≤ D := le_trans (zpow_le_zpow_right₀ (by norm_num) (by norm_num)) hD
    have tP : (2 : ℝ) ^ (-1022 : ℤ) ≤ M * D := le_trans (zpow_le_zpow_right₀ (by norm_num) (by norm_num)) hMD
    have base : ∀ {x B : ℝ}, |x| ≤ B → M ≤ B ∨ D ≤ B → |rne x - x| ≤ 1 / 9007199254740992 * B := by
      intro x B h h'
      rw [← e53]
      exact rne_err_le h (h'.elim tM.trans tD.trans)
    have prod : ∀ {a b x y X Y d e : ℝ}, |x| ≤ X → |b| ≤ Y → |a - x| ≤ d → |b - y| ≤ e → M ≤ (X + d) * Y ∨ M * D ≤ (X + d) * Y →
        |rne (a * b) - x * y| ≤ 1 / 9007199254740992 * ((X + d) * Y) + (d * Y + X * e) := by
      intro a b x y X Y d e h1 h2 h3 h4 h'
      rw [← e53]
      exact rne_mul_err h1 h2 h3 h4 (h'.elim tM.trans tP.trans)
    have hpi := pi_err
    have hpb := rne_pi_bounds
    rw [e53] at hpi
    rw [e46]
    have pi4 := Real.pi_le_four
    have pi0 := Real.pi_pos
    clear tM tD tP hMD hM hA hD e53 e46 pz
    have u1 := base (x := 2 * M) (B := 2 * M) (abs_of_pos (by linarith)).le (.inl (by linarith))
    have u2 := prod (a := rne (2 * M)) (b := rne Real.pi) (x := 2 * M) (y := Real.pi) (X := 2 * M) (Y := 4) (abs_of_pos (by linarith)).le hpb u1 hpi
      (.inl (by linarith))
    have hSp : 2 * M * Real.pi ≤ 2 * M * 4 := mul_le_mul_of_nonneg_left pi4 (by linarith)
    have hSp0 : 0 ≤ 2 * M * Real.pi := mul_nonneg (by linarith) pi0.le
    have d1 := base (x := D) (B := D) (abs_of_pos D0).le (.inr le_rfl)
    obtain ⟨d2, d3⟩ := abs_le.mp d1
    have u3 : |rne (rne (2 * M) * rne Real.pi) - 2 * M * Real.pi| ≤ 32 / 9007199254740992 * M := u2.trans (by linarith)
    have w := prod (a := rne (rne (2 * M) * rne Real.pi)) (b := rne D) (x := 2 * M * Real.pi) (y := D) (X := 8 * M) (Y := 2 * D)
      (abs_le.mpr ⟨by linarith, by linarith⟩) (abs_le.mpr ⟨by linarith, by linarith⟩) u3 d1 (.inr (by
        have : (8 * M + 32 / 9007199254740992 * M) * (2 * D) = (16 + 64 / 9007199254740992) * (M * D) := by ring
        rw [this]; linarith))
    refine w.trans ?_
    have : 1 / 9007199254740992 * ((8 * M + 32 / 9007199254740992 * M) * (2 * D)) +
        (32 / 9007199254740992 * M * (2 * D) + 8 * M * (1 / 9007199254740992 * D)) =
        (1 / 9007199254740992 * (16 + 64 / 9007199254740992) + 72 / 9007199254740992) * (M * D) := by ring
    rw [this]
    exact mul_le_mul_of_nonneg_right (by norm_num) P0.le
  exact ⟨key _, key _⟩

/-- The unit circle. -/
example (c : Vec (FP double)) : |(⟨c, ⟨1⟩⟩ : Circle (FP double)).area.val - Real.pi| ≤ (2 : ℝ) ^ (-49 : ℤ) := by
  have := C194_circle ⟨c, ⟨1⟩⟩ (zpow_le_one_of_nonpos₀ (by norm_num) (by norm_num))
  simpa using this

/-- A quarter of the unit disc. -/
example (c : Vec (FP double)) : |(⟨c, ⟨0⟩, ⟨1⟩, ⟨⟨0⟩⟩, ⟨⟨90⟩⟩⟩ : Sector (FP double)).area.val - Real.pi / 4| ≤ (2 : ℝ) ^ (-40 : ℤ) := by
  set s : Sector (FP double) := ⟨c, ⟨0⟩, ⟨1⟩, ⟨⟨0⟩⟩, ⟨⟨90⟩⟩⟩ with hs
  obtain ⟨h0, h1, k, hk⟩ := C194_arc s (by simp [hs]) (by simp [hs]; norm_num)
  have hk' : |s.arcDeg.val - (90 + 360 * k)| ≤ (2 : ℝ) ^ (-43 : ℤ) := by simpa [hs] using hk
  have e43 : (2 : ℝ) ^ (-43 : ℤ) = 1 / 8796093022208 := by norm_num
  rw [e43] at hk'
  obtain ⟨k1, k2⟩ := abs_le.mp hk'
  have hk0 : k = 0 := by
    have a1 : (-1 : ℝ) < k := by linarith
    have a2 : (k : ℝ) < 1 := by linarith
    have a1' : (-1 : ℤ) < k := by exact_mod_cast a1
    have a2' : k < (1 : ℤ) := by exact_mod_cast a2
    omega
  subst hk0
  rw [Int.cast_zero, mul_zero, add_zero] at k1 k2
  have ha := C194_sector s (by change _ ≤ (1 : ℝ); exact zpow_le_one_of_nonpos₀ (by norm_num) (by norm_num)) le_rfl (by change (0 : ℝ) ≤ 1; norm_num)
    (.inr (le_trans (zpow_le_one_of_nonpos₀ (by norm_num) (by norm_num)) (by linarith : (1 : ℝ) ≤ s.arcDeg.val)))
  change |s.area.val - Real.pi * ((1 : ℝ) ^ 2 - (0 : ℝ) ^ 2) * s.arcDeg.val / 360| ≤ (2 : ℝ) ^ (-47 : ℤ) * ((1 : ℝ) ^ 2 * s.arcDeg.val / 360) at ha
  have e47 : (2 : ℝ) ^ (-47 : ℤ) = 1 / 140737488355328 := by norm_num
  have e40 : (2 : ℝ) ^ (-40 : ℤ) = 1 / 1099511627776 := by norm_num
  rw [e47] at ha
  rw [e40]
  obtain ⟨a1, a2⟩ := abs_le.mp ha
  have p1 : Real.pi * (s.arcDeg.val - 90) ≤ 4 * (1 / 8796093022208) :=
    (mul_le_mul_of_nonneg_left (show s.arcDeg.val - 90 ≤ 1 / 8796093022208 by linarith) Real.pi_pos.le).trans
      (mul_le_mul_of_nonneg_right Real.pi_le_four (by norm_num))
  have p2 : Real.pi * (90 - s.arcDeg.val) ≤ 4 * (1 / 8796093022208) :=
    (mul_le_mul_of_nonneg_left (show 90 - s.arcDeg.val ≤ 1 / 8796093022208 by linarith) Real.pi_pos.le).trans
      (mul_le_mul_of_nonneg_right Real.pi_le_four (by norm_num))
  rw [abs_le]
  constructor <;> nlinarith

end PyrusGeom
