import Verif.Model.Float

/-!
# Facts about `rne`: it is a `Rounding`, its fixed points are the doubles, error bounds, Sterbenz' lemma.
-/

namespace PyrusGeom

theorem roundEven_mem (x : ℝ) : ⌊x⌋ ≤ roundEven x ∧ roundEven x ≤ ⌊x⌋ + 1 := by
  unfold roundEven
  split_ifs <;> constructor <;> omega

theorem roundEven_int (n : ℤ) : roundEven (n : ℝ) = n := by
  unfold roundEven
  simp

theorem roundEven_mono : Monotone roundEven := by
  intro x y hxy
  rcases (Int.floor_mono hxy).lt_or_eq with h | h
  · have h1 := (roundEven_mem x).2
    have h2 := (roundEven_mem y).1
    omega
  · have hf : Int.fract x ≤ Int.fract y := by
      unfold Int.fract
      rw [h]
      linarith
    unfold roundEven
    rw [h]
    split_ifs <;> first | omega | (exfalso; linarith)

theorem roundEven_neg (x : ℝ) : roundEven (-x) = -roundEven x := by
  by_cases h0 : Int.fract x = 0
  · obtain ⟨n, rfl⟩ : ∃ n : ℤ, (n : ℝ) = x := ⟨⌊x⌋, by rw [Int.fract] at h0; linarith⟩
    rw [← Int.cast_neg, roundEven_int, roundEven_int]
  · have hfr : Int.fract (-x) = 1 - Int.fract x := Int.fract_neg h0
    have hfl : ⌊-x⌋ = -⌊x⌋ - 1 := by
      have : (⌊-x⌋ : ℝ) = -⌊x⌋ - 1 := by
        have h1 := Int.self_sub_floor x
        have h2 := Int.self_sub_floor (-x)
        rw [hfr] at h2
        linarith
      exact_mod_cast this
    have hev : Even (-⌊x⌋ - 1) ↔ ¬ Even ⌊x⌋ := by
      rw [Int.even_sub, even_neg]
      simp
    unfold roundEven
    rw [hfr, hfl]
    rcases lt_trichotomy (Int.fract x) (1 / 2) with h | h | h
    · rw [if_neg (by linarith), if_pos (by linarith), if_pos h]; ring
    · have e1 : ¬ (1 - (1 / 2 : ℝ) < 1 / 2) := by norm_num
      have e2 : ¬ ((1 / 2 : ℝ) < 1 - 1 / 2) := by norm_num
      rw [h]
      simp only [e1, e2, lt_irrefl, if_false, hev]
      by_cases he : Even ⌊x⌋
      · simp only [he, not_true_eq_false, if_true, if_false]; ring
      · simp only [he, not_false_eq_true, if_true, if_false]; ring
    · rw [if_pos (by linarith), if_neg (by linarith), if_pos h]; ring

theorem roundEven_error (x : ℝ) : |(roundEven x : ℝ) - x| ≤ 1 / 2 := by
  have h1 := Int.self_sub_floor x
  have h0 := Int.fract_nonneg x
  have h2 := Int.fract_lt_one x
  unfold roundEven
  split_ifs <;> rw [abs_le] <;> push_cast <;> constructor <;> linarith

theorem ulp_pos (x : ℝ) : 0 < ulp x := by unfold ulp; positivity

theorem ulp_neg (x : ℝ) : ulp (-x) = ulp x := by unfold ulp; rw [abs_neg]

theorem rne_neg (x : ℝ) : rne (-x) = -rne x := by
  unfold rne
  rw [ulp_neg, neg_div, roundEven_neg]
  push_cast; ring

theorem rne_zero : rne 0 = 0 := by
  unfold rne
  have : roundEven (0 : ℝ) = 0 := by simpa using roundEven_int 0
  simp [this]

theorem rne_error (x : ℝ) : |rne x - x| ≤ ulp x / 2 := by
  have h := roundEven_error (x / ulp x)
  have hu := ulp_pos x
  have : rne x - x = ulp x * ((roundEven (x / ulp x) : ℝ) - x / ulp x) := by
    unfold rne
    rw [mul_sub, mul_div_cancel₀ _ hu.ne']
  rw [this, abs_mul, abs_of_pos hu]
  nlinarith

/-- The exponent of the grid at `x`. -/
noncomputable def expo (x : ℝ) : ℤ := max (Int.log 2 |x|) (-1022)

theorem ulp_expo (x : ℝ) : ulp x = (2 : ℝ) ^ (expo x - 52) := rfl

theorem ulp_53 (x : ℝ) : ulp x * ((2 ^ 53 : ℤ) : ℝ) = (2 : ℝ) ^ (expo x + 1) := by
  have : ((2 ^ 53 : ℤ) : ℝ) = (2 : ℝ) ^ (53 : ℤ) := by norm_num
  rw [this, ulp_expo, ← zpow_add₀ two_ne_zero]
  congr 1; ring

theorem ulp_52 (x : ℝ) : ulp x * ((2 ^ 52 : ℤ) : ℝ) = (2 : ℝ) ^ expo x := by
  have : ((2 ^ 52 : ℤ) : ℝ) = (2 : ℝ) ^ (52 : ℤ) := by norm_num
  rw [this, ulp_expo, ← zpow_add₀ two_ne_zero]
  congr 1; ring

theorem lt_two_pow_expo (x : ℝ) : |x| < (2 : ℝ) ^ (expo x + 1) := by
  have h := Int.lt_zpow_succ_log_self (R := ℝ) (b := 2) one_lt_two |x|
  push_cast at h
  refine h.trans_le (zpow_le_zpow_right₀ one_le_two ?_)
  have := le_max_left (Int.log 2 |x|) (-1022)
  unfold expo
  omega

theorem two_pow_expo_le {x : ℝ} (h : -1022 < expo x) (hx : x ≠ 0) : (2 : ℝ) ^ expo x ≤ |x| := by
  have h1 := Int.zpow_log_le_self (R := ℝ) (b := 2) one_lt_two (abs_pos.mpr hx)
  have : expo x = Int.log 2 |x| := by
    unfold expo at *
    rcases max_choice (Int.log 2 |x|) (-1022) with h' | h'
    · exact h'
    · omega
  rw [this]
  exact_mod_cast h1

theorem expo_mono {x y : ℝ} (hx : 0 < x) (hxy : x ≤ y) : expo x ≤ expo y := by
  unfold expo
  rw [abs_of_pos hx, abs_of_pos (hx.trans_le hxy)]
  exact max_le_max_right _ (Int.log_mono_right hx hxy)

/-- Multiples of the grid within reach are kept, from above. -/
theorem rne_le_of_grid {x : ℝ} (n : ℤ) (h : x ≤ ulp x * n) : rne x ≤ ulp x * n := by
  unfold rne
  refine mul_le_mul_of_nonneg_left ?_ (ulp_pos x).le
  have : x / ulp x ≤ n := by rw [div_le_iff₀ (ulp_pos x)]; linarith
  have := roundEven_mono this
  rw [roundEven_int] at this
  exact_mod_cast this

theorem le_rne_of_grid {x : ℝ} (n : ℤ) (h : ulp x * n ≤ x) : ulp x * n ≤ rne x := by
  unfold rne
  refine mul_le_mul_of_nonneg_left ?_ (ulp_pos x).le
  have : (n : ℝ) ≤ x / ulp x := by rw [le_div_iff₀ (ulp_pos x)]; linarith
  have := roundEven_mono this
  rw [roundEven_int] at this
  exact_mod_cast this

theorem rne_nonneg {x : ℝ} (h : 0 ≤ x) : 0 ≤ rne x := by
  simpa using le_rne_of_grid (x := x) 0 (by simpa using h)

theorem rne_mono_pos {x y : ℝ} (hx : 0 < x) (hxy : x ≤ y) : rne x ≤ rne y := by
  rcases (expo_mono hx hxy).lt_or_eq with h | h
  · have hy : (2 : ℝ) ^ expo y ≤ y := by
      have := two_pow_expo_le (x := y) (lt_of_le_of_lt (le_max_right _ _) h) (hx.trans_le hxy).ne'
      rwa [abs_of_pos (hx.trans_le hxy)] at this
    have h1 : rne x ≤ ulp x * ((2 ^ 53 : ℤ) : ℝ) := by
      refine rne_le_of_grid _ ?_
      have := lt_two_pow_expo x
      rw [abs_of_pos hx] at this
      exact this.le.trans (ulp_53 x).ge
    have h2 : ulp y * ((2 ^ 52 : ℤ) : ℝ) ≤ rne y := by
      refine le_rne_of_grid _ ?_
      exact (ulp_52 y).le.trans hy
    refine h1.trans (le_trans ?_ h2)
    rw [ulp_53, ulp_52]
    exact zpow_le_zpow_right₀ one_le_two (by omega)
  · have hu : ulp x = ulp y := by rw [ulp_expo, ulp_expo, h]
    unfold rne
    rw [hu]
    refine mul_le_mul_of_nonneg_left ?_ (ulp_pos y).le
    exact_mod_cast roundEven_mono (div_le_div_of_nonneg_right hxy (ulp_pos y).le)

theorem rne_mono : Monotone rne := by
  intro x y hxy
  rcases lt_trichotomy x 0 with hx | rfl | hx
  · rcases lt_or_ge y 0 with hy | hy
    · have := rne_mono_pos (x := -y) (y := -x) (by linarith) (by linarith)
      rw [rne_neg, rne_neg] at this
      linarith
    · have h1 := rne_nonneg hy
      have h2 := rne_nonneg (x := -x) (by linarith)
      rw [rne_neg] at h2
      linarith
  · rw [rne_zero]; exact rne_nonneg hxy
  · exact rne_mono_pos hx hxy

/-- Doubles are not changed by rounding. -/
theorem rne_of_isDouble {x : ℝ} (h : IsDouble x) : rne x = x := by
  obtain ⟨m, k, hm, hk, rfl⟩ := h
  by_cases hm0 : m = 0
  · simp [hm0, rne_zero]
  set x : ℝ := m * (2 : ℝ) ^ k with hx
  have hx0 : x ≠ 0 := by rw [hx]; positivity
  -- the grid at `x` is coarser than `2 ^ k` only if `|m| = 2 ^ 53`
  suffices H : ∃ n : ℤ, x = ulp x * n by
    obtain ⟨n, hn⟩ := H
    exact le_antisymm ((rne_le_of_grid n hn.le).trans hn.ge) (hn.le.trans (le_rne_of_grid n hn.ge))
  by_cases hke : expo x - 52 ≤ k
  · refine ⟨m * 2 ^ (k - (expo x - 52)).toNat, ?_⟩
    rw [ulp_expo, hx]
    push_cast
    have : (2 : ℝ) ^ (k - (expo x - 52)).toNat = (2 : ℝ) ^ (k - (expo x - 52)) := by
      rw [← zpow_natCast, Int.toNat_of_nonneg (by omega)]
    rw [← hx, this]
    rw [show (2 : ℝ) ^ (expo x - 52) * (m * (2 : ℝ) ^ (k - (expo x - 52))) =
      m * ((2 : ℝ) ^ (expo x - 52) * (2 : ℝ) ^ (k - (expo x - 52))) by ring, ← zpow_add₀ two_ne_zero]
    rw [hx]; congr 2; ring
  · -- then `|x| ≥ 2 ^ expo x ≥ 2 ^ (k + 53)`
    have h1 : -1022 < expo x := by omega
    have h2 := two_pow_expo_le h1 hx0
    have h3 : |x| ≤ (2 : ℝ) ^ (k + 53) := by
      rw [hx, abs_mul, abs_of_pos (zpow_pos two_pos k : (0 : ℝ) < 2 ^ k), zpow_add₀ two_ne_zero, mul_comm]
      refine mul_le_mul_of_nonneg_left ?_ (by positivity)
      have : ((|m| : ℤ) : ℝ) ≤ ((2 ^ 53 : ℤ) : ℝ) := by exact_mod_cast hm
      rw [Int.cast_abs] at this
      refine this.trans (le_of_eq ?_)
      push_cast; norm_cast
    have h4 : expo x ≤ k + 53 := (zpow_le_zpow_iff_right₀ (one_lt_two (α := ℝ))).mp (h2.trans h3)
    have h5 : expo x = k + 53 := by omega
    have h6 : |x| = (2 : ℝ) ^ (k + 53) := le_antisymm h3 (h5 ▸ h2)
    have h7 : ulp x * ((2 ^ 52 : ℤ) : ℝ) = (2 : ℝ) ^ (k + 53) := by
      rw [ulp_52, h5]
    rcases abs_choice x with h | h
    · exact ⟨2 ^ 52, by rw [h7, ← h6, h]⟩
    · refine ⟨-2 ^ 52, ?_⟩
      have : ((-2 ^ 52 : ℤ) : ℝ) = -((2 ^ 52 : ℤ) : ℝ) := by push_cast; ring
      rw [this, mul_neg, h7, ← h6, h, neg_neg]

/-- The result of rounding is a double. -/
theorem isDouble_rne (x : ℝ) : IsDouble (rne x) := by
  refine ⟨roundEven (x / ulp x), expo x - 52, ?_, ?_, ?_⟩
  · have h := lt_two_pow_expo x
    have h1 : |x / ulp x| ≤ ((2 ^ 53 : ℤ) : ℝ) := by
      rw [abs_div, abs_of_pos (ulp_pos x), div_le_iff₀ (ulp_pos x)]
      rw [mul_comm, ulp_53]
      exact h.le
    rw [abs_le] at h1 ⊢
    have h2 := roundEven_mono h1.1
    have h3 := roundEven_mono h1.2
    rw [roundEven_int] at h3
    rw [← Int.cast_neg, roundEven_int] at h2
    exact ⟨h2, h3⟩
  · have := le_max_right (Int.log 2 |x|) (-1022)
    unfold expo; omega
  · rw [mul_comm]; rfl

/-- The doubles are exactly the numbers that rounding keeps. -/
theorem isDouble_iff (x : ℝ) : IsDouble x ↔ rne x = x :=
  ⟨rne_of_isDouble, fun h => h ▸ isDouble_rne x⟩

theorem isDouble_int {n : ℤ} (h : |n| ≤ 2 ^ 53) : IsDouble n := ⟨n, 0, h, by norm_num, by simp⟩

theorem isDouble_nat {n : ℕ} (h : n ≤ 2 ^ 53) : IsDouble n := by
  have := isDouble_int (n := n) (by rw [abs_of_nonneg (by positivity)]; exact_mod_cast h)
  exact_mod_cast this

theorem IsDouble.neg {x : ℝ} (h : IsDouble x) : IsDouble (-x) := by
  rw [isDouble_iff] at *
  rw [rne_neg, h]

/-- Double precision as a `Rounding`. -/
noncomputable def double : Rounding where
  f := rne
  mono := rne_mono
  odd := rne_neg
  int n hn := rne_of_isDouble (isDouble_nat (hn.trans (by norm_num)))

/-- Sterbenz: the difference of doubles within a factor of two is a double. -/
theorem sterbenz {x y : ℝ} (hx : IsDouble x) (hy : IsDouble y) (h1 : y / 2 ≤ x) (h2 : x ≤ 2 * y) :
    IsDouble (x - y) := by
  obtain ⟨m, k, hm, hk, rfl⟩ := hx
  obtain ⟨n, l, hn, hl, rfl⟩ := hy
  have key : ∀ (m n : ℤ) (k l : ℤ), |m| ≤ 2 ^ 53 → -1074 ≤ k → k ≤ l →
      |(m : ℝ) * (2 : ℝ) ^ k - n * (2 : ℝ) ^ l| ≤ |(m : ℝ) * (2 : ℝ) ^ k| →
      IsDouble ((m : ℝ) * (2 : ℝ) ^ k - n * (2 : ℝ) ^ l) := by
    intro m n k l hm hk hkl hle
    have he : (m : ℝ) * (2 : ℝ) ^ k - n * (2 : ℝ) ^ l = ((m - n * 2 ^ (l - k).toNat : ℤ) : ℝ) * (2 : ℝ) ^ k := by
      push_cast
      have : (2 : ℝ) ^ l = (2 : ℝ) ^ (l - k).toNat * (2 : ℝ) ^ k := by
        rw [← zpow_natCast, Int.toNat_of_nonneg (by omega), ← zpow_add₀ two_ne_zero]; congr 1; ring
      rw [this]; ring
    rw [he] at hle ⊢
    refine ⟨_, k, ?_, hk, rfl⟩
    rw [abs_mul, abs_mul] at hle
    have hp : (0 : ℝ) < |(2 : ℝ) ^ k| := by positivity
    have := le_of_mul_le_mul_right hle hp
    have h' : |m - n * 2 ^ (l - k).toNat| ≤ |m| := by exact_mod_cast this
    exact h'.trans hm
  have hy0 : 0 ≤ (n : ℝ) * (2 : ℝ) ^ l := by linarith
  have hx0 : 0 ≤ (m : ℝ) * (2 : ℝ) ^ k := by linarith
  rcases le_total k l with h | h
  · refine key m n k l hm hk h ?_
    rw [abs_of_nonneg hx0, abs_le]; constructor <;> linarith
  · have := (key n m l k hn hl h (by rw [abs_of_nonneg hy0, abs_le]; constructor <;> linarith)).neg
    rwa [neg_sub] at this

/-- The relative error is at most `2 ^ (-53)` outside the subnormal range. -/
theorem rne_rel_error {x : ℝ} (h : (2 : ℝ) ^ (-1022 : ℤ) ≤ |x|) : |rne x - x| ≤ (2 : ℝ) ^ (-53 : ℤ) * |x| := by
  have hx : 0 < |x| := lt_of_lt_of_le (by positivity) h
  have he : expo x = Int.log 2 |x| := by
    unfold expo
    refine max_eq_left ?_
    have := Int.log_mono_right (b := 2) (R := ℝ) (by positivity) h
    have h2 : Int.log 2 ((2 : ℝ) ^ (-1022 : ℤ)) = -1022 := by
      have := Int.log_zpow (R := ℝ) (b := 2) one_lt_two (-1022)
      exact_mod_cast this
    rwa [h2] at this
  have h1 := Int.zpow_log_le_self (R := ℝ) (b := 2) one_lt_two hx
  refine (rne_error x).trans ?_
  rw [ulp_expo, he, show (2 : ℝ) ^ (Int.log 2 |x| - 52) / 2 = (2 : ℝ) ^ (-53 : ℤ) * (2 : ℝ) ^ Int.log 2 |x| by
    rw [← zpow_add₀ two_ne_zero, div_eq_mul_inv, ← zpow_neg_one, ← zpow_add₀ two_ne_zero]; congr 1; ring]
  refine mul_le_mul_of_nonneg_left ?_ (by positivity)
  exact_mod_cast h1

end PyrusGeom
