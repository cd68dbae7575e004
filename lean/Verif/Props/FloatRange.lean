import Verif.Props.Float
import Verif.Props.SoccerMath

/-! # Properties C98, C99: `f_range`, `r_int` and `quantize` in double precision

The definitions of `Verif/Model/SoccerMath.lean` at the number type `FP double` (IEEE binary64, see
`Verif/Model/Float.lean`). -/

namespace PyrusGeom
open Spec SoccerMath

/-! ## Evaluating `rne` -/

theorem roundEven_eq {y : ℝ} {n : ℤ} (h : |y - n| < 1 / 2) : roundEven y = n := by
  have h1 := roundEven_error y
  have h2 : |((roundEven y - n : ℤ) : ℝ)| < 1 := by
    push_cast
    have := abs_add_le ((roundEven y : ℝ) - y) (y - n)
    rw [sub_add_sub_cancel] at this
    linarith
  have h3 : |roundEven y - n| < 1 := by exact_mod_cast h2
  have := Int.abs_lt_one_iff.mp h3
  omega

theorem roundEven_eq_even {y : ℝ} {n : ℤ} (h : |y - n| ≤ 1 / 2) (hn : Even n) : roundEven y = n := by
  rcases h.lt_or_eq with h | h
  · exact roundEven_eq h
  · rcases abs_cases (y - n) with ⟨h1, _⟩ | ⟨h1, _⟩
    · have hy : y = n + 1 / 2 := by linarith
      have hf : ⌊y⌋ = n := by rw [Int.floor_eq_iff, hy]; constructor <;> linarith
      have hfr : Int.fract y = 1 / 2 := by unfold Int.fract; rw [hf, hy]; ring
      unfold roundEven
      rw [hfr, hf]
      simp [hn]
    · have hy : y = n - 1 / 2 := by linarith
      have hf : ⌊y⌋ = n - 1 := by rw [Int.floor_eq_iff, hy]; push_cast; constructor <;> linarith
      have hfr : Int.fract y = 1 / 2 := by unfold Int.fract; rw [hf, hy]; push_cast; ring
      have : ¬ Even (n - 1) := by rw [Int.even_sub]; simp [hn]
      unfold roundEven
      rw [hfr, hf]
      simp [this]

theorem ulp_eq {x : ℝ} {e : ℤ} (he : -1022 ≤ e) (h1 : (2 : ℝ) ^ e ≤ |x|) (h2 : |x| < (2 : ℝ) ^ (e + 1)) :
    ulp x = (2 : ℝ) ^ (e - 52) := by
  have hx : 0 < |x| := lt_of_lt_of_le (by positivity) h1
  have hlog : Int.log 2 |x| = e := by
    refine le_antisymm ?_ ?_
    · have := (Int.lt_zpow_iff_log_lt (R := ℝ) (b := 2) one_lt_two (x := e + 1) hx).mp (by exact_mod_cast h2)
      omega
    · exact (Int.zpow_le_iff_le_log (R := ℝ) (b := 2) one_lt_two hx).mp (by exact_mod_cast h1)
  unfold ulp
  rw [hlog, max_eq_left he]

/-- Rounding to the nearest multiple of `2 ^ (e - 52)` for a number of exponent `e`. -/
theorem rne_eq {x : ℝ} (e n : ℤ) (he : -1022 ≤ e) (h1 : (2 : ℝ) ^ e ≤ |x|) (h2 : |x| < (2 : ℝ) ^ (e + 1))
    (h : |x / (2 : ℝ) ^ (e - 52) - n| < 1 / 2) : rne x = (2 : ℝ) ^ (e - 52) * n := by
  unfold rne
  rw [ulp_eq he h1 h2, roundEven_eq h]

/-- Ties go to the even multiple. -/
theorem rne_eq_even {x : ℝ} (e n : ℤ) (he : -1022 ≤ e) (h1 : (2 : ℝ) ^ e ≤ |x|) (h2 : |x| < (2 : ℝ) ^ (e + 1))
    (h : |x / (2 : ℝ) ^ (e - 52) - n| ≤ 1 / 2) (hn : Even n) : rne x = (2 : ℝ) ^ (e - 52) * n := by
  unfold rne
  rw [ulp_eq he h1 h2, roundEven_eq_even h hn]

/-! ## C98 -/

/-- Repeated rounded addition: the value after adding `step` `n` times to `start` in double precision. -/
noncomputable def Spec.accumulate (start step : ℝ) (n : ℕ) : ℝ := (fun x => rne (x + step))^[n] start

theorem accumulate_zero (start step : ℝ) : accumulate start step 0 = start := rfl

theorem accumulate_succ (start step : ℝ) (n : ℕ) :
    accumulate start step (n + 1) = rne (accumulate start step n + step) := by
  unfold accumulate; rw [Function.iterate_succ_apply']

theorem accumulate_succ' (start step : ℝ) (n : ℕ) :
    accumulate start step (n + 1) = accumulate (rne (start + step)) step n := by
  unfold accumulate; rw [Function.iterate_succ_apply]

theorem accumulate_isDouble {start : ℝ} (h : IsDouble start) (step : ℝ) (n : ℕ) :
    IsDouble (accumulate start step n) := by
  cases n with
  | zero => exact h
  | succ n => rw [accumulate_succ]; exact isDouble_rne _

theorem accumulate_mono {start step : ℝ} (h : IsDouble start) (hs : 0 ≤ step) : Monotone (accumulate start step) := by
  refine monotone_nat_of_le_succ fun n => ?_
  rw [accumulate_succ]
  calc accumulate start step n = rne (accumulate start step n) := (rne_of_isDouble (accumulate_isDouble h step n)).symm
    _ ≤ _ := rne_mono (by linarith)

theorem accumulate_neg (start step : ℝ) (n : ℕ) : accumulate (-start) (-step) n = -accumulate start step n := by
  induction n with
  | zero => rfl
  | succ n ih => rw [accumulate_succ, accumulate_succ, ih, ← rne_neg]; congr 1; ring

section
variable {stop step start : FP double}

theorem fp_zero : ((0 : ℕ) : FP double).val = 0 := by rw [FP.cast_val, Nat.cast_zero]; exact rne_zero

theorem fp_fRangeLoop_none (n : ℕ)
    (h : (0 < step.val ∧ stop.val ≤ start.val) ∨ (step.val < 0 ∧ start.val ≤ stop.val)) :
    fRangeLoop stop step n start = none := by
  unfold fRangeLoop
  simp only [FP.lt_def, FP.le_def, fp_zero]
  rcases h with h | h
  · rw [if_pos h]
  · rw [if_pos h]; split <;> rfl

theorem fp_fRangeLoop_zero
    (h : ¬ ((0 < step.val ∧ stop.val ≤ start.val) ∨ (step.val < 0 ∧ start.val ≤ stop.val))) :
    fRangeLoop stop step 0 start = some start := by
  unfold fRangeLoop
  simp only [FP.lt_def, FP.le_def, fp_zero]
  rw [if_neg (fun h' => h (Or.inl h')), if_neg (fun h' => h (Or.inr h'))]

theorem fp_fRangeLoop_succ (n : ℕ)
    (h : ¬ ((0 < step.val ∧ stop.val ≤ start.val) ∨ (step.val < 0 ∧ start.val ≤ stop.val))) :
    fRangeLoop stop step (n + 1) start = fRangeLoop stop step n (start + step) := by
  conv_lhs => unfold fRangeLoop
  simp only [FP.lt_def, FP.le_def, fp_zero]
  rw [if_neg (fun h' => h (Or.inl h')), if_neg (fun h' => h (Or.inr h'))]

end

/-- **C98**, what `f_range` yields in double precision for `step > 0`: the rounded running sums, as long as they are
below `stop`. -/
theorem C98_up (start stop step : ℝ) (hs : IsDouble start) (h : 0 < step) (n : ℕ) :
    fRange (⟨start⟩ : FP double) (some ⟨stop⟩) (some ⟨step⟩) n =
      if accumulate start step n < stop then some ⟨accumulate start step n⟩ else none := by
  change fRangeLoop (⟨stop⟩ : FP double) ⟨step⟩ n ⟨start⟩ = _
  induction n generalizing start with
  | zero =>
    rw [accumulate_zero]
    by_cases hc : start < stop
    · rw [fp_fRangeLoop_zero (by rintro (⟨_, h'⟩ | ⟨h', _⟩) <;> simp only at h' <;> linarith), if_pos hc]
    · rw [fp_fRangeLoop_none _ (Or.inl ⟨h, not_lt.mp hc⟩), if_neg hc]
  | succ n ih =>
    by_cases hc : start < stop
    · rw [fp_fRangeLoop_succ _ (by rintro (⟨_, h'⟩ | ⟨h', _⟩) <;> simp only at h' <;> linarith), accumulate_succ']
      exact ih (rne (start + step)) (isDouble_rne _)
    · rw [fp_fRangeLoop_none _ (Or.inl ⟨h, not_lt.mp hc⟩), if_neg]
      have := accumulate_mono hs h.le (Nat.zero_le (n + 1))
      rw [accumulate_zero] at this
      linarith

/-- **C98**, `step < 0`: symmetric. -/
theorem C98_down (start stop step : ℝ) (hs : IsDouble start) (h : step < 0) (n : ℕ) :
    fRange (⟨start⟩ : FP double) (some ⟨stop⟩) (some ⟨step⟩) n =
      if stop < accumulate start step n then some ⟨accumulate start step n⟩ else none := by
  change fRangeLoop (⟨stop⟩ : FP double) ⟨step⟩ n ⟨start⟩ = _
  induction n generalizing start with
  | zero =>
    rw [accumulate_zero]
    by_cases hc : stop < start
    · rw [fp_fRangeLoop_zero (by rintro (⟨h', _⟩ | ⟨_, h'⟩) <;> simp only at h' <;> linarith), if_pos hc]
    · rw [fp_fRangeLoop_none _ (Or.inr ⟨h, not_lt.mp hc⟩), if_neg hc]
  | succ n ih =>
    by_cases hc : stop < start
    · rw [fp_fRangeLoop_succ _ (by rintro (⟨h', _⟩ | ⟨_, h'⟩) <;> simp only at h' <;> linarith), accumulate_succ']
      exact ih (rne (start + step)) (isDouble_rne _)
    · rw [fp_fRangeLoop_none _ (Or.inr ⟨h, not_lt.mp hc⟩), if_neg]
      have := accumulate_mono hs.neg (neg_pos.mpr h).le (Nat.zero_le (n + 1))
      rw [accumulate_neg, accumulate_neg, accumulate_zero] at this
      linarith

/-- Two different doubles differ by at least the smallest subnormal number. -/
theorem IsDouble.gap {x y : ℝ} (hx : IsDouble x) (hy : IsDouble y) (h : x < y) : x + (2 : ℝ) ^ (-1074 : ℤ) ≤ y := by
  obtain ⟨m, hm⟩ := hx.grid
  obtain ⟨k, hk⟩ := hy.grid
  have hp : (0 : ℝ) < (2 : ℝ) ^ (-1074 : ℤ) := by positivity
  generalize (2 : ℝ) ^ (-1074 : ℤ) = u at *
  rw [hm, hk] at h ⊢
  have h1 : m < k := by exact_mod_cast lt_of_mul_lt_mul_right h hp.le
  have h2 : (m : ℝ) + 1 ≤ k := by exact_mod_cast h1
  nlinarith

/-- **C98**, exactly when the loop ends for `step > 0`: unless one of the yielded numbers absorbs `step`. -/
theorem C98_terminates_iff_partial (start stop step : ℝ) (hs : IsDouble start) (h : 0 < step) :
    (∃ n, fRange (⟨start⟩ : FP double) (some ⟨stop⟩) (some ⟨step⟩) n = none) ↔
      ¬ ∃ n x, fRange (⟨start⟩ : FP double) (some ⟨stop⟩) (some ⟨step⟩) n = some x ∧ rne (x.val + step) = x.val := by
  have hm := accumulate_mono hs h.le
  constructor
  · rintro ⟨n, hn⟩ ⟨k, x, hk, hx⟩
    rw [C98_up _ _ _ hs h] at hn hk
    have hn' : ¬ accumulate start step n < stop := by
      intro hc; rw [if_pos hc] at hn; exact absurd hn (by simp)
    have hk' : accumulate start step k < stop := by
      by_contra hc; rw [if_neg hc] at hk; exact absurd hk (by simp)
    rw [if_pos hk'] at hk
    obtain rfl := Option.some.inj hk
    simp only at hx
    have hfix : ∀ j, accumulate start step (k + j) = accumulate start step k := by
      intro j
      induction j with
      | zero => rfl
      | succ j ih => rw [← add_assoc, accumulate_succ, ih, hx]
    rcases le_total n k with hnk | hnk
    · exact hn' (lt_of_le_of_lt (hm hnk) hk')
    · obtain ⟨j, rfl⟩ := Nat.exists_eq_add_of_le hnk
      rw [hfix] at hn'
      exact hn' hk'
  · intro hno
    by_contra hall
    push Not at hall
    have hlt : ∀ n, accumulate start step n < stop := by
      intro n
      by_contra hc
      apply hall n
      rw [C98_up _ _ _ hs h, if_neg hc]
    have hstep : ∀ n, accumulate start step n + (2 : ℝ) ^ (-1074 : ℤ) ≤ accumulate start step (n + 1) := by
      intro n
      refine (accumulate_isDouble hs step n).gap (accumulate_isDouble hs step (n + 1)) ?_
      refine lt_of_le_of_ne (hm (Nat.le_succ n)) fun he => hno ⟨n, ⟨accumulate start step n⟩, ?_, ?_⟩
      · rw [C98_up _ _ _ hs h, if_pos (hlt n)]
      · rw [← accumulate_succ]; exact he.symm
    have hp : (0 : ℝ) < (2 : ℝ) ^ (-1074 : ℤ) := by positivity
    generalize (2 : ℝ) ^ (-1074 : ℤ) = u at hstep hp
    have hlin : ∀ n : ℕ, start + n * u ≤ accumulate start step n := by
      intro n
      induction n with
      | zero => simp [accumulate_zero]
      | succ n ih => have := hstep n; push_cast; linarith
    obtain ⟨n, hn⟩ := exists_nat_gt ((stop - start) / u)
    rw [div_lt_iff₀ hp] at hn
    have := hlin n
    have := hlt n
    linarith

/-- The next double after `x` (for `x ≠ 0`; `ulp 0` is `2 ^ (-52)` here). -/
theorem isDouble_add_ulp {x : ℝ} (hx : IsDouble x) : rne (x + ulp x) = x + ulp x := by
  apply rne_of_isDouble
  have hu : ulp x = (2 : ℝ) ^ (expo x - 52) := ulp_expo x
  have hx' : x = ulp x * roundEven (x / ulp x) := by
    have := rne_of_isDouble hx
    unfold rne at this
    exact this.symm
  have hlt := lt_two_pow_expo x
  rw [← ulp_53] at hlt
  have hup := ulp_pos x
  refine ⟨roundEven (x / ulp x) + 1, expo x - 52, ?_, ?_, ?_⟩
  · have h1 : |(roundEven (x / ulp x) : ℝ)| < ((2 ^ 53 : ℤ) : ℝ) := by
      have : |x| = ulp x * |(roundEven (x / ulp x) : ℝ)| := by
        conv_lhs => rw [hx', abs_mul, abs_of_pos hup]
      rw [this] at hlt
      exact lt_of_mul_lt_mul_left hlt hup.le
    have h2 : |roundEven (x / ulp x)| < 2 ^ 53 := by exact_mod_cast h1
    have := abs_add_le (roundEven (x / ulp x)) 1
    rw [abs_one] at this
    omega
  · have : -1022 ≤ expo x := le_max_right _ _
    omega
  · rw [← hu]
    push_cast
    linarith

theorem ulp_le {x : ℝ} (hx : x ≠ 0) : ulp x ≤ max ((2 : ℝ) ^ (-52 : ℤ) * |x|) ((2 : ℝ) ^ (-1074 : ℤ)) := by
  rcases lt_or_ge (-1022) (expo x) with h | h
  · refine le_max_of_le_left ?_
    have := two_pow_expo_le h hx
    rw [ulp_expo, zpow_sub₀ (by norm_num), zpow_neg, mul_comm, div_eq_mul_inv]
    exact mul_le_mul_of_nonneg_right this (by positivity)
  · refine le_max_of_le_right ?_
    have : expo x = -1022 := le_antisymm h (le_max_right _ _)
    rw [ulp_expo, this]
    norm_num

/-- **C98**, a sufficient guard: a positive double `step` of at least `2 ^ (-52)` times the larger of `|start|` and
`|stop|` is never absorbed, so the loop ends. -/
theorem C98_terminates_partial (start stop step : ℝ) (hs : IsDouble start) (hd : IsDouble step) (h : 0 < step)
    (hg : (2 : ℝ) ^ (-52 : ℤ) * max |start| |stop| ≤ step) :
    ∃ n, fRange (⟨start⟩ : FP double) (some ⟨stop⟩) (some ⟨step⟩) n = none := by
  rw [C98_terminates_iff_partial _ _ _ hs h]
  rintro ⟨n, x, hn, hx⟩
  rw [C98_up _ _ _ hs h] at hn
  have hlt : accumulate start step n < stop := by
    by_contra hc; rw [if_neg hc] at hn; exact absurd hn (by simp)
  rw [if_pos hlt] at hn
  obtain rfl := Option.some.inj hn
  simp only at hx
  set y := accumulate start step n with hy
  have hyd : IsDouble y := accumulate_isDouble hs step n
  have hge : start ≤ y := accumulate_mono hs h.le (Nat.zero_le n)
  have habs : |y| ≤ max |start| |stop| := by
    rw [abs_le]
    constructor
    · have := neg_abs_le start; have := le_max_left |start| |stop|; linarith
    · have := le_abs_self stop; have := le_max_right |start| |stop|; linarith
  have hmin : (2 : ℝ) ^ (-1074 : ℤ) ≤ step := by
    have := (show IsDouble 0 by simpa using isDouble_nat (n := 0) (by norm_num)).gap hd h
    linarith
  rcases eq_or_ne y 0 with hy0 | hy0
  · rw [hy0, zero_add, rne_of_isDouble hd] at hx
    exact h.ne' hx
  have hu : ulp y ≤ step := by
    refine (ulp_le hy0).trans (max_le ?_ hmin)
    refine le_trans (mul_le_mul_of_nonneg_left habs ?_) hg
    positivity
  have h1 : rne (y + ulp y) ≤ rne (y + step) := rne_mono (by linarith)
  rw [isDouble_add_ulp hyd, hx] at h1
  have := ulp_pos y
  linarith

/-- **C98**, exact arithmetic on a common grid: if `start`, `stop` and `step` are multiples of `2 ^ k` and small enough
the yielded numbers are those of exact arithmetic (C89). -/
theorem C98_grid_partial (a b c k : ℤ) (hk : -1074 ≤ k) (hc : 0 < c) (ha : |a| ≤ 2 ^ 53) (hb : |b + c| ≤ 2 ^ 53)
    (n : ℕ) :
    fRange (⟨a * (2 : ℝ) ^ k⟩ : FP double) (some ⟨b * (2 : ℝ) ^ k⟩) (some ⟨c * (2 : ℝ) ^ k⟩) n =
      (fRange (a * (2 : ℝ) ^ k) (some (b * (2 : ℝ) ^ k)) (some (c * (2 : ℝ) ^ k)) n).map FP.mk := by
  have hp : (0 : ℝ) < (2 : ℝ) ^ k := by positivity
  have hs : IsDouble (a * (2 : ℝ) ^ k) := ⟨a, k, ha, hk, rfl⟩
  have hc' : (0 : ℝ) < c * (2 : ℝ) ^ k := mul_pos (by exact_mod_cast hc) hp
  rw [C98_up _ _ _ hs hc', C89_up _ _ _ hc']
  have hb' := (abs_le.mp hb).2
  have ha' := (abs_le.mp ha).1
  have key : ∀ n : ℕ, (accumulate (a * (2 : ℝ) ^ k) (c * (2 : ℝ) ^ k) n = (a + n * c : ℤ) * (2 : ℝ) ^ k) ∨
      (b * (2 : ℝ) ^ k ≤ accumulate (a * (2 : ℝ) ^ k) (c * (2 : ℝ) ^ k) n ∧ b ≤ a + n * c) := by
    intro n
    induction n with
    | zero => left; simp [accumulate_zero]
    | succ n ih =>
      have hm := accumulate_mono hs hc'.le (Nat.le_succ n)
      rcases ih with ih | ⟨ih1, ih2⟩
      · by_cases hlt : a + n * c < b
        · left
          rw [accumulate_succ, ih]
          have e : ((a + n * c : ℤ) : ℝ) * (2 : ℝ) ^ k + c * (2 : ℝ) ^ k = ((a + (n + 1 : ℕ) * c : ℤ) : ℝ) * (2 : ℝ) ^ k := by
            push_cast; ring
          rw [e]
          refine rne_of_isDouble ⟨_, k, ?_, hk, rfl⟩
          have h0 : (0 : ℤ) ≤ (n : ℤ) * c := by positivity
          rw [abs_le]
          push_cast
          constructor <;> nlinarith
        · right
          refine ⟨le_trans ?_ hm, ?_⟩
          · rw [ih]
            exact mul_le_mul_of_nonneg_right (by exact_mod_cast not_lt.mp hlt) hp.le
          · push_cast; nlinarith
      · right
        refine ⟨ih1.trans hm, ?_⟩
        push_cast; nlinarith
  have e : (a : ℝ) * (2 : ℝ) ^ k + n * (c * (2 : ℝ) ^ k) = (a + n * c : ℤ) * (2 : ℝ) ^ k := by push_cast; ring
  rw [e]
  rcases key n with h | ⟨h1, h2⟩
  · rw [h]
    split <;> rfl
  · rw [if_neg (not_lt.mpr h1), if_neg]
    · rfl
    · exact not_lt.mpr (mul_le_mul_of_nonneg_right (by exact_mod_cast h2) hp.le)

/-- `C98_grid_partial` at `f_range(0, 1, 0.25)`. -/
example : (List.range 6).map (fRange (⟨(0 : ℤ) * (2 : ℝ) ^ (-2 : ℤ)⟩ : FP double) (some ⟨(4 : ℤ) * (2 : ℝ) ^ (-2 : ℤ)⟩)
      (some ⟨(1 : ℤ) * (2 : ℝ) ^ (-2 : ℤ)⟩)) =
    [some ⟨0⟩, some ⟨1 / 4⟩, some ⟨1 / 2⟩, some ⟨3 / 4⟩, none, none] := by
  have hp : (0:ℝ) < ((1 : ℤ) : ℝ) * (2 : ℝ) ^ (-2 : ℤ) := by norm_num
  simp only [List.range, List.range.loop, List.map_cons, List.map_nil,
    C98_grid_partial 0 4 1 (-2) (by norm_num) (by norm_num) (by norm_num) (by norm_num), C89_up _ _ _ hp]
  norm_num

/-- **C98 is false**: `f_range(2**53, 2**53 + 2, 1)` never ends in double precision; it yields `2**53` forever. -/
theorem C98_refuted (n : ℕ) :
    fRange (⟨2 ^ 53⟩ : FP double) (some ⟨2 ^ 53 + 2⟩) (some ⟨1⟩) n = some ⟨2 ^ 53⟩ := by
  have hd : IsDouble ((2 : ℝ) ^ 53) := ⟨2 ^ 53, 0, by norm_num, by norm_num, by norm_num⟩
  have hfix : rne ((2 : ℝ) ^ 53 + 1) = 2 ^ 53 := by
    rw [rne_eq_even 53 (2 ^ 52) (by norm_num) (by rw [abs_of_pos (by positivity)]; norm_num)
      (by rw [abs_of_pos (by positivity)]; norm_num) (by norm_num [abs_of_pos]) (by decide)]
    norm_num
  have hacc : ∀ n, accumulate ((2 : ℝ) ^ 53) 1 n = 2 ^ 53 := by
    intro n
    induction n with
    | zero => rfl
    | succ n ih => rw [accumulate_succ, ih, hfix]
  rw [C98_up _ _ _ hd one_pos, hacc, if_pos (by linarith)]

/-- The double nearest to 1/10, the Python literal `0.1`. -/
theorem rne_tenth : rne (1 / 10) = 3602879701896397 / 2 ^ 55 := by
  rw [rne_eq (-4) 7205759403792794 (by norm_num) (by norm_num [abs_of_pos]) (by norm_num [abs_of_pos])
    (by norm_num [abs_lt])]
  norm_num

/-- The running sums of `0.1` in double precision: the tenth is still below 1. -/
theorem accumulate_tenth :
    accumulate 0 (rne (1 / 10)) 10 = 1 - (2 : ℝ) ^ (-53 : ℤ) ∧ 1 < accumulate 0 (rne (1 / 10)) 11 := by
  have a0 : accumulate 0 (rne (1 / 10)) 0 = 0 := rfl
  have a1 : accumulate 0 (rne (1 / 10)) 1 = 3602879701896397 / 36028797018963968 := by
    rw [accumulate_succ, a0, rne_tenth]
    rw [rne_eq (-4) 7205759403792794 (by norm_num) (by norm_num [abs_of_pos]) (by norm_num [abs_of_pos])
      (by norm_num [abs_lt])]
    norm_num
  have a2 : accumulate 0 (rne (1 / 10)) 2 = 3602879701896397 / 18014398509481984 := by
    rw [accumulate_succ, a1, rne_tenth]
    rw [rne_eq (-3) 7205759403792794 (by norm_num) (by norm_num [abs_of_pos]) (by norm_num [abs_of_pos])
      (by norm_num [abs_lt])]
    norm_num
  have a3 : accumulate 0 (rne (1 / 10)) 3 = 1351079888211149 / 4503599627370496 := by
    rw [accumulate_succ, a2, rne_tenth]
    rw [rne_eq_even (-2) 5404319552844596 (by norm_num) (by norm_num [abs_of_pos]) (by norm_num [abs_of_pos])
      (by norm_num [abs_le]) (by decide)]
    norm_num
  have a4 : accumulate 0 (rne (1 / 10)) 4 = 3602879701896397 / 9007199254740992 := by
    rw [accumulate_succ, a3, rne_tenth]
    rw [rne_eq_even (-2) 7205759403792794 (by norm_num) (by norm_num [abs_of_pos]) (by norm_num [abs_of_pos])
      (by norm_num [abs_le]) (by decide)]
    norm_num
  have a5 : accumulate 0 (rne (1 / 10)) 5 = 1 / 2 := by
    rw [accumulate_succ, a4, rne_tenth]
    rw [rne_eq (-1) 4503599627370496 (by norm_num) (by norm_num [abs_of_pos]) (by norm_num [abs_of_pos])
      (by norm_num [abs_lt])]
    norm_num
  have a6 : accumulate 0 (rne (1 / 10)) 6 = 5404319552844595 / 9007199254740992 := by
    rw [accumulate_succ, a5, rne_tenth]
    rw [rne_eq (-1) 5404319552844595 (by norm_num) (by norm_num [abs_of_pos]) (by norm_num [abs_of_pos])
      (by norm_num [abs_lt])]
    norm_num
  have a7 : accumulate 0 (rne (1 / 10)) 7 = 3152519739159347 / 4503599627370496 := by
    rw [accumulate_succ, a6, rne_tenth]
    rw [rne_eq (-1) 6305039478318694 (by norm_num) (by norm_num [abs_of_pos]) (by norm_num [abs_of_pos])
      (by norm_num [abs_lt])]
    norm_num
  have a8 : accumulate 0 (rne (1 / 10)) 8 = 7205759403792793 / 9007199254740992 := by
    rw [accumulate_succ, a7, rne_tenth]
    rw [rne_eq (-1) 7205759403792793 (by norm_num) (by norm_num [abs_of_pos]) (by norm_num [abs_of_pos])
      (by norm_num [abs_lt])]
    norm_num
  have a9 : accumulate 0 (rne (1 / 10)) 9 = 2026619832316723 / 2251799813685248 := by
    rw [accumulate_succ, a8, rne_tenth]
    rw [rne_eq (-1) 8106479329266892 (by norm_num) (by norm_num [abs_of_pos]) (by norm_num [abs_of_pos])
      (by norm_num [abs_lt])]
    norm_num
  have a10 : accumulate 0 (rne (1 / 10)) 10 = 9007199254740991 / 9007199254740992 := by
    rw [accumulate_succ, a9, rne_tenth]
    rw [rne_eq (-1) 9007199254740991 (by norm_num) (by norm_num [abs_of_pos]) (by norm_num [abs_of_pos])
      (by norm_num [abs_lt])]
    norm_num
  have a11 : accumulate 0 (rne (1 / 10)) 11 = 4953959590107545 / 4503599627370496 := by
    rw [accumulate_succ, a10, rne_tenth]
    rw [rne_eq (0) 4953959590107545 (by norm_num) (by norm_num [abs_of_pos]) (by norm_num [abs_of_pos])
      (by norm_num [abs_lt])]
    norm_num
  rw [a10, a11]
  norm_num

/-- **C98 is false**, the number of values: `f_range(0, 1, 0.1)` yields eleven numbers in double precision, the last one
being `1 - 2 ** -53`, whereas exact arithmetic with step 1/10 yields ten (C89). -/
theorem C98_refuted_count :
    (∀ n, (fRange (⟨0⟩ : FP double) (some ⟨1⟩) (some ⟨rne (1 / 10)⟩) n).isSome ↔ n < 11) ∧
    fRange (⟨0⟩ : FP double) (some ⟨1⟩) (some ⟨rne (1 / 10)⟩) 10 = some ⟨1 - (2 : ℝ) ^ (-53 : ℤ)⟩ ∧
    (∀ n, (fRange (0 : ℝ) (some 1) (some (1 / 10)) n).isSome ↔ n < 10) := by
  have hd : IsDouble 0 := by simpa using isDouble_nat (n := 0) (by norm_num)
  have hpos : (0 : ℝ) < rne (1 / 10) := by rw [rne_tenth]; norm_num
  have hm := accumulate_mono hd hpos.le
  obtain ⟨h10, h11⟩ := accumulate_tenth
  have hlt : accumulate 0 (rne (1 / 10)) 10 < 1 := by rw [h10]; norm_num
  refine ⟨fun n => ?_, ?_, fun n => ?_⟩
  · rw [C98_up _ _ _ hd hpos]
    by_cases hn : n < 11
    · rw [if_pos (lt_of_le_of_lt (hm (by omega)) hlt)]
      simp [hn]
    · rw [if_neg (not_lt.mpr (h11.le.trans (hm (by omega))))]
      simp [hn]
  · rw [C98_up _ _ _ hd hpos, if_pos hlt, h10]
  · rw [C89_terminates _ _ _ (by norm_num)]
    norm_num

/-! ## C99 -/

/-- Conversion of a Python `int` to `float` rounds correctly. -/
noncomputable instance {ρ : Rounding} : IntCast (FP ρ) := ⟨fun n => ⟨ρ.f n⟩⟩

theorem FP.intCast_val {ρ : Rounding} (n : ℤ) : ((n : FP ρ)).val = ρ.f n := rfl

theorem fp_fabs_val (x : FP double) : (fabs x).val = |x.val| := by
  unfold fabs
  by_cases h : x.val < 0
  · rw [if_pos (by rw [FP.lt_def, fp_zero]; exact h), abs_of_neg h]; rfl
  · rw [if_neg (by rw [FP.lt_def, fp_zero]; exact h), abs_of_nonneg (not_lt.mp h)]

theorem fp_rInt (x : ℝ) : rInt (⟨x⟩ : FP double) =
    if |rne (rne (rtrunc x) - x)| < |rne (rne ((rtrunc x - 1 : ℤ) : ℝ) - x)| ∧
        |rne (rne (rtrunc x) - x)| < |rne (rne ((rtrunc x + 1 : ℤ) : ℝ) - x)| then rtrunc x
    else if |rne (rne ((rtrunc x - 1 : ℤ) : ℝ) - x)| < |rne (rne ((rtrunc x + 1 : ℤ) : ℝ) - x)| then rtrunc x - 1
    else rtrunc x + 1 := by
  unfold rInt
  simp only [FP.lt_def, fp_fabs_val, FP.sub_val, FP.intCast_val]
  rfl

theorem rInt_unfold (x : ℝ) : rInt x =
    if |(rtrunc x : ℝ) - x| < |((rtrunc x - 1 : ℤ) : ℝ) - x| ∧
        |(rtrunc x : ℝ) - x| < |((rtrunc x + 1 : ℤ) : ℝ) - x| then rtrunc x
    else if |((rtrunc x - 1 : ℤ) : ℝ) - x| < |((rtrunc x + 1 : ℤ) : ℝ) - x| then rtrunc x - 1
    else rtrunc x + 1 := by
  unfold rInt
  simp only [fabs_real]
  rfl

theorem rne_abs (x : ℝ) : |rne x| = rne |x| := by
  rcases le_or_gt 0 x with h | h
  · rw [abs_of_nonneg h, abs_of_nonneg (rne_nonneg h)]
  · rw [abs_of_neg h, rne_neg, abs_of_nonpos]
    have := rne_nonneg (neg_nonneg.mpr h.le)
    rw [rne_neg] at this
    linarith

/-- Differences of at most 2 between doubles with the spacing of doubles above 1 are doubles. -/
theorem isDouble_small_diff {x : ℝ} (hx : IsDouble x) (h1 : 1 ≤ |x|) (n : ℤ) (h : |(n : ℝ) - x| ≤ 2) :
    IsDouble (n - x) := by
  have hu : x = ulp x * roundEven (x / ulp x) := (rne_of_isDouble hx).symm
  have hlog : 0 ≤ expo x := by
    refine le_max_of_le_left ?_
    exact (Int.zpow_le_iff_le_log (R := ℝ) (b := 2) one_lt_two (by linarith)).mp (by simpa using h1)
  obtain ⟨j, hj⟩ := Int.eq_ofNat_of_zero_le hlog
  have e52 : (2 : ℝ) ^ (-52 : ℤ) * (2 : ℝ) ^ 52 = 1 := by norm_num
  have hul : ulp x = (2 : ℝ) ^ (-52 : ℤ) * 2 ^ j := by
    rw [ulp_expo, hj, zpow_sub₀ (by norm_num)]
    norm_num
    ring
  have hp : (0 : ℝ) < (2 : ℝ) ^ (-52 : ℤ) := by positivity
  set m := roundEven (x / ulp x)
  refine ⟨n * 2 ^ 52 - 2 ^ j * m, -52, ?_, by norm_num, ?_⟩
  · have he : (n : ℝ) - x = ((n * 2 ^ 52 - 2 ^ j * m : ℤ) : ℝ) * (2 : ℝ) ^ (-52 : ℤ) := by
      rw [hu, hul]; push_cast; linear_combination -(n : ℝ) * e52
    rw [he, abs_mul, abs_of_pos hp] at h
    have h2 : |((n * 2 ^ 52 - 2 ^ j * m : ℤ) : ℝ)| ≤ 2 ^ 53 := by
      have := mul_le_mul_of_nonneg_right h (show (0:ℝ) ≤ 2 ^ 52 by positivity)
      rw [mul_assoc, e52, mul_one] at this
      linarith
    exact_mod_cast h2
  · rw [hu, hul]; push_cast; linear_combination -(n : ℝ) * e52


theorem rtrunc_bounds (x : ℝ) : |(rtrunc x : ℝ)| ≤ |x| ∧ |(rtrunc x : ℝ) - x| < 1 := by
  unfold rtrunc
  split
  · have h1 := Int.floor_le x
    have h2 := Int.lt_floor_add_one x
    have h3 : (0 : ℝ) ≤ ⌊x⌋ := by exact_mod_cast Int.floor_nonneg.mpr ‹0 ≤ x›
    rw [abs_of_nonneg h3, abs_of_nonneg ‹0 ≤ x›, abs_lt]
    exact ⟨h1, by linarith, by linarith⟩
  · have h0 : x < 0 := not_le.mp ‹_›
    have h1 := Int.le_ceil x
    have h2 := Int.ceil_lt_add_one x
    have h3 : (⌈x⌉ : ℝ) ≤ 0 := by exact_mod_cast Int.ceil_le.mpr (by simpa using h0.le)
    rw [abs_of_nonpos h3, abs_of_neg h0, abs_lt]
    exact ⟨by linarith, by linarith, by linarith⟩

theorem rtrunc_intCast (n : ℤ) : rtrunc (n : ℝ) = n := by unfold rtrunc; split <;> simp

theorem isDouble_one : IsDouble 1 := by simpa using isDouble_nat (n := 1) (by norm_num)

theorem isDouble_zero : IsDouble 0 := by simpa using isDouble_nat (n := 0) (by norm_num)

theorem isDouble_half : IsDouble (1 / 2) := ⟨1, -1, by norm_num, by norm_num, by norm_num⟩

/-- **C99** `r_int` is exact on doubles below `2 ** 53` in absolute value: rounding of the intermediate differences does
not matter, the result is the nearest integer of C85. -/
theorem C99_exact_partial (x : ℝ) (hx : IsDouble x) (h : |x| < 2 ^ 53) : rInt (⟨x⟩ : FP double) = rInt x := by
  rw [fp_rInt, rInt_unfold]
  obtain ⟨hb1, hb2⟩ := rtrunc_bounds x
  have ht : |rtrunc x| < 2 ^ 53 := by
    have : |(rtrunc x : ℝ)| < 2 ^ 53 := lt_of_le_of_lt hb1 h
    exact_mod_cast this
  have htl := (abs_lt.mp ht).1
  have htr := (abs_lt.mp ht).2
  rw [rne_of_isDouble (isDouble_int (n := rtrunc x) ht.le),
    rne_of_isDouble (isDouble_int (n := rtrunc x - 1) (abs_le.mpr ⟨by omega, by omega⟩)),
    rne_of_isDouble (isDouble_int (n := rtrunc x + 1) (abs_le.mpr ⟨by omega, by omega⟩))]
  have hl := (abs_lt.mp hb2).1
  have hr := (abs_lt.mp hb2).2
  rcases le_or_gt 1 |x| with h1 | h1
  · rw [rne_of_isDouble (isDouble_small_diff hx h1 (rtrunc x) (by linarith)),
      rne_of_isDouble (isDouble_small_diff hx h1 (rtrunc x - 1) (by
        push_cast; rw [abs_le]; constructor <;> linarith)),
      rne_of_isDouble (isDouble_small_diff hx h1 (rtrunc x + 1) (by
        push_cast; rw [abs_le]; constructor <;> linarith))]
  · have h0 : rtrunc x = 0 := by
      have : |(rtrunc x : ℝ)| < 1 := lt_of_le_of_lt hb1 h1
      have : |rtrunc x| < 1 := by exact_mod_cast this
      exact Int.abs_lt_one_iff.mp this
    rw [h0]
    have hone := rne_of_isDouble isDouble_one
    have hhalf := rne_of_isDouble isDouble_half
    have one_le : ∀ y : ℝ, 1 ≤ y → 1 ≤ rne y := fun y hy => hone ▸ rne_mono hy
    have half_le : ∀ y : ℝ, 1 / 2 ≤ y → 1 / 2 ≤ rne y := fun y hy => by
      have := rne_mono hy
      rwa [hhalf] at this
    push_cast
    simp only [zero_sub, zero_add]
    rcases le_or_gt 0 x with hx0 | hx0
    · rw [abs_of_nonneg hx0] at h1
      have e1 : |rne (-x)| = x := by rw [rne_neg, rne_of_isDouble hx, abs_neg, abs_of_nonneg hx0]
      have e2 : |rne (-1 - x)| = rne (1 + x) := by
        rw [rne_abs]; congr 1; rw [abs_of_nonpos (by linarith)]; ring
      have e3 : |rne (1 - x)| = rne (1 - x) := by rw [rne_abs, abs_of_nonneg (by linarith)]
      have f1 : |-x| = x := by rw [abs_neg, abs_of_nonneg hx0]
      have f2 : |-1 - x| = 1 + x := by rw [abs_of_nonpos (by linarith)]; ring
      have f3 : |1 - x| = 1 - x := abs_of_nonneg (by linarith)
      rw [e1, e2, e3, f1, f2, f3]
      have g1 : 1 ≤ rne (1 + x) := one_le _ (by linarith)
      rcases lt_or_ge x (1 / 2) with hh | hh
      · have g2 : 1 / 2 ≤ rne (1 - x) := half_le _ (by linarith)
        rw [if_pos ⟨by linarith, by linarith⟩, if_pos ⟨by linarith, by linarith⟩]
      · rw [rne_of_isDouble (sterbenz isDouble_one hx (by linarith) (by linarith)),
          if_neg (fun hc => by linarith [hc.2]), if_neg (by linarith), if_neg (fun hc => by linarith [hc.2]),
          if_neg (by linarith)]
    · rw [abs_of_neg hx0] at h1
      have e1 : |rne (-x)| = -x := by rw [rne_neg, rne_of_isDouble hx, abs_of_nonneg (by linarith)]
      have e2 : |rne (-1 - x)| = rne (1 + x) := by
        rw [rne_abs]; congr 1; rw [abs_of_nonpos (by linarith)]; ring
      have e3 : |rne (1 - x)| = rne (1 - x) := by rw [rne_abs, abs_of_nonneg (by linarith)]
      have f1 : |-x| = -x := by rw [abs_of_nonneg (by linarith)]
      have f2 : |-1 - x| = 1 + x := by rw [abs_of_nonpos (by linarith)]; ring
      have f3 : |1 - x| = 1 - x := abs_of_nonneg (by linarith)
      rw [e1, e2, e3, f1, f2, f3]
      have g1 : 1 ≤ rne (1 - x) := one_le _ (by linarith)
      rcases lt_or_ge (-x) (1 / 2) with hh | hh
      · have g2 : 1 / 2 ≤ rne (1 + x) := half_le _ (by linarith)
        rw [if_pos ⟨by linarith, by linarith⟩, if_pos ⟨by linarith, by linarith⟩]
      · have : rne (1 + x) = 1 + x := by
          have := rne_of_isDouble (sterbenz isDouble_one hx.neg (by linarith) (by linarith))
          rwa [sub_neg_eq_add] at this
        rw [this, if_neg (fun hc => by linarith [hc.1]), if_pos (by linarith), if_neg (fun hc => by linarith [hc.1]),
          if_pos (by linarith)]

/-- Doubles from `2 ** 54` on absorb 1. -/
theorem rne_absorb {x : ℝ} (hx : IsDouble x) (h : 2 ^ 54 ≤ x) : rne (x + 1) = x ∧ rne (x - 1) = x ∧ ∃ n : ℤ, x = n := by
  have hx0 : 0 < x := lt_of_lt_of_le (by positivity) h
  have hu : x = ulp x * roundEven (x / ulp x) := (rne_of_isDouble hx).symm
  have hlog : 54 ≤ Int.log 2 x := by
    refine (Int.zpow_le_iff_le_log (R := ℝ) (b := 2) one_lt_two hx0).mp ?_
    norm_num at h ⊢
    exact h
  have hexp : expo x = Int.log 2 x := by unfold expo; rw [abs_of_pos hx0, max_eq_left (by omega)]
  have hlo : (2 : ℝ) ^ expo x ≤ x := by
    have := two_pow_expo_le (x := x) (by omega) hx0.ne'
    rwa [abs_of_pos hx0] at this
  have hhi : x < (2 : ℝ) ^ (expo x + 1) := by
    have := lt_two_pow_expo x
    rwa [abs_of_pos hx0] at this
  set e := expo x with he
  set n := roundEven (x / ulp x) with hn
  rw [ulp_expo, ← he] at hu
  obtain ⟨j, hj⟩ := Int.eq_ofNat_of_zero_le (show 0 ≤ e - 54 by omega)
  have hj1 : (1 : ℝ) ≤ 2 ^ j := one_le_pow₀ (by norm_num)
  have hpw : (2 : ℝ) ^ (e - 52) = 4 * 2 ^ j := by
    rw [show e - 52 = (j : ℤ) + 2 by omega, zpow_add₀ (by norm_num), zpow_natCast]; norm_num; ring
  have hpw1 : (2 : ℝ) ^ (e - 1 - 52) = 2 * 2 ^ j := by
    rw [show e - 1 - 52 = (j : ℤ) + 1 by omega, zpow_add₀ (by norm_num), zpow_natCast]; norm_num; ring
  have hpe : (2 : ℝ) ^ e = 2 ^ 52 * (4 * 2 ^ j) := by
    rw [← hpw, show (e : ℤ) = 52 + (e - 52) by omega, zpow_add₀ (by norm_num)]
    norm_num
  have hpe1 : (2 : ℝ) ^ (e + 1) = 2 ^ 53 * (4 * 2 ^ j) := by
    rw [zpow_add₀ (by norm_num), hpe]; norm_num; ring
  have hpem : (2 : ℝ) ^ (e - 1) = 2 ^ 51 * (4 * 2 ^ j) := by
    rw [zpow_sub₀ (by norm_num), hpe]; norm_num; ring
  rw [hpw] at hu
  have hP : (0 : ℝ) < 4 * 2 ^ j := by positivity
  have hn53 : n < 2 ^ 53 := by
    have : (n : ℝ) < 2 ^ 53 := by
      rw [hpe1, hu, mul_comm] at hhi
      exact lt_of_mul_lt_mul_right hhi hP.le
    exact_mod_cast this
  have hn52 : 2 ^ 52 ≤ n := by
    have : (2 : ℝ) ^ 52 ≤ n := by
      rw [hpe, hu, mul_comm (4 * (2:ℝ) ^ j)] at hlo
      exact le_of_mul_le_mul_right hlo hP
    exact_mod_cast this
  have hn1 : (n : ℝ) + 1 ≤ 2 ^ 53 := by exact_mod_cast hn53
  refine ⟨?_, ?_, ⟨4 * 2 ^ j * n, by rw [hu]; push_cast; ring⟩⟩
  · rw [rne_eq e n (by omega) (by rw [abs_of_pos (by linarith)]; linarith) (by
      rw [abs_of_pos (by linarith), hpe1, hu]; nlinarith) (by
      rw [hpw, hu, abs_lt]
      have : (4 * (2 : ℝ) ^ j * n + 1) / (4 * 2 ^ j) - n = 1 / (4 * 2 ^ j) := by field_simp; ring
      rw [this]
      have : 1 / (4 * (2 : ℝ) ^ j) ≤ 1 / 4 := one_div_le_one_div_of_le (by norm_num) (by linarith)
      have : 0 < 1 / (4 * (2 : ℝ) ^ j) := by positivity
      constructor <;> linarith), hpw]
    exact hu.symm
  · rcases hlo.lt_or_eq with hlt | heq
    · have hge : (2 : ℝ) ^ 52 + 1 ≤ n := by
        have : (2 : ℝ) ^ 52 < n := by
          rw [hpe, hu, mul_comm (4 * (2:ℝ) ^ j)] at hlt
          exact lt_of_mul_lt_mul_right hlt hP.le
        have h2 : (2 : ℤ) ^ 52 < n := by exact_mod_cast this
        have h3 : (2 : ℤ) ^ 52 + 1 ≤ n := h2
        exact_mod_cast h3
      rw [rne_eq e n (by omega) (by rw [abs_of_pos (by linarith), hpe, hu]; nlinarith) (by
        rw [abs_of_pos (by linarith)]; linarith) (by
        rw [hpw, hu, abs_lt]
        have : (4 * (2 : ℝ) ^ j * n - 1) / (4 * 2 ^ j) - n = -(1 / (4 * 2 ^ j)) := by field_simp; ring
        rw [this]
        have : 1 / (4 * (2 : ℝ) ^ j) ≤ 1 / 4 := one_div_le_one_div_of_le (by norm_num) (by linarith)
        have : 0 < 1 / (4 * (2 : ℝ) ^ j) := by positivity
        constructor <;> linarith), hpw]
      exact hu.symm
    · rw [rne_eq_even (e - 1) (2 * n) (by omega) (by
        rw [abs_of_pos (by linarith), ← heq, hpem, hpe]; nlinarith) (by
        rw [abs_of_pos (by linarith), sub_add_cancel, heq]; linarith) (by
        rw [hpw1, hu, abs_le]
        have : (4 * (2 : ℝ) ^ j * n - 1) / (2 * 2 ^ j) - (2 * n : ℤ) = -(1 / (2 * 2 ^ j)) := by
          push_cast; field_simp; ring
        rw [this]
        have : 1 / (2 * (2 : ℝ) ^ j) ≤ 1 / 2 := one_div_le_one_div_of_le (by norm_num) (by linarith)
        have : 0 < 1 / (2 * (2 : ℝ) ^ j) := by positivity
        constructor <;> linarith) (even_two_mul n), hpw1]
      rw [hu]; push_cast; ring

/-- **C99 is false** from `2 ** 54` on: `r_int(x) = x + 1` for every double, although `x` is an integer. -/
theorem C99_refuted_large (x : ℝ) (hx : IsDouble x) (h : 2 ^ 54 ≤ |x|) : (rInt (⟨x⟩ : FP double) : ℝ) = x + 1 := by
  have key : rne (x + 1) = x ∧ rne (x - 1) = x ∧ ∃ n : ℤ, x = n := by
    rcases le_or_gt 0 x with h0 | h0
    · rw [abs_of_nonneg h0] at h; exact rne_absorb hx h
    · rw [abs_of_neg h0] at h
      obtain ⟨h1, h2, n, hn⟩ := rne_absorb hx.neg h
      refine ⟨?_, ?_, -n, by push_cast; linarith⟩
      · rw [show x + 1 = -(-x - 1) by ring, rne_neg, h2, neg_neg]
      · rw [show x - 1 = -(-x + 1) by ring, rne_neg, h1, neg_neg]
  obtain ⟨h1, h2, n, rfl⟩ := key
  have ht : rtrunc (n : ℝ) = n := rtrunc_intCast n
  rw [fp_rInt, ht]
  push_cast
  rw [h1, h2, rne_of_isDouble hx, sub_self, rne_zero]
  simp

/-- **C99 is false** already at `2 ** 53`: `r_int(2.0**53) == 2**53 + 1` and `r_int(-2.0**53) == -2**53 - 1`. -/
theorem C99_refuted : rInt (⟨2 ^ 53⟩ : FP double) = 2 ^ 53 + 1 ∧ rInt (⟨-2 ^ 53⟩ : FP double) = -2 ^ 53 - 1 := by
  have hfix : rne ((2 : ℝ) ^ 53 + 1) = 2 ^ 53 := by
    rw [rne_eq_even 53 (2 ^ 52) (by norm_num) (by rw [abs_of_pos (by positivity)]; norm_num)
      (by rw [abs_of_pos (by positivity)]; norm_num) (by norm_num [abs_of_pos]) (by decide)]
    norm_num
  have hd : rne ((2 : ℝ) ^ 53) = 2 ^ 53 := rne_of_isDouble ⟨2 ^ 53, 0, by norm_num, by norm_num, by norm_num⟩
  have hd1 : rne ((2 : ℝ) ^ 53 - 1) = 2 ^ 53 - 1 :=
    rne_of_isDouble ⟨2 ^ 53 - 1, 0, by norm_num, by norm_num, by norm_num⟩
  have hone := rne_of_isDouble isDouble_one
  constructor
  · have ht : rtrunc ((2 : ℝ) ^ 53) = 2 ^ 53 := by
      have := rtrunc_intCast (2 ^ 53)
      rwa [Int.cast_pow, Int.cast_ofNat] at this
    rw [fp_rInt, ht, Int.cast_sub, Int.cast_add, Int.cast_pow, Int.cast_one, Int.cast_ofNat, hd, hfix, hd1, sub_self,
      rne_zero]
    simp
  · have ht : rtrunc (-(2 : ℝ) ^ 53) = -2 ^ 53 := by
      have := rtrunc_intCast (-2 ^ 53)
      rwa [Int.cast_neg, Int.cast_pow, Int.cast_ofNat] at this
    have e1 : rne (-(2 : ℝ) ^ 53 - 1) = -2 ^ 53 := by
      rw [show -(2 : ℝ) ^ 53 - 1 = -((2 : ℝ) ^ 53 + 1) by ring, rne_neg, hfix]
    have e2 : rne (-(2 : ℝ) ^ 53 + 1) = -2 ^ 53 + 1 := by
      rw [show -(2 : ℝ) ^ 53 + 1 = -((2 : ℝ) ^ 53 - 1) by ring, rne_neg, hd1]
    rw [fp_rInt, ht, Int.cast_sub, Int.cast_add, Int.cast_neg, Int.cast_pow, Int.cast_one, Int.cast_ofNat, rne_neg, hd,
      e1, e2, sub_self, rne_zero, show -(2 : ℝ) ^ 53 + 1 - -2 ^ 53 = 1 by ring, hone]
    simp


/-- `C99_exact_partial` and `C85_nearest` at the double just below one half. -/
example : rInt (⟨1 / 2 - (2 : ℝ) ^ (-54 : ℤ)⟩ : FP double) = 0 := by
  rw [C99_exact_partial _ ⟨2 ^ 53 - 1, -54, by norm_num, by norm_num, by norm_num⟩ (by
    rw [abs_of_pos] <;> norm_num), rInt_of_nonneg (by norm_num), Int.floor_eq_iff]
  norm_num

theorem fp_pyDiv (v : ℝ) {q : ℝ} (hq : q ≠ 0) : pyDiv (⟨v⟩ : FP double) ⟨q⟩ = .ok ⟨rne (v / q)⟩ := by
  have : ((⟨q⟩ : FP double) == num 0) = false := by
    change decide (q = ((0 : ℕ) : FP double).val) = false
    rw [fp_zero]
    simpa using hq
  unfold pyDiv
  rw [this]
  rfl

theorem fp_quantize (v : ℝ) {q : ℝ} (hq : q ≠ 0) :
    quantize (⟨v⟩ : FP double) ⟨q⟩ = .ok ⟨rne (rne (rInt (⟨rne (v / q)⟩ : FP double)) * q)⟩ := by
  simp only [quantize, fp_pyDiv v hq, bind, Except.bind, pure, Except.pure]
  rfl

theorem fp_half : ((num 1 : FP double) / num 2).val = 1 / 2 := by
  change rne (rne ((1 : ℕ) : ℝ) / rne ((2 : ℕ) : ℝ)) = 1 / 2
  rw [rne_of_isDouble (isDouble_nat (n := 1) (by norm_num)), rne_of_isDouble (isDouble_nat (n := 2) (by norm_num))]
  norm_num only [Nat.cast_one, Nat.cast_ofNat]
  have := rne_of_isDouble isDouble_half
  exact this

theorem fp_unquantizeMin (d : ℝ) {q : ℝ} (hq : q ≠ 0) : unquantizeMin (⟨d⟩ : FP double) ⟨q⟩ =
    .ok ⟨rne (rne (rne (rInt (⟨rne (d / q)⟩ : FP double)) - 1 / 2) * q)⟩ := by
  simp only [unquantizeMin, fp_pyDiv d hq, bind, Except.bind, pure, Except.pure]
  refine congrArg Except.ok (FP.ext ?_)
  simp only [FP.mul_val, FP.sub_val, fp_half, FP.intCast_val]
  rfl

theorem fp_unquantizeMax (d : ℝ) {q : ℝ} (hq : q ≠ 0) : unquantizeMax (⟨d⟩ : FP double) ⟨q⟩ =
    .ok ⟨rne (rne (rne (rInt (⟨rne (d / q)⟩ : FP double)) + 1 / 2) * q)⟩ := by
  simp only [unquantizeMax, fp_pyDiv d hq, bind, Except.bind, pure, Except.pure]
  refine congrArg Except.ok (FP.ext ?_)
  simp only [FP.mul_val, FP.add_val, fp_half, FP.intCast_val]
  rfl

theorem rInt_abs_le {y : ℝ} {N : ℤ} (h : |y| ≤ N) : |rInt y| ≤ N := by
  obtain ⟨h1, h2⟩ := abs_le.mp h
  have a := C85_monotone h2
  have b := C85_monotone h1
  rw [C85_integer] at a
  rw [← Int.cast_neg, C85_integer] at b
  exact abs_le.mpr ⟨b, a⟩

theorem rInt_eq_of_near {y : ℝ} {k : ℤ} (h : |y - k| < 1 / 2) : rInt y = k := by
  have h1 := (C85_nearest y).1
  have h2 : |((rInt y - k : ℤ) : ℝ)| < 1 := by
    push_cast
    have := abs_add_le ((rInt y : ℝ) - y) (y - k)
    rw [sub_add_sub_cancel] at this
    linarith
  have h3 : |rInt y - k| < 1 := by exact_mod_cast h2
  have := Int.abs_lt_one_iff.mp h3
  omega

theorem rne_abs_le_pow {y : ℝ} {N : ℤ} (hN : |N| ≤ 2 ^ 53) (h : |y| ≤ N) : |rne y| ≤ N := by
  rw [rne_abs, ← rne_of_isDouble (isDouble_int hN)]
  exact rne_mono h

/-- Quantizing: with a quotient of at most `2 ** 50` the integer `k` found is within the rounding error of the quotient,
and dividing the (rounded) product `k * q` by `q` finds `k` again. -/
theorem fp_quantize_spec (v q : ℝ) (hq : (2 : ℝ) ^ (-1022 : ℤ) ≤ q) (h : |v / q| ≤ 2 ^ 50) :
    ∃ k : ℤ, |k| ≤ 2 ^ 50 ∧ quantize (⟨v⟩ : FP double) ⟨q⟩ = .ok ⟨rne (k * q)⟩ ∧
      rInt (⟨rne (rne (k * q) / q)⟩ : FP double) = k ∧ |k * q - v| ≤ q / 2 + (2 : ℝ) ^ (-53 : ℤ) * |v| ∧
      |rne (k * q) - k * q| ≤ (2 : ℝ) ^ (-53 : ℤ) * |k * q| := by
  have hp : (0 : ℝ) < (2 : ℝ) ^ (-1022 : ℤ) := by positivity
  have hq0 : 0 < q := lt_of_lt_of_le hp hq
  have hy : |rne (v / q)| ≤ ((2 ^ 50 : ℤ) : ℝ) := rne_abs_le_pow (by norm_num) (by
    rw [Int.cast_pow, Int.cast_ofNat]; exact h)
  set y := rne (v / q) with hyd
  have hyD : IsDouble y := isDouble_rne _
  have hk1 : rInt (⟨y⟩ : FP double) = rInt y := C99_exact_partial y hyD (lt_of_le_of_lt hy (by norm_num))
  set k := rInt y with hk
  have hkb : |k| ≤ 2 ^ 50 := rInt_abs_le hy
  have hkb53 : |k| ≤ 2 ^ 53 := hkb.trans (by norm_num)
  have hkd : rne (k : ℝ) = k := rne_of_isDouble (isDouble_int hkb53)
  have hkR : |(k : ℝ)| ≤ 2 ^ 50 := by exact_mod_cast hkb
  have hmul : |rne (k * q) - k * q| ≤ (2 : ℝ) ^ (-53 : ℤ) * |k * q| := by
    rcases eq_or_ne k 0 with h0 | h0
    · rw [h0]; simp [rne_zero]
    · refine rne_rel_error ?_
      have : (1 : ℝ) ≤ |(k : ℝ)| := by exact_mod_cast Int.one_le_abs h0
      rw [abs_mul, abs_of_pos hq0]
      nlinarith
  refine ⟨k, hkb, ?_, ?_, ?_, hmul⟩
  · rw [fp_quantize v hq0.ne', ← hyd, hk1, hkd]
  · have hnear : |rne (rne (k * q) / q) - k| < 1 / 2 := by
      rcases eq_or_ne k 0 with h0 | h0
      · rw [h0]; simp [rne_zero]
      · have h1 : (1 : ℝ) ≤ |(k : ℝ)| := by exact_mod_cast Int.one_le_abs h0
        have e1 : |rne (k * q) / q - k| ≤ (2 : ℝ) ^ (-53 : ℤ) * |(k : ℝ)| := by
          have : rne (k * q) / q - k = (rne (k * q) - k * q) / q := by field_simp
          rw [this, abs_div, abs_of_pos hq0, div_le_iff₀ hq0]
          rw [abs_mul, abs_of_pos hq0] at hmul
          linarith
        set z := rne (k * q) / q
        have hpow : (2 : ℝ) ^ (-53 : ℤ) = 1 / 2 ^ 53 := by norm_num
        rw [hpow] at e1
        have hz1 : |z| ≤ |(k : ℝ)| + 1 / 2 ^ 53 * |(k : ℝ)| := by
          have := abs_add_le (z - k) k
          rw [sub_add_cancel] at this
          linarith
        have hz2 : |(k : ℝ)| - 1 / 2 ^ 53 * |(k : ℝ)| ≤ |z| := by
          have := abs_add_le (k - z) z
          rw [sub_add_cancel, abs_sub_comm] at this
          linarith
        have hz3 : (2 : ℝ) ^ (-1022 : ℤ) ≤ |z| := by
          have a1 : (2 : ℝ) ^ (-1022 : ℤ) ≤ 1 / 2 := by
            rw [show (1 / 2 : ℝ) = (2 : ℝ) ^ (-1 : ℤ) by norm_num]
            exact zpow_le_zpow_right₀ (by norm_num) (by norm_num)
          refine a1.trans ?_
          norm_num at hz2
          linarith
        have e2 := rne_rel_error hz3
        rw [hpow] at e2
        have := abs_add_le (rne z - z) (z - k)
        rw [sub_add_sub_cancel] at this
        norm_num at *
        linarith
    have hsm : |rne (rne (k * q) / q)| < 2 ^ 53 := by
      have := abs_add_le (rne (rne (k * q) / q) - k) k
      rw [sub_add_cancel] at this
      have : (2 : ℝ) ^ 50 + 1 / 2 < 2 ^ 53 := by norm_num
      linarith
    rw [C99_exact_partial _ (isDouble_rne _) hsm]
    exact rInt_eq_of_near hnear
  · have h1 := (C85_nearest y).1
    rw [← hk] at h1
    rcases le_or_gt ((2 : ℝ) ^ (-1022 : ℤ)) |v / q| with hn | hn
    · have h2 := rne_rel_error hn
      rw [← hyd] at h2
      have h3 : |(k : ℝ) - v / q| ≤ 1 / 2 + (2 : ℝ) ^ (-53 : ℤ) * |v / q| := by
        have := abs_add_le ((k : ℝ) - y) (y - v / q)
        rw [sub_add_sub_cancel] at this
        linarith
      have e : (k : ℝ) * q - v = ((k : ℝ) - v / q) * q := by field_simp
      rw [e, abs_mul, abs_of_pos hq0]
      rw [abs_div, abs_of_pos hq0] at h3
      calc |(k : ℝ) - v / q| * q ≤ (1 / 2 + (2 : ℝ) ^ (-53 : ℤ) * (|v| / q)) * q :=
            mul_le_mul_of_nonneg_right h3 hq0.le
        _ = _ := by field_simp
    · have hq14 : |v / q| < 1 / 4 := hn.trans_le (by
        rw [show (1 / 4 : ℝ) = (2 : ℝ) ^ (-2 : ℤ) by norm_num]
        exact zpow_le_zpow_right₀ (by norm_num) (by norm_num))
      have hyq : |y| ≤ 1 / 4 := by
        rw [hyd, rne_abs]
        have hd4 : IsDouble (1 / 4) := ⟨1, -2, by norm_num, by norm_num, by norm_num⟩
        have := rne_mono hq14.le
        rwa [rne_of_isDouble hd4] at this
      have hk0 : k = 0 := by
        have : rInt y = 0 := rInt_eq_of_near (k := 0) (by rw [Int.cast_zero, sub_zero]; linarith)
        exact this
      rw [hk0, Int.cast_zero, zero_mul, zero_sub, abs_neg]
      rw [abs_div, abs_of_pos hq0, div_lt_iff₀ hq0] at hq14
      have : 0 ≤ (2 : ℝ) ^ (-53 : ℤ) * |v| := by positivity
      linarith

/-- **C99** quantizing in double precision, for a normal step `q` and a quotient of at most `2 ** 50`: the result is the
double nearest to an integer multiple of `q`, within `q / 2` and a relative rounding error of `v`, and quantizing again
does not change it. -/
theorem C99_quantize_partial (v q : ℝ) (hq : (2 : ℝ) ^ (-1022 : ℤ) ≤ q) (h : |v / q| ≤ 2 ^ 50) :
    ∃ (k : ℤ) (d : ℝ), quantize (⟨v⟩ : FP double) ⟨q⟩ = .ok ⟨d⟩ ∧ d = rne (k * q) ∧
      quantize (⟨d⟩ : FP double) ⟨q⟩ = .ok ⟨d⟩ ∧ |d - v| ≤ q / 2 + (2 : ℝ) ^ (-51 : ℤ) * (|v| + q) := by
  have hp : (0 : ℝ) < (2 : ℝ) ^ (-1022 : ℤ) := by positivity
  have hq0 : 0 < q := lt_of_lt_of_le hp hq
  obtain ⟨k, hkb, h1, h2, h3, h4⟩ := fp_quantize_spec v q hq h
  refine ⟨k, rne (k * q), h1, rfl, ?_, ?_⟩
  · rw [fp_quantize _ hq0.ne', h2, rne_of_isDouble (isDouble_int (hkb.trans (by norm_num)))]
  · have a1 := abs_add_le (rne (k * q) - k * q) (k * q - v)
    rw [sub_add_sub_cancel] at a1
    have a2 := abs_add_le (k * q - v) v
    rw [sub_add_cancel] at a2
    have hv := abs_nonneg v
    rw [show (2 : ℝ) ^ (-53 : ℤ) = 1 / 2 ^ 53 by norm_num] at h3 h4
    rw [show (2 : ℝ) ^ (-51 : ℤ) = 4 / 2 ^ 53 by norm_num]
    clear h1 h2 hkb hp hq h
    generalize rne ((k : ℝ) * q) = D at *
    generalize (k : ℝ) * q = w at *
    generalize |w| = aw at *
    generalize |v| = av at *
    norm_num only at *
    linarith

/-- Non-vacuity of `C99_quantize_partial`: `quantize(0.85, 0.1)` in double precision. -/
example : ∃ (k : ℤ) (d : ℝ), quantize (⟨rne (17 / 20)⟩ : FP double) ⟨rne (1 / 10)⟩ = .ok ⟨d⟩ ∧ d = rne (k * rne (1 / 10)) ∧
    quantize (⟨d⟩ : FP double) ⟨rne (1 / 10)⟩ = .ok ⟨d⟩ := by
  have hv : rne (17 / 20) = 7656119366529843 / 2 ^ 53 := by
    rw [rne_eq (-1) 7656119366529843 (by norm_num) (by norm_num [abs_of_pos]) (by norm_num [abs_of_pos])
      (by norm_num [abs_lt])]
    norm_num
  obtain ⟨k, d, h1, h2, h3, -⟩ := C99_quantize_partial (rne (17 / 20)) (rne (1 / 10)) (by
    rw [rne_tenth]
    refine le_trans (zpow_le_zpow_right₀ (by norm_num) (by norm_num : (-1022 : ℤ) ≤ -10)) ?_
    norm_num) (by rw [hv, rne_tenth, abs_of_pos] <;> norm_num)
  exact ⟨k, d, h1, h2, h3⟩

/-! ## C100 -/

/-- **C100 is false** in double precision: `quantize(0.85, 0.1)` is `0.9`, but `unquantize_min(0.9, 0.1)` is
`0.8500000000000001`, larger than `0.85`. -/
theorem C100_refuted : ∃ v q d lo : ℝ, IsDouble v ∧ IsDouble q ∧ 0 < q ∧
    quantize (⟨v⟩ : FP double) ⟨q⟩ = .ok ⟨d⟩ ∧ unquantizeMin (⟨d⟩ : FP double) ⟨q⟩ = .ok ⟨lo⟩ ∧ v < lo := by
  have hv : rne (17 / 20) = 7656119366529843 / 2 ^ 53 := by
    rw [rne_eq (-1) 7656119366529843 (by norm_num) (by norm_num [abs_of_pos]) (by norm_num [abs_of_pos])
      (by norm_num [abs_lt])]
    norm_num
  have hq0 : (rne (1 / 10) : ℝ) ≠ 0 := by rw [rne_tenth]; norm_num
  have hdiv : rne (rne (17 / 20) / rne (1 / 10)) = 17 / 2 := by
    rw [hv, rne_tenth, rne_eq 3 4785074604081152 (by norm_num) (by norm_num [abs_of_pos]) (by norm_num [abs_of_pos])
      (by norm_num [abs_lt])]
    norm_num
  have hr1 : rInt (⟨17 / 2⟩ : FP double) = 9 := by
    rw [C99_exact_partial _ ⟨17, -1, by norm_num, by norm_num, by norm_num⟩ (by norm_num [abs_of_pos]),
      rInt_of_nonneg (by norm_num)]
    norm_num
  have h9 : rne ((9 : ℤ) : ℝ) = 9 := by
    rw [rne_of_isDouble (isDouble_int (by norm_num))]; norm_num
  have hd : rne (9 * rne (1 / 10)) = 8106479329266893 / 2 ^ 53 := by
    rw [rne_tenth, rne_eq (-1) 8106479329266893 (by norm_num) (by norm_num [abs_of_pos]) (by norm_num [abs_of_pos])
      (by norm_num [abs_lt])]
    norm_num
  have hdiv2 : rne (rne (9 * rne (1 / 10)) / rne (1 / 10)) = 9 := by
    rw [hd, rne_tenth, rne_eq 3 5066549580791808 (by norm_num) (by norm_num [abs_of_pos]) (by norm_num [abs_of_pos])
      (by norm_num [abs_lt])]
    norm_num
  have hr2 : rInt (⟨9⟩ : FP double) = 9 := by
    rw [C99_exact_partial _ ⟨9, 0, by norm_num, by norm_num, by norm_num⟩ (by norm_num [abs_of_pos])]
    exact_mod_cast C85_integer 9
  have h85 : rne (9 - 1 / 2) = 17 / 2 := by
    rw [show (9 - 1 / 2 : ℝ) = 17 / 2 by norm_num]
    exact rne_of_isDouble ⟨17, -1, by norm_num, by norm_num, by norm_num⟩
  have hlo : rne (17 / 2 * rne (1 / 10)) = 7656119366529844 / 2 ^ 53 := by
    rw [rne_tenth, rne_eq (-1) 7656119366529844 (by norm_num) (by norm_num [abs_of_pos]) (by norm_num [abs_of_pos])
      (by norm_num [abs_lt])]
    norm_num
  refine ⟨rne (17 / 20), rne (1 / 10), rne (9 * rne (1 / 10)), 7656119366529844 / 2 ^ 53, isDouble_rne _, isDouble_rne _,
    by rw [rne_tenth]; norm_num, ?_, ?_, ?_⟩
  · rw [fp_quantize _ hq0, hdiv, hr1, h9]
  · rw [fp_unquantizeMin _ hq0, hdiv2, hr2, h9, h85, hlo]
  · rw [hv]; norm_num

/-- **C100**, what holds: for a normal step (at least `2 ** -1021`) and a quotient of at most `2 ** 50`, the bracket contains
the value up to a few relative rounding errors. -/
theorem C100_bracket_partial (v q : ℝ) (hq : (2 : ℝ) ^ (-1021 : ℤ) ≤ q) (h : |v / q| ≤ 2 ^ 50) :
    ∃ d lo hi : ℝ, quantize (⟨v⟩ : FP double) ⟨q⟩ = .ok ⟨d⟩ ∧ unquantizeMin (⟨d⟩ : FP double) ⟨q⟩ = .ok ⟨lo⟩ ∧
      unquantizeMax (⟨d⟩ : FP double) ⟨q⟩ = .ok ⟨hi⟩ ∧
      lo - (2 : ℝ) ^ (-51 : ℤ) * (|v| + q) ≤ v ∧ v ≤ hi + (2 : ℝ) ^ (-51 : ℤ) * (|v| + q) ∧
      |hi - lo - q| ≤ (2 : ℝ) ^ (-51 : ℤ) * (|v| + q) := by
  have hhalfpow : (2 : ℝ) ^ (-1021 : ℤ) = 2 * (2 : ℝ) ^ (-1022 : ℤ) := by
    rw [show (-1021 : ℤ) = 1 + -1022 by norm_num, zpow_add₀ (by norm_num)]; norm_num
  have hp : (0 : ℝ) < (2 : ℝ) ^ (-1022 : ℤ) := by positivity
  rw [hhalfpow] at hq
  have hq22 : (2 : ℝ) ^ (-1022 : ℤ) ≤ q := by linarith
  have hq2 : (2 : ℝ) ^ (-1022 : ℤ) ≤ q / 2 := by linarith
  have hq0 : 0 < q := lt_of_lt_of_le hp hq22
  obtain ⟨k, hkb, h1, h2, h3, h4⟩ := fp_quantize_spec v q hq22 h
  have hkd : rne (k : ℝ) = k := rne_of_isDouble (isDouble_int (hkb.trans (by norm_num)))
  have hkb' := abs_le.mp hkb
  have hm : rne ((k : ℝ) - 1 / 2) = k - 1 / 2 := rne_of_isDouble
    ⟨2 * k - 1, -1, abs_le.mpr ⟨by omega, by omega⟩, by norm_num, by push_cast; norm_num; ring⟩
  have hM : rne ((k : ℝ) + 1 / 2) = k + 1 / 2 := rne_of_isDouble
    ⟨2 * k + 1, -1, abs_le.mpr ⟨by omega, by omega⟩, by norm_num, by push_cast; norm_num; ring⟩
  have kk : ∀ s : ℤ, |s| = 1 → (1 : ℝ) / 2 ≤ |(k : ℝ) + s / 2| := by
    intro s hs
    have : (1 : ℤ) ≤ |2 * k + s| := Int.one_le_abs (by
      rcases (abs_eq (by norm_num)).mp hs with rfl | rfl <;> omega)
    have h' : (1 : ℝ) ≤ |2 * (k : ℝ) + s| := by exact_mod_cast this
    rw [show (k : ℝ) + s / 2 = (2 * k + s) / 2 by ring, abs_div, abs_of_pos (by norm_num : (0:ℝ) < 2)]
    linarith
  have hlo : |rne (((k : ℝ) - 1 / 2) * q) - ((k : ℝ) - 1 / 2) * q| ≤ (2 : ℝ) ^ (-53 : ℤ) * |((k : ℝ) - 1 / 2) * q| := by
    refine rne_rel_error ?_
    have := kk (-1) (by norm_num)
    rw [show (k : ℝ) + ((-1 : ℤ) : ℝ) / 2 = k - 1 / 2 by push_cast; ring] at this
    rw [abs_mul, abs_of_pos hq0]
    nlinarith
  have hhi : |rne (((k : ℝ) + 1 / 2) * q) - ((k : ℝ) + 1 / 2) * q| ≤ (2 : ℝ) ^ (-53 : ℤ) * |((k : ℝ) + 1 / 2) * q| := by
    refine rne_rel_error ?_
    have := kk 1 (by norm_num)
    rw [show (k : ℝ) + ((1 : ℤ) : ℝ) / 2 = k + 1 / 2 by push_cast; ring] at this
    rw [abs_mul, abs_of_pos hq0]
    nlinarith
  refine ⟨rne (k * q), rne (((k : ℝ) - 1 / 2) * q), rne (((k : ℝ) + 1 / 2) * q), h1, ?_, ?_, ?_⟩
  · rw [fp_unquantizeMin _ hq0.ne', h2, hkd, hm]
  · rw [fp_unquantizeMax _ hq0.ne', h2, hkd, hM]
  · have b1 : |((k : ℝ) - 1 / 2) * q| ≤ |k * q| + q / 2 := by
      rw [sub_mul]
      have := abs_sub (k * q : ℝ) (1 / 2 * q)
      rw [abs_of_pos (show 0 < 1 / 2 * q by linarith)] at this
      linarith
    have b2 : |((k : ℝ) + 1 / 2) * q| ≤ |k * q| + q / 2 := by
      rw [add_mul]
      have := abs_add_le (k * q : ℝ) (1 / 2 * q)
      rw [abs_of_pos (show 0 < 1 / 2 * q by linarith)] at this
      linarith
    have a2 := abs_add_le (k * q - v) v
    rw [sub_add_cancel] at a2
    rw [show (2 : ℝ) ^ (-53 : ℤ) = 1 / 2 ^ 53 by norm_num] at h3 h4 hlo hhi
    rw [show (2 : ℝ) ^ (-51 : ℤ) = 4 / 2 ^ 53 by norm_num]
    have hv := abs_nonneg v
    obtain ⟨c1, c2⟩ := abs_le.mp h3
    obtain ⟨d1, d2⟩ := abs_le.mp hlo
    obtain ⟨e1, e2⟩ := abs_le.mp hhi
    rw [sub_mul] at d1 d2
    rw [add_mul] at e1 e2
    rw [sub_mul] at b1 hlo
    rw [add_mul] at b2 hhi
    rw [abs_le]
    rw [sub_mul, add_mul]
    clear h1 h2 h4 hp hq hq22 hq2 hhalfpow hkd hm hM kk hkb hkb' hlo hhi h
    generalize rne ((k : ℝ) * q - 1 / 2 * q) = L at *
    generalize rne ((k : ℝ) * q + 1 / 2 * q) = H at *
    generalize (k : ℝ) * q = w at *
    generalize |w| = aw at *
    generalize |v| = av at *
    generalize |w - 1 / 2 * q| = b at *
    generalize |w + 1 / 2 * q| = c at *
    norm_num at *
    refine ⟨by linarith, by linarith, by linarith, by linarith⟩

end PyrusGeom
