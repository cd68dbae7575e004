import Verif.Props.PyNum
import Verif.Props.FloatQuant

/-! # C187 for `r_int`, `quantize` and its relatives, and `f_range` -/

namespace PyrusGeom
open Spec SoccerMath

variable {lit : Bool} {k l : ℕ}

/-- `%` with an integer below and 360 above is exact. -/
def Spec.ExactMod (m : PyMath (FP double)) : Prop := ∀ n : ℤ, |n| ≤ 2 ^ 53 → m.pmod ⟨n⟩ (num 360) = ⟨((n % 360 : ℤ) : ℝ)⟩

theorem exactMod_double : ExactMod (inferInstance : PyMath (FP double)) := by
  intro n hn
  refine FP.ext ?_
  have h360 : (num 360 : FP double).val = 360 := (double.int 360 le_rfl).trans (by norm_num)
  change rne ((n : ℝ) - (num 360 : FP double).val * (⌊(n : ℝ) / (num 360 : FP double).val⌋ : ℝ)) = _
  rw [h360]
  have e : ⌊(n : ℝ) / 360⌋ = n / 360 := by
    rw [Int.floor_eq_iff, le_div_iff₀ (by norm_num), div_lt_iff₀ (by norm_num)]
    have h1 : n / 360 * 360 ≤ n := by omega
    have h2 : n < (n / 360 + 1) * 360 := by omega
    exact ⟨by exact_mod_cast h1, by exact_mod_cast h2⟩
  rw [e]
  have e2 : (n : ℝ) - 360 * ((n / 360 : ℤ) : ℝ) = ((n % 360 : ℤ) : ℝ) := by
    rw [Int.emod_def]; push_cast; ring
  rw [e2]
  refine PyNum.rne_small (k := 9) ?_ (by norm_num)
  rw [abs_le]; constructor <;> norm_num <;> omega

section
variable [m : PyMath (FP double)]

omit m in
/-- An `int` that is not large, as a `float`. -/
theorem sim_cast {n : ℤ} (h : |n| ≤ 2 ^ k) (hk : k ≤ 53) : sim k ((n : ℤ) : PyNum lit) ((n : ℤ) : FP double) :=
  ⟨(PyNum.rne_small h hk).symm, h⟩

theorem rInt_same {a : PyNum lit} {x : FP double} {og : ℤ} (e1 : PyMath.trunc a = og) (e2 : PyMath.trunc x = og)
    (h : ∀ j : ℤ, |j| ≤ 1 → sim 53 (((og + j : ℤ) : PyNum lit) - a) (((og + j : ℤ) : FP double) - x)) : rInt a = rInt x := by
  have h0 : sim 53 (fabs (((og : ℤ) : PyNum lit) - a)) (fabs (((og : ℤ) : FP double) - x)) := by
    have := sim_fabs (h 0 (by norm_num)); rwa [add_zero] at this
  have h1 := sim_fabs (h (-1) (by norm_num))
  have h2 := sim_fabs (h 1 (by norm_num))
  unfold rInt
  simp only [e1, e2]
  simp only [sub_eq_add_neg og 1]
  simp only [PyNum.sim_lt h0 h1, PyNum.sim_lt h0 h2, PyNum.sim_lt h1 h2]

/-- `r_int` of an `int` and of the same `float`. -/
theorem sim_rInt (ht : ExactTrunc m) {a : PyNum lit} {x : FP double} (h : sim k a x) (hk : k ≤ 51) : rInt a = rInt x := by
  cases a with
  | flt y =>
    obtain rfl : y = x := h
    exact rInt_same (og := m.trunc y) rfl rfl fun j _ => rfl
  | int n =>
    have e : m.trunc x = n := by
      rw [ht, ← h.1]
      exact rtrunc_intCast n
    refine rInt_same (og := n) rfl e fun j hj => ?_
    have hn : |n + j| ≤ 2 ^ 52 := by
      have : |n| ≤ 2 ^ 51 := h.2.trans (pow_le_pow_right₀ (by norm_num) hk)
      have := abs_add_le n j
      norm_num at *
      linarith
    have := PyNum.sim_sub (sim_cast (lit := lit) hn (by norm_num)) h (by omega)
    exact NumSim.mono this (by omega)

/-- **C187** `r_int` -/
theorem C187_rint (ht : ExactTrunc m) {a : PyNum lit} {x : FP double} (h : sim 51 a x) : SameVal (rInt a) (rInt x) := ⟨0, sim_rInt ht h le_rfl⟩

theorem rInt_bound (ht : ExactTrunc m) {x : FP double} (hx : |x.val| ≤ 2 ^ 40) : |rInt x| ≤ 2 ^ 41 := by
  have h : |m.trunc x| ≤ 2 ^ 40 := by
    rw [ht]
    have h2 := (rtrunc_bounds x.val).1.trans hx
    exact_mod_cast h2
  have h1 := abs_le.mp h
  unfold rInt
  simp only
  split_ifs <;> rw [abs_le] <;> constructor <;> norm_num at * <;> linarith

/-- The product of the grid index and a step. -/
theorem sim_grid (ht : ExactTrunc m) {d : PyNum lit} {d' : FP double} (hd : sim 0 d d') {q : PyNum lit} {q' : FP double} (hq : sim 10 q q')
    (hb : ∀ n, q = .int n → |d'.val| ≤ 2 ^ 40) : sim 51 (((rInt d : ℤ) : PyNum lit) * q) (((rInt d' : ℤ) : FP double) * q') := by
  rw [sim_rInt ht hd (by norm_num)]
  cases q with
  | flt y =>
    obtain rfl : y = q' := hq
    rfl
  | int n => exact PyNum.sim_mul (sim_cast (rInt_bound ht (hb n rfl)) (by norm_num)) hq (by norm_num)

theorem sim_quantize (ht : ExactTrunc m) {v : PyNum lit} {v' : FP double} (hv : sim 51 v v') {q : PyNum lit} {q' : FP double} (hq : sim 10 q q')
    (hb : ∀ n, q = .int n → |v'.val| ≤ 2 ^ 40) : sim 51 (quantize v q) (quantize v' q') := by
  have h := sim_pyDiv hv hq (by norm_num)
  unfold quantize
  generalize hx : pyDiv v q = X at h
  generalize hy : pyDiv v' q' = Y at h
  cases h with
  | error e => exact ExceptRel.error e
  | @ok d d' h =>
    refine ExceptRel.ok (sim_grid ht h hq fun n hn => ?_)
    have hv2 := hb n hn
    subst hn
    have hz : q'.val = n := hq.1.symm
    unfold pyDiv at hy
    split_ifs at hy with h0
    obtain rfl : v' / q' = d' := Except.ok.inj hy
    have hn0 : n ≠ 0 := by
      rintro rfl
      exact h0 ((fp_beq_zero q').mpr (by rw [hz]; norm_num))
    have hn1 : (1 : ℝ) ≤ |(n : ℝ)| := by exact_mod_cast Int.one_le_abs hn0
    have hq1 : |v'.val / q'.val| ≤ 2 ^ 40 := by
      rw [abs_div, hz]
      exact (div_le_self (abs_nonneg _) hn1).trans hv2
    change |rne (v'.val / q'.val)| ≤ _
    have e : rne ((2 : ℝ) ^ 40) = 2 ^ 40 := by
      have := rne_of_isDouble (isDouble_int (n := 2 ^ 40) (by norm_num))
      rwa [show (((2 ^ 40 : ℤ)) : ℝ) = 2 ^ 40 by norm_num] at this
    rw [abs_le] at hq1 ⊢
    constructor
    · have := double.mono hq1.1
      change rne _ ≤ rne _ at this
      rwa [rne_neg, e] at this
    · have := double.mono hq1.2
      change rne _ ≤ rne _ at this
      rwa [e] at this

/-- **C187** `quantize`: the value may be any `float`; if the step is an `int` the value is at most `2 ^ 40`. -/
theorem C187_quantize (ht : ExactTrunc m) {v : PyNum lit} {v' : FP double} (hv : sim 51 v v') {q : PyNum lit} {q' : FP double} (hq : sim 10 q q')
    (hb : ∀ n, q = .int n → |v'.val| ≤ 2 ^ 40) : SameVal (quantize v q) (quantize v' q') := ⟨_, sim_quantize ht hv hq hb⟩

omit m in
theorem sim_half : sim 0 (num 1 / num 2 : PyNum lit) (num 1 / num 2 : FP double) :=
  PyNum.sim_div PyNum.sim_num1 PyNum.sim_num2 (by norm_num)

omit m in
theorem sim_tenth : sim 0 (num 1 / num 10 : PyNum lit) (num 1 / num 10 : FP double) :=
  PyNum.sim_div PyNum.sim_num1 (PyNum.sim_numS 10 (by norm_num)) (by norm_num)

theorem sim_unquantizeMin (ht : ExactTrunc m) {v : PyNum lit} {v' : FP double} (hv : sim 51 v v') {q : PyNum lit} {q' : FP double} (hq : sim 10 q q') :
    sim 0 (unquantizeMin v q) (unquantizeMin v' q') := by
  unfold unquantizeMin
  refine sim_bind (sim_pyDiv hv hq (by norm_num)) fun d d' h => sim_pure ?_
  rw [sim_rInt ht h (by norm_num)]
  have e : sim 0 (((rInt d' : ℤ) : PyNum lit) - num 1 / num 2) (((rInt d' : ℤ) : FP double) - num 1 / num 2) := by
    obtain ⟨y, hy⟩ := PyNum.isFlt_div (num 1 : PyNum lit) (num 2)
    have h2 := sim_half (lit := lit)
    rw [hy] at h2 ⊢
    obtain rfl : y = _ := h2
    rfl
  exact PyNum.sim_isFlt (PyNum.sim_mul e hq (by norm_num)) (((PyNum.isFlt_div _ _).sub_right _).mul_left _)

theorem sim_unquantizeMax (ht : ExactTrunc m) {v : PyNum lit} {v' : FP double} (hv : sim 51 v v') {q : PyNum lit} {q' : FP double} (hq : sim 10 q q') :
    sim 0 (unquantizeMax v q) (unquantizeMax v' q') := by
  unfold unquantizeMax
  refine sim_bind (sim_pyDiv hv hq (by norm_num)) fun d d' h => sim_pure ?_
  rw [sim_rInt ht h (by norm_num)]
  have e : sim 0 (((rInt d' : ℤ) : PyNum lit) + num 1 / num 2) (((rInt d' : ℤ) : FP double) + num 1 / num 2) := by
    obtain ⟨y, hy⟩ := PyNum.isFlt_div (num 1 : PyNum lit) (num 2)
    have h2 := sim_half (lit := lit)
    rw [hy] at h2 ⊢
    obtain rfl : y = _ := h2
    rfl
  exact PyNum.sim_isFlt (PyNum.sim_mul e hq (by norm_num)) (((PyNum.isFlt_div _ _).add_right _).mul_left _)

theorem sim_unquantizeError (ht : ExactTrunc m) {v : PyNum lit} {v' : FP double} (hv : sim 10 v v') {q : PyNum lit} {q' : FP double} (hq : sim 10 q q') :
    sim 2 (unquantizeError v q) (unquantizeError v' q') := by
  have ht' := sim_tenth (lit := lit)
  have hv' := NumSim.mono hv (show 10 ≤ 51 by norm_num)
  unfold unquantizeError
  refine sim_bind (sim_unquantizeMin ht hv' (NumSim.mono ht' (by norm_num))) fun a a' ha => ?_
  refine sim_bind (sim_SoccerMath_mathLog ha (by norm_num)) fun b b' hb => ?_
  refine sim_bind (sim_unquantizeMin ht (NumSim.mono hb (by norm_num)) hq) fun c c' hc => ?_
  refine sim_bind (sim_unquantizeMax ht hv' (NumSim.mono ht' (by norm_num))) fun d d' hd => ?_
  refine sim_bind (sim_SoccerMath_mathLog hd (by norm_num)) fun e e' he => ?_
  refine sim_bind (sim_unquantizeMax ht (NumSim.mono he (by norm_num)) hq) fun f f' hf => ?_
  exact sim_pure (sim_fabs (PyNum.sim_sub (PyNum.sim_sub (PyNum.sim_exp hf (by norm_num)) sim_SoccerMath_SERVER_EPS (by norm_num))
    (PyNum.sim_sub (PyNum.sim_exp hc (by norm_num)) sim_SoccerMath_SERVER_EPS (by norm_num)) (by norm_num)))

/-- **C187** `unquantize_min`, `unquantize_max`, `unquantize_error` -/
theorem C187_unquantize (ht : ExactTrunc m) {v : PyNum lit} {v' : FP double} (hv : sim 10 v v') {q : PyNum lit} {q' : FP double} (hq : sim 10 q q') :
    SameVal (unquantizeMin v q) (unquantizeMin v' q') ∧ SameVal (unquantizeMax v q) (unquantizeMax v' q') ∧
    SameVal (unquantizeError v q) (unquantizeError v' q') :=
  ⟨⟨_, sim_unquantizeMin ht (NumSim.mono hv (by norm_num)) hq⟩, ⟨_, sim_unquantizeMax ht (NumSim.mono hv (by norm_num)) hq⟩,
    ⟨_, sim_unquantizeError ht hv hq⟩⟩

/-- The logarithm in `quantize_dist`. -/
theorem dist_log_small (hl : AccurateLog m) {d : FP double} (hd0 : 0 ≤ d.val) (hd : d.val ≤ 1099511627776) : |(m.log (d + SERVER_EPS)).val| ≤ 2 ^ 40 := by
  obtain ⟨c1, c2⟩ := abs_le.mp SERVER_EPS_near
  have hsum : |(d + SERVER_EPS).val - (d.val + 1 / 10000000000)| ≤ 3 / 9007199254740992 * (d.val + 1 / 10000000000) := by
    change |rne (d.val + (SERVER_EPS : FP double).val) - _| ≤ _
    generalize (SERVER_EPS : FP double).val = c at *
    have hp : 0 < d.val + c := by linarith
    have := rne_rel_num (x := d.val + c) (by rw [abs_of_pos hp]; exact small_le (by linarith))
    rw [abs_of_pos hp] at this
    obtain ⟨u1, u2⟩ := abs_le.mp this
    rw [abs_le]; constructor <;> linarith
  have l2 := log_step hl (y := d.val + 1 / 10000000000) (by linarith) (by linarith) (by norm_num) hsum
  have l3 := log_range (x := d.val + 1 / 10000000000) (by linarith) (by linarith)
  have := abs_add_le ((m.log (d + SERVER_EPS)).val - Real.log (d.val + 1 / 10000000000)) (Real.log (d.val + 1 / 10000000000))
  rw [sub_add_cancel] at this
  norm_num at *
  linarith

/-- **C187** `quantize_dist`, distances up to `2 ^ 40` -/
theorem C187_quantize_dist (ht : ExactTrunc m) (hl : AccurateLog m) {d : PyNum lit} {d' : FP double} (hd : sim 41 d d') (h0 : 0 ≤ d'.val)
    (h1 : d'.val ≤ 2 ^ 40) {q : PyNum lit} {q' : FP double} (hq : sim 10 q q') : SameVal (quantizeDist d q) (quantizeDist d' q') := by
  have hs := PyNum.sim_add hd (sim_SoccerMath_SERVER_EPS (lit := lit)) (by norm_num)
  have hlog := sim_SoccerMath_mathLog hs (by norm_num)
  have hsmall : ∀ l, mathLog (d' + SERVER_EPS) = .ok l → |l.val| ≤ 2 ^ 40 := by
    intro l h
    unfold mathLog at h
    split_ifs at h
    obtain rfl := Except.ok.inj h
    exact dist_log_small hl h0 (by norm_num at *; exact h1)
  refine ⟨51, ?_⟩
  unfold quantizeDist
  generalize hx : mathLog (d + SERVER_EPS) = X at hlog
  generalize hy : mathLog (d' + SERVER_EPS) = Y at hlog hsmall
  cases hlog with
  | error e => exact ExceptRel.error e
  | @ok a a' h =>
    change sim 51 (quantize a q >>= _) (quantize a' q' >>= _)
    refine sim_bind (sim_quantize ht (NumSim.mono h (by norm_num)) hq fun n _ => hsmall _ rfl) fun b b' hb => ?_
    refine sim_quantize ht (NumSim.mono (PyNum.sim_exp hb (by norm_num)) (by norm_num)) (NumSim.mono sim_tenth (by norm_num)) fun n hn => ?_
    obtain ⟨y, hy⟩ := PyNum.isFlt_div (num 1 : PyNum lit) (num 10)
    rw [hy] at hn
    cases hn

/-- **C187** `normalize_angle` -/
theorem C187_normalize_angle (hp : ExactMod m) {a : PyNum lit} {x : FP double} (h : sim 51 a x) :
    SameVal (AngleDeg.normalizeAngle a) (AngleDeg.normalizeAngle x) := by
  have h360 := PyNum.sim_numS (lit := lit) 360 (by norm_num)
  have h180 := PyNum.sim_numS (lit := lit) 180 (by norm_num)
  have hm : sim 51 (PyMath.pmod a (num 360)) (PyMath.pmod x (num 360)) := by
    cases a with
    | flt y =>
      obtain rfl : y = x := h
      generalize (num 360 : PyNum lit) = b at h360
      cases b <;> exact congrArg (m.pmod y) (h360.toF (by norm_num))
    | int n =>
      have hx : x = ⟨n⟩ := FP.ext h.1.symm
      have hn : |n| ≤ 2 ^ 53 := h.2.trans (by norm_num)
      cases lit with
      | true =>
        change PyNum.NumSim 51 (.int (n.fmod 360)) (m.pmod x (num 360))
        rw [hx, hp n hn, Int.fmod_eq_emod_of_nonneg _ (by norm_num)]
        refine ⟨rfl, ?_⟩
        rw [abs_le]; constructor <;> norm_num <;> omega
      | false => exact congrArg (fun z => m.pmod z (num 360)) (h.toF (by norm_num))
  have h1 := sim_ite (or_congr (PyNum.sim_lt h (PyNum.sim_neg h360)) (PyNum.sim_lt h360 h)) hm h
  have h2 := sim_ite (PyNum.sim_lt h1 (PyNum.sim_neg h180)) (PyNum.sim_add h1 h360 (by norm_num)) h1
  exact ⟨_, sim_ite (PyNum.sim_lt h180 h2) (PyNum.sim_sub h2 h360 (by norm_num)) h2⟩

/-! ## `f_range` -/

omit m in
/-- The loop with numbers that stay below `2 ^ 53`. -/
theorem sim_fRangeLoop {stop step : PyNum lit} {stop' step' : FP double} (hs : sim k stop stop') (ht : sim 10 step step') (n : ℕ) (B : ℕ)
    (hB : B + n * 2 ^ 10 ≤ 2 ^ 53) (a : PyNum lit) (x : FP double) (ha : a.rv = x.val) (hb : ∀ i, a = .int i → |i| ≤ B) :
    SameVal (fRangeLoop stop step n a) (fRangeLoop stop' step' n x) := by
  have hz : sim 0 (num 0 : PyNum lit) (num 0 : FP double) := PyNum.sim_num0
  induction n generalizing B a x with
  | zero =>
    obtain ⟨j, hj⟩ := (same_num a x).mpr ha
    have c1 := and_congr (PyNum.sim_lt hz ht) (PyNum.sim_le hs hj)
    have c2 := and_congr (PyNum.sim_lt ht hz) (PyNum.sim_le hj hs)
    unfold fRangeLoop
    simp only [c1, c2]
    split_ifs
    · exact ⟨0, sim_none⟩
    · exact ⟨0, sim_none⟩
    · exact ⟨j, sim_some hj⟩
  | succ n ih =>
    obtain ⟨j, hj⟩ := (same_num a x).mpr ha
    have c1 := and_congr (PyNum.sim_lt hz ht) (PyNum.sim_le hs hj)
    have c2 := and_congr (PyNum.sim_lt ht hz) (PyNum.sim_le hj hs)
    unfold fRangeLoop
    simp only [c1, c2]
    split_ifs
    · exact ⟨0, sim_none⟩
    · exact ⟨0, sim_none⟩
    · have hB' : B + 2 ^ 10 + n * 2 ^ 10 ≤ 2 ^ 53 := by
        rw [Nat.add_mul, one_mul] at hB; omega
      have ha53 : sim 53 a x := by
        cases a with
        | int i =>
          refine ⟨ha, (hb i rfl).trans ?_⟩
          have : B ≤ 2 ^ 53 := by omega
          exact_mod_cast this
        | flt y => exact FP.ext ha
      have hab : ∀ i, a + step = .int i → |i| ≤ ((B + 2 ^ 10 : ℕ) : ℤ) := by
        intro i hi
        cases a with
        | flt y => cases step <;> cases hi
        | int n1 =>
          cases step with
          | flt y => cases hi
          | int n2 =>
            obtain rfl : n1 + n2 = i := PyNum.int.inj hi
            have := hb n1 rfl
            have := ht.2
            have := abs_add_le n1 n2
            push_cast
            linarith
      refine ih (B + 2 ^ 10) hB' (a + step) (x + step') ?_ hab
      cases a with
      | flt y =>
        have e1 := ha53.toF le_rfl
        have e2 := ht.toF (by norm_num)
        rw [← e1, ← e2]; cases step <;> rfl
      | int n1 =>
        cases step with
        | flt y =>
          have e1 := ha53.toF le_rfl
          have e2 := ht.toF (by norm_num)
          rw [← e1, ← e2]; rfl
        | int n2 =>
          have h3 := hab (n1 + n2) rfl
          change ((n1 + n2 : ℤ) : ℝ) = rne (x.val + step'.val)
          rw [← ha, ← ht.1]
          change _ = rne ((n1 : ℝ) + n2)
          rw [← Int.cast_add, PyNum.rne_small (k := 53) (h3.trans ?_) le_rfl]
          have : B + 2 ^ 10 ≤ 2 ^ 53 := by omega
          exact_mod_cast this

omit m in
/-- **C187** `f_range`: the first `2 ^ 42` numbers it yields, and where it ends -/
theorem C187_f_range {start : PyNum lit} {start' : FP double} (ha : sim 10 start start') {stop step : Option (PyNum lit)} {stop' step' : Option (FP double)}
    (hs : sim 10 stop stop') (ht : sim 10 step step') (n : ℕ) (hn : n ≤ 2 ^ 42) : SameVal (fRange start stop step n) (fRange start' stop' step' n) := by
  have hst : sim 10 (step.getD (num 1)) (step'.getD (num 1)) := by
    cases ht with
    | some h => exact h
    | none => exact NumSim.mono PyNum.sim_num1 (by norm_num)
  have bd : ∀ {a : PyNum lit} {x : FP double}, sim 10 a x → ∀ i, a = .int i → |i| ≤ ((2 ^ 10 : ℕ) : ℤ) := by
    rintro a x h i rfl
    exact_mod_cast h.2
  have hB : 2 ^ 10 + n * 2 ^ 10 ≤ 2 ^ 53 := by omega
  unfold fRange
  cases hs with
  | some h => exact sim_fRangeLoop h hst n _ hB _ _ ha.rv (bd ha)
  | none =>
    have h0 := NumSim.mono (PyNum.sim_num0 (lit := lit)) (show 0 ≤ 10 by norm_num)
    exact sim_fRangeLoop (PyNum.sim_add ha h0 (by norm_num)) hst n _ hB _ _ h0.rv (bd h0)

end

/-- Non-vacuity: `quantize(7, 2)` and `quantize(7.0, 2.0)`, with the exact library, and a step `int` with a value `float`. -/
example : SameVal (quantize (.int 7 : PyNum lit) (.int 2)) (quantize (⟨7⟩ : FP double) ⟨2⟩) ∧
    SameVal (quantize (.flt ⟨15 / 2⟩ : PyNum lit) (.int 2)) (quantize (⟨15 / 2⟩ : FP double) ⟨2⟩) := by
  have h7 : sim 51 (.int 7 : PyNum lit) (⟨7⟩ : FP double) := ⟨by norm_num, by norm_num⟩
  have h2 : sim 10 (.int 2 : PyNum lit) (⟨2⟩ : FP double) := ⟨by norm_num, by norm_num⟩
  exact ⟨C187_quantize exactTrunc_double h7 h2 fun _ _ => by norm_num,
    C187_quantize exactTrunc_double (show sim 51 (.flt ⟨15 / 2⟩ : PyNum lit) _ from rfl) h2 fun _ _ => by norm_num [abs_of_pos]⟩

/-- The third number of `f_range(0, 3, 1)` given as `int`s is that of `f_range(0.0, 3.0, 1.0)`. -/
example : SameVal (fRange (.int 0 : PyNum lit) (some (.int 3)) (some (.int 1)) 2) (fRange (⟨0⟩ : FP double) (some ⟨3⟩) (some ⟨1⟩) 2) := by
  have h : ∀ n : ℕ, n ≤ 3 → sim 10 (.int n : PyNum lit) (⟨n⟩ : FP double) := fun n hn =>
    ⟨by norm_num, by rw [Nat.abs_cast]; exact_mod_cast (show n ≤ 2 ^ 10 by omega)⟩
  have h0 := h 0 (by norm_num)
  have h1 := h 1 (by norm_num)
  have h3 := h 3 (by norm_num)
  norm_num at h0 h1 h3
  exact C187_f_range h0 (sim_some h3) (sim_some h1) 2 (by norm_num)

end PyrusGeom
