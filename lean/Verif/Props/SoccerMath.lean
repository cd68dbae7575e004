import Mathlib.Analysis.SpecificLimits.Basic
import Mathlib.Algebra.Order.Round
import Mathlib.Algebra.Field.GeomSum
import Verif.Model.SoccerMath
import Verif.Lemmas.Vector

/-! # Properties C83 – C93: `soccer_math.py` -/

namespace PyrusGeom
open Spec

namespace SoccerMath

/-! ## Specification -/

/-- One simulation step of an object that only moves by inertia: `pos += vel; vel *= decay`. -/
def Spec.inertiaStep (decay : ℝ) (s : Pt × Pt) : Pt × Pt := (s.1 + s.2, decay • s.2)

/-- The same on a line: `(distance, speed)`. -/
def Spec.inertiaStep1 (decay : ℝ) (s : ℝ × ℝ) : ℝ × ℝ := (s.1 + s.2, decay * s.2)

/-- `r` is the integer nearest to `x`, the even one if two are equally near (C `rint` in the default rounding mode). -/
def Spec.IsRint (x : ℝ) (r : ℤ) : Prop := |(r : ℝ) - x| ≤ 1 / 2 ∧ (|(r : ℝ) - x| = 1 / 2 → Even r)

/-! ## C83 -/

theorem mathPow_nat (x : ℝ) (n : ℕ) : mathPow x n = .ok (x ^ n) := by
  unfold mathPow
  rw [if_neg (by simp)]
  simp [PyMath.powi]

theorem mathPow_int (x : ℝ) (n : ℤ) (h : x ≠ 0) : mathPow x n = .ok (x ^ n) := by
  unfold mathPow
  rw [if_neg (by simp [h])]
  rfl

theorem travel_nat (vel : Vec ℝ) (n : ℕ) {decay : ℝ} (h : decay ≠ 1) : inertiaNStepTravel vel n decay =
    .ok (Vec.ofXY (vel.x * ((1 - decay ^ n) / (1 - decay))) (vel.y * ((1 - decay ^ n) / (1 - decay)))) := by
  have : (1 : ℝ) - decay ≠ 0 := sub_ne_zero.mpr h.symm
  simp [inertiaNStepTravel, mathPow_nat, pyDiv_real, this, bind, Except.bind, pure, Except.pure, Vec.mul]

theorem travel_int (vel : Vec ℝ) (n : ℤ) {decay : ℝ} (h : decay ≠ 1) (h0 : decay ≠ 0) :
    inertiaNStepTravel vel n decay =
      .ok (Vec.ofXY (vel.x * ((1 - decay ^ n) / (1 - decay))) (vel.y * ((1 - decay ^ n) / (1 - decay)))) := by
  have : (1 : ℝ) - decay ≠ 0 := sub_ne_zero.mpr h.symm
  simp [inertiaNStepTravel, mathPow_int _ _ h0, pyDiv_real, this, bind, Except.bind, pure, Except.pure, Vec.mul]

theorem inertia_iter (decay : ℝ) (h : decay ≠ 1) (p v : Pt) (n : ℕ) :
    (Spec.inertiaStep decay)^[n] (p, v) = (p + ((1 - decay ^ n) / (1 - decay)) • v, decay ^ n • v) := by
  have h1 : (1 : ℝ) - decay ≠ 0 := sub_ne_zero.mpr h.symm
  induction n with
  | zero => simp
  | succ n ih =>
    rw [Function.iterate_succ_apply', ih]
    unfold Spec.inertiaStep
    refine Prod.ext ?_ ?_
    · simp only
      rw [add_assoc, ← add_smul]
      congr 2
      field_simp
      ring
    · simp only
      rw [smul_smul, pow_succ, mul_comm]

/-- **C83** For every number of steps `n`: `inertia_n_step_point` returns the position after `n` simulated steps,
`inertia_n_step_travel` the displacement. -/
theorem C83_point (pos vel : Vec ℝ) (n : ℕ) (decay : ℝ) (h : decay ≠ 1) :
    (∃ v, inertiaNStepPoint pos vel n decay = .ok v ∧
      v.pt = ((Spec.inertiaStep decay)^[n] (pos.pt, vel.pt)).1) ∧
    ∃ v, inertiaNStepTravel vel n decay = .ok v ∧
      pos.pt + v.pt = ((Spec.inertiaStep decay)^[n] (pos.pt, vel.pt)).1 := by
  rw [inertia_iter decay h]
  constructor
  · refine ⟨_, by rw [inertiaNStepPoint, travel_nat _ _ h]; rfl, ?_⟩
    refine Prod.ext ?_ ?_ <;> simp [mul_comm]
  · refine ⟨_, travel_nat _ _ h, ?_⟩
    refine Prod.ext ?_ ?_ <;> simp [mul_comm]

theorem inertia_iter1 (decay : ℝ) (h : decay ≠ 1) (p v : ℝ) (n : ℕ) :
    (Spec.inertiaStep1 decay)^[n] (p, v) = (p + v * (1 - decay ^ n) / (1 - decay), decay ^ n * v) := by
  have h1 : (1 : ℝ) - decay ≠ 0 := sub_ne_zero.mpr h.symm
  induction n with
  | zero => simp
  | succ n ih =>
    rw [Function.iterate_succ_apply', ih]
    unfold Spec.inertiaStep1
    refine Prod.ext ?_ ?_
    · simp only
      field_simp
      ring
    · simp only; rw [pow_succ]; ring

/-- **C83** `inertia_n_step_distance` is the distance after `n` simulated steps. -/
theorem C83_distance (speed : ℝ) (n : ℕ) (decay : ℝ) (h : decay ≠ 1) :
    inertiaNStepDistance speed n decay = .ok ((Spec.inertiaStep1 decay)^[n] (0, speed)).1 := by
  have h1 : (1 : ℝ) - decay ≠ 0 := sub_ne_zero.mpr h.symm
  rw [inertia_iter1 decay h]
  simp [inertiaNStepDistance, mathPow_nat, pyDiv_real, h1, bind, Except.bind]

/-- **C83** `n` steps followed by `m` steps (from the reached point with the remaining velocity) are `n + m` steps. -/
theorem C83_compose (pos vel : Vec ℝ) (n m : ℕ) (decay : ℝ) (h : decay ≠ 1) :
    ∃ p, inertiaNStepPoint pos vel n decay = .ok p ∧
      inertiaNStepPoint p (Vec.ofXY (decay ^ n * vel.x) (decay ^ n * vel.y)) m decay =
        inertiaNStepPoint pos vel (n + m : ℕ) decay := by
  have h1 : (1 : ℝ) - decay ≠ 0 := sub_ne_zero.mpr h.symm
  refine ⟨_, by rw [inertiaNStepPoint, travel_nat _ _ h]; rfl, ?_⟩
  rw [inertiaNStepPoint, inertiaNStepPoint, travel_nat _ _ h, travel_nat _ _ h]
  simp only [bind, Except.bind, pure, Except.pure, Vec.add]
  congr 1
  simp only [Vec.ofXY, Vec.mk.injEq, and_true]
  constructor <;> · rw [pow_add]; field_simp; ring

/-- **C83** With a negative number of steps the formula runs the simulation backwards: `n` steps forward from the point
for `-n` with the earlier velocity lead to the start. -/
theorem C83_backwards (pos vel : Vec ℝ) (n : ℕ) (decay : ℝ) (h : decay ≠ 1) (h0 : decay ≠ 0) :
    ∃ p, inertiaNStepPoint pos vel (-(n : ℤ)) decay = .ok p ∧
      (Spec.inertiaStep decay)^[n] (p.pt, (decay ^ n)⁻¹ • vel.pt) = (pos.pt, vel.pt) := by
  have h1 : (1 : ℝ) - decay ≠ 0 := sub_ne_zero.mpr h.symm
  have h2 : decay ^ n ≠ 0 := pow_ne_zero n h0
  refine ⟨_, by rw [inertiaNStepPoint, travel_int _ _ h h0]; rfl, ?_⟩
  rw [inertia_iter decay h]
  refine Prod.ext (Prod.ext ?_ ?_) (Prod.ext ?_ ?_)
  · simp; field_simp; ring
  · simp; field_simp; ring
  · simp; field_simp
  · simp; field_simp

/-- **C83** `decay == 1` raises `ZeroDivisionError`, for every number of steps. -/
theorem C83_decay_one (pos vel : Vec ℝ) (speed : ℝ) (n : ℤ) :
    inertiaNStepTravel vel n 1 = .error .zeroDivision ∧ inertiaNStepPoint pos vel n 1 = .error .zeroDivision ∧
      inertiaNStepDistance speed n 1 = .error .zeroDivision := by
  simp [inertiaNStepTravel, inertiaNStepPoint, inertiaNStepDistance, mathPow, pyDiv_real, bind, Except.bind]

example : inertiaNStepPoint (Vec.ofXY 1 0) (Vec.ofXY 4 8) 3 (1 / 2 : ℝ) = .ok (Vec.ofXY 8 14) := by
  rw [inertiaNStepPoint, show (3 : ℤ) = ((3 : ℕ) : ℤ) from rfl, travel_nat _ _ (by norm_num)]
  norm_num [bind, Except.bind, pure, Except.pure, Vec.add, Vec.ofXY]

/-! ## C84 -/

theorem geom_limit {decay : ℝ} (h : |decay| < 1) :
    Filter.Tendsto (fun n : ℕ => (1 - decay ^ n) / (1 - decay)) Filter.atTop (nhds (1 / (1 - decay))) := by
  have := (tendsto_pow_atTop_nhds_zero_of_abs_lt_one h).const_sub 1
  rw [sub_zero] at this
  exact this.div_const _

theorem abs_lt_ne {decay : ℝ} (h : |decay| < 1) : decay ≠ 1 := by
  rintro rfl; simp at h

/-- **C84** For `|decay| < 1` the final point, travel and distance are the limits of the n-step values. -/
theorem C84_limit (pos vel : Vec ℝ) (speed decay : ℝ) (h : |decay| < 1) :
    (∃ f, inertiaFinalPoint pos vel decay = .ok f ∧ ∃ v : ℕ → Vec ℝ,
      (∀ n : ℕ, inertiaNStepPoint pos vel n decay = .ok (v n)) ∧
      Filter.Tendsto (fun n => (v n).pt) Filter.atTop (nhds f.pt)) ∧
    (∃ f, inertiaFinalTravel vel decay = .ok f ∧ ∃ v : ℕ → Vec ℝ,
      (∀ n : ℕ, inertiaNStepTravel vel n decay = .ok (v n)) ∧
      Filter.Tendsto (fun n => (v n).pt) Filter.atTop (nhds f.pt)) ∧
    (∃ f, inertiaFinalDistance speed decay = .ok f ∧ ∃ v : ℕ → ℝ,
      (∀ n : ℕ, inertiaNStepDistance speed n decay = .ok (v n)) ∧
      Filter.Tendsto v Filter.atTop (nhds f)) := by
  have hne := abs_lt_ne h
  have h1 : (1 : ℝ) - decay ≠ 0 := sub_ne_zero.mpr hne.symm
  have hl := geom_limit h
  have hft : inertiaFinalTravel vel decay = .ok (Vec.ofXY (vel.x / (1 - decay)) (vel.y / (1 - decay))) := by
    simp [inertiaFinalTravel, Vec.truediv, pyDiv_real, h1, bind, Except.bind, pure, Except.pure]
  have hx : ∀ a : ℝ, Filter.Tendsto (fun n : ℕ => a * ((1 - decay ^ n) / (1 - decay))) Filter.atTop
      (nhds (a / (1 - decay))) := by
    intro a
    have := hl.const_mul a
    rwa [mul_one_div] at this
  refine ⟨⟨_, by rw [inertiaFinalPoint, hft]; rfl, _, fun n => by rw [inertiaNStepPoint, travel_nat _ _ hne]; rfl, ?_⟩,
    ⟨_, hft, _, fun n => travel_nat _ _ hne, ?_⟩, ⟨speed / (1 - decay), ?_, _, fun n => C83_distance speed n decay hne, ?_⟩⟩
  · simp only [Vec.pt_add, Vec.pt_ofXY]
    exact ((hx vel.x).prodMk_nhds (hx vel.y)).const_add _
  · exact (hx vel.x).prodMk_nhds (hx vel.y)
  · simp [inertiaFinalDistance, pyDiv_real, h1]
  · simp only [inertia_iter1 decay hne, zero_add]
    simpa only [mul_div_assoc] using hx speed

/-- **C84** For `0 ≤ decay < 1` and a non-negative speed the n-step distances increase and never exceed the final
distance; the final distance is the least such bound. -/
theorem C84_bound (speed decay : ℝ) (h0 : 0 ≤ decay) (h1 : decay < 1) (hs : 0 ≤ speed) :
    ∃ f, inertiaFinalDistance speed decay = .ok f ∧ ∃ v : ℕ → ℝ,
      (∀ n : ℕ, inertiaNStepDistance speed n decay = .ok (v n)) ∧ Monotone v ∧ IsLUB (Set.range v) f := by
  obtain ⟨-, -, f, hf, v, hv, hl⟩ := C84_limit (Vec.ofXY 0 0) (Vec.ofXY 0 0) speed decay (abs_lt.mpr ⟨by linarith, h1⟩)
  have hne : decay ≠ 1 := h1.ne
  have hmono : Monotone v := by
    have hv' : ∀ n, v n = speed * (1 - decay ^ n) / (1 - decay) := by
      intro n
      have := hv n
      rw [C83_distance speed n decay hne, inertia_iter1 decay hne] at this
      simpa using (Except.ok.inj this).symm
    intro a b hab
    rw [hv', hv']
    have := pow_le_pow_of_le_one h0 h1.le hab
    have h2 : 0 ≤ 1 - decay := by linarith
    exact div_le_div_of_nonneg_right (mul_le_mul_of_nonneg_left (by linarith) hs) h2
  exact ⟨f, hf, v, hv, hmono, isLUB_of_tendsto_atTop hmono hl⟩

/-- **C84** `decay == 1` raises. -/
theorem C84_decay_one (pos vel : Vec ℝ) (speed : ℝ) : inertiaFinalTravel vel 1 = .error .zeroDivision ∧
    inertiaFinalPoint pos vel 1 = .error .zeroDivision ∧ inertiaFinalDistance speed 1 = .error .zeroDivision := by
  simp [inertiaFinalTravel, inertiaFinalPoint, inertiaFinalDistance, Vec.truediv, pyDiv_real, bind, Except.bind]

example : inertiaFinalDistance 3 (1 / 4 : ℝ) = .ok 4 := by
  norm_num [inertiaFinalDistance, pyDiv_real]

/-! ## C85 -/

/-- `r_int` rounds to the nearest integer, ties away from zero. -/
theorem rInt_of_nonneg {x : ℝ} (h : 0 ≤ x) : rInt x = ⌊x + 1 / 2⌋ := by
  have hf : PyMath.trunc x = ⌊x⌋ := if_pos h
  unfold rInt
  simp only [hf, fabs_real]
  have h1 := Int.floor_le x
  have h2 := Int.lt_floor_add_one x
  have a1 : |((⌊x⌋ : ℤ) : ℝ) - x| = x - ⌊x⌋ := by rw [abs_sub_comm, abs_of_nonneg (by linarith)]
  have a2 : |((⌊x⌋ - 1 : ℤ) : ℝ) - x| = x - ⌊x⌋ + 1 := by
    push_cast; rw [abs_sub_comm, abs_of_nonneg (by linarith)]; ring
  have a3 : |((⌊x⌋ + 1 : ℤ) : ℝ) - x| = ⌊x⌋ + 1 - x := by push_cast; rw [abs_of_nonneg (by linarith)]
  rw [a1, a2, a3]
  by_cases hc : x - ⌊x⌋ < ⌊x⌋ + 1 - x
  · rw [if_pos ⟨by linarith, hc⟩, eq_comm, Int.floor_eq_iff]
    constructor <;> linarith
  · rw [if_neg (fun h => hc h.2), if_neg (by linarith), eq_comm, Int.floor_eq_iff]
    push_cast
    constructor <;> linarith

theorem rInt_of_neg {x : ℝ} (h : x < 0) : rInt x = -⌊-x + 1 / 2⌋ := by
  have hf : PyMath.trunc x = ⌈x⌉ := if_neg (not_le.mpr h)
  unfold rInt
  simp only [hf, fabs_real]
  have h1 := Int.le_ceil x
  have h2 := Int.ceil_lt_add_one x
  have a1 : |((⌈x⌉ : ℤ) : ℝ) - x| = ⌈x⌉ - x := abs_of_nonneg (by linarith)
  have a2 : |((⌈x⌉ - 1 : ℤ) : ℝ) - x| = x - ⌈x⌉ + 1 := by
    push_cast; rw [abs_sub_comm, abs_of_nonneg (by linarith)]; ring
  have a3 : |((⌈x⌉ + 1 : ℤ) : ℝ) - x| = ⌈x⌉ + 1 - x := by push_cast; rw [abs_of_nonneg (by linarith)]
  rw [a1, a2, a3]
  by_cases hc : (⌈x⌉ : ℝ) - x < x - ⌈x⌉ + 1
  · rw [if_pos ⟨hc, by linarith⟩, eq_comm, neg_eq_iff_eq_neg, Int.floor_eq_iff]
    push_cast
    constructor <;> linarith
  · rw [if_neg (fun h => hc h.1), if_pos (by linarith), eq_comm, neg_eq_iff_eq_neg, Int.floor_eq_iff]
    push_cast
    constructor <;> linarith

/-- **C85** `r_int` is odd. -/
theorem C85_odd (x : ℝ) : rInt (-x) = -rInt x := by
  rcases lt_trichotomy x 0 with h | h | h
  · rw [rInt_of_neg h, rInt_of_nonneg (by linarith)]; simp
  · subst h
    rw [neg_zero, rInt_of_nonneg le_rfl]
    norm_num
  · rw [rInt_of_nonneg h.le, rInt_of_neg (by linarith)]; simp

/-- **C85** `r_int(x)` is a nearest integer; if two are equally near, the one farther from zero. -/
theorem C85_nearest (x : ℝ) : |(rInt x : ℝ) - x| ≤ 1 / 2 ∧
    (|(rInt x : ℝ) - x| = 1 / 2 → |(rInt x : ℝ)| = |x| + 1 / 2) := by
  have key : ∀ x : ℝ, 0 ≤ x → |(rInt x : ℝ) - x| ≤ 1 / 2 ∧ (|(rInt x : ℝ) - x| = 1 / 2 → |(rInt x : ℝ)| = |x| + 1 / 2) := by
    intro x h
    rw [rInt_of_nonneg h]
    have h1 := Int.floor_le (x + 1 / 2)
    have h2 := Int.lt_floor_add_one (x + 1 / 2)
    have h0 : (0 : ℝ) ≤ ⌊x + 1 / 2⌋ := by exact_mod_cast Int.floor_nonneg.mpr (by linarith)
    refine ⟨abs_le.mpr ⟨by linarith, by linarith⟩, fun he => ?_⟩
    rw [abs_of_nonneg h0, abs_of_nonneg h]
    rcases abs_cases ((⌊x + 1 / 2⌋ : ℝ) - x) with ⟨h3, _⟩ | ⟨h3, _⟩
    · linarith
    · linarith
  rcases le_or_gt 0 x with h | h
  · exact key x h
  · have := key (-x) (by linarith)
    rw [C85_odd] at this
    push_cast at this
    rw [show -(rInt x : ℝ) - -x = -((rInt x : ℝ) - x) by ring, abs_neg, abs_neg, abs_neg] at this
    exact this

/-- **C85** `r_int(n) = n` for integers. -/
theorem C85_integer (n : ℤ) : rInt (n : ℝ) = n := by
  have := (C85_nearest (n : ℝ)).1
  have h : |((rInt (n : ℝ) - n : ℤ) : ℝ)| ≤ 1 / 2 := by push_cast; exact this
  have h2 : |((rInt (n : ℝ) - n : ℤ) : ℝ)| < 1 := by linarith
  rw [← Int.cast_abs] at h2
  have h3 : |rInt (n : ℝ) - n| < 1 := by exact_mod_cast h2
  have := Int.abs_lt_one_iff.mp h3
  omega

/-- **C85** `r_int` is monotone. -/
theorem C85_monotone : Monotone (rInt : ℝ → ℤ) := by
  intro x y hxy
  rcases le_or_gt 0 x with hx | hx
  · rw [rInt_of_nonneg hx, rInt_of_nonneg (hx.trans hxy)]
    exact Int.floor_le_floor (by linarith)
  · rcases le_or_gt 0 y with hy | hy
    · rw [rInt_of_neg hx, rInt_of_nonneg hy]
      have h1 : (0 : ℤ) ≤ ⌊y + 1 / 2⌋ := Int.floor_nonneg.mpr (by linarith)
      have h2 : (0 : ℤ) ≤ ⌊-x + 1 / 2⌋ := Int.floor_nonneg.mpr (by linarith)
      omega
    · rw [rInt_of_neg hx, rInt_of_neg hy]
      have : ⌊-y + 1 / 2⌋ ≤ ⌊-x + 1 / 2⌋ := Int.floor_le_floor (by linarith)
      omega

theorem quantize_ok (v : ℝ) {q : ℝ} (hq : q ≠ 0) : quantize v q = .ok ((rInt (v / q) : ℝ) * q) := by
  simp [quantize, pyDiv_real, hq, bind, Except.bind, pure, Except.pure]

/-- **C85** For `q > 0`, `quantize(v, q)` is an integer multiple of `q` within `q/2` of `v`, and quantizing again changes
nothing. -/
theorem C85_quantize (v q : ℝ) (hq : 0 < q) : ∃ d, quantize v q = .ok d ∧ (∃ k : ℤ, d = k * q) ∧ |d - v| ≤ q / 2 ∧
    quantize d q = .ok d := by
  refine ⟨_, quantize_ok v hq.ne', ⟨_, rfl⟩, ?_, ?_⟩
  · have := (C85_nearest (v / q)).1
    have h : (rInt (v / q) : ℝ) * q - v = ((rInt (v / q) : ℝ) - v / q) * q := by field_simp
    rw [h, abs_mul, abs_of_pos hq]
    nlinarith
  · rw [quantize_ok _ hq.ne', mul_div_assoc, div_self hq.ne', mul_one, C85_integer]

/-- **C85** `q = 0` raises. -/
theorem C85_zero_step (v : ℝ) : quantize v 0 = .error .zeroDivision := by
  simp [quantize, pyDiv_real, bind, Except.bind]

example : rInt (5 / 2 : ℝ) = 3 ∧ rInt (-5 / 2 : ℝ) = -3 ∧ rInt (9 / 4 : ℝ) = 2 := by
  refine ⟨?_, ?_, ?_⟩
  · rw [rInt_of_nonneg (by norm_num)]; norm_num
  · rw [rInt_of_neg (by norm_num)]; norm_num
  · rw [rInt_of_nonneg (by norm_num)]; rw [Int.floor_eq_iff]; norm_num

/-! ## C86 -/

/-- **C86** (part) `r_int(x)` is `rint(x)` exactly if `x` is not a tie, or a tie whose neighbour farther from zero is even
(`1.5`, `3.5`, …, `-1.5`, `-3.5`, …). -/
theorem C86_partial (x : ℝ) : Spec.IsRint x (rInt x) ↔
    ((∀ k : ℤ, x ≠ k + 1 / 2) ∨ ∃ k : ℤ, Even k ∧ ((0 < x ∧ x = k - 1 / 2) ∨ (x < 0 ∧ x = k + 1 / 2))) := by
  obtain ⟨h1, -⟩ := C85_nearest x
  by_cases ht : ∃ k : ℤ, x = k + 1 / 2
  · obtain ⟨k, rfl⟩ := ht
    have hL : ¬ ∀ k' : ℤ, (k : ℝ) + 1 / 2 ≠ k' + 1 / 2 := fun h => h k rfl
    rcases le_or_gt 0 k with hk | hk
    · have hkr : (0 : ℝ) ≤ k := by exact_mod_cast hk
      have e : rInt ((k : ℝ) + 1 / 2) = k + 1 := by
        rw [rInt_of_nonneg (by linarith), Int.floor_eq_iff]; push_cast; constructor <;> linarith
      constructor
      · rintro ⟨-, h⟩
        right
        refine ⟨k + 1, e ▸ h ?_, Or.inl ⟨by linarith, by push_cast; ring⟩⟩
        rw [e]; push_cast
        rw [show (k : ℝ) + 1 - (k + 1 / 2) = 1 / 2 by ring]; norm_num
      · rintro (h | ⟨j, hj, ⟨_, h⟩ | ⟨h, _⟩⟩)
        · exact absurd h hL
        · refine ⟨h1, fun _ => ?_⟩
          have : (j : ℝ) = (k + 1 : ℤ) := by push_cast; linarith
          have : j = k + 1 := by exact_mod_cast this
          rw [e, ← this]; exact hj
        · linarith
    · have hkr : (k : ℝ) ≤ -1 := by exact_mod_cast (by omega : k ≤ -1)
      have e : rInt ((k : ℝ) + 1 / 2) = k := by
        rw [rInt_of_neg (by linarith), neg_eq_iff_eq_neg, Int.floor_eq_iff]; push_cast; constructor <;> linarith
      constructor
      · rintro ⟨-, h⟩
        right
        refine ⟨k, ?_, Or.inr ⟨by linarith, rfl⟩⟩
        rw [e] at h
        exact h (by rw [show (k : ℝ) - (k + 1 / 2) = -(1 / 2) by ring]; norm_num)
      · rintro (h | ⟨j, hj, ⟨h, _⟩ | ⟨_, h⟩⟩)
        · exact absurd h hL
        · linarith
        · refine ⟨h1, fun _ => ?_⟩
          have : (j : ℝ) = k := by linarith
          have : j = k := by exact_mod_cast this
          rw [e, ← this]; exact hj
  · push Not at ht
    refine ⟨fun _ => Or.inl ht, fun _ => ⟨h1, fun h => ?_⟩⟩
    exfalso
    rcases abs_cases ((rInt x : ℝ) - x) with ⟨h3, _⟩ | ⟨h3, _⟩
    · refine ht (rInt x - 1) ?_
      push_cast; linarith
    · exact ht (rInt x) (by linarith)

/-- **C86 is false**: `r_int(0.5) = 1`, but `rint(0.5) = 0`. -/
theorem C86_refuted : rInt (1 / 2 : ℝ) = 1 ∧ ¬ Spec.IsRint (1 / 2) (rInt (1 / 2 : ℝ)) ∧ Spec.IsRint (1 / 2) 0 := by
  have h : rInt (1 / 2 : ℝ) = 1 := by rw [rInt_of_nonneg (by norm_num)]; norm_num
  refine ⟨h, ?_, ?_⟩
  · rw [h]
    rintro ⟨_, h2⟩
    have := h2 (by norm_num)
    exact absurd this (by decide)
  · refine ⟨by norm_num, fun _ => Even.zero⟩

/-! ## C87 -/

/-- **C87** If `quantize(v, q) = d` with `q > 0`, then `unquantize_min(d, q) ≤ v ≤ unquantize_max(d, q)` and the bracket has
width `q`. -/
theorem C87_bracket (v q d : ℝ) (hq : 0 < q) (h : quantize v q = .ok d) :
    ∃ lo hi, unquantizeMin d q = .ok lo ∧ unquantizeMax d q = .ok hi ∧ lo ≤ v ∧ v ≤ hi ∧ hi - lo = q := by
  rw [quantize_ok v hq.ne'] at h
  obtain rfl := Except.ok.inj h
  have hd : (rInt (v / q) : ℝ) * q / q = rInt (v / q) := by field_simp
  refine ⟨((rInt (v / q) : ℝ) - 1 / 2) * q, ((rInt (v / q) : ℝ) + 1 / 2) * q, ?_, ?_, ?_, ?_, by ring⟩
  · simp [unquantizeMin, pyDiv_real, hq.ne', bind, Except.bind, pure, Except.pure, hd, C85_integer]
  · simp [unquantizeMax, pyDiv_real, hq.ne', bind, Except.bind, pure, Except.pure, hd, C85_integer]
  · have := abs_le.mp (C85_nearest (v / q)).1
    calc ((rInt (v / q) : ℝ) - 1 / 2) * q ≤ (v / q) * q := mul_le_mul_of_nonneg_right (by linarith) hq.le
      _ = v := by field_simp
  · have := abs_le.mp (C85_nearest (v / q)).1
    calc v = (v / q) * q := by field_simp
      _ ≤ ((rInt (v / q) : ℝ) + 1 / 2) * q := mul_le_mul_of_nonneg_right (by linarith) hq.le

/-- **C87** The bracket is tight: every value strictly inside quantizes to `d`. -/
theorem C87_tight (v w q d lo hi : ℝ) (hq : 0 < q) (h : quantize v q = .ok d) (hlo : unquantizeMin d q = .ok lo)
    (hhi : unquantizeMax d q = .ok hi) (h1 : lo < w) (h2 : w < hi) : quantize w q = .ok d := by
  rw [quantize_ok v hq.ne'] at h
  obtain rfl := Except.ok.inj h
  have hd : (rInt (v / q) : ℝ) * q / q = rInt (v / q) := by field_simp
  have e1 : unquantizeMin ((rInt (v / q) : ℝ) * q) q = .ok (((rInt (v / q) : ℝ) - 1 / 2) * q) := by
    simp [unquantizeMin, pyDiv_real, hq.ne', bind, Except.bind, pure, Except.pure, hd, C85_integer]
  have e2 : unquantizeMax ((rInt (v / q) : ℝ) * q) q = .ok (((rInt (v / q) : ℝ) + 1 / 2) * q) := by
    simp [unquantizeMax, pyDiv_real, hq.ne', bind, Except.bind, pure, Except.pure, hd, C85_integer]
  rw [e1] at hlo
  rw [e2] at hhi
  obtain rfl := Except.ok.inj hlo
  obtain rfl := Except.ok.inj hhi
  rw [quantize_ok w hq.ne']
  have g1 : (rInt (v / q) : ℝ) - 1 / 2 < w / q := by rw [lt_div_iff₀ hq]; exact h1
  have g2 : w / q < (rInt (v / q) : ℝ) + 1 / 2 := by rw [div_lt_iff₀ hq]; exact h2
  have g3 := abs_le.mp (C85_nearest (w / q)).1
  have : rInt (w / q) = rInt (v / q) := by
    have a : (rInt (w / q) : ℝ) < rInt (v / q) + 1 := by linarith
    have b : (rInt (v / q) : ℝ) < rInt (w / q) + 1 := by linarith
    have a' : rInt (w / q) < rInt (v / q) + 1 := by exact_mod_cast a
    have b' : rInt (v / q) < rInt (w / q) + 1 := by exact_mod_cast b
    omega
  rw [this]

example : quantize (13 / 10 : ℝ) 1 = .ok 1 := by
  rw [quantize_ok _ one_ne_zero, div_one, rInt_of_nonneg (by norm_num)]; norm_num

/-! ## C88 -/

theorem bound_real (a b c : ℝ) : bound a b c = min (max a b) c := by rw [bound, pyMin_real, pyMax_real]

/-- **C88** `bound` and `min_max` are the same function. -/
theorem C88_same (a b c : ℝ) : bound a b c = minMax a b c := rfl

/-- **C88** For `low ≤ high` the result is in the range, is the value itself if that is in the range, and is idempotent;
it is the nearest number of the range. -/
theorem C88_clamp (low x high : ℝ) (h : low ≤ high) :
    bound low x high ∈ Set.Icc low high ∧ (x ∈ Set.Icc low high → bound low x high = x) ∧
    bound low (bound low x high) high = bound low x high ∧
    (∀ y ∈ Set.Icc low high, |bound low x high - x| ≤ |y - x|) := by
  rw [bound_real, bound_real]
  have h1 : min (max low x) high ∈ Set.Icc low high := ⟨le_min (le_max_left _ _) h, min_le_right _ _⟩
  refine ⟨h1, ?_, ?_, ?_⟩
  · rintro ⟨h2, h3⟩
    rw [max_eq_right h2, min_eq_left h3]
  · rw [max_eq_right h1.1, min_eq_left h1.2]
  · rintro y ⟨h2, h3⟩
    rcases le_total x low with hx | hx
    · rw [max_eq_left hx, min_eq_left h, abs_of_nonneg (by linarith), abs_of_nonneg (by linarith)]; linarith
    · rw [max_eq_right hx]
      rcases le_total x high with hx' | hx'
      · rw [min_eq_left hx', sub_self, abs_zero]; exact abs_nonneg _
      · rw [min_eq_right hx', abs_of_nonpos (by linarith), abs_of_nonpos (by linarith)]; linarith

/-- **C88** Monotone in the value (for any bounds). -/
theorem C88_monotone (low high : ℝ) : Monotone (fun x => bound low x high) := by
  intro x y hxy
  simp only [bound_real]
  exact min_le_min_right _ (max_le_max_left _ hxy)

/-- **C88** With the bounds in the wrong order the result is `high` whatever the value. -/
theorem C88_reversed (low x high : ℝ) (h : high ≤ low) : bound low x high = high := by
  rw [bound_real]; exact min_eq_right (h.trans (le_max_left _ _))

example : bound (0 : ℝ) 5 3 = 3 ∧ bound (0 : ℝ) (-5) 3 = 0 ∧ bound (0 : ℝ) 2 3 = 2 := by
  simp only [bound_real]; norm_num

/-! ## C89 -/

theorem fRangeLoop_none {stop step : ℝ} (n : ℕ) {start : ℝ}
    (h : (0 < step ∧ stop ≤ start) ∨ (step < 0 ∧ start ≤ stop)) : fRangeLoop stop step n start = none := by
  unfold fRangeLoop
  simp only [Nat.cast_zero]
  rcases h with h | h
  · rw [if_pos h]
  · rw [if_pos h]; split <;> rfl

theorem fRangeLoop_zero {stop step : ℝ} {start : ℝ}
    (h : ¬ ((0 < step ∧ stop ≤ start) ∨ (step < 0 ∧ start ≤ stop))) : fRangeLoop stop step 0 start = some start := by
  unfold fRangeLoop
  simp only [Nat.cast_zero]
  rw [if_neg (fun h' => h (Or.inl h')), if_neg (fun h' => h (Or.inr h'))]

theorem fRangeLoop_succ {stop step : ℝ} (n : ℕ) {start : ℝ}
    (h : ¬ ((0 < step ∧ stop ≤ start) ∨ (step < 0 ∧ start ≤ stop))) :
    fRangeLoop stop step (n + 1) start = fRangeLoop stop step n (start + step) := by
  conv_lhs => unfold fRangeLoop
  simp only [Nat.cast_zero]
  rw [if_neg (fun h' => h (Or.inl h')), if_neg (fun h' => h (Or.inr h'))]

/-- **C89** `step > 0`: the `n`-th value exists exactly if `start + n * step < stop`, and then it is that number. -/
theorem C89_up (start stop step : ℝ) (h : 0 < step) (n : ℕ) :
    fRange start (some stop) (some step) n = if start + n * step < stop then some (start + n * step) else none := by
  change fRangeLoop stop step n start = _
  induction n generalizing start with
  | zero =>
    by_cases hs : start < stop
    · rw [fRangeLoop_zero (by rintro (⟨_, h'⟩ | ⟨h', _⟩) <;> linarith), if_pos (by simpa using hs)]; simp
    · rw [fRangeLoop_none _ (Or.inl ⟨h, not_lt.mp hs⟩), if_neg (by simpa using hs)]
  | succ n ih =>
    have e : start + step + n * step = start + (n + 1 : ℕ) * step := by push_cast; ring
    have hn : 0 ≤ (n : ℝ) * step := by positivity
    by_cases hs : start < stop
    · rw [fRangeLoop_succ _ (by rintro (⟨_, h'⟩ | ⟨h', _⟩) <;> linarith), ih, e]
    · rw [fRangeLoop_none _ (Or.inl ⟨h, not_lt.mp hs⟩), if_neg (by push_cast; nlinarith)]

/-- **C89** `step < 0`: symmetric. -/
theorem C89_down (start stop step : ℝ) (h : step < 0) (n : ℕ) :
    fRange start (some stop) (some step) n = if stop < start + n * step then some (start + n * step) else none := by
  change fRangeLoop stop step n start = _
  induction n generalizing start with
  | zero =>
    by_cases hs : stop < start
    · rw [fRangeLoop_zero (by rintro (⟨h', _⟩ | ⟨_, h'⟩) <;> linarith), if_pos (by simpa using hs)]; simp
    · rw [fRangeLoop_none _ (Or.inr ⟨h, not_lt.mp hs⟩), if_neg (by simpa using hs)]
  | succ n ih =>
    have e : start + step + n * step = start + (n + 1 : ℕ) * step := by push_cast; ring
    have hn : (n : ℝ) * step ≤ 0 := mul_nonpos_of_nonneg_of_nonpos (Nat.cast_nonneg n) h.le
    by_cases hs : stop < start
    · rw [fRangeLoop_succ _ (by rintro (⟨h', _⟩ | ⟨_, h'⟩) <;> linarith), ih, e]
    · rw [fRangeLoop_none _ (Or.inr ⟨h, not_lt.mp hs⟩), if_neg (by push_cast; nlinarith)]

/-- **C89** The number of values yielded is `⌈(stop - start) / step⌉` (none if that is negative), for both signs of
`step`; so the loop ends. -/
theorem C89_terminates (start stop step : ℝ) (h : step ≠ 0) (n : ℕ) :
    (fRange start (some stop) (some step) n).isSome ↔ n < ⌈(stop - start) / step⌉₊ := by
  rw [Nat.lt_ceil]
  rcases lt_or_gt_of_ne h with h | h
  · rw [C89_down _ _ _ h, lt_div_iff_of_neg h]
    by_cases hc : stop < start + n * step
    · rw [if_pos hc]; simp; linarith
    · rw [if_neg hc]; simp; linarith
  · rw [C89_up _ _ _ h, lt_div_iff₀ h]
    by_cases hc : start + n * step < stop
    · rw [if_pos hc]; simp; linarith
    · rw [if_neg hc]; simp; linarith

/-- **C89** `step == 0` never ends: every value is `start`. -/
theorem C89_zero_step (start stop : ℝ) (n : ℕ) : fRange start (some stop) (some 0) n = some start := by
  change fRangeLoop stop 0 n start = _
  induction n with
  | zero => exact fRangeLoop_zero (by simp)
  | succ n ih => rw [fRangeLoop_succ n (by simp), add_zero]; exact ih

/-- **C89** `f_range(stop)` is `f_range(0, stop, 1)`, `f_range(start, stop)` has step 1, and `f_range(stop, step=s)` starts
at 0. -/
theorem C89_defaults (start stop step : ℝ) (n : ℕ) :
    fRange stop none none n = fRange 0 (some stop) (some 1) n ∧
    fRange start (some stop) none n = fRange start (some stop) (some 1) n ∧
    fRange stop none (some step) n = fRange 0 (some stop) (some step) n := by
  simp [fRange]

example : (List.range 4).map (fRange (1 : ℝ) (some 2) (some (1 / 2))) = [some 1, some (3 / 2), none, none] := by
  simp only [List.range, List.range.loop, List.map_cons, List.map_nil, C89_up _ _ _ (show (0 : ℝ) < 1 / 2 by norm_num)]
  norm_num

/-! ## C90 -/

/-- **C90** `calc_first_term_geom_series(s, ratio, n)`: if `ratio ^ n ≠ 1` the result is a first term whose `n`-term sum
is `s`; otherwise `ZeroDivisionError`. -/
theorem C90_first_term (s ratio : ℝ) (n : ℕ) :
    (ratio ^ n ≠ 1 → ∃ a, calcFirstTermGeomSeries s ratio n = .ok a ∧ ∑ i ∈ Finset.range n, a * ratio ^ i = s) ∧
    (ratio ^ n = 1 → calcFirstTermGeomSeries s ratio n = .error .zeroDivision) := by
  constructor
  · intro h
    have hne : (1 : ℝ) - ratio ^ n ≠ 0 := sub_ne_zero.mpr (Ne.symm h)
    have hr : ratio ≠ 1 := by rintro rfl; simp at h
    refine ⟨s * (1 - ratio) / (1 - ratio ^ n), ?_, ?_⟩
    · simp [calcFirstTermGeomSeries, mathPow_nat, pyDiv_real, hne, bind, Except.bind]
    · rw [← Finset.mul_sum, geom_sum_eq hr]
      have : ratio - 1 ≠ 0 := sub_ne_zero.mpr hr
      field_simp
      ring
  · intro h
    simp [calcFirstTermGeomSeries, mathPow_nat, h, pyDiv_real, bind, Except.bind]

/-- The first term found is the only one. -/
theorem C90_first_term_unique (s ratio a b : ℝ) (n : ℕ) (h : ratio ^ n ≠ 1)
    (ha : calcFirstTermGeomSeries s ratio n = .ok a) (hb : ∑ i ∈ Finset.range n, b * ratio ^ i = s) : b = a := by
  obtain ⟨a', h1, h2⟩ := (C90_first_term s ratio n).1 h
  obtain rfl : a = a' := Except.ok.inj (ha.symm.trans h1)
  rw [← Finset.mul_sum] at h2 hb
  have hr : ratio ≠ 1 := by rintro rfl; simp at h
  have : ∑ i ∈ Finset.range n, ratio ^ i ≠ 0 := by
    rw [geom_sum_eq hr]
    exact div_ne_zero (sub_ne_zero.mpr h) (sub_ne_zero.mpr hr)
  exact mul_right_cancel₀ this (hb.trans h2.symm)

theorem SERVER_EPS_real : (SERVER_EPS : ℝ) = 1 / 10000000000 := by simp [SERVER_EPS]
theorem SERVER_EPS_pos : (0 : ℝ) < SERVER_EPS := by rw [SERVER_EPS_real]; norm_num

/-- **C90** (part) `calc_length_geom_series`, for parameters above the tolerance `SERVER_EPS` (1e-10) and `ratio ≠ 1`: with
`tmp = 1 + s (ratio - 1) / first` above the tolerance the result `L` is non-negative and the (real) length whose sum is
`s`, i.e. `first * (ratio ^ L - 1) / (ratio - 1) = s`. -/
theorem C90_length_partial (first s ratio : ℝ) (hf : SERVER_EPS < first) (hs : SERVER_EPS < s) (hr : SERVER_EPS < ratio)
    (hr1 : ratio ≠ 1) (ht : SERVER_EPS < 1 + s * (ratio - 1) / first) :
    ∃ L, calcLengthGeomSeries first s ratio = .ok L ∧ 0 ≤ L ∧ first * (ratio ^ L - 1) / (ratio - 1) = s := by
  have he := SERVER_EPS_pos
  have hrp : 0 < ratio := he.trans hr
  have htp : 0 < 1 + s * (ratio - 1) / first := he.trans ht
  have hfp : 0 < first := he.trans hf
  have hsp : 0 < s := he.trans hs
  have hl : Real.log ratio ≠ 0 := Real.log_ne_zero_of_pos_of_ne_one hrp hr1
  have hr0 : ratio - 1 ≠ 0 := sub_ne_zero.mpr hr1
  refine ⟨Real.log (1 + s * (ratio - 1) / first) / Real.log ratio, ?_, ?_, ?_⟩
  · unfold calcLengthGeomSeries
    simp only [Nat.cast_zero, Nat.cast_one]
    rw [if_neg (by push Not; exact ⟨hf, hsp.le, hr⟩), if_neg (not_le.mpr hs), if_neg (not_le.mpr ht), pyDiv_real,
      if_neg (by simpa [PyMath.log] using hl)]
    rfl
  · rcases lt_or_gt_of_ne hr1 with h | h
    · have h1 : s * (ratio - 1) / first ≤ 0 :=
        div_nonpos_of_nonpos_of_nonneg (mul_nonpos_of_nonneg_of_nonpos hsp.le (by linarith)) hfp.le
      exact div_nonneg_of_nonpos (Real.log_nonpos htp.le (by linarith)) (Real.log_nonpos hrp.le h.le)
    · have h1 : 0 ≤ s * (ratio - 1) / first := div_nonneg (mul_nonneg hsp.le (by linarith)) hfp.le
      exact div_nonneg (Real.log_nonneg (by linarith)) (Real.log_nonneg h.le)
  · rw [Real.rpow_def_of_pos hrp, mul_div_cancel₀ _ hl, Real.exp_log htp]
    field_simp
    ring

/-- For a natural number `L` the formula of `C90_length_partial` is the sum of `L` terms. -/
theorem C90_length_meaning (first ratio : ℝ) (hr1 : ratio ≠ 1) (L : ℕ) :
    first * (ratio ^ (L : ℝ) - 1) / (ratio - 1) = ∑ i ∈ Finset.range L, first * ratio ^ i := by
  rw [← Finset.mul_sum, geom_sum_eq hr1, Real.rpow_natCast, mul_div_assoc]

/-- **C90** `-1` when no length exists: for `0 < ratio < 1` and positive first term, a sum not reached by any length. -/
theorem C90_no_length (first s ratio : ℝ) (hf : 0 < first) (hs : SERVER_EPS < s) (hr : 0 < ratio) (hr1 : ratio < 1)
    (hno : ∀ L : ℝ, first * (ratio ^ L - 1) / (ratio - 1) ≠ s) : calcLengthGeomSeries first s ratio = .ok (-1) := by
  have he := SERVER_EPS_pos
  have hr0 : ratio - 1 ≠ 0 := by linarith
  have ht : 1 + s * (ratio - 1) / first ≤ 0 := by
    by_contra hpos
    push Not at hpos
    have hl : Real.log ratio ≠ 0 := Real.log_ne_zero_of_pos_of_ne_one hr hr1.ne
    refine hno (Real.log (1 + s * (ratio - 1) / first) / Real.log ratio) ?_
    rw [Real.rpow_def_of_pos hr, mul_div_cancel₀ _ hl, Real.exp_log hpos]
    field_simp
    ring
  unfold calcLengthGeomSeries
  simp only [Nat.cast_zero, Nat.cast_one]
  by_cases h1 : first ≤ SERVER_EPS ∨ s < 0 ∨ ratio ≤ SERVER_EPS
  · rw [if_pos h1]
  · rw [if_neg h1, if_neg (not_le.mpr hs), if_pos (ht.trans he.le)]

/-- **C90 is false**: `calc_length_geom_series(1, 3, 1)` raises `ZeroDivisionError` (the series 1, 1, 1 has sum 3); in
general every positive sum with ratio 1 raises. -/
theorem C90_refuted (first s : ℝ) (hf : SERVER_EPS < first) (hs : SERVER_EPS < s) :
    calcLengthGeomSeries first s 1 = .error .zeroDivision := by
  have he := SERVER_EPS_pos
  have he1 : (SERVER_EPS : ℝ) < 1 := by rw [SERVER_EPS_real]; norm_num
  unfold calcLengthGeomSeries
  simp only [Nat.cast_zero, Nat.cast_one]
  rw [if_neg (by push Not; exact ⟨hf, (he.trans hs).le, he1⟩), if_neg (not_le.mpr hs), if_neg (by simpa using he1),
    pyDiv_real, if_pos (by simp [PyMath.log])]

example : calcLengthGeomSeries (1 : ℝ) 3 1 = .error .zeroDivision :=
  C90_refuted 1 3 (by rw [SERVER_EPS_real]; norm_num) (by rw [SERVER_EPS_real]; norm_num)

/-- **C90 is false** below the tolerance: a sum of 1e-10 gets length 0, whose sum is 0. -/
theorem C90_refuted_eps : calcLengthGeomSeries (1 : ℝ) SERVER_EPS 2 = .ok 0 ∧
    (1 : ℝ) * (2 ^ (0 : ℝ) - 1) / (2 - 1) ≠ SERVER_EPS := by
  have he := SERVER_EPS_pos
  constructor
  · unfold calcLengthGeomSeries
    simp only [Nat.cast_zero, Nat.cast_one]
    rw [if_neg, if_pos le_rfl]
    push Not
    rw [SERVER_EPS_real]; norm_num
  · simp only [Real.rpow_zero, sub_self, mul_zero, zero_div]
    exact he.ne

example : ∃ L, calcLengthGeomSeries (1 : ℝ) 7 2 = .ok L ∧ 0 ≤ L ∧ (1 : ℝ) * (2 ^ L - 1) / (2 - 1) = 7 :=
  C90_length_partial 1 7 2 (by rw [SERVER_EPS_real]; norm_num) (by rw [SERVER_EPS_real]; norm_num)
    (by rw [SERVER_EPS_real]; norm_num) (by norm_num) (by rw [SERVER_EPS_real]; norm_num)

/-! ## C91 -/

theorem kickRate_ok (dist dd power b p : ℝ) {m : ℝ} (hm : m ≠ 0) : kickRate dist dd power b p m =
    .ok (power * (1 - 1 / 4 * |dd| / 180 - 1 / 4 * (dist - b - p) / m)) := by
  simp [kickRate, pyDiv_real, hm, bind, Except.bind, pure, Except.pure, fabs_real]

/-- **C91** `kick_rate` with positive margin and non-negative power decreases with the distance and with the absolute
angle (strictly for positive power), and is even in the angle. -/
theorem C91_kick_rate (power b p m : ℝ) (hm : 0 < m) (hp : 0 ≤ power) (d1 d2 a1 a2 : ℝ) (hd : d1 ≤ d2) (ha : |a1| ≤ |a2|) :
    ∃ r1 r2, kickRate d1 a1 power b p m = .ok r1 ∧ kickRate d2 a2 power b p m = .ok r2 ∧ r2 ≤ r1 ∧
      (0 < power → d1 < d2 ∨ |a1| < |a2| → r2 < r1) := by
  refine ⟨_, _, kickRate_ok d1 a1 power b p hm.ne', kickRate_ok d2 a2 power b p hm.ne', ?_, ?_⟩
  · apply mul_le_mul_of_nonneg_left _ hp
    have : 1 / 4 * (d1 - b - p) / m ≤ 1 / 4 * (d2 - b - p) / m := div_le_div_of_nonneg_right (by linarith) hm.le
    linarith
  · intro hp' h
    apply mul_lt_mul_of_pos_left _ hp'
    rcases h with h | h
    · have : 1 / 4 * (d1 - b - p) / m < 1 / 4 * (d2 - b - p) / m := div_lt_div_of_pos_right (by linarith) hm
      linarith
    · have : 1 / 4 * (d1 - b - p) / m ≤ 1 / 4 * (d2 - b - p) / m := div_le_div_of_nonneg_right (by linarith) hm.le
      linarith

/-- **C91** `kick_rate` is even in the angle, is the power rate at contact straight ahead, half of it at the edge of the
kickable area behind the player, and raises for a zero margin. -/
theorem C91_kick_rate_values (power b p m : ℝ) (hm : m ≠ 0) (d a : ℝ) :
    kickRate d (-a) power b p m = kickRate d a power b p m ∧
    kickRate (b + p) 0 power b p m = .ok power ∧
    kickRate (b + p + m) 180 power b p m = .ok (power / 2) ∧
    kickRate d a power b p 0 = .error .zeroDivision := by
  refine ⟨?_, ?_, ?_, ?_⟩
  · rw [kickRate_ok _ _ _ _ _ hm, kickRate_ok _ _ _ _ _ hm, abs_neg]
  · rw [kickRate_ok _ _ _ _ _ hm]; congr 1; simp
  · rw [kickRate_ok _ _ _ _ _ hm]; congr 1
    rw [abs_of_pos (by norm_num)]
    field_simp
    ring
  · simp [kickRate, pyDiv_real, bind, Except.bind]

theorem dirRate_real (dir back side : ℝ) : dirRate dir back side =
    if 90 < |dir| then back - (back - side) * (1 - (|dir| - 90) / 90) else side + (1 - side) * (1 - |dir| / 90) := by
  simp [dirRate, fabs_real]

/-- **C91** `dir_rate` is even, and has the documented values at 0, 90 and 180 degrees. -/
theorem C91_dir_rate_values (dir back side : ℝ) : dirRate (-dir) back side = dirRate dir back side ∧
    dirRate 0 back side = 1 ∧ dirRate 90 back side = side ∧ dirRate 180 back side = back := by
  simp only [dirRate_real, abs_neg]
  refine ⟨trivial, ?_, ?_, ?_⟩
  · norm_num
  · rw [abs_of_pos (by norm_num), if_neg (by norm_num)]; norm_num
  · rw [abs_of_pos (by norm_num), if_pos (by norm_num)]; norm_num

/-- **C91** `dir_rate` is continuous in the direction (also at 90 degrees). -/
theorem C91_dir_rate_continuous (back side : ℝ) : Continuous (fun dir => dirRate dir back side) := by
  simp only [dirRate_real]
  have : (fun dir : ℝ => if 90 < |dir| then back - (back - side) * (1 - (|dir| - 90) / 90)
      else side + (1 - side) * (1 - |dir| / 90)) = fun dir : ℝ => if |dir| ≤ 90 then side + (1 - side) * (1 - |dir| / 90)
      else back - (back - side) * (1 - (|dir| - 90) / 90) := by
    funext dir
    by_cases h : |dir| ≤ 90
    · rw [if_pos h, if_neg (not_lt.mpr h)]
    · rw [if_neg h, if_pos (not_le.mp h)]
  rw [this]
  apply Continuous.if_le
  · exact continuous_const.add (continuous_const.mul (continuous_const.sub (continuous_abs.div_const _)))
  · exact continuous_const.sub (continuous_const.mul (continuous_const.sub ((continuous_abs.sub continuous_const).div_const _)))
  · exact continuous_abs
  · exact continuous_const
  · intro x hx
    rw [hx]; ring

/-- **C91** Between the extremes: up to 90 degrees the rate is between 1 and the side rate, from 90 to 180 degrees between
the side rate and the back rate. -/
theorem C91_dir_rate_between (dir back side : ℝ) :
    (|dir| ≤ 90 → dirRate dir back side ∈ Set.uIcc 1 side) ∧
    (90 ≤ |dir| → |dir| ≤ 180 → dirRate dir back side ∈ Set.uIcc side back) := by
  rw [dirRate_real]
  have h0 := abs_nonneg dir
  have key : ∀ a b t : ℝ, 0 ≤ t → t ≤ 1 → b + (a - b) * t ∈ Set.uIcc a b := by
    intro a b t h1 h2
    rw [Set.mem_uIcc]
    rcases le_total a b with h | h
    · left; constructor <;> nlinarith
    · right; constructor <;> nlinarith
  constructor
  · intro h
    rw [if_neg (not_lt.mpr h)]
    exact key 1 side (1 - |dir| / 90) (by linarith) (by linarith)
  · intro h h'
    rcases h.eq_or_lt with h | h
    · rw [if_neg (by rw [← h]; exact lt_irrefl _), ← h]
      norm_num
    · rw [if_pos h, show back - (back - side) * (1 - (|dir| - 90) / 90) =
        back + (side - back) * (1 - (|dir| - 90) / 90) by ring]
      exact key side back _ (by linarith) (by linarith)

/-- **C91** `effective_turn` with non-negative inertia and speed: it never exceeds the moment, decreases with the speed, is
the moment itself at rest; a zero denominator raises. -/
theorem C91_effective_turn (moment s1 s2 inertia : ℝ) (hm : 0 ≤ moment) (hi : 0 ≤ inertia) (h0 : 0 ≤ s1) (hs : s1 ≤ s2) :
    ∃ r1 r2, effectiveTurn moment s1 inertia = .ok r1 ∧ effectiveTurn moment s2 inertia = .ok r2 ∧
      0 ≤ r2 ∧ r2 ≤ r1 ∧ r1 ≤ moment ∧ effectiveTurn moment 0 inertia = .ok moment ∧
      effectiveTurn moment (-1) 1 = .error .zeroDivision := by
  have h1 : 0 < 1 + inertia * s1 := by nlinarith
  have h2 : 1 + inertia * s1 ≤ 1 + inertia * s2 := by nlinarith
  refine ⟨moment / (1 + inertia * s1), moment / (1 + inertia * s2), ?_, ?_, ?_, ?_, ?_, ?_, ?_⟩
  · simp [effectiveTurn, pyDiv_real, h1.ne']
  · simp [effectiveTurn, pyDiv_real, (h1.trans_le h2).ne']
  · exact div_nonneg hm (h1.trans_le h2).le
  · exact div_le_div_of_nonneg_left hm h1 h2
  · apply div_le_self hm; nlinarith
  · simp [effectiveTurn, pyDiv_real]
  · simp [effectiveTurn, pyDiv_real]

example : kickRate (1 : ℝ) 90 1 0 0 1 = .ok (5 / 8) := by
  rw [kickRate_ok _ _ _ _ _ one_ne_zero, abs_of_pos (by norm_num)]; norm_num

/-! ## C92 -/

/-- **C92** For `decay < 1`: `final_speed` is the fixed point of `v ↦ v * decay + |power| * rate * effort` (the only one), and
`can_over_speed_max` answers whether it exceeds the maximum. -/
theorem C92_final_speed (power rate effort decay speedMax : ℝ) (h : decay < 1) :
    ∃ f, finalSpeed power rate effort decay = .ok f ∧ f = f * decay + |power| * rate * effort ∧
      (∀ g : ℝ, g = g * decay + |power| * rate * effort → g = f) ∧
      (canOverSpeedMax power rate effort decay speedMax = true ↔ speedMax < f) := by
  have h1 : 0 < 1 - decay := by linarith
  have h2 : (1 : ℝ) - decay ≠ 0 := h1.ne'
  refine ⟨|power| * rate * effort / (1 - decay), ?_, ?_, ?_, ?_⟩
  · simp [finalSpeed, pyDiv_real, h2, fabs_real]
  · field_simp; ring
  · intro g hg
    rw [eq_div_iff h2]
    linarith
  · rw [lt_div_iff₀ h1]
    simp [canOverSpeedMax, fabs_real]

/-- **C92** For `|decay| < 1` the speed of a player who dashes with the same power in every cycle converges to
`final_speed`, from every initial speed. -/
theorem C92_convergence (power rate effort decay v0 : ℝ) (h : |decay| < 1) :
    ∃ f, finalSpeed power rate effort decay = .ok f ∧
      Filter.Tendsto (fun n => (fun v => v * decay + |power| * rate * effort)^[n] v0) Filter.atTop (nhds f) := by
  obtain ⟨f, hf, hfix, -, -⟩ := C92_final_speed power rate effort decay 0 (abs_lt.mp h).2
  refine ⟨f, hf, ?_⟩
  have key : ∀ n, (fun v => v * decay + |power| * rate * effort)^[n] v0 = f + decay ^ n * (v0 - f) := by
    intro n
    induction n with
    | zero => simp
    | succ n ih =>
      rw [Function.iterate_succ_apply', ih, pow_succ]
      linear_combination -hfix
  simp only [key]
  have := ((tendsto_pow_atTop_nhds_zero_of_abs_lt_one h).mul_const (v0 - f)).const_add f
  simpa using this

/-- **C92** `decay == 1` raises. -/
theorem C92_decay_one (power rate effort : ℝ) : finalSpeed power rate effort 1 = .error .zeroDivision := by
  simp [finalSpeed, pyDiv_real]

example : finalSpeed (-100 : ℝ) (6 / 1000) 1 (2 / 5) = .ok 1 := by
  norm_num [finalSpeed, pyDiv_real, fabs_real]

/-! ## C93 -/

/-- **C93 is false**: `wind_effect` returns the zero vector whatever the wind is (and sets `wind_error` to zero), because
`wind_vec.polar2vector(...)` does not change `wind_vec`. -/
theorem C93_refuted (speed weight force dir windWeight rand : ℝ) (err : Vec ℝ) (h : weight * windWeight ≠ 0) :
    ∃ v e, windEffect speed weight force dir windWeight rand err = .ok (v, e) ∧ v.pt = (0, 0) ∧ e.pt = (0, 0) ∧
      (0 < speed → 0 < force → len v.pt ≠ |speed * force / (weight * windWeight)|) := by
  refine ⟨Vec.ofXY 0 0, err.assign 0 0, ?_, rfl, rfl, ?_⟩
  · have h' : ¬(weight = 0 ∨ windWeight = 0) := by rw [← mul_eq_zero]; exact h
    simp [windEffect, pyDiv_real, h', bind, Except.bind, pure, Except.pure, Vec.zero]
  · intro h1 h2 h3
    have : (0 : ℝ) < |speed * force / (weight * windWeight)| := abs_pos.mpr (div_ne_zero (mul_pos h1 h2).ne' h)
    rw [← h3] at this
    simp [len, Vec.ofXY, Vec.pt] at this

/-- **C93** (part) The claim holds exactly if there is no effect: `speed * force == 0`. A zero weight raises. -/
theorem C93_no_wind_partial (speed weight force dir windWeight rand : ℝ) (err : Vec ℝ) :
    (weight * windWeight = 0 → windEffect speed weight force dir windWeight rand err = .error .zeroDivision) ∧
    (weight * windWeight ≠ 0 → ∃ v e, windEffect speed weight force dir windWeight rand err = .ok (v, e) ∧
      (v.pt = (speed * force / (weight * windWeight)) • unit dir ↔ speed * force = 0)) := by
  constructor
  · intro h
    simp [windEffect, pyDiv_real, h, bind, Except.bind]
  · intro h
    obtain ⟨v, e, h1, h2, -, -⟩ := C93_refuted speed weight force dir windWeight rand err h
    refine ⟨v, e, h1, ?_⟩
    rw [h2]
    constructor
    · intro h3
      by_contra hne
      have hu : unit dir = 0 := by
        have := (smul_eq_zero.mp h3.symm).resolve_left (div_ne_zero hne h)
        exact this
      have := unit_sq dir
      rw [hu] at this
      simp at this
    · intro h3; rw [h3]; simp

end SoccerMath

end PyrusGeom
