import Verif.Lemmas.Vector
import Verif.Model.Matrix

/-! # Properties C12 – C19: `Vector2D` -/

namespace PyrusGeom
open Spec

/-! ## C12 -/

theorem fromPolar_pt (r : ℝ) (a : AngleDeg ℝ) : (Vec.fromPolar r a).pt = r • unit a.deg := by
  unfold Vec.fromPolar; rw [cosA_real, sinA_real]; rfl

theorem not_tiny_of_len {v : Vec ℝ} (h : 2 * EPSILON ≤ len v.pt) : ¬ v.Tiny := by
  rintro ⟨h1, h2⟩
  have e := EPSILON_pos
  have hs := len_sq v.pt
  have a1 : v.x ^ 2 < (EPSILON : ℝ) ^ 2 := sq_lt_sq' (by linarith [(abs_lt.mp h1).1]) (abs_lt.mp h1).2
  have a2 : v.y ^ 2 < (EPSILON : ℝ) ^ 2 := sq_lt_sq' (by linarith [(abs_lt.mp h2).1]) (abs_lt.mp h2).2
  simp only [Vec.pt_fst, Vec.pt_snd] at hs
  nlinarith

/-- **C12**, polar to Cartesian: length and direction. -/
theorem C12_from_polar (r : ℝ) (a : AngleDeg ℝ) (hr : 0 ≤ r) :
    (Vec.fromPolar r a).r = r ∧ (Vec.fromPolar r a).isValid = true ∧
    (Vec.fromPolar r a).pt = r • unit a.degree ∧
    (2 * EPSILON ≤ r → AngleEq (Vec.fromPolar r a).th.degree a.degree) := by
  have hp := fromPolar_pt r a
  have hl : len (Vec.fromPolar r a).pt = r := by rw [hp, len_smul, unit_len, mul_one, abs_of_nonneg hr]
  refine ⟨by rw [Vec.r_real, hl], rfl, by rw [hp, unit_congr (AngleDeg.degree_angleEq a)], fun h => ?_⟩
  have hn : ¬ (Vec.fromPolar r a).Tiny := not_tiny_of_len (by rw [hl]; exact h)
  have h1 := Vec.th_polar hn
  rw [hl, hp] at h1
  have e := EPSILON_pos
  have := (smul_unit_inj (by linarith) hr h1).2
  exact (AngleDeg.degree_angleEq _).trans (this.symm.trans (AngleDeg.degree_angleEq a).symm)

/-- **C12**, the other spellings of polar construction give the same coordinates. -/
theorem C12_spellings (r : ℝ) (a : AngleDeg ℝ) (v : Vec ℝ) :
    (v.setPolar r a).pt = (Vec.fromPolar r a).pt ∧ (v.setPolar r a).valid = v.valid ∧
    (Vec.ofRA r a) = Vec.fromPolar r a := ⟨rfl, rfl, rfl⟩

/-- **C12**, Cartesian to polar and back. -/
theorem C12_round_trip (v : Vec ℝ) (h : ¬ (|v.x| < EPSILON ∧ |v.y| < EPSILON)) :
    (Vec.fromPolar v.r v.th).pt = v.pt := by
  rw [fromPolar_pt, Vec.r_real, ← Vec.th_polar h]

/-- The guard of the round trip is needed: a tiny vector loses its direction. -/
theorem C12_guard_needed : (Vec.fromPolar (Vec.ofXY (0 : ℝ) (1/2000000)).r (Vec.ofXY (0 : ℝ) (1/2000000)).th).pt
    ≠ (Vec.ofXY (0 : ℝ) (1/2000000)).pt := by
  have ht : (Vec.ofXY (0 : ℝ) (1/2000000)).Tiny := by
    constructor <;> simp only [Vec.ofXY_x, Vec.ofXY_y, EPSILON_real] <;> norm_num [abs_of_pos]
  rw [fromPolar_pt, Vec.th_tiny ht]
  intro h
  have := congrArg Prod.snd h
  simp [unit] at this

example : 2 * EPSILON ≤ (3 : ℝ) ∧ ¬ (|(3 : ℝ)| < EPSILON ∧ |(4 : ℝ)| < EPSILON) := by
  rw [EPSILON_real]; norm_num

/-! ## C13 -/

theorem rotate_pt (v : Vec ℝ) (d : ℝ) : (v.rotate d).pt =
    ((unit d).1 * v.x - (unit d).2 * v.y, (unit d).2 * v.x + (unit d).1 * v.y) := by
  unfold Vec.rotate Vec.assign
  simp only [DEG2RAD_real]
  refine Prod.ext ?_ ?_
  · show v.x * Real.cos _ - v.y * Real.sin _ = _
    simp only [unit]; ring
  · show v.x * Real.sin _ + v.y * Real.cos _ = _
    simp only [unit]; ring

/-- **C13**, isometry fixing the origin, which keeps the validity flag. -/
theorem C13_isometry (v w : Vec ℝ) (d : ℝ) :
    (v.rotate d).r = v.r ∧ (v.rotate d).dist (w.rotate d) = v.dist w ∧ (v.rotate d).isValid = v.isValid ∧
    (v.rotate d).innerProduct (w.rotate d) = v.innerProduct w ∧
    (v.rotate d).outerProduct (w.rotate d) = v.outerProduct w := by
  have u := unit_sq d
  have ev := Vec.pt_eq_iff (v := v.rotate d) (w := ⟨_, _, true⟩) |>.mp (rotate_pt v d)
  have ew := Vec.pt_eq_iff (v := w.rotate d) (w := ⟨_, _, true⟩) |>.mp (rotate_pt w d)
  simp only at ev ew
  refine ⟨?_, ?_, rfl, ?_, ?_⟩
  · unfold Vec.r
    congr 1
    rw [Vec.r2_real, Vec.r2_real, ev.1, ev.2]
    linear_combination (v.x ^ 2 + v.y ^ 2) * u
  · unfold Vec.dist
    congr 1
    rw [Vec.dist2_real, Vec.dist2_real, ev.1, ev.2, ew.1, ew.2]
    linear_combination ((v.x - w.x) ^ 2 + (v.y - w.y) ^ 2) * u
  · unfold Vec.innerProduct
    rw [ev.1, ev.2, ew.1, ew.2]
    linear_combination (v.x * w.x + v.y * w.y) * u
  · unfold Vec.outerProduct
    rw [ev.1, ev.2, ew.1, ew.2]
    linear_combination (v.x * w.y - v.y * w.x) * u

theorem unit_add (a b : ℝ) : unit (a + b) =
    ((unit a).1 * (unit b).1 - (unit a).2 * (unit b).2, (unit a).2 * (unit b).1 + (unit a).1 * (unit b).2) := by
  unfold unit
  simp only [add_mul, Real.cos_add, Real.sin_add]

/-- **C13**, group action. -/
theorem C13_action (v : Vec ℝ) (d1 d2 : ℝ) :
    (v.rotate d1).rotate d2 = v.rotate (d1 + d2) ∧ (∀ d, AngleEq d 0 → v.rotate d = v) ∧
    (AngleEq d1 d2 → v.rotate d1 = v.rotate d2) := by
  have key : ∀ (a b : Vec ℝ), a.pt = b.pt → a.valid = b.valid → a = b := fun a b h h' =>
    Vec.ext (Vec.pt_eq_iff.mp h).1 (Vec.pt_eq_iff.mp h).2 h'
  refine ⟨key _ _ ?_ rfl, fun d hd => key _ _ ?_ rfl, fun hd => key _ _ ?_ rfl⟩
  · have e1 := Vec.pt_eq_iff (v := v.rotate d1) (w := ⟨_, _, true⟩) |>.mp (rotate_pt v d1)
    simp only at e1
    rw [rotate_pt, rotate_pt, unit_add, e1.1, e1.2]
    refine Prod.ext ?_ ?_ <;> simp only <;> ring
  · rw [rotate_pt, unit_congr hd]
    simp [unit, Vec.pt]
  · rw [rotate_pt, rotate_pt, unit_congr hd]

/-- **C13**, the rotation has the right direction: it turns the direction `a` into `a + d`. -/
theorem C13_turns (m : ℝ) (a : AngleDeg ℝ) (d : ℝ) :
    ((Vec.fromPolar m a).rotate d).pt = m • unit (a.degree + d) := by
  have e1 := Vec.pt_eq_iff (v := Vec.fromPolar m a) (w := ⟨_, _, true⟩) |>.mp (fromPolar_pt m a)
  simp only at e1
  rw [rotate_pt, e1.1, e1.2, unit_add, unit_congr (AngleDeg.degree_angleEq a)]
  refine Prod.ext ?_ ?_ <;> simp <;> ring

/-- **C13**, `rotated_vector` and the rotation matrix give the same coordinates as `rotate`. -/
theorem C13_variants (v : Vec ℝ) (d : ℝ) :
    (v.rotatedVector d).pt = (v.rotate d).pt ∧
    ((Mat.makeRotation (AngleDeg.ofNum d)).transform v).pt = (v.rotate d).pt := by
  refine ⟨rfl, ?_⟩
  rw [rotate_pt, ← unit_congr (AngleDeg.ofNum_angleEq d)]
  unfold Mat.makeRotation Mat.transform
  simp only [cosA_real, sinA_real, Vec.pt_ofXY, Nat.cast_zero]
  refine Prod.ext ?_ ?_ <;> simp only <;> ring

example : ((Vec.ofXY (3 : ℝ) 4).rotate 180).pt = (-3, -4) := by
  have : (180 : ℝ) * (Real.pi / 180) = Real.pi := by ring
  rw [rotate_pt]
  simp [unit, this]

/-! ## C14 -/

/-- **C14.** -/
theorem C14_set_length (v : Vec ℝ) (L : ℝ) (hL : 0 ≤ L) :
    (EPSILON < v.r → (v.setLength L).r = L ∧ (∃ t : ℝ, 0 ≤ t ∧ (v.setLength L).pt = t • v.pt)) ∧
    (v.r ≤ EPSILON → v.setLength L = v) ∧
    (v.setLength L).isValid = v.isValid ∧
    (v.setLengthVector L).pt = (v.setLength L).pt ∧
    v.normalize = v.setLength 1 ∧ v.normalizeVector.pt = (v.setLength 1).pt := by
  have e := EPSILON_pos
  have hform : v.setLength L = if EPSILON < v.r then v.scale (L / v.r) else v := rfl
  have hsc : ∀ s : ℝ, (v.scale s).pt = s • v.pt := fun s => by
    unfold Vec.scale; refine Prod.ext ?_ ?_ <;> simp [mul_comm]
  have hform' : ∀ M, (v.setLengthVector M).pt = (v.setLength M).pt := by
    intro M
    have hr : (Vec.ofXY v.x v.y).r = v.r := rfl
    unfold Vec.setLengthVector Vec.setLength
    simp only [hr]
    split_ifs <;> rfl
  refine ⟨fun h => ?_, fun h => by rw [hform, if_neg (not_lt.mpr h)], ?_, hform' L, ?_, ?_⟩
  · have hr : 0 < v.r := by linarith
    rw [hform, if_pos h]
    refine ⟨?_, L / v.r, by positivity, hsc _⟩
    rw [Vec.r_real, hsc, len_smul, abs_of_nonneg (by positivity), ← Vec.r_real]
    field_simp
  · rw [hform]; split_ifs <;> rfl
  · unfold Vec.normalize; simp only [Nat.cast_one]
  · rw [← hform' 1]; unfold Vec.normalizeVector Vec.setLengthVector; simp only [Nat.cast_one]

example : EPSILON < (Vec.ofXY (3 : ℝ) 4).r := by
  rw [Vec.r_real, EPSILON_real]
  have : len (Vec.ofXY (3 : ℝ) 4).pt = 5 := by
    unfold len; rw [Real.sqrt_eq_iff_mul_self_eq (by positivity) (by norm_num)]; norm_num
  rw [this]; norm_num

/-! ## C15 -/

/-- **C15.** -/
theorem C15_metric (u v w : Vec ℝ) :
    0 ≤ u.dist v ∧ u.dist v = v.dist u ∧ (u.dist v = 0 ↔ u.x = v.x ∧ u.y = v.y) ∧
    u.dist w ≤ u.dist v + v.dist w ∧ (u.dist v) ^ 2 = u.dist2 v ∧
    (u.add w).dist (v.add w) = u.dist v ∧ u.dist v = (u.sub v).r := by
  simp only [Vec.dist_real, Vec.dist2_real, Vec.r_real]
  refine ⟨d_nonneg _ _, d_comm _ _, by rw [d_eq_zero, Vec.pt_eq_iff], d_triangle _ _ _, d_sq _ _, ?_, rfl⟩
  rw [d_eq_d_iff]; simp [Vec.pt_add]

example : (Vec.ofXY (0 : ℝ) 0).dist (Vec.ofXY 3 4) = 5 := by
  rw [Vec.dist_real]
  exact d_eq_of_sq (by norm_num) (by norm_num)

/-! ## C16 -/

/-- **C16**, the documented meaning in terms of lengths and directions. -/
theorem C16_products (u v : Vec ℝ) (hu : ¬ (|u.x| < EPSILON ∧ |u.y| < EPSILON))
    (hv : ¬ (|v.x| < EPSILON ∧ |v.y| < EPSILON)) :
    u.innerProduct v = u.r * v.r * (unit (v.th.degree - u.th.degree)).1 ∧
    u.outerProduct v = u.r * v.r * (unit (v.th.degree - u.th.degree)).2 := by
  have pu := Vec.th_polar hu
  have pv := Vec.th_polar hv
  rw [AngleDeg.degree_of_normal u.th_normal, AngleDeg.degree_of_normal v.th_normal, Vec.r_real, Vec.r_real]
  have e1 := pair_eq_iff.mp pu
  have e2 := pair_eq_iff.mp pv
  simp only [Prod.smul_fst, Prod.smul_snd, smul_eq_mul] at e1 e2
  have c1 : (unit (v.th.deg - u.th.deg)).1 = (unit v.th.deg).1 * (unit u.th.deg).1 + (unit v.th.deg).2 * (unit u.th.deg).2 := by
    simp only [unit, sub_mul, Real.cos_sub]
  have c2 : (unit (v.th.deg - u.th.deg)).2 = (unit v.th.deg).2 * (unit u.th.deg).1 - (unit v.th.deg).1 * (unit u.th.deg).2 := by
    simp only [unit, sub_mul, Real.sin_sub]
  unfold Vec.innerProduct Vec.outerProduct
  rw [c1, c2]
  constructor
  · conv_lhs => rw [e1.1, e1.2, e2.1, e2.2]
    ring
  · conv_lhs => rw [e1.1, e1.2, e2.1, e2.2]
    ring

/-- **C16**, algebra. -/
theorem C16_algebra (u v w : Vec ℝ) (s : ℝ) :
    u.innerProduct v = v.innerProduct u ∧ u.outerProduct v = -v.outerProduct u ∧
    (u.add w).innerProduct v = u.innerProduct v + w.innerProduct v ∧ (u.mul s).innerProduct v = s * u.innerProduct v ∧
    (u.add w).outerProduct v = u.outerProduct v + w.outerProduct v ∧ (u.mul s).outerProduct v = s * u.outerProduct v ∧
    u.innerProduct v ^ 2 + u.outerProduct v ^ 2 = u.r2 * v.r2 ∧
    u.innerProduct v = dot u.pt v.pt ∧ u.outerProduct v = cross u.pt v.pt := by
  simp only [Vec.innerProduct, Vec.outerProduct, Vec.r2, Vec.add, Vec.mul, Vec.ofXY_x, Vec.ofXY_y, dot, cross,
    Vec.pt_fst, Vec.pt_snd, and_true]
  refine ⟨?_, ?_, ?_, ?_, ?_, ?_, ?_⟩ <;> ring

example : ¬ (|(Vec.ofXY (1 : ℝ) 0).x| < EPSILON ∧ |(Vec.ofXY (1 : ℝ) 0).y| < EPSILON) := by
  rw [EPSILON_real]; norm_num

/-! ## C17 -/

theorem Vec.eq_iff (u v : Vec ℝ) : u.eq v = true ↔ u.x = v.x ∧ u.y = v.y := by
  simp [Vec.eq]

theorem Vec.equalsWeakly_iff (u v : Vec ℝ) :
    u.equalsWeakly v = true ↔ |u.x - v.x| < EPSILON ∧ |u.y - v.y| < EPSILON := by
  simp [Vec.equalsWeakly, fabs_real]

/-- **C17.** `h` is Python's hash of a pair of numbers, an arbitrary function. -/
theorem C17_equality (u v w : Vec ℝ) (h : ℝ × ℝ → Int) :
    u.eq u = true ∧ (u.eq v = v.eq u) ∧ (u.eq v = true → v.eq w = true → u.eq w = true) ∧
    (u.eq v = true ↔ u.x = v.x ∧ u.y = v.y) ∧ u.equals v = u.eq v ∧
    (u.eq v = true → u.hash h = v.hash h) ∧
    u.equalsWeakly u = true ∧ u.equalsWeakly v = v.equalsWeakly u ∧ (u.eq v = true → u.equalsWeakly v = true) := by
  refine ⟨by rw [Vec.eq_iff]; simp, ?_, ?_, Vec.eq_iff u v, rfl, ?_, ?_, ?_, ?_⟩
  · rw [Bool.eq_iff_iff, Vec.eq_iff, Vec.eq_iff]; constructor <;> rintro ⟨a, b⟩ <;> exact ⟨a.symm, b.symm⟩
  · simp only [Vec.eq_iff]; rintro ⟨a, b⟩ ⟨c, d⟩; exact ⟨a.trans c, b.trans d⟩
  · rw [Vec.eq_iff]; rintro ⟨a, b⟩; unfold Vec.hash; rw [a, b]
  · rw [Vec.equalsWeakly_iff]; simpa using EPSILON_pos
  · rw [Bool.eq_iff_iff, Vec.equalsWeakly_iff, Vec.equalsWeakly_iff, abs_sub_comm u.x, abs_sub_comm u.y]
  · rw [Vec.eq_iff, Vec.equalsWeakly_iff]; rintro ⟨a, b⟩; rw [a, b]; simpa using EPSILON_pos

/-- Equality ignores the validity flag: an invalid vector equals the valid origin. -/
theorem C17_ignores_flag : (Vec.invalid : Vec ℝ).eq (Vec.ofXY 0 0) = true ∧
    (Vec.invalid : Vec ℝ).isValid ≠ (Vec.ofXY (0 : ℝ) 0).isValid := by
  refine ⟨?_, by decide⟩
  rw [Vec.eq_iff]
  simp [Vec.invalid, Vec.invalidate, Vec.zero]

/-- `equals_weakly` is not transitive. -/
theorem C17_weak_not_transitive : ¬ ∀ u v w : Vec ℝ, u.equalsWeakly v = true → v.equalsWeakly w = true →
    u.equalsWeakly w = true := by
  intro h
  have := h (Vec.ofXY 0 0) (Vec.ofXY (3/4000000) 0) (Vec.ofXY (6/4000000) 0)
  simp only [Vec.equalsWeakly_iff, Vec.ofXY_x, Vec.ofXY_y, EPSILON_real] at this
  norm_num [abs_lt] at this

/-! ## C18 -/

/-- **C18** fails: copying or shifting an invalid vector makes it valid. -/
theorem C18_refuted : ¬ ∀ v : Vec ℝ, v.copy.isValid = v.isValid := fun h =>
  Bool.noConfusion (h Vec.invalid)

theorem C18_refuted_ctor : ¬ ∀ v : Vec ℝ, (Vec.ofVec v).isValid = v.isValid := fun h =>
  Bool.noConfusion (h Vec.invalid)

theorem C18_refuted_arith : ¬ ∀ v w : Vec ℝ, (v.add w).isValid = (v.isValid && w.isValid) := fun h =>
  Bool.noConfusion (h Vec.invalid Vec.invalid)

/-- **C18** (partial): `set_vector` and all in-place operations keep the flag; copies and operators keep the
coordinates but are valid always. Missing: the flag of an invalid vector in copies and operators. -/
theorem C18_flag_partial (v w : Vec ℝ) (s : ℝ) :
    v.setVector w = w ∧ (v.iadd w).isValid = v.isValid ∧ (v.isub w).isValid = v.isValid ∧
    (v.imul s).isValid = v.isValid ∧ v.copy.pt = v.pt ∧ (Vec.ofVec v).pt = v.pt ∧
    v.copy.isValid = true ∧ (Vec.ofVec v).isValid = true ∧ (v.add w).isValid = true ∧ (v.sub w).isValid = true ∧
    (v.mul s).isValid = true ∧ (v.isValid = true → v.copy = v ∧ Vec.ofVec v = v) := by
  refine ⟨rfl, rfl, rfl, rfl, rfl, rfl, rfl, rfl, rfl, rfl, rfl, fun h => ?_⟩
  obtain ⟨x, y, b⟩ := v
  cases (show b = true from h)
  exact ⟨rfl, rfl⟩

/-! ## C19 -/

/-- A call of an in-place method of `Vector2D`. -/
inductive VecOp where
  | add (w : Vec ℝ) | addXY (x y : ℝ) | addX (x : ℝ) | addY (y : ℝ)
  | sub (w : Vec ℝ) | subXY (x y : ℝ) | subX (x : ℝ) | subY (y : ℝ)
  | iadd (w : Vec ℝ) | isub (w : Vec ℝ) | imul (s : ℝ) | scale (s : ℝ) | reverse

/-- Effect by the model. -/
noncomputable def VecOp.run (v : Vec ℝ) : VecOp → Vec ℝ
  | .add w => v.addIn w
  | .addXY x y => v.addXY x y
  | .addX x => v.addX x
  | .addY y => v.addY y
  | .sub w => v.subIn w
  | .subXY x y => v.subXY x y
  | .subX x => v.subX x
  | .subY y => v.subY y
  | .iadd w => v.iadd w
  | .isub w => v.isub w
  | .imul s => v.imul s
  | .scale s => v.scale s
  | .reverse => v.reverse

/-- The intended effect on the point. -/
noncomputable def VecOp.plain (p : Pt) : VecOp → Pt
  | .add w | .iadd w => p + w.pt
  | .sub w | .isub w => p - w.pt
  | .addXY x y => p + (x, y)
  | .addX x => p + (x, 0)
  | .addY y => p + (0, y)
  | .subXY x y => p - (x, y)
  | .subX x => p - (x, 0)
  | .subY y => p - (0, y)
  | .imul s | .scale s => s • p
  | .reverse => -p

/-- The pure operator that corresponds to an in-place operation. -/
noncomputable def VecOp.pure (v : Vec ℝ) : VecOp → Vec ℝ
  | .add w | .iadd w => v.add w
  | .sub w | .isub w => v.sub w
  | .addXY x y => v.add (Vec.ofXY x y)
  | .addX x => v.add (Vec.ofXY x 0)
  | .addY y => v.add (Vec.ofXY 0 y)
  | .subXY x y => v.sub (Vec.ofXY x y)
  | .subX x => v.sub (Vec.ofXY x 0)
  | .subY y => v.sub (Vec.ofXY 0 y)
  | .imul s | .scale s => v.mul s
  | .reverse => v.mul (-1)

theorem vecOp_run_pt (v : Vec ℝ) (op : VecOp) : (op.run v).pt = op.plain v.pt ∧ (op.run v).valid = v.valid := by
  cases op <;> refine ⟨?_, rfl⟩ <;> refine Prod.ext ?_ ?_ <;>
    simp [VecOp.run, VecOp.plain, Vec.addIn, Vec.addXY, Vec.addX, Vec.addY, Vec.subIn, Vec.subXY, Vec.subX, Vec.subY,
      Vec.iadd, Vec.isub, Vec.imul, Vec.scale, Vec.reverse, mul_comm]

theorem vecOp_pure_pt (v : Vec ℝ) (op : VecOp) : (op.pure v).pt = op.plain v.pt := by
  cases op <;> refine Prod.ext ?_ ?_ <;>
    simp [VecOp.pure, VecOp.plain, Vec.add, Vec.sub, Vec.mul, mul_comm]

/-- **C19.** -/
theorem C19_history (v : Vec ℝ) (ops : List VecOp) :
    (ops.foldl VecOp.run v).pt = ops.foldl VecOp.plain v.pt ∧
    (ops.foldl VecOp.run v).pt = (ops.foldl VecOp.pure v).pt ∧
    (ops.foldl VecOp.run v).isValid = v.isValid := by
  have h1 : ∀ (ops : List VecOp) (v : Vec ℝ), (ops.foldl VecOp.run v).pt = ops.foldl VecOp.plain v.pt ∧
      (ops.foldl VecOp.run v).isValid = v.isValid := by
    intro ops
    induction ops with
    | nil => intro v; exact ⟨rfl, rfl⟩
    | cons op ops ih =>
      intro v
      have := vecOp_run_pt v op
      simp only [List.foldl_cons]
      rw [← this.1]
      exact ⟨(ih _).1, (ih _).2.trans this.2⟩
  have h2 : ∀ (ops : List VecOp) (v : Vec ℝ), (ops.foldl VecOp.pure v).pt = ops.foldl VecOp.plain v.pt := by
    intro ops
    induction ops with
    | nil => intro v; rfl
    | cons op ops ih =>
      intro v
      simp only [List.foldl_cons]
      rw [← vecOp_pure_pt]; exact ih _
  exact ⟨(h1 ops v).1, (h1 ops v).1.trans (h2 ops v).symm, (h1 ops v).2⟩

example : ([VecOp.addX 2, .imul 3, .reverse].foldl VecOp.plain ((1 : ℝ), (1 : ℝ))) = (-9, -3) := by
  simp [VecOp.plain]; norm_num

end PyrusGeom
