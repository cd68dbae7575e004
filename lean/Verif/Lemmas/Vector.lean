import Verif.Spec
import Verif.Props.Angle
import Verif.Model.Vector

/-! # Lemmas about vectors at `ℝ` -/

namespace PyrusGeom
open Spec

/-- The point a `Vector2D` stands for. -/
def Vec.pt (v : Vec ℝ) : Pt := (v.x, v.y)

@[simp] theorem Vec.pt_fst (v : Vec ℝ) : v.pt.1 = v.x := rfl
@[simp] theorem Vec.pt_snd (v : Vec ℝ) : v.pt.2 = v.y := rfl
@[simp] theorem Vec.pt_ofXY (x y : ℝ) : (Vec.ofXY x y).pt = (x, y) := rfl
@[simp] theorem Vec.ofXY_x (x y : ℝ) : (Vec.ofXY x y).x = x := rfl
@[simp] theorem Vec.ofXY_y (x y : ℝ) : (Vec.ofXY x y).y = y := rfl
@[simp] theorem Vec.ofXY_valid (x y : ℝ) : (Vec.ofXY x y).valid = true := rfl
@[simp] theorem Vec.pt_ofVec (v : Vec ℝ) : (Vec.ofVec v).pt = v.pt := rfl
@[simp] theorem Vec.ofVec_x (v : Vec ℝ) : (Vec.ofVec v).x = v.x := rfl
@[simp] theorem Vec.ofVec_y (v : Vec ℝ) : (Vec.ofVec v).y = v.y := rfl
@[simp] theorem Vec.invalid_valid : (Vec.invalid : Vec ℝ).valid = false := rfl
@[simp] theorem Vec.sub_x (v w : Vec ℝ) : (v.sub w).x = v.x - w.x := rfl
@[simp] theorem Vec.sub_y (v w : Vec ℝ) : (v.sub w).y = v.y - w.y := rfl
@[simp] theorem Vec.pt_sub (v w : Vec ℝ) : (v.sub w).pt = v.pt - w.pt := rfl
@[simp] theorem Vec.pt_add (v w : Vec ℝ) : (v.add w).pt = v.pt + w.pt := rfl

theorem Vec.pt_eq_iff {v w : Vec ℝ} : v.pt = w.pt ↔ v.x = w.x ∧ v.y = w.y := by
  constructor
  · intro h; exact ⟨congrArg Prod.fst h, congrArg Prod.snd h⟩
  · rintro ⟨h1, h2⟩; exact Prod.ext h1 h2

theorem pair_eq_iff {x y : ℝ} {p : Pt} : ((x, y) : Pt) = p ↔ x = p.1 ∧ y = p.2 := by
  constructor
  · rintro rfl; exact ⟨rfl, rfl⟩
  · rintro ⟨h1, h2⟩; exact Prod.ext h1 h2

theorem Vec.r2_real (v : Vec ℝ) : v.r2 = v.x ^ 2 + v.y ^ 2 := by unfold Vec.r2; ring
theorem Vec.r_real (v : Vec ℝ) : v.r = len v.pt := by
  unfold Vec.r len; rw [Vec.r2_real]; rfl
theorem Vec.dist2_real (v w : Vec ℝ) : v.dist2 w = (v.x - w.x) ^ 2 + (v.y - w.y) ^ 2 := by
  unfold Vec.dist2; rw [sq_real, sq_real]
theorem Vec.dist_real (v w : Vec ℝ) : v.dist w = Spec.d v.pt w.pt := by
  unfold Vec.dist Spec.d; rw [Vec.dist2_real]; rfl

/-! ## Euclidean distance through complex numbers -/

/-- The point as a complex number. -/
def toC (p : Pt) : ℂ := ⟨p.1, p.2⟩

theorem len_eq_norm (p : Pt) : len p = ‖toC p‖ := by
  rw [Complex.norm_eq_sqrt_sq_add_sq]; rfl

theorem d_eq_dist (p q : Pt) : Spec.d p q = dist (toC p) (toC q) := by
  rw [dist_eq_norm, Complex.norm_eq_sqrt_sq_add_sq]; rfl

theorem toC_add (p q : Pt) : toC (p + q) = toC p + toC q := rfl
theorem toC_sub (p q : Pt) : toC (p - q) = toC p - toC q := rfl
theorem toC_smul (t : ℝ) (p : Pt) : toC (t • p) = t • toC p := by
  apply Complex.ext <;> simp [toC]
theorem toC_inj {p q : Pt} (h : toC p = toC q) : p = q :=
  Prod.ext (congrArg Complex.re h) (congrArg Complex.im h)

theorem Spec.d_nonneg (p q : Pt) : 0 ≤ Spec.d p q := Real.sqrt_nonneg _
theorem Spec.d_comm (p q : Pt) : Spec.d p q = Spec.d q p := by rw [d_eq_dist, d_eq_dist, dist_comm]
theorem Spec.d_triangle (p q r : Pt) : Spec.d p r ≤ Spec.d p q + Spec.d q r := by
  rw [d_eq_dist, d_eq_dist, d_eq_dist]; exact dist_triangle _ _ _
theorem Spec.d_eq_zero {p q : Pt} : Spec.d p q = 0 ↔ p = q := by
  rw [d_eq_dist, dist_eq_zero]; exact ⟨toC_inj, fun h => by rw [h]⟩
theorem Spec.d_sq (p q : Pt) : Spec.d p q ^ 2 = (p.1 - q.1) ^ 2 + (p.2 - q.2) ^ 2 :=
  Real.sq_sqrt (by positivity)
theorem Spec.len_sq (p : Pt) : len p ^ 2 = p.1 ^ 2 + p.2 ^ 2 := Real.sq_sqrt (by positivity)
theorem Spec.len_nonneg (p : Pt) : 0 ≤ len p := Real.sqrt_nonneg _
theorem Spec.len_eq_zero {p : Pt} : len p = 0 ↔ p = 0 := by
  rw [len_eq_norm, norm_eq_zero]
  constructor
  · intro h; exact Prod.ext (congrArg Complex.re h) (congrArg Complex.im h)
  · rintro rfl; rfl
theorem Spec.d_eq_len (p q : Pt) : Spec.d p q = len (p - q) := rfl
theorem Spec.len_smul (t : ℝ) (p : Pt) : len (t • p) = |t| * len p := by
  rw [len_eq_norm, len_eq_norm, toC_smul, norm_smul, Real.norm_eq_abs]
theorem Spec.d_le_d {p q p' q' : Pt} (h : (p.1 - q.1) ^ 2 + (p.2 - q.2) ^ 2 ≤ (p'.1 - q'.1) ^ 2 + (p'.2 - q'.2) ^ 2) :
    Spec.d p q ≤ Spec.d p' q' := Real.sqrt_le_sqrt h
theorem Spec.d_lt_d {p q p' q' : Pt} (h : (p.1 - q.1) ^ 2 + (p.2 - q.2) ^ 2 < (p'.1 - q'.1) ^ 2 + (p'.2 - q'.2) ^ 2) :
    Spec.d p q < Spec.d p' q' := Real.sqrt_lt_sqrt (by positivity) h
theorem Spec.d_le_d_iff {p q p' q' : Pt} :
    Spec.d p q ≤ Spec.d p' q' ↔ (p.1 - q.1) ^ 2 + (p.2 - q.2) ^ 2 ≤ (p'.1 - q'.1) ^ 2 + (p'.2 - q'.2) ^ 2 := by
  constructor
  · intro h
    have := pow_le_pow_left₀ (Spec.d_nonneg p q) h 2
    rwa [Spec.d_sq, Spec.d_sq] at this
  · exact Spec.d_le_d
theorem Spec.d_eq_of_sq {p q : Pt} {m : ℝ} (hm : 0 ≤ m) (h : (p.1 - q.1) ^ 2 + (p.2 - q.2) ^ 2 = m ^ 2) :
    Spec.d p q = m := by
  unfold Spec.d; rw [h, Real.sqrt_sq hm]
theorem Spec.d_eq_d_iff {p q p' q' : Pt} :
    Spec.d p q = Spec.d p' q' ↔ (p.1 - q.1) ^ 2 + (p.2 - q.2) ^ 2 = (p'.1 - q'.1) ^ 2 + (p'.2 - q'.2) ^ 2 := by
  rw [le_antisymm_iff, le_antisymm_iff, Spec.d_le_d_iff, Spec.d_le_d_iff]

/-! ## Directions -/

theorem unit_len (a : ℝ) : len (unit a) = 1 := by
  unfold len unit
  rw [show Real.cos (a * (Real.pi / 180)) ^ 2 + Real.sin (a * (Real.pi / 180)) ^ 2 = 1 from
    Real.cos_sq_add_sin_sq _, Real.sqrt_one]

theorem unit_sq (a : ℝ) : (unit a).1 ^ 2 + (unit a).2 ^ 2 = 1 := Real.cos_sq_add_sin_sq _

theorem unit_congr {a b : ℝ} (h : AngleEq a b) : unit a = unit b :=
  Prod.ext (cos_deg_congr h) (sin_deg_congr h)

theorem unit_inj {a b : ℝ} (h : unit a = unit b) : AngleEq a b := by
  have h1 : Real.cos (a * (Real.pi / 180)) = Real.cos (b * (Real.pi / 180)) := congrArg Prod.fst h
  have h2 : Real.sin (a * (Real.pi / 180)) = Real.sin (b * (Real.pi / 180)) := congrArg Prod.snd h
  have h3 := Real.Angle.cos_sin_inj h1 h2
  rw [Real.Angle.angle_eq_iff_two_pi_dvd_sub] at h3
  obtain ⟨k, hk⟩ := h3
  refine ⟨k, ?_⟩
  have hp := Real.pi_pos
  have : (a - b) * Real.pi = (360 * k) * Real.pi := by linarith
  exact mul_right_cancel₀ hp.ne' this

theorem smul_unit_inj {ρ σ a b : ℝ} (hρ : 0 < ρ) (hσ : 0 ≤ σ) (h : ρ • unit a = σ • unit b) :
    ρ = σ ∧ AngleEq a b := by
  have hl := congrArg len h
  rw [len_smul, len_smul, unit_len, unit_len, mul_one, mul_one, abs_of_pos hρ, abs_of_nonneg hσ] at hl
  refine ⟨hl, unit_inj ?_⟩
  rw [← hl] at h
  exact smul_right_injective _ hρ.ne' h

theorem unit_add_180 (a : ℝ) : unit (a + 180) = -unit a := by
  have : (a + 180) * (Real.pi / 180) = a * (Real.pi / 180) + Real.pi := by ring
  unfold unit
  rw [this, Real.cos_add_pi, Real.sin_add_pi]; rfl

/-- Both coordinates are below EPSILON in absolute value, so that `th()` is 0. -/
def Vec.Tiny (v : Vec ℝ) : Prop := |v.x| < EPSILON ∧ |v.y| < EPSILON

theorem Vec.th_deg (v : Vec ℝ) : v.th.deg = AngleDeg.atan2Deg v.y v.x := by
  have := (C07_atan2 v.y v.x).1
  exact AngleDeg.ofNum_of_mem this.1.le this.2

theorem Vec.th_range (v : Vec ℝ) : -180 < v.th.deg ∧ v.th.deg ≤ 180 := by
  rw [Vec.th_deg]; exact (C07_atan2 v.y v.x).1

theorem Vec.th_normal (v : Vec ℝ) : AngleDeg.Normal v.th := ⟨v.th_range.1.le, v.th_range.2⟩

theorem Vec.th_tiny {v : Vec ℝ} (h : v.Tiny) : v.th.deg = 0 := by
  rw [Vec.th_deg, atan2Deg_real]; exact if_pos h

theorem Vec.th_polar {v : Vec ℝ} (h : ¬ v.Tiny) : v.pt = len v.pt • unit v.th.deg := by
  rw [Vec.th_deg]; exact (C07_atan2 v.y v.x).2 h

theorem Vec.len_pos_of_not_tiny {v : Vec ℝ} (h : ¬ v.Tiny) : 0 < len v.pt := by
  rcases (len_nonneg v.pt).lt_or_eq with h1 | h1
  · exact h1
  · exfalso
    have := len_eq_zero.mp h1.symm
    apply h
    have e := Vec.pt_eq_iff (w := ⟨0, 0, true⟩).mp this
    constructor
    · rw [e.1]; simpa using EPSILON_pos
    · rw [e.2]; simpa using EPSILON_pos

theorem cosA_real (a : AngleDeg ℝ) : a.cos = (unit a.deg).1 := cos_real a
theorem sinA_real (a : AngleDeg ℝ) : a.sin = (unit a.deg).2 := sin_real a

end PyrusGeom
