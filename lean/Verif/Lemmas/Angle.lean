import Verif.Model.Angle
import Verif.Spec

/-! # Helper lemmas about `AngleDeg` at `ℝ` -/

namespace PyrusGeom
open Spec

namespace Spec

theorem AngleEq.refl (a : ℝ) : AngleEq a a := ⟨0, by simp⟩
theorem AngleEq.symm {a b : ℝ} (h : AngleEq a b) : AngleEq b a := by
  obtain ⟨k, hk⟩ := h; exact ⟨-k, by push_cast; linarith⟩
theorem AngleEq.trans {a b c : ℝ} (h : AngleEq a b) (h' : AngleEq b c) : AngleEq a c := by
  obtain ⟨k, hk⟩ := h; obtain ⟨l, hl⟩ := h'; exact ⟨k + l, by push_cast; linarith⟩
theorem AngleEq.add {a b c d : ℝ} (h : AngleEq a b) (h' : AngleEq c d) : AngleEq (a + c) (b + d) := by
  obtain ⟨k, hk⟩ := h; obtain ⟨l, hl⟩ := h'; exact ⟨k + l, by push_cast; linarith⟩
theorem AngleEq.sub {a b c d : ℝ} (h : AngleEq a b) (h' : AngleEq c d) : AngleEq (a - c) (b - d) := by
  obtain ⟨k, hk⟩ := h; obtain ⟨l, hl⟩ := h'; exact ⟨k - l, by push_cast; linarith⟩
theorem AngleEq.neg {a b : ℝ} (h : AngleEq a b) : AngleEq (-a) (-b) := by
  obtain ⟨k, hk⟩ := h; exact ⟨-k, by push_cast; linarith⟩
theorem AngleEq.mul_int {a b : ℝ} (h : AngleEq a b) (n : ℤ) : AngleEq (a * n) (b * n) := by
  obtain ⟨k, hk⟩ := h
  refine ⟨k * n, ?_⟩
  push_cast
  have : a * n - b * n = (a - b) * n := by ring
  rw [this, hk]; ring

/-- An integer strictly between -1 and 1 is 0 etc.: used to bound the multiple of 360. -/
theorem int_bounds {k : ℤ} {lo hi : ℤ} (h1 : (lo : ℝ) < k) (h2 : (k : ℝ) < hi) : lo < k ∧ k < hi :=
  ⟨by exact_mod_cast h1, by exact_mod_cast h2⟩

theorem AngleEq.eq_of_abs_lt {a b : ℝ} (h : AngleEq a b) (h1 : -360 < a - b) (h2 : a - b < 360) : a = b := by
  obtain ⟨k, hk⟩ := h
  have := int_bounds (lo := -1) (hi := 1) (k := k) (by push_cast; linarith) (by push_cast; linarith)
  have : k = 0 := by omega
  subst this; simp at hk; linarith

theorem CwTurn.unique {a b s t : ℝ} (h : CwTurn a b s) (h' : CwTurn a b t) : s = t := by
  obtain ⟨h1, h2, h3⟩ := h
  obtain ⟨g1, g2, g3⟩ := h'
  have := (h3.trans g3.symm).eq_of_abs_lt (by linarith) (by linarith)
  linarith

theorem CwTurn.congr {a b a' b' t : ℝ} (h : CwTurn a b t) (ha : AngleEq a a') (hb : AngleEq b b') :
    CwTurn a' b' t :=
  ⟨h.1, h.2.1, ((ha.symm.add (AngleEq.refl t)).trans h.2.2).trans hb⟩

theorem CwTurn.exists (a b : ℝ) : ∃ t, CwTurn a b t := by
  have h1 := Int.floor_le ((b - a) / 360)
  have h2 := Int.lt_floor_add_one ((b - a) / 360)
  refine ⟨b - a - 360 * ⌊(b - a) / 360⌋, ?_, ?_, ⟨-⌊(b - a) / 360⌋, by push_cast; ring⟩⟩
  · have : (⌊(b - a) / 360⌋ : ℝ) * 360 ≤ b - a := by rwa [le_div_iff₀ (by norm_num)] at h1
    linarith
  · have : b - a < (⌊(b - a) / 360⌋ + 1 : ℝ) * 360 := by rwa [div_lt_iff₀ (by norm_num)] at h2
    linarith

/-- For representatives in (-180, 180] (or any half-open window of length 360) the clockwise turn is explicit. -/
theorem cwTurn_of_window {a b t : ℝ} (h1 : -360 < b - a) (h2 : b - a < 360) :
    CwTurn a b t ↔ t = if 0 ≤ b - a then b - a else b - a + 360 := by
  have key : CwTurn a b (if 0 ≤ b - a then b - a else b - a + 360) := by
    split
    · exact ⟨by linarith, by linarith, ⟨0, by simp⟩⟩
    · rename_i h
      exact ⟨by linarith, by linarith, ⟨1, by push_cast; ring⟩⟩
  exact ⟨fun h => h.unique key, fun h => h ▸ key⟩

end Spec

namespace AngleDeg

/-- The invariant of `AngleDeg` objects. -/
def Normal (a : AngleDeg ℝ) : Prop := -180 ≤ a.deg ∧ a.deg ≤ 180

theorem rtrunc_sub_lt (x : ℝ) : |x - rtrunc x| < 1 := by
  unfold rtrunc
  split
  · have := Int.floor_le x; have := Int.lt_floor_add_one x
    rw [abs_lt]; constructor <;> linarith
  · have := Int.le_ceil x; have := Int.ceil_lt_add_one x
    rw [abs_lt]; constructor <;> linarith

theorem fmod_real (x : ℝ) : PyMath.fmod x (360 : ℝ) = x - 360 * (rtrunc (x / 360) : ℝ) := rfl
theorem pmod_real (x : ℝ) : PyMath.pmod x (360 : ℝ) = x - 360 * (⌊x / 360⌋ : ℝ) := rfl

theorem fmod_bounds (x : ℝ) : -360 < PyMath.fmod x (360 : ℝ) ∧ PyMath.fmod x (360 : ℝ) < 360 := by
  have h := rtrunc_sub_lt (x / 360)
  rw [abs_lt] at h
  rw [fmod_real]
  constructor <;> linarith [h.1, h.2]

theorem pmod_bounds (x : ℝ) : 0 ≤ PyMath.pmod x (360 : ℝ) ∧ PyMath.pmod x (360 : ℝ) < 360 := by
  have h1 := Int.floor_le (x / 360); have h2 := Int.lt_floor_add_one (x / 360)
  rw [pmod_real]
  constructor <;> linarith

theorem fmod_angleEq (x : ℝ) : AngleEq (PyMath.fmod x (360 : ℝ)) x :=
  ⟨-rtrunc (x / 360), by rw [fmod_real]; push_cast; ring⟩

theorem pmod_angleEq (x : ℝ) : AngleEq (PyMath.pmod x (360 : ℝ)) x :=
  ⟨-⌊x / 360⌋, by rw [pmod_real]; push_cast; ring⟩

/-- The two additive steps of `normal`, on values already reduced to [-360, 360]. -/
theorem wrap_spec (d : ℝ) (h1 : -360 ≤ d) (h2 : d ≤ 360) :
    let e := if d < -180 then d + 360 else d
    let f := if 180 < e then e - 360 else e
    (-180 ≤ f ∧ f ≤ 180) ∧ AngleEq f d ∧ (-180 ≤ d → d ≤ 180 → f = d) := by
  intro e f
  simp only [e, f]
  split_ifs
  · exact ⟨⟨by linarith, by linarith⟩, ⟨0, by simp⟩, fun _ _ => by linarith⟩
  · exact ⟨⟨by linarith, by linarith⟩, ⟨1, by simp⟩, fun _ _ => by linarith⟩
  · exact ⟨⟨by linarith, by linarith⟩, ⟨-1, by simp⟩, fun _ _ => by linarith⟩
  · exact ⟨⟨by linarith, by linarith⟩, ⟨0, by simp⟩, fun _ _ => rfl⟩

theorem normalDeg_real (d : ℝ) : normalDeg d =
    (let d := if d < -360 ∨ 360 < d then PyMath.fmod d 360 else d
     let d := if d < -180 then d + 360 else d
     if 180 < d then d - 360 else d) := by
  simp only [normalDeg, Nat.cast_ofNat]

theorem normalizeAngle_real (d : ℝ) : normalizeAngle d =
    (let d := if d < -360 ∨ 360 < d then PyMath.pmod d 360 else d
     let d := if d < -180 then d + 360 else d
     if 180 < d then d - 360 else d) := by
  simp only [normalizeAngle, Nat.cast_ofNat]

theorem normalDeg_spec (d : ℝ) :
    (-180 ≤ normalDeg d ∧ normalDeg d ≤ 180) ∧ AngleEq (normalDeg d) d ∧ (-180 ≤ d → d ≤ 180 → normalDeg d = d) := by
  rw [normalDeg_real]
  by_cases h : d < -360 ∨ 360 < d
  · have hb := fmod_bounds d
    have := wrap_spec (PyMath.fmod d 360) hb.1.le hb.2.le
    simp only [if_pos h]
    refine ⟨this.1, this.2.1.trans (fmod_angleEq d), fun g1 g2 => ?_⟩
    rcases h with h | h <;> linarith
  · have hh := h
    rw [not_or, not_lt, not_lt] at h
    have := wrap_spec d h.1 h.2
    simp only [if_neg hh]
    exact this

theorem normalizeAngle_spec (d : ℝ) :
    (-180 ≤ normalizeAngle d ∧ normalizeAngle d ≤ 180) ∧ AngleEq (normalizeAngle d) d ∧
      (-180 ≤ d → d ≤ 180 → normalizeAngle d = d) := by
  rw [normalizeAngle_real]
  by_cases h : d < -360 ∨ 360 < d
  · have hb := pmod_bounds d
    have := wrap_spec (PyMath.pmod d 360) (by linarith) hb.2.le
    simp only [if_pos h]
    refine ⟨this.1, this.2.1.trans (pmod_angleEq d), fun g1 g2 => ?_⟩
    rcases h with h | h <;> linarith
  · have hh := h
    rw [not_or, not_lt, not_lt] at h
    have := wrap_spec d h.1 h.2
    simp only [if_neg hh]
    exact this

theorem ofNum_normal (d : ℝ) : Normal (ofNum d) := (normalDeg_spec d).1
theorem ofNum_angleEq (d : ℝ) : AngleEq (ofNum d).deg d := (normalDeg_spec d).2.1
theorem ofNum_of_mem {d : ℝ} (h1 : -180 ≤ d) (h2 : d ≤ 180) : (ofNum d).deg = d := (normalDeg_spec d).2.2 h1 h2
theorem normalDeg_of_mem {d : ℝ} (h1 : -180 ≤ d) (h2 : d ≤ 180) : normalDeg d = d := (normalDeg_spec d).2.2 h1 h2

theorem degree_of_normal {a : AngleDeg ℝ} (h : Normal a) : a.degree = a.deg := ofNum_of_mem h.1 h.2
theorem degree_mem (a : AngleDeg ℝ) : -180 ≤ a.degree ∧ a.degree ≤ 180 := ofNum_normal _
theorem degree_angleEq (a : AngleDeg ℝ) : AngleEq a.degree a.deg := ofNum_angleEq _
theorem degree_ofNum (d : ℝ) : (ofNum d).degree = (ofNum d).deg := degree_of_normal (ofNum_normal d)
theorem ofAngle_deg (a : AngleDeg ℝ) : (ofAngle a).deg = a.degree := by
  obtain ⟨h1, h2⟩ := degree_mem a
  exact ofNum_of_mem h1 h2
theorem ofAngle_of_normal {a : AngleDeg ℝ} (h : Normal a) : ofAngle a = a := by
  ext; rw [ofAngle_deg, degree_of_normal h]

theorem ofNum_congr {a b : ℝ} (h : AngleEq a b) : AngleEq (ofNum a).deg (ofNum b).deg :=
  ((ofNum_angleEq a).trans h).trans (ofNum_angleEq b).symm

end AngleDeg

end PyrusGeom
