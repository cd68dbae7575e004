import Verif.Props.Angle
import Verif.Props.Segment
import Verif.Model.SoccerMath

/-!
# Inclusive side tests, absolute angle, scaling and small segment queries (C154, C155)
-/

open PyrusGeom PyrusGeom.Spec

namespace PyrusGeom

namespace AngleDeg

/-! ## C154 -/

/-- `b` is reached from `a` by a clockwise turn of at least 0 and less than 180 degrees. -/
def LeftOrEqual (a b : ℝ) : Prop := ∃ t, 0 ≤ t ∧ t < 180 ∧ AngleEq (a + t) b

theorem isRightEqualOf_iff (a b : AngleDeg ℝ) : a.isRightEqualOf b = true ↔
    (0 ≤ a.degree - b.degree ∧ a.degree - b.degree < 180) ∨ a.degree - b.degree < -180 := by
  simp [isRightEqualOf]

theorem leftOrEqual_iff {a b : ℝ} (a1 : -180 ≤ a) (a2 : a ≤ 180) (b1 : -180 ≤ b) (b2 : b ≤ 180)
    (h : ¬ (a = -180 ∧ b = 180)) :
    ((0 ≤ b - a ∧ b - a < 180) ∨ b - a < -180) ↔ LeftOrEqual a b := by
  constructor
  · rintro (⟨h1, h2⟩ | h1)
    · exact ⟨_, h1, h2, 0, by simp⟩
    · exact ⟨b - a + 360, by linarith, by linarith, 1, by push_cast; ring⟩
  · rintro ⟨t, h1, h2, k, hk⟩
    have := int_bounds (k := k) (lo := -2) (hi := 2) (by push_cast; linarith) (by push_cast; linarith)
    obtain rfl | rfl | rfl : k = -1 ∨ k = 0 ∨ k = 1 := by omega
    · push_cast at hk
      exact absurd ⟨by linarith, by linarith⟩ h
    · left; push_cast at hk; constructor <;> linarith
    · right; push_cast at hk; linarith

/-- **C154** `is_left_equal_of` (partial: excludes exactly self -180 and argument 180, the same direction). -/
theorem C154_left_partial (a b : AngleDeg ℝ) (ha : Normal a) (h : ¬ (a.deg = -180 ∧ b.degree = 180)) :
    a.isLeftEqualOf b = true ↔ LeftOrEqual a.deg b.degree := by
  rw [isLeftEqualOf_iff]
  obtain ⟨b1, b2⟩ := degree_mem b
  exact leftOrEqual_iff ha.1 ha.2 b1 b2 h

/-- **C154** `is_right_equal_of` (partial: excludes exactly self 180 and argument -180). -/
theorem C154_right_partial (a b : AngleDeg ℝ) (h : ¬ (b.degree = -180 ∧ a.degree = 180)) :
    a.isRightEqualOf b = true ↔ LeftOrEqual b.degree a.degree := by
  rw [isRightEqualOf_iff]
  obtain ⟨a1, a2⟩ := degree_mem a
  obtain ⟨b1, b2⟩ := degree_mem b
  exact leftOrEqual_iff b1 b2 a1 a2 h

/-- **C154** The excluded pairs always answer `False`, although the directions are equal. -/
theorem C154_guard_exact (a b : AngleDeg ℝ) (ha : a.deg = -180) (hb : b.degree = 180) :
    a.isLeftEqualOf b = false ∧ b.isRightEqualOf a = false ∧ LeftOrEqual a.deg b.degree := by
  have hn : Normal a := ⟨by rw [ha], by rw [ha]; norm_num⟩
  refine ⟨?_, ?_, 0, le_rfl, by norm_num, -1, by rw [ha, hb]; push_cast; norm_num⟩
  · rw [← Bool.not_eq_true, isLeftEqualOf_iff, ha, hb]; norm_num
  · rw [← Bool.not_eq_true, isRightEqualOf_iff, degree_of_normal hn, ha, hb]; norm_num

/-- **C154** fails: an angle of -180 degrees is not left of or equal to an angle of 180 degrees. -/
theorem C154_refuted : ¬ ∀ a b : AngleDeg ℝ, Normal a → Normal b →
    (a.isLeftEqualOf b = true ↔ LeftOrEqual a.deg b.degree) := by
  intro h
  have hn : Normal (⟨180⟩ : AngleDeg ℝ) := ⟨by norm_num, by norm_num⟩
  have hm : Normal (⟨-180⟩ : AngleDeg ℝ) := ⟨by norm_num, by norm_num⟩
  obtain ⟨h1, _, h2⟩ := C154_guard_exact ⟨-180⟩ ⟨180⟩ rfl (degree_of_normal hn)
  rw [(h _ _ hm hn).mpr h2] at h1
  simp at h1

/-- **C154** The two tests are converses; each is the strict test or equal degrees; for equal or for not opposite angles
one of the two holds. -/
theorem C154_relations (a b : AngleDeg ℝ) (ha : Normal a) (hb : Normal b) :
    (a.isRightEqualOf b = b.isLeftEqualOf a) ∧
    (a.isLeftEqualOf b = true ↔ a.isLeftOf b = true ∨ a.deg = b.deg) ∧
    (a.isRightEqualOf b = true ↔ a.isRightOf b = true ∨ a.deg = b.deg) ∧
    ((a.isLeftEqualOf b = true ∨ a.isRightEqualOf b = true) ↔ ¬ AngleEq (a.deg + 180) b.deg) := by
  obtain ⟨a1, a2⟩ := ha
  obtain ⟨b1, b2⟩ := hb
  have ea := degree_of_normal (a := a) ⟨a1, a2⟩
  have eb := degree_of_normal (a := b) ⟨b1, b2⟩
  have e1 := isLeftEqualOf_iff a b
  have e2 := isRightEqualOf_iff a b
  have e3 := isLeftOf_iff a b
  have e4 := isRightOf_iff a b
  have e5 := isLeftEqualOf_iff b a
  rw [ea, eb] at *
  refine ⟨?_, ?_, ?_, ?_⟩
  · rw [Bool.eq_iff_iff, e2, e5]
  · rw [e1, e3]
    constructor
    · rintro (⟨h1, h2⟩ | h1)
      · rcases h1.lt_or_eq with h3 | h3
        · exact Or.inl (Or.inl ⟨h3, h2⟩)
        · right; linarith
      · exact Or.inl (Or.inr h1)
    · rintro ((⟨h1, h2⟩ | h1) | h1)
      · exact Or.inl ⟨h1.le, h2⟩
      · exact Or.inr h1
      · left; constructor <;> linarith
  · rw [e2, e4]
    constructor
    · rintro (⟨h1, h2⟩ | h1)
      · rcases h1.lt_or_eq with h3 | h3
        · exact Or.inl (Or.inl ⟨h3, h2⟩)
        · right; linarith
      · exact Or.inl (Or.inr h1)
    · rintro ((⟨h1, h2⟩ | h1) | h1)
      · exact Or.inl ⟨h1.le, h2⟩
      · exact Or.inr h1
      · left; constructor <;> linarith
  · rw [e1, e2]
    constructor
    · rintro h ⟨k, hk⟩
      have := int_bounds (k := k) (lo := -1) (hi := 2) (by push_cast; linarith) (by push_cast; linarith)
      obtain rfl | rfl : k = 0 ∨ k = 1 := by omega
      · push_cast at hk
        rcases h with (⟨h1, h2⟩ | h1) | (⟨h1, h2⟩ | h1) <;> linarith
      · push_cast at hk
        rcases h with (⟨h1, h2⟩ | h1) | (⟨h1, h2⟩ | h1) <;> linarith
    · intro h
      by_contra hc
      rw [not_or, not_or, not_or, not_and, not_and, not_lt, not_lt, not_lt, not_lt] at hc
      obtain ⟨⟨h1, h2⟩, h3, h4⟩ := hc
      rcases le_total 0 (b.deg - a.deg) with h5 | h5
      · have := h1 h5
        exact h ⟨0, by push_cast; linarith⟩
      · have := h3 (by linarith)
        exact h ⟨1, by push_cast; linarith⟩

/-- Non-vacuity of C154: 30 is left of or equal to itself and to 100, not to -100. -/
example : (⟨30⟩ : AngleDeg ℝ).isLeftEqualOf ⟨30⟩ = true ∧ (⟨30⟩ : AngleDeg ℝ).isLeftEqualOf ⟨100⟩ = true ∧
    (⟨30⟩ : AngleDeg ℝ).isLeftEqualOf ⟨-100⟩ = false := by
  have n1 : Normal (⟨30⟩ : AngleDeg ℝ) := ⟨by norm_num, by norm_num⟩
  have n2 : Normal (⟨100⟩ : AngleDeg ℝ) := ⟨by norm_num, by norm_num⟩
  have n3 : Normal (⟨-100⟩ : AngleDeg ℝ) := ⟨by norm_num, by norm_num⟩
  refine ⟨?_, ?_, ?_⟩
  · rw [isLeftEqualOf_iff, degree_of_normal n1]; norm_num
  · rw [isLeftEqualOf_iff, degree_of_normal n2]; norm_num
  · rw [← Bool.not_eq_true, isLeftEqualOf_iff, degree_of_normal n3]; norm_num

/-! ## C155 -/

/-- **C155** `abs()` is the size of the least turn which leads from direction 0 to the angle, in either sense. -/
theorem C155_abs (a : AngleDeg ℝ) : (∃ t, |t| = a.abs ∧ AngleEq t a.deg) ∧ (∀ t, AngleEq t a.deg → a.abs ≤ |t|) ∧
    0 ≤ a.abs ∧ a.abs ≤ 180 := by
  have e : a.abs = |a.degree| := fabs_real _
  obtain ⟨a1, a2⟩ := degree_mem a
  have hc : AngleEq a.degree a.deg := (normalDeg_spec a.deg).2.1
  refine ⟨⟨a.degree, e.symm, hc⟩, ?_, by rw [e]; exact abs_nonneg _, by rw [e]; exact abs_le.mpr ⟨a1, a2⟩⟩
  rintro t ⟨k, hk⟩
  obtain ⟨m, hm⟩ := hc
  rw [e]
  have hd : t - a.degree = 360 * ((k - m : ℤ) : ℝ) := by push_cast; linarith
  rcases lt_trichotomy (k - m) 0 with h0 | h0 | h0
  · have : ((k - m : ℤ) : ℝ) ≤ -1 := by exact_mod_cast (by omega : k - m ≤ -1)
    have : |a.degree| ≤ 180 := abs_le.mpr ⟨a1, a2⟩
    have : t ≤ -180 := by linarith
    rw [abs_of_neg (by linarith : t < 0)]; linarith
  · rw [h0] at hd; simp at hd
    rw [show t = a.degree by linarith]
  · have : (1 : ℝ) ≤ ((k - m : ℤ) : ℝ) := by exact_mod_cast (by omega : 1 ≤ k - m)
    have : |a.degree| ≤ 180 := abs_le.mpr ⟨a1, a2⟩
    have : 180 ≤ t := by linarith
    rw [abs_of_pos (by linarith : 0 < t)]; linarith

/-- **C155** `AngleDeg()` is the angle 0. -/
theorem C155_default : (AngleDeg.default : AngleDeg ℝ) = ⟨0⟩ := by
  have := C02_exact 0 (by norm_num) (by norm_num)
  simp only [AngleDeg.default, Nat.cast_zero, num_real]
  ext
  show normalDeg (0 : ℝ) = 0
  norm_num [normalDeg]

example : (⟨-170⟩ : AngleDeg ℝ).abs = 170 := by
  have n1 : Normal (⟨-170⟩ : AngleDeg ℝ) := ⟨by norm_num, by norm_num⟩
  simp only [AngleDeg.abs, fabs_real, degree_of_normal n1]; norm_num

end AngleDeg

/-- **C155** Division of a vector by a number: both coordinates are divided, dividing by 0 raises, and multiplying back
gives the vector. -/
theorem C155_truediv (v : Vec ℝ) (s : ℝ) :
    (s = 0 → v.truediv s = .error .zeroDivision) ∧
    (s ≠ 0 → ∃ w, v.truediv s = .ok w ∧ w.pt = (v.x / s, v.y / s) ∧ w.valid = true ∧ (w.mul s).pt = v.pt) := by
  constructor
  · intro hs
    simp [Vec.truediv, pyDiv_real, hs, bind, Except.bind]
  · intro hs
    refine ⟨Vec.ofXY (v.x / s) (v.y / s), by simp [Vec.truediv, pyDiv_real, hs, bind, Except.bind, pure, Except.pure], rfl,
      rfl, ?_⟩
    refine Prod.ext ?_ ?_ <;> simp [Vec.mul, Vec.ofXY, hs]

/-- **C155** `Segment2D.is_valid`: the end points differ by at least the tolerance in some coordinate. -/
theorem C155_segment_valid (s : Seg ℝ) : s.isValid = true ↔
    EPSILON ≤ |s.origin.x - s.terminal.x| ∨ EPSILON ≤ |s.origin.y - s.terminal.y| := by
  simp [Seg.isValid, Vec.equalsWeakly, fabs_real, not_lt, imp_iff_not_or]

/-- **C155** `Segment2D.direction` and `length`: walking the length in the direction leads from the origin to the terminal,
for every valid segment; a segment that is not valid has direction 0. -/
theorem C155_segment_direction (s : Seg ℝ) :
    (s.isValid = true → s.terminal.pt = s.origin.pt + s.length • unit s.direction.degree) ∧
    (s.isValid = false → s.direction = ⟨0⟩) := by
  have hx : (s.terminal.sub s.origin).x = s.terminal.x - s.origin.x := rfl
  have hy : (s.terminal.sub s.origin).y = s.terminal.y - s.origin.y := rfl
  constructor
  · intro hv
    rw [C155_segment_valid, abs_sub_comm s.origin.x, abs_sub_comm s.origin.y] at hv
    have ht : ¬ (s.terminal.sub s.origin).Tiny := by
      rintro ⟨h1, h2⟩
      rw [hx] at h1; rw [hy] at h2
      rcases hv with h | h <;> linarith
    have e := Vec.th_polar ht
    have el : s.length = len (s.terminal.sub s.origin).pt := by
      simp [Seg.length, Vec.dist_real, Spec.d, len, Vec.sub, Vec.pt, Vec.ofXY]
      congr 1; ring
    rw [unit_congr (AngleDeg.degree_angleEq s.direction), el, Seg.direction, ← e]
    refine Prod.ext ?_ ?_ <;> simp [Vec.sub, Vec.ofXY]
  · intro hv
    have hv' : ¬ s.isValid = true := by rw [hv]; simp
    rw [C155_segment_valid, abs_sub_comm s.origin.x, abs_sub_comm s.origin.y] at hv'
    push Not at hv'
    have e : AngleDeg.atan2Deg (s.terminal.y - s.origin.y) (s.terminal.x - s.origin.x) = 0 := by
      rw [atan2Deg_real, if_pos ⟨hv'.1, hv'.2⟩]
    show AngleDeg.ofNum (AngleDeg.atan2Deg (s.terminal.y - s.origin.y) (s.terminal.x - s.origin.x)) = ⟨0⟩
    rw [e, ← AngleDeg.C155_default]
    simp [AngleDeg.default]

example : (Seg.ofPoints (Vec.ofXY (0:ℝ) 0) (Vec.ofXY 3 4)).isValid = true := by
  rw [C155_segment_valid]
  left
  rw [EPSILON_real]
  norm_num [Seg.ofPoints, Vec.ofXY, Vec.ofVec]

end PyrusGeom
