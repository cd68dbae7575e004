import Verif.Props.FloatTriLine

/-! Two reported points of a rectangle or a triangle on a line are apart (C200, C201). -/

namespace PyrusGeom
open Spec

namespace Spec

/-- The two points differ by at least `e` in one of the coordinates. -/
def FarPts (e : ℝ) (p q : Vec (FP double)) : Prop := e ≤ |p.x.val - q.x.val| ∨ e ≤ |p.y.val - q.y.val|

end Spec

/-- A difference of less than half the tolerance is below the tolerance for the code. -/
theorem below_tolerance {a b : FP double} (h : |a.val - b.val| < (EPSILON : FP double).val / 2) : fabs (a - b) < (EPSILON : FP double) := by
  rw [FP.lt_def, fp_fabs_val, FP.sub_val]
  change |rne (a.val - b.val)| < (EPSILON : FP double).val
  have h1 := rne_error_plain (a.val - b.val)
  have h2 := abs_sub_abs_le_abs_sub (rne (a.val - b.val)) (a.val - b.val)
  have h3 : (1 : ℝ) / 1048576 ≤ (EPSILON : FP double).val := by
    have := fp_EPSILON_ge
    norm_num at this ⊢
    exact this
  have h4 := abs_nonneg (a.val - b.val)
  generalize (EPSILON : FP double).val = E at *
  generalize |rne (a.val - b.val)| = R at *
  generalize |a.val - b.val| = A at *
  linarith

theorem apart_of_not_near {p q : Vec (FP double)} (h : ¬ (fabs (p.x - q.x) < (EPSILON : FP double) ∧ fabs (p.y - q.y) < (EPSILON : FP double))) :
    FarPts ((EPSILON : FP double).val / 2) p q := by
  by_contra hn
  rw [FarPts, not_or, not_le, not_le] at hn
  exact h ⟨below_tolerance hn.1, below_tolerance hn.2⟩

/-- **C200** Two reported meetings of a rectangle and a line are apart: a corner is not reported twice. -/
theorem C200_apart (r : Rect (FP double)) (l : Line (FP double)) {p q : Vec (FP double)} (h : r.intersectionLine l = [p, q]) :
    FarPts ((EPSILON : FP double).val / 2) p q := by
  unfold Rect.intersectionLine at h
  simp only at h
  generalize Rect.interStep _ _ _ = acc at h
  unfold Rect.dropNear at h
  split at h
  · split at h
    · simp at h
    · rename_i hn
      simp only [List.cons.injEq, and_true] at h
      rw [← h.1, ← h.2]
      exact apart_of_not_near hn
  · rename_i hn
    exact absurd h (hn p q)

/-- No point is reported twice. -/
example (r : Rect (FP double)) (l : Line (FP double)) (p : Vec (FP double)) : r.intersectionLine l ≠ [p, p] := by
  intro h
  have h1 := C200_apart r l h
  have h2 := fp_EPSILON.1
  rw [FarPts, sub_self, sub_self, abs_zero, or_self] at h1
  linarith

theorem count_two {n : ℕ} {A B : Prop} [Decidable (n = 2 ∧ A ∧ B)] (h : (if n = 2 ∧ A ∧ B then 1 else n) = 2) : ¬ (A ∧ B) := by
  intro hx
  split at h
  · omega
  · rename_i hc
    exact hc ⟨h, hx⟩

/-- **C201** The same for a triangle. -/
theorem C201_apart (t : Tri (FP double)) (l : Line (FP double)) {r : Tri.InterRes (FP double)} (h : t.intersectionLine l = .ok r) (hn : r.n = 2) :
    FarPts ((EPSILON : FP double).val / 2) r.s0 r.s1 := by
  unfold Tri.intersectionLine at h
  simp only [bind, Except.bind, pure, Except.pure] at h
  split at h
  · cases h
  split at h
  · cases h
  split at h
  · cases h
  injection h with h
  subst h
  exact apart_of_not_near (count_two hn)

/-- A triangle never reports two meetings at one point. -/
example (t : Tri (FP double)) (l : Line (FP double)) (p : Vec (FP double)) : t.intersectionLine l ≠ .ok ⟨2, p, p⟩ := by
  intro h
  have h1 := C201_apart t l h rfl
  have h2 := fp_EPSILON.1
  rw [FarPts, sub_self, sub_self, abs_zero, or_self] at h1
  linarith

end PyrusGeom
