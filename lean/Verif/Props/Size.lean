import Verif.Props.Rect

/-! # Property C101: diagonal, validity and equality of `Size2D`, copies of `Rect2D` -/

namespace PyrusGeom
open Spec

/-- **C101**, the diagonal: of a size it is the distance of opposite corners of every rectangle with that size, whatever
the history of the rectangle. -/
theorem C101_diagonal (c : RectCtor) (ops : List RectOp) :
    (Rect.run c ops).size.diagonal = d (Rect.run c ops).getTopLeft.pt (Rect.run c ops).bottomRight.pt ∧
    (Rect.run c ops).size.diagonal = d (Rect.run c ops).topRight.pt (Rect.run c ops).bottomLeft.pt := by
  generalize Rect.run c ops = r
  obtain ⟨⟨x, y⟩, ⟨l, w⟩⟩ := r
  constructor <;>
  · simp only [Size.diagonal, d, len, Rect.getTopLeft, Rect.bottomRight, Rect.topRight, Rect.bottomLeft, Rect.right,
      Rect.bottom, Rect.left, Rect.top, Vec.ofVec, Vec.ofXY, Vec.pt]
    change √(l * l + w * w) = √_
    congr 1
    simp
    ring

/-- **C101**, validity: a size is valid exactly if it was given two nonzero numbers. -/
theorem C101_valid (l w : ℝ) : (Size.ofLW l w).isValid = true ↔ l ≠ 0 ∧ w ≠ 0 := by
  simp [Size.isValid]

/-- **C101**, validity of a rectangle: exactly if it has an interior point. -/
theorem C101_rect_valid (c : RectCtor) (ops : List RectOp) :
    (Rect.run c ops).isValid = true ↔ (interior (Rect.run c ops).pts).Nonempty := by
  generalize Rect.run c ops = r
  have h : r.pts = Set.Icc (r.left, r.top) (r.right, r.bottom) := by
    ext ⟨x, y⟩
    simp only [Rect.mem_pts, Set.mem_Icc, Prod.mk_le_mk]
    tauto
  rw [h, ← Set.Icc_prod_Icc, interior_prod_eq, interior_Icc, interior_Icc, Set.prod_nonempty_iff, Set.nonempty_Ioo,
    Set.nonempty_Ioo]
  simp [Rect.isValid, Size.isValid, Rect.right, Rect.bottom]

/-- **C101**, equality: sizes are equal exactly if both extents differ by less than `EPSILON = 1e-6`. -/
theorem C101_eq (l w l' w' : ℝ) : (Size.ofLW l w).eq (Size.ofLW l' w') = true ↔
    |(|l| - |l'|)| < 1 / 1000000 ∧ |(|w| - |w'|)| < 1 / 1000000 := by
  simp [Size.eq, fabs_real, EPSILON]

/-- **C101**, equality is reflexive and symmetric. -/
theorem C101_eq_refl_symm (s t : Size ℝ) : s.eq s = true ∧ s.eq t = t.eq s := by
  constructor
  · simp [Size.eq, fabs_real, EPSILON]
  · simp only [Size.eq, fabs_real]
    rw [abs_sub_comm s.length, abs_sub_comm s.width]

/-- **C101**, equality is not transitive. -/
theorem C101_not_transitive : ∃ a b c : Size ℝ, a.eq b = true ∧ b.eq c = true ∧ a.eq c = false := by
  refine ⟨Size.ofLW 0 0, Size.ofLW (3 / 5000000) 0, Size.ofLW (6 / 5000000) 0, ?_, ?_, ?_⟩
  · rw [C101_eq]; norm_num [abs_lt]
  · rw [C101_eq]; norm_num [abs_lt]
  · rw [Bool.eq_false_iff, ne_eq, C101_eq]; norm_num [abs_lt]

/-- **C101**, copying: `Rect2D(r)` and `r2.assign(r)` have the same corner and size as `r`, whatever the history. -/
theorem C101_copy (c : RectCtor) (ops : List RectOp) :
    (Rect.ofRect (Rect.run c ops)).topLeft.pt = (Rect.run c ops).topLeft.pt ∧
    (Rect.ofRect (Rect.run c ops)).size = (Rect.run c ops).size ∧
    (Rect.ofRect (Rect.run c ops)).pts = (Rect.run c ops).pts := by
  have h := (C54_sizes c ops 0 0 []).2
  generalize Rect.run c ops = r at *
  have hs : (Rect.ofRect r).size = r.size := by
    simp only [Rect.ofRect, Size.ofLW, fabs_real, abs_of_nonneg h.1, abs_of_nonneg h.2.1]
  refine ⟨rfl, hs, ?_⟩
  simp only [Rect.pts, Rect.right, Rect.bottom, Rect.left, Rect.top, hs]
  rfl

/-- The hypotheses are met: a rectangle with a 3-4-5 diagonal. -/
example : (Rect.run (.ltlw 1 1 (-3) 4) [.moveLeft 7]).size.diagonal = 5 ∧
    (Rect.run (.ltlw 1 1 (-3) 4) [.moveLeft 7]).isValid = true := by
  constructor
  · simp only [Rect.run, RectCtor.make, List.foldl, RectOp.apply, Rect.moveLeft, Rect.ofLTLW, Size.diagonal, Size.ofLW,
      fabs_real]
    change √_ = _
    rw [show |(-3:ℝ)| * |(-3)| + |4| * |4| = 5 ^ 2 by norm_num, Real.sqrt_sq (by norm_num)]
  · simp [Rect.run, RectCtor.make, List.foldl, RectOp.apply, Rect.moveLeft, Rect.ofLTLW, Rect.isValid, Size.isValid]

example : (Size.ofLW (1:ℝ) 2).eq (Size.ofLW (-1) 2) = true ∧ (Size.ofLW (1:ℝ) 2).eq (Size.ofLW 2 1) = false := by
  constructor
  · rw [C101_eq]; norm_num
  · rw [Bool.eq_false_iff, ne_eq, C101_eq]; norm_num [abs_lt]

end PyrusGeom
