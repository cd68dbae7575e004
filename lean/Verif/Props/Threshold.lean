import Verif.Model.Wrappers
import Verif.Props.ClipArea

/-!
# C172: clipping with the four threshold predicates

`XLessEqual`, `XMoreEqual`, `YLessEqual`, `YMoreEqual` (polygon_2d.py:16-117) together with the axis-parallel line through the threshold.
-/

namespace PyrusGeom

open MeasureTheory Spec

/-- One of the four sides of an axis-parallel threshold. -/
inductive Thr | xLe | xGe | yLe | yGe

namespace Thr

/-- The coordinate that is compared. -/
def coord : Thr → Pt → ℝ
  | xLe, z | xGe, z => z.1
  | yLe, z | yGe, z => z.2

/-- The closed half plane on the right side of the threshold. -/
def set : Thr → ℝ → Set Pt
  | xLe, t => {z | z.1 ≤ t}
  | xGe, t => {z | t ≤ z.1}
  | yLe, t => {z | z.2 ≤ t}
  | yGe, t => {z | t ≤ z.2}

/-- The predicate object of the code. -/
noncomputable def pred : Thr → ℝ → Vec ℝ → Bool
  | xLe => Poly.xLessEqual
  | xGe => Poly.xMoreEqual
  | yLe => Poly.yLessEqual
  | yGe => Poly.yMoreEqual

/-- The line through the threshold, as `get_rectangle_clipped_polygon` builds it. -/
noncomputable def line : Thr → ℝ → Line ℝ
  | xLe, t | xGe, t => Line.ofAngle (Vec.ofXY t (num 0)) (AngleDeg.ofNum (num 90))
  | yLe, t | yGe, t => Line.ofAngle (Vec.ofXY (num 0) t) (AngleDeg.ofNum (num 0))

end Thr

theorem vline_ab (x0 : ℝ) : (vline x0).a = -1 ∧ (vline x0).b = 0 := by
  have h0 := vline_val x0 (0, 0)
  have h1 := vline_val x0 (1, 0)
  have h2 := vline_val x0 (0, 1)
  simp only [vline] at *
  constructor <;> linarith

theorem hline_ab (y0 : ℝ) : (hline y0).a = 0 ∧ (hline y0).b = 1 := by
  have h0 := hline_val y0 (0, 0)
  have h1 := hline_val y0 (1, 0)
  have h2 := hline_val y0 (0, 1)
  simp only [hline] at *
  constructor <;> linarith

/-- **C172** The predicates decide the four closed half planes. -/
theorem C172_pred (k : Thr) (t : ℝ) (v : Vec ℝ) : k.pred t v = true ↔ v.pt ∈ k.set t := by
  cases k <;> simp [Thr.pred, Thr.set, Poly.xLessEqual, Poly.xMoreEqual, Poly.yLessEqual, Poly.yMoreEqual]

/-- The set as a half plane of the line. -/
theorem Thr.set_eq (k : Thr) (t : ℝ) : ∃ s : ℝ, s ≠ 0 ∧ k.set t = halfPlane (k.line t) s := by
  cases k
  · exact ⟨1, one_ne_zero, by ext z; simp only [Thr.set, halfPlane, Set.mem_ofPred_eq, Thr.line]; rw [vline_val]; simp⟩
  · exact ⟨-1, by norm_num, by ext z; simp only [Thr.set, halfPlane, Set.mem_ofPred_eq, Thr.line]; rw [vline_val]; simp⟩
  · exact ⟨-1, by norm_num, by ext z; simp only [Thr.set, halfPlane, Set.mem_ofPred_eq, Thr.line]; rw [hline_val]; simp⟩
  · exact ⟨1, one_ne_zero, by ext z; simp only [Thr.set, halfPlane, Set.mem_ofPred_eq, Thr.line]; rw [hline_val]; simp⟩

theorem Thr.mem_line (k : Thr) (t : ℝ) (z : Pt) : z ∈ (k.line t).pts ↔ k.coord z = t := by
  cases k <;> rw [Line.mem_pts] <;> simp only [Thr.line, Thr.coord]
  · rw [vline_val]; constructor <;> intro h <;> linarith
  · rw [vline_val]; constructor <;> intro h <;> linarith
  · rw [hline_val]; constructor <;> intro h <;> linarith
  · rw [hline_val]; constructor <;> intro h <;> linarith

theorem Thr.parallel (k : Thr) (t : ℝ) (p q : Vec ℝ) :
    (k.line t).isParallel (Line.ofPoints p q) = true ↔ |k.coord q.pt - k.coord p.pt| < EPSILON := by
  have v := vline_ab t
  have h := hline_ab t
  rw [Line.isParallel_iff]
  cases k <;> simp only [Thr.line, Thr.coord, Vec.pt_fst, Vec.pt_snd]
  · change |(vline t).a * _ - _ * (vline t).b| < _ ↔ _
    rw [v.1, v.2]; simp only [Line.ofPoints]
    rw [show -1 * (q.x - p.x) - -(q.y - p.y) * 0 = -(q.x - p.x) by ring, abs_neg]
  · change |(vline t).a * _ - _ * (vline t).b| < _ ↔ _
    rw [v.1, v.2]; simp only [Line.ofPoints]
    rw [show -1 * (q.x - p.x) - -(q.y - p.y) * 0 = -(q.x - p.x) by ring, abs_neg]
  · change |(hline t).a * _ - _ * (hline t).b| < _ ↔ _
    rw [h.1, h.2]; simp only [Line.ofPoints]
    rw [show 0 * (q.x - p.x) - -(q.y - p.y) * 1 = (q.y - p.y) by ring]
  · change |(hline t).a * _ - _ * (hline t).b| < _ ↔ _
    rw [h.1, h.2]; simp only [Line.ofPoints]
    rw [show 0 * (q.x - p.x) - -(q.y - p.y) * 1 = (q.y - p.y) by ring]

/-- Every edge that crosses the threshold moves by at least EPSILON in the compared coordinate. -/
def Thr.Steep (k : Thr) (t : ℝ) (pts : List (Vec ℝ)) : Prop :=
  ∀ e ∈ cyclicPairs pts, ¬ (e.1.pt ∈ k.set t ↔ e.2.pt ∈ k.set t) → EPSILON ≤ |k.coord e.2.pt - k.coord e.1.pt|

theorem Thr.Steep.ok {k : Thr} {t : ℝ} {pts : List (Vec ℝ)} (h : k.Steep t pts) : Poly.ClipOk (k.pred t) pts (k.line t) := by
  intro e he hne
  rw [← Bool.not_eq_true, Thr.parallel, not_lt]
  exact h e he fun hh => hne (by rw [Bool.eq_iff_iff, C172_pred, C172_pred]; exact hh)

/-- **C172** Clipping with a threshold predicate and its line: every returned vertex satisfies the predicate and is a vertex of the
input or the point of an edge at the threshold. -/
theorem C172_sound (k : Thr) (t : ℝ) (pts : List (Vec ℝ)) (v : Vec ℝ) (h : v ∈ Poly.lineClipped (k.pred t) pts (k.line t)) :
    v.pt ∈ k.set t ∧ (v ∈ pts ∨ ∃ e ∈ cyclicPairs pts, k.coord v.pt = t ∧ v.pt ∈ segment ℝ e.1.pt e.2.pt) := by
  obtain ⟨s, -, hs⟩ := k.set_eq t
  obtain ⟨h1, h2⟩ := C76_sound (k.pred t) (k.line t) s (fun v => by rw [C172_pred, hs]) pts v h
  refine ⟨hs ▸ h1, h2.imp_right ?_⟩
  rintro ⟨e, he, -, h3, h4⟩
  exact ⟨e, he, (k.mem_line t _).mp h4, h3⟩

/-- **C172** (partial: crossing edges move by at least EPSILON). Off the outline and the threshold, the clipped polygon contains exactly
the contained points that satisfy the predicate. -/
theorem C172_contains_partial (k : Thr) (t : ℝ) (pts : List (Vec ℝ)) (hp : k.Steep t pts) (p : Vec ℝ)
    (hz : p.pt ∉ outline (pts.map Vec.pt)) (hl : k.coord p.pt ≠ t) :
    (Poly.ofList (Poly.lineClipped (k.pred t) pts (k.line t))).contains p true = true ↔
      (Poly.ofList pts).contains p true = true ∧ p.pt ∈ k.set t := by
  obtain ⟨s, h0, hs⟩ := k.set_eq t
  rw [C170_half_plane_partial (s := s) (fun v => by rw [C172_pred, hs]) pts hp.ok h0 p hz (by rwa [k.mem_line]), Bool.and_eq_true,
    C172_pred]

/-- **C172** (partial) For simple polygons the area of the clipped polygon is the measure of that set. -/
theorem C172_area_partial (k : Thr) (t : ℝ) (pts : List (Vec ℝ)) (hp : k.Steep t pts) (hs : Simple (pts.map Vec.pt)) (allow : Bool) :
    volume ({z : Pt | (Poly.ofList pts).contains (Vec.ofXY z.1 z.2) allow = true} ∩ k.set t) =
      ENNReal.ofReal (Poly.ofList (Poly.lineClipped (k.pred t) pts (k.line t))).area := by
  obtain ⟨s, h0, he⟩ := k.set_eq t
  rw [he]
  refine (C170_area_partial (s := s) (fun v => by rw [C172_pred, he]) pts hp.ok h0 ?_).2 hs allow
  have hv := vline_ab t
  have hh := hline_ab t
  cases k
  · left; change (vline t).a ≠ 0; rw [hv.1]; norm_num
  · left; change (vline t).a ≠ 0; rw [hv.1]; norm_num
  · right; change (hline t).b ≠ 0; rw [hh.2]; norm_num
  · right; change (hline t).b ≠ 0; rw [hh.2]; norm_num

/-- Without the guard everything can be lost: an edge that crosses the threshold within EPSILON ends the loop. -/
theorem C172_refuted : ∃ (k : Thr) (t : ℝ) (pts : List (Vec ℝ)), (∃ v ∈ pts, v.pt ∈ k.set t) ∧
    Poly.lineClipped (k.pred t) pts (k.line t) = [] := by
  refine ⟨.yGe, 0, [Vec.ofXY 0 (-1 / 10 ^ 8), Vec.ofXY 4 (1 / 10 ^ 8), Vec.ofXY 2 5], ⟨Vec.ofXY 2 5, by simp, by simp [Thr.set]⟩, ?_⟩
  have hpar := (Thr.yGe.parallel 0 (Vec.ofXY 0 (-1 / 10 ^ 8)) (Vec.ofXY 4 (1 / 10 ^ 8))).mpr (by
    simp only [Thr.coord, Vec.pt_snd, Vec.ofXY_y]; rw [EPSILON_real, abs_lt]; norm_num)
  have hv := mt (C21_intersection (Thr.yGe.line 0) (Line.ofPoints (Vec.ofXY 0 (-1 / 10 ^ 8)) (Vec.ofXY 4 (1 / 10 ^ 8)))).1.mp
    (by rw [hpar]; simp)
  unfold Poly.lineClipped cyclicPairs
  simp only [List.cons_append, List.nil_append, List.zip_cons_cons, List.zip_nil_right]
  rw [Poly.clipLoop, if_neg (by norm_num [Thr.pred, Poly.yMoreEqual]), if_pos (by norm_num [Thr.pred, Poly.yMoreEqual])]
  simp only
  rw [if_pos (by simpa [Vec.isValid] using hv)]

/-- `get_rectangle_clipped_polygon` applies the four predicates in this order; the second with the line of the fourth. -/
theorem C172_rectangle (poly : Poly ℝ) (h : poly.vertices ≠ []) (r : Rect ℝ) :
    (poly.rectClipped r).vertices =
      Poly.lineClipped (Thr.yGe.pred r.top) (Poly.lineClipped (Thr.xGe.pred r.left)
        (Poly.lineClipped (Thr.yLe.pred r.bottom) (Poly.lineClipped (Thr.xLe.pred r.right) poly.vertices (Thr.xLe.line r.right))
          (Thr.yLe.line r.top)) (Thr.xGe.line r.left)) (Thr.yGe.line r.top) :=
  Poly.rectClipped_vertices poly h r

/-- Non-vacuity: the unit square satisfies the guard at x = 1/2, and loses half its area. -/
theorem C172_example : Thr.xLe.Steep (1 / 2) [Vec.ofXY 0 0, Vec.ofXY 1 0, Vec.ofXY 1 1, Vec.ofXY 0 1] := by
  intro e he
  simp only [cyclicPairs, List.cons_append, List.nil_append, List.zip_cons_cons, List.zip_nil_right, List.mem_cons,
    List.not_mem_nil, or_false] at he
  rw [EPSILON_real]
  rcases he with rfl | rfl | rfl | rfl <;> norm_num [Thr.set, Thr.coord]

end PyrusGeom
