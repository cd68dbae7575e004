import Verif.Lemmas.Segment
import Verif.Model.Segment

/-! # Properties C29 – C39: `Segment2D` -/

namespace PyrusGeom
open Spec

/-- The points of a `Segment2D`: convex combinations of the end points (Mathlib's `segment`). -/
def Seg.pts (s : Seg ℝ) : Set Pt := segment ℝ s.origin.pt s.terminal.pt

/-- The segment has two different end points. -/
def Seg.NonDeg (s : Seg ℝ) : Prop := s.origin.pt ≠ s.terminal.pt

theorem Tri.dsa_real (a b c : Vec ℝ) : Tri.dsa a b c = area2 a.pt b.pt c.pt := by
  simp only [Tri.dsa, area2, Vec.pt_fst, Vec.pt_snd]; ring

theorem Seg.checkIntersectsOnLine_iff (s : Seg ℝ) (p : Vec ℝ) : s.checkIntersectsOnLine p = true ↔
    if s.origin.x = s.terminal.x then Btw s.origin.y s.terminal.y p.y else Btw s.origin.x s.terminal.x p.x := by
  unfold Seg.checkIntersectsOnLine Btw
  by_cases h : s.origin.x = s.terminal.x <;> simp [h]

theorem Seg.check_iff (s : Seg ℝ) (p : Vec ℝ) (h : s.NonDeg) :
    (Tri.dsa s.origin s.terminal p == num 0 && s.checkIntersectsOnLine p) = true ↔ p.pt ∈ s.pts := by
  rw [Bool.and_eq_true, Seg.checkIntersectsOnLine_iff, Tri.dsa_real, beq_iff_eq, num_real, Nat.cast_zero]
  rcases pt_ne h with h1 | ⟨h1, h2⟩
  · rw [if_neg (show ¬ s.origin.x = s.terminal.x from h1)]; exact (mem_seg_of_x h1).symm
  · rw [if_pos (show s.origin.x = s.terminal.x from h1)]; exact (mem_seg_of_y h1 h2).symm

/-! ## C29 -/

/-- **C29**, segments with two different end points. -/
theorem C29_on_segment_partial (s : Seg ℝ) (p : Vec ℝ) (h : s.NonDeg) : s.onSegment p = true ↔ p.pt ∈ s.pts :=
  s.check_iff p h

/-- **C29**, degenerate segments: `on_segment` accepts the whole horizontal line through the point. -/
theorem C29_degenerate (s : Seg ℝ) (p : Vec ℝ) (h : ¬ s.NonDeg) :
    s.onSegment p = true ↔ p.y = s.origin.y := by
  unfold Seg.NonDeg at h; push Not at h
  rw [Vec.pt_eq_iff] at h
  unfold Seg.onSegment
  rw [Bool.and_eq_true, Seg.checkIntersectsOnLine_iff, if_pos h.1, beq_iff_eq, Tri.dsa_real, num_real, Nat.cast_zero]
  have : area2 s.origin.pt s.terminal.pt p.pt = 0 := by
    simp only [area2, Vec.pt_fst, Vec.pt_snd, h.1, h.2]; ring
  simp only [this, true_and, Btw, h.2]
  constructor
  · rintro (⟨h1, h2⟩ | ⟨h1, h2⟩) <;> linarith
  · intro h; left; constructor <;> linarith

/-- **C29** is false for degenerate segments: `(5, 0)` is "on" the segment from the origin to the origin. -/
theorem C29_refuted : ∃ (s : Seg ℝ) (p : Vec ℝ), s.onSegment p = true ∧ p.pt ∉ s.pts := by
  refine ⟨Seg.ofXYXY 0 0 0 0, Vec.ofXY 5 0, ?_, ?_⟩
  · rw [C29_degenerate _ _ (by simp [Seg.NonDeg, Seg.ofXYXY])]; rfl
  · intro h
    obtain ⟨t, _, _, h, _⟩ := mem_seg.mp h
    norm_num [Seg.ofXYXY, Vec.ofXY, Vec.pt] at h

/-- Non-vacuity of C29: the middle of a slanted segment is on it, its continuation is not. -/
example : (Seg.ofXYXY (0:ℝ) 0 4 2).onSegment (Vec.ofXY 2 1) = true ∧
    (Seg.ofXYXY (0:ℝ) 0 4 2).onSegment (Vec.ofXY 6 3) = false := by
  have hn : (Seg.ofXYXY (0:ℝ) 0 4 2).NonDeg := by
    simp [Seg.NonDeg, Seg.ofXYXY]
  constructor
  · rw [C29_on_segment_partial _ _ hn]
    exact mem_seg.mpr ⟨1 / 2, by norm_num, by norm_num, by norm_num [Seg.ofXYXY, Vec.ofXY], by
      norm_num [Seg.ofXYXY, Vec.ofXY]⟩
  · rw [← Bool.not_eq_true, C29_on_segment_partial _ _ hn]
    intro h
    obtain ⟨t, _, h1, h, _⟩ := mem_seg.mp h
    norm_num [Seg.ofXYXY, Vec.ofXY] at h; linarith

/-! ## C30 -/

theorem Seg.mem_pts_of_deg {s : Seg ℝ} (h : ¬ s.NonDeg) (z : Pt) : z ∈ s.pts ↔ z = s.origin.pt := by
  unfold Seg.NonDeg at h; push Not at h
  unfold Seg.pts; rw [h, segment_same]; exact Set.mem_singleton_iff

theorem Seg.eq_iff_deg (s : Seg ℝ) : s.origin.eq s.terminal = true ↔ ¬ s.NonDeg := by
  unfold Seg.NonDeg; rw [Vec.eq_iff, ← Vec.pt_eq_iff]; tauto

theorem Seg.existIntersection_real (s o : Seg ℝ) : s.existIntersection o = true ↔
    (area2 s.origin.pt s.terminal.pt o.origin.pt * area2 s.origin.pt s.terminal.pt o.terminal.pt < 0 ∧
      area2 o.origin.pt o.terminal.pt s.origin.pt * area2 o.origin.pt o.terminal.pt s.terminal.pt < 0) ∨
    (¬ s.NonDeg ∧ ¬ o.NonDeg ∧ s.origin.pt = o.origin.pt) ∨
    (¬ s.NonDeg ∧ o.NonDeg ∧ s.origin.pt ∈ o.pts) ∨
    (s.NonDeg ∧ ¬ o.NonDeg ∧ o.origin.pt ∈ s.pts) ∨
    (s.NonDeg ∧ o.NonDeg ∧ (o.origin.pt ∈ s.pts ∨ o.terminal.pt ∈ s.pts ∨ s.origin.pt ∈ o.pts ∨
      s.terminal.pt ∈ o.pts)) := by
  unfold Seg.existIntersection
  simp only [Tri.dsa_real, num_real, Nat.cast_zero]
  by_cases hc : area2 s.origin.pt s.terminal.pt o.origin.pt * area2 s.origin.pt s.terminal.pt o.terminal.pt < 0 ∧
      area2 o.origin.pt o.terminal.pt s.origin.pt * area2 o.origin.pt o.terminal.pt s.terminal.pt < 0
  · simp [hc]
  rw [if_neg hc]
  simp only [hc, false_or]
  by_cases hs : s.NonDeg
  · have es : s.origin.eq s.terminal = false := by rw [← Bool.not_eq_true, Seg.eq_iff_deg, not_not]; assumption
    have c1 := s.check_iff o.origin hs
    have c2 := s.check_iff o.terminal hs
    rw [Tri.dsa_real, num_real, Nat.cast_zero] at c1 c2
    by_cases ho : o.NonDeg
    · have eo : o.origin.eq o.terminal = false := by rw [← Bool.not_eq_true, Seg.eq_iff_deg, not_not]; assumption
      have c3 := o.check_iff s.origin ho
      have c4 := o.check_iff s.terminal ho
      rw [Tri.dsa_real, num_real, Nat.cast_zero] at c3 c4
      simp only [es, eo, Bool.false_eq_true, if_false]
      rw [Bool.or_eq_true, Bool.or_eq_true, Bool.or_eq_true, c1, c2, c3, c4]
      simp only [hs, ho, not_true, not_false_iff, true_and, false_and, false_or, or_false, or_assoc]
    · have eo : o.origin.eq o.terminal = true := by rw [Seg.eq_iff_deg]; assumption
      simp only [es, eo, Bool.false_eq_true, if_false, if_true]
      rw [c1]
      simp only [hs, ho, not_true, not_false_iff, true_and, false_and, false_or, or_false]
  · have es : s.origin.eq s.terminal = true := by rw [Seg.eq_iff_deg]; assumption
    by_cases ho : o.NonDeg
    · have eo : o.origin.eq o.terminal = false := by rw [← Bool.not_eq_true, Seg.eq_iff_deg, not_not]; assumption
      have c3 := o.check_iff s.origin ho
      rw [Tri.dsa_real, num_real, Nat.cast_zero] at c3
      simp only [es, eo, Bool.false_eq_true, if_false, if_true]
      rw [c3]
      simp only [hs, ho, not_true, not_false_iff, true_and, false_and, false_or, or_false]
    · have eo : o.origin.eq o.terminal = true := by rw [Seg.eq_iff_deg]; assumption
      simp only [es, eo, if_true]
      rw [Vec.eq_iff, ← Vec.pt_eq_iff]
      simp only [hs, ho, not_false_iff, true_and, false_and, or_false]

/-- **C30.** -/
theorem C30_exist_intersection (s o : Seg ℝ) : s.existIntersection o = true ↔ (s.pts ∩ o.pts).Nonempty := by
  rw [Seg.existIntersection_real]
  constructor
  · rintro (⟨h1, h2⟩ | ⟨hs, ho, h⟩ | ⟨hs, ho, h⟩ | ⟨hs, ho, h⟩ | ⟨hs, ho, h | h | h | h⟩)
    · obtain ⟨z, z1, z2⟩ := proper_cross h1 h2
      exact ⟨z, openSegment_subset_segment ℝ _ _ z1, openSegment_subset_segment ℝ _ _ z2⟩
    · exact ⟨s.origin.pt, seg_left_mem _ _, by rw [Seg.mem_pts_of_deg ho]; exact h⟩
    · exact ⟨s.origin.pt, seg_left_mem _ _, h⟩
    · exact ⟨o.origin.pt, h, seg_left_mem _ _⟩
    · exact ⟨o.origin.pt, h, seg_left_mem _ _⟩
    · exact ⟨o.terminal.pt, h, seg_right_mem _ _⟩
    · exact ⟨s.origin.pt, seg_left_mem _ _, h⟩
    · exact ⟨s.terminal.pt, seg_right_mem _ _, h⟩
  · rintro ⟨z, z1, z2⟩
    by_cases hs : s.NonDeg
    · by_cases ho : o.NonDeg
      · by_cases h1 : 0 ≤ area2 s.origin.pt s.terminal.pt o.origin.pt * area2 s.origin.pt s.terminal.pt o.terminal.pt
        · have := touch hs z1 z2 h1
          right; right; right; right
          exact ⟨hs, ho, by unfold Seg.pts; tauto⟩
        by_cases h2 : 0 ≤ area2 o.origin.pt o.terminal.pt s.origin.pt * area2 o.origin.pt o.terminal.pt s.terminal.pt
        · have := touch ho z2 z1 h2
          right; right; right; right
          exact ⟨hs, ho, by unfold Seg.pts; tauto⟩
        exact Or.inl ⟨not_le.mp h1, not_le.mp h2⟩
      · rw [Seg.mem_pts_of_deg ho] at z2
        rw [z2] at z1
        right; right; right; left; exact ⟨hs, ho, z1⟩
    · rw [Seg.mem_pts_of_deg hs] at z1
      rw [z1] at z2
      by_cases ho : o.NonDeg
      · right; right; left; exact ⟨hs, ho, z2⟩
      · right; left; exact ⟨hs, ho, (Seg.mem_pts_of_deg ho _).mp z2⟩

/-- **C30**, symmetry. -/
theorem C30_symm (s o : Seg ℝ) : s.existIntersection o = o.existIntersection s := by
  rw [Bool.eq_iff_iff, C30_exist_intersection, C30_exist_intersection, Set.inter_comm]

/-- Non-vacuity of C30: touching, overlapping and separate segments. -/
example : (Seg.ofXYXY (0:ℝ) 0 4 0).existIntersection (Seg.ofXYXY 2 0 2 3) = true ∧
    (Seg.ofXYXY (0:ℝ) 0 4 0).existIntersection (Seg.ofXYXY 3 0 9 0) = true ∧
    (Seg.ofXYXY (0:ℝ) 0 4 0).existIntersection (Seg.ofXYXY 5 0 9 0) = false := by
  refine ⟨?_, ?_, ?_⟩
  · rw [C30_exist_intersection]
    exact ⟨(2, 0), mem_seg.mpr ⟨1 / 2, by norm_num, by norm_num, by norm_num [Seg.ofXYXY, Vec.ofXY],
      by norm_num [Seg.ofXYXY, Vec.ofXY]⟩, mem_seg.mpr ⟨0, by norm_num, by norm_num,
      by norm_num [Seg.ofXYXY, Vec.ofXY], by norm_num [Seg.ofXYXY, Vec.ofXY]⟩⟩
  · rw [C30_exist_intersection]
    exact ⟨(3, 0), mem_seg.mpr ⟨3 / 4, by norm_num, by norm_num, by norm_num [Seg.ofXYXY, Vec.ofXY],
      by norm_num [Seg.ofXYXY, Vec.ofXY]⟩, mem_seg.mpr ⟨0, by norm_num, by norm_num,
      by norm_num [Seg.ofXYXY, Vec.ofXY], by norm_num [Seg.ofXYXY, Vec.ofXY]⟩⟩
  · rw [← Bool.not_eq_true, C30_exist_intersection]
    rintro ⟨z, h1, h2⟩
    obtain ⟨t, t0, t1, tx, _⟩ := mem_seg.mp h1
    obtain ⟨u, u0, u1, ux, _⟩ := mem_seg.mp h2
    norm_num [Seg.ofXYXY, Vec.ofXY] at tx ux
    linarith

/-! ## C31 -/

/-- **C31.** -/
theorem C31_exist_intersection_line (s : Seg ℝ) (l : Line ℝ) :
    s.existIntersectionLine l = true ↔ (s.pts ∩ l.pts).Nonempty := by
  unfold Seg.existIntersectionLine
  simp only [decide_eq_true_eq, num_real, Nat.cast_zero]
  set a0 := l.a * s.origin.x + l.b * s.origin.y + l.c with h0
  set a1 := l.a * s.terminal.x + l.b * s.terminal.y + l.c with h1
  constructor
  · intro h
    by_cases e0 : a0 = 0
    · exact ⟨s.origin.pt, seg_left_mem _ _, e0⟩
    have hne : a0 - a1 ≠ 0 := by
      intro he
      have : a1 = a0 := by linarith
      rw [this] at h
      have := mul_self_pos.mpr e0
      linarith
    have hb : 0 ≤ a0 / (a0 - a1) ∧ a0 / (a0 - a1) ≤ 1 := by
      rcases lt_or_gt_of_ne e0 with hn | hp
      · have : 0 ≤ a1 := by by_contra hc; nlinarith
        exact ⟨div_nonneg_of_nonpos hn.le (by linarith), (div_le_one_of_neg (by linarith)).mpr (by linarith)⟩
      · have : a1 ≤ 0 := by by_contra hc; nlinarith
        exact ⟨div_nonneg hp.le (by linarith), (div_le_one (by linarith)).mpr (by linarith)⟩
    refine ⟨(s.origin.x + a0 / (a0 - a1) * (s.terminal.x - s.origin.x),
      s.origin.y + a0 / (a0 - a1) * (s.terminal.y - s.origin.y)), mem_seg.mpr ⟨_, hb.1, hb.2, rfl, rfl⟩, ?_⟩
    rw [Line.mem_pts]
    simp only
    field_simp
    rw [h0, h1]; ring
  · rintro ⟨z, hz, hl⟩
    obtain ⟨t, t0, t1, hx, hy⟩ := mem_seg.mp hz
    rw [Line.mem_pts, hx, hy] at hl
    simp only [Vec.pt_fst, Vec.pt_snd] at hl
    have e : (1 - t) * a0 + t * a1 = 0 := by rw [h0, h1]; linarith
    by_contra hc
    push Not at hc
    rcases mul_pos_iff.mp hc with ⟨p0, p1⟩ | ⟨p0, p1⟩
    · rcases eq_or_lt_of_le t0 with ht | ht
      · rw [← ht] at e; linarith
      · nlinarith [mul_pos ht p1, mul_nonneg (sub_nonneg.mpr t1) p0.le]
    · rcases eq_or_lt_of_le t0 with ht | ht
      · rw [← ht] at e; linarith
      · nlinarith [mul_pos ht (neg_pos.mpr p1), mul_nonneg (sub_nonneg.mpr t1) (neg_pos.mpr p0).le]

/-- Non-vacuity of C31: the line `x = 1` meets the segment (0,0)–(2,2), the line `x = 3` does not. -/
example : (Seg.ofXYXY (0:ℝ) 0 2 2).existIntersectionLine ⟨1, 0, -1⟩ = true ∧
    (Seg.ofXYXY (0:ℝ) 0 2 2).existIntersectionLine ⟨1, 0, -3⟩ = false := by
  constructor <;> norm_num [Seg.existIntersectionLine, Seg.ofXYXY, Vec.ofXY]

/-! ## C32 -/

/-- Four points are on a common line. -/
def Spec.Collinear4 (p q r s : Pt) : Prop :=
  ∃ a b c : ℝ, (a ≠ 0 ∨ b ≠ 0) ∧ p ∈ lineSet a b c ∧ q ∈ lineSet a b c ∧ r ∈ lineSet a b c ∧ s ∈ lineSet a b c

theorem Seg.except_iff (s o : Seg ℝ) : s.existIntersectionExceptEndpoint o = true ↔
    area2 s.origin.pt s.terminal.pt o.origin.pt * area2 s.origin.pt s.terminal.pt o.terminal.pt < 0 ∧
      area2 o.origin.pt o.terminal.pt s.origin.pt * area2 o.origin.pt o.terminal.pt s.terminal.pt < 0 := by
  unfold Seg.existIntersectionExceptEndpoint
  simp [Tri.dsa_real]

/-- If both areas of one segment over the other vanish and a common point exists, everything is collinear. -/
theorem collinear_of_cross_zero {a b c e : Pt}
    (hD : (b.1 - a.1) * (e.2 - c.2) - (b.2 - a.2) * (e.1 - c.1) = 0)
    {z : Pt} (h1 : z ∈ segment ℝ a b) (h2 : z ∈ segment ℝ c e) : Collinear4 a b c e := by
  obtain ⟨t, -, -, tx, ty⟩ := mem_seg.mp h1
  obtain ⟨u, -, -, ux, uy⟩ := mem_seg.mp h2
  by_cases hab : a = b
  · by_cases hce : c = e
    · -- everything is one point
      refine ⟨1, 0, -a.1, Or.inl one_ne_zero, ?_, ?_, ?_, ?_⟩
      · simp [lineSet]
      · simp [lineSet, hab]
      · subst hab hce
        simp only [lineSet, Set.mem_ofPred_eq]; nlinarith
      · subst hab hce
        simp only [lineSet, Set.mem_ofPred_eq]; nlinarith
    · subst hab
      refine ⟨-(e.2 - c.2), e.1 - c.1, (e.2 - c.2) * c.1 - (e.1 - c.1) * c.2, ?_, ?_, ?_, ?_, ?_⟩
      · rcases pt_ne hce with h | ⟨_, h⟩
        · right; exact sub_ne_zero.mpr h.symm
        · left; exact neg_ne_zero.mpr (sub_ne_zero.mpr h.symm)
      all_goals simp only [lineSet, Set.mem_ofPred_eq]
      · have e1 : a.1 = c.1 + u * (e.1 - c.1) := by linarith
        have e2 : a.2 = c.2 + u * (e.2 - c.2) := by linarith
        rw [e1, e2]; ring
      · have e1 : a.1 = c.1 + u * (e.1 - c.1) := by linarith
        have e2 : a.2 = c.2 + u * (e.2 - c.2) := by linarith
        rw [e1, e2]; ring
      · ring
      · ring
  · refine ⟨-(b.2 - a.2), b.1 - a.1, (b.2 - a.2) * a.1 - (b.1 - a.1) * a.2, ?_, ?_, ?_, ?_, ?_⟩
    · rcases pt_ne hab with h | ⟨_, h⟩
      · right; exact sub_ne_zero.mpr h.symm
      · left; exact neg_ne_zero.mpr (sub_ne_zero.mpr h.symm)
    all_goals simp only [lineSet, Set.mem_ofPred_eq]
    · ring
    · ring
    · have e1 : c.1 = a.1 + t * (b.1 - a.1) - u * (e.1 - c.1) := by linarith
      have e2 : c.2 = a.2 + t * (b.2 - a.2) - u * (e.2 - c.2) := by linarith
      have f1 : c.1 - a.1 = t * (b.1 - a.1) - u * (e.1 - c.1) := by linarith
      have f2 : c.2 - a.2 = t * (b.2 - a.2) - u * (e.2 - c.2) := by linarith
      linear_combination (-(b.2 - a.2)) * f1 + (b.1 - a.1) * f2 - u * hD
    · have f1 : c.1 - a.1 = t * (b.1 - a.1) - u * (e.1 - c.1) := by linarith
      have f2 : c.2 - a.2 = t * (b.2 - a.2) - u * (e.2 - c.2) := by linarith
      linear_combination (-(b.2 - a.2)) * f1 + (b.1 - a.1) * f2 + (1 - u) * hD

/-- **C32.** -/
theorem C32_except_endpoint (s o : Seg ℝ) : s.existIntersectionExceptEndpoint o = true ↔
    ¬ Collinear4 s.origin.pt s.terminal.pt o.origin.pt o.terminal.pt ∧
    ∃ z, z ∈ openSegment ℝ s.origin.pt s.terminal.pt ∧ z ∈ openSegment ℝ o.origin.pt o.terminal.pt := by
  rw [Seg.except_iff]
  generalize s.origin.pt = a
  generalize s.terminal.pt = b
  generalize o.origin.pt = c
  generalize o.terminal.pt = e
  constructor
  · rintro ⟨h1, h2⟩
    refine ⟨?_, proper_cross h1 h2⟩
    rintro ⟨x, y, w, hxy, ha, hb, hc, he⟩
    simp only [lineSet, Set.mem_ofPred_eq] at ha hb hc he
    have hz : area2 a b c = 0 := by
      unfold area2
      rcases hxy with h | h
      · apply mul_left_cancel₀ h
        linear_combination (c.2 - a.2) * (hb - ha) - (b.2 - a.2) * (hc - ha)
      · apply mul_left_cancel₀ h
        linear_combination (-(c.1 - a.1)) * (hb - ha) + (b.1 - a.1) * (hc - ha)
    rw [hz, zero_mul] at h1
    exact lt_irrefl _ h1
  · rintro ⟨hcol, z, z1, z2⟩
    have hD : (b.1 - a.1) * (e.2 - c.2) - (b.2 - a.2) * (e.1 - c.1) ≠ 0 := fun h =>
      hcol (collinear_of_cross_zero h (openSegment_subset_segment ℝ _ _ z1) (openSegment_subset_segment ℝ _ _ z2))
    obtain ⟨t, t0, t1, tx, ty⟩ := mem_openSeg.mp z1
    obtain ⟨u, u0, u1, ux, uy⟩ := mem_openSeg.mp z2
    set D := (b.1 - a.1) * (e.2 - c.2) - (b.2 - a.2) * (e.1 - c.1) with hDd
    have f1 : a.1 + t * (b.1 - a.1) = c.1 + u * (e.1 - c.1) := by linarith
    have f2 : a.2 + t * (b.2 - a.2) = c.2 + u * (e.2 - c.2) := by linarith
    have r1 : area2 a b c = -u * D := by
      simp only [area2, hDd]; linear_combination (b.2 - a.2) * f1 - (b.1 - a.1) * f2
    have r2 : area2 a b e = (1 - u) * D := by
      simp only [area2, hDd]; linear_combination (b.2 - a.2) * f1 - (b.1 - a.1) * f2
    have r3 : area2 c e a = t * D := by
      simp only [area2, hDd]; linear_combination (e.1 - c.1) * f2 - (e.2 - c.2) * f1
    have r4 : area2 c e b = (t - 1) * D := by
      simp only [area2, hDd]; linear_combination (e.1 - c.1) * f2 - (e.2 - c.2) * f1
    have hD2 : 0 < D ^ 2 := by positivity
    constructor
    · rw [r1, r2]
      have : 0 < u * (1 - u) := mul_pos u0 (by linarith)
      nlinarith [mul_pos this hD2]
    · rw [r3, r4]
      have : 0 < t * (1 - t) := mul_pos t0 (by linarith)
      nlinarith [mul_pos this hD2]

/-- **C32**, symmetry and relation with `exist_intersection`. -/
theorem C32_symm_and_implies (s o : Seg ℝ) :
    s.existIntersectionExceptEndpoint o = o.existIntersectionExceptEndpoint s ∧
    (s.existIntersectionExceptEndpoint o = true → s.existIntersection o = true) := by
  constructor
  · rw [Bool.eq_iff_iff, Seg.except_iff, Seg.except_iff]; tauto
  · intro h
    rw [C32_except_endpoint] at h
    obtain ⟨_, z, z1, z2⟩ := h
    rw [C30_exist_intersection]
    exact ⟨z, openSegment_subset_segment ℝ _ _ z1, openSegment_subset_segment ℝ _ _ z2⟩

/-- Non-vacuity of C32: a proper cross, and a touching end point. -/
example : (Seg.ofXYXY (0:ℝ) 0 2 2).existIntersectionExceptEndpoint (Seg.ofXYXY 0 2 2 0) = true ∧
    (Seg.ofXYXY (0:ℝ) 0 2 2).existIntersectionExceptEndpoint (Seg.ofXYXY 1 1 2 0) = false := by
  constructor <;> norm_num [Seg.existIntersectionExceptEndpoint, Seg.ofXYXY, Vec.ofXY, Tri.dsa]

/-! ## C33 -/

/-- The scalar product that decides on which side of the ends the foot is. -/
theorem Seg.nearestPoint_real (s : Seg ℝ) (p : Vec ℝ) :
    let u := s.terminal.x - s.origin.x
    let v := s.terminal.y - s.origin.y
    let L := u ^ 2 + v ^ 2
    let k := u * (p.x - s.origin.x) + v * (p.y - s.origin.y)
    (s.nearestPoint p).pt =
      if L = 0 then s.origin.pt else if k ≤ 0 then s.origin.pt else if L ≤ k then s.terminal.pt else
        (s.origin.x + k / L * u, s.origin.y + k / L * v) := by
  intro u v L k
  have hL : (s.terminal.sub s.origin).r2 = L := by rw [Vec.r2_real]; rfl
  have hk : (s.terminal.sub s.origin).innerProduct (p.sub s.origin) = k := rfl
  simp only [Seg.nearestPoint, hL, hk, beq_iff_eq, num_real, Nat.cast_zero]
  by_cases h1 : L = 0
  · simp [h1]
  by_cases h2 : k ≤ 0
  · simp [h1, h2]
  by_cases h3 : L ≤ k
  · simp [h1, h2, h3]
  simp only [h1, h2, h3, if_false]
  refine Prod.ext ?_ ?_
  · change s.origin.x + u * k / L = s.origin.x + k / L * u; ring
  · change s.origin.y + v * k / L = s.origin.y + k / L * v; ring

/-- **C33.** -/
theorem C33_nearest_point (s : Seg ℝ) (p : Vec ℝ) :
    (s.nearestPoint p).pt ∈ s.pts ∧ ∀ q ∈ s.pts, Spec.d p.pt (s.nearestPoint p).pt ≤ Spec.d p.pt q := by
  have hn := Seg.nearestPoint_real s p
  simp only at hn
  set u := s.terminal.x - s.origin.x with hu
  set v := s.terminal.y - s.origin.y with hv
  set L := u ^ 2 + v ^ 2 with hL
  set k := u * (p.x - s.origin.x) + v * (p.y - s.origin.y) with hk
  have hL0 : 0 ≤ L := by positivity
  by_cases h1 : L = 0
  · rw [if_pos h1] at hn
    rw [hn]
    refine ⟨seg_left_mem _ _, fun q hq => ?_⟩
    have hu0 : u = 0 := by nlinarith [sq_nonneg u, sq_nonneg v]
    have hv0 : v = 0 := by nlinarith [sq_nonneg u, sq_nonneg v]
    have hd : ¬ s.NonDeg := by
      unfold Seg.NonDeg; push Not; rw [Vec.pt_eq_iff]; constructor <;> linarith
    rw [(Seg.mem_pts_of_deg hd q).mp hq]
  rw [if_neg h1] at hn
  have hLp : 0 < L := lt_of_le_of_ne hL0 (Ne.symm h1)
  -- squared distance to a point of the segment
  have hq : ∀ q ∈ s.pts, ∃ t, 0 ≤ t ∧ t ≤ 1 ∧ (p.x - q.1) ^ 2 + (p.y - q.2) ^ 2 =
      (p.x - s.origin.x) ^ 2 + (p.y - s.origin.y) ^ 2 - 2 * t * k + t ^ 2 * L := by
    intro q hq
    obtain ⟨t, t0, t1, tx, ty⟩ := mem_seg.mp hq
    refine ⟨t, t0, t1, ?_⟩
    rw [tx, ty, hk, hL, hu, hv]
    simp only [Vec.pt_fst, Vec.pt_snd]; ring
  by_cases h2 : k ≤ 0
  · rw [if_pos h2] at hn
    rw [hn]
    refine ⟨seg_left_mem _ _, fun q hqm => Spec.d_le_d ?_⟩
    obtain ⟨t, t0, t1, e⟩ := hq q hqm
    simp only [Vec.pt_fst, Vec.pt_snd]
    rw [e]; nlinarith [mul_nonneg t0 (neg_nonneg.mpr h2), mul_nonneg (sq_nonneg t) hL0]
  rw [if_neg h2] at hn
  by_cases h3 : L ≤ k
  · rw [if_pos h3] at hn
    rw [hn]
    refine ⟨seg_right_mem _ _, fun q hqm => Spec.d_le_d ?_⟩
    obtain ⟨t, t0, t1, e⟩ := hq q hqm
    simp only [Vec.pt_fst, Vec.pt_snd]
    rw [e]
    have : (p.x - s.terminal.x) ^ 2 + (p.y - s.terminal.y) ^ 2 =
        (p.x - s.origin.x) ^ 2 + (p.y - s.origin.y) ^ 2 - 2 * k + L := by
      rw [hk, hL, hu, hv]; ring
    rw [this]
    nlinarith [mul_nonneg (sub_nonneg.mpr t1) (sub_nonneg.mpr h3), mul_nonneg (mul_nonneg (sub_nonneg.mpr t1)
      (sub_nonneg.mpr t1)) hL0]
  rw [if_neg h3] at hn
  push Not at h2 h3
  have hkL : k / L * L = k := by field_simp
  rw [hn]
  refine ⟨mem_seg.mpr ⟨k / L, div_nonneg h2.le hL0, (div_le_one hLp).mpr h3.le, rfl, rfl⟩, fun q hqm => Spec.d_le_d ?_⟩
  obtain ⟨t, t0, t1, e⟩ := hq q hqm
  simp only [Vec.pt_fst, Vec.pt_snd]
  rw [e]
  have : (p.x - (s.origin.x + k / L * u)) ^ 2 + (p.y - (s.origin.y + k / L * v)) ^ 2 =
      (p.x - s.origin.x) ^ 2 + (p.y - s.origin.y) ^ 2 - 2 * (k / L) * k + (k / L) ^ 2 * L := by
    rw [hk, hL]; ring
  rw [this]
  have hfin : (p.x - s.origin.x) ^ 2 + (p.y - s.origin.y) ^ 2 - 2 * t * k + t ^ 2 * L -
      ((p.x - s.origin.x) ^ 2 + (p.y - s.origin.y) ^ 2 - 2 * (k / L) * k + (k / L) ^ 2 * L) =
      L * (t - k / L) ^ 2 := by
    linear_combination (2 * t - 2 * (k / L)) * hkL
  nlinarith [mul_nonneg hL0 (sq_nonneg (t - k / L))]

/-- Non-vacuity of C33: beyond the end the nearest point is the end point, above the middle it is the foot. -/
example : ((Seg.ofXYXY (0:ℝ) 0 4 0).nearestPoint (Vec.ofXY 7 1)).pt = (4, 0) ∧
    ((Seg.ofXYXY (0:ℝ) 0 4 0).nearestPoint (Vec.ofXY 1 5)).pt = (1, 0) := by
  constructor
  · rw [Seg.nearestPoint_real]; norm_num [Seg.ofXYXY, Vec.ofXY, Vec.pt]
  · rw [Seg.nearestPoint_real]; norm_num [Seg.ofXYXY, Vec.ofXY, Vec.pt]

/-! ## C34 -/

theorem Seg.distPoint_eq (s : Seg ℝ) (p : Vec ℝ) : s.distPoint p = Spec.d p.pt (s.nearestPoint p).pt := by
  have hn := Seg.nearestPoint_real s p
  simp only at hn
  set u := s.terminal.x - s.origin.x with hu
  set v := s.terminal.y - s.origin.y with hv
  set L := u ^ 2 + v ^ 2 with hL
  set k := u * (p.x - s.origin.x) + v * (p.y - s.origin.y) with hk
  have hL0 : 0 ≤ L := by positivity
  have hlen : s.length = √L := by
    unfold Seg.length; rw [Vec.dist_real]; unfold Spec.d
    congr 1; simp only [Vec.pt_fst, Vec.pt_snd, hL, hu, hv]; ring
  have hll : s.length * s.length = L := by rw [hlen]; exact Real.mul_self_sqrt hL0
  unfold Seg.distPoint
  have hip : (s.terminal.sub s.origin).innerProduct (p.sub s.origin) = k := rfl
  simp only [hip, hll, Nat.cast_zero, beq_iff_eq, fabs_real, pyMin_real, Tri.dsa_real, Vec.dist2_real]
  by_cases h1 : L = 0
  · have : s.length = 0 := by rw [hlen, h1, Real.sqrt_zero]
    rw [if_pos this, hn, if_pos h1, Vec.dist_real, Spec.d_comm]
  have hLp : 0 < L := lt_of_le_of_ne hL0 (Ne.symm h1)
  have hlp : 0 < s.length := by rw [hlen]; exact Real.sqrt_pos.mpr hLp
  rw [if_neg hlp.ne', hn, if_neg h1]
  -- the two candidate end points
  have hT : (s.terminal.x - p.x) ^ 2 + (s.terminal.y - p.y) ^ 2 =
      (s.origin.x - p.x) ^ 2 + (s.origin.y - p.y) ^ 2 - 2 * k + L := by
    rw [hk, hL, hu, hv]; ring
  by_cases hin : 0 ≤ k ∧ k ≤ L
  · rw [if_pos hin]
    have e : Spec.d p.pt (s.origin.x + k / L * u, s.origin.y + k / L * v) =
        |area2 s.origin.pt s.terminal.pt p.pt / s.length| := by
      apply Spec.d_eq_of_sq (abs_nonneg _)
      rw [sq_abs, div_pow, hlen, Real.sq_sqrt hL0]
      simp only [Vec.pt_fst, Vec.pt_snd, area2]
      field_simp
      rw [← hu, ← hv, hk, hL]; ring
    by_cases h2 : k ≤ 0
    · have hk0 : k = 0 := le_antisymm h2 hin.1
      rw [if_pos h2, ← e, hk0]; simp [Vec.pt]
    rw [if_neg h2]
    by_cases h3 : L ≤ k
    · have hkL : k = L := le_antisymm hin.2 h3
      rw [if_pos h3, ← e, hkL, div_self h1]
      congr 1
      refine Prod.ext ?_ ?_
      · simp [hu]
      · simp [hv]
    rw [if_neg h3, e]
  · rw [if_neg hin]
    rw [not_and_or, not_le, not_le] at hin
    rcases hin with h | h
    · rw [if_pos h.le, min_eq_left (by rw [hT]; linarith), Spec.d_comm]; rfl
    · rw [if_neg (by linarith), if_pos h.le, min_eq_right (by rw [hT]; linarith), Spec.d_comm]; rfl

/-- **C34.** `distPoint` returns a plain number: the division in it is guarded by `length ≠ 0`
(see the model comment), so no exception is possible. -/
theorem C34_dist_point (s : Seg ℝ) (p : Vec ℝ) :
    IsMinDist s.pts p.pt (s.distPoint p) ∧ 0 ≤ s.distPoint p ∧
    s.distPoint p = Spec.d p.pt (s.nearestPoint p).pt ∧ (s.distPoint p = 0 ↔ p.pt ∈ s.pts) := by
  have h := C33_nearest_point s p
  rw [Seg.distPoint_eq]
  refine ⟨⟨⟨_, h.1, rfl⟩, h.2⟩, Spec.d_nonneg _ _, rfl, ?_⟩
  constructor
  · intro e; rw [Spec.d_eq_zero] at e; rw [e]; exact h.1
  · intro hm
    exact le_antisymm (by rw [← Spec.d_eq_zero.mpr (rfl : p.pt = p.pt)]; exact h.2 _ hm) (Spec.d_nonneg _ _)

/-- Non-vacuity of C34: 3-4-5 distance beyond the end of a segment. -/
example : (Seg.ofXYXY (0:ℝ) 0 4 0).distPoint (Vec.ofXY 7 4) = 5 := by
  rw [Seg.distPoint_eq]
  have : ((Seg.ofXYXY (0:ℝ) 0 4 0).nearestPoint (Vec.ofXY 7 4)).pt = (4, 0) := by
    rw [Seg.nearestPoint_real]; norm_num [Seg.ofXYXY, Vec.ofXY, Vec.pt]
  rw [this]
  exact Spec.d_eq_of_sq (by norm_num) (by norm_num [Vec.ofXY])

/-! ## C35 -/

/-- **C35.** -/
theorem C35_dist_segment (s o : Seg ℝ) : IsMinDistSets s.pts o.pts (s.distSeg o) := by
  unfold Seg.distSeg
  simp only [Nat.cast_zero, pyMin_real]
  by_cases h : s.existIntersection o = true
  · rw [if_pos h]
    rw [C30_exist_intersection] at h
    obtain ⟨z, z1, z2⟩ := h
    exact ⟨⟨z, z1, z, z2, Spec.d_eq_zero.mpr rfl⟩, fun p _ q _ => Spec.d_nonneg p q⟩
  · rw [if_neg h]
    have hd : ∀ z, z ∈ s.pts → z ∉ o.pts := fun z z1 z2 => h ((C30_exist_intersection s o).mpr ⟨z, z1, z2⟩)
    obtain ⟨⟨q1, m1, e1⟩, l1⟩ := (C34_dist_point s o.origin).1
    obtain ⟨⟨q2, m2, e2⟩, l2⟩ := (C34_dist_point s o.terminal).1
    obtain ⟨⟨q3, m3, e3⟩, l3⟩ := (C34_dist_point o s.origin).1
    obtain ⟨⟨q4, m4, e4⟩, l4⟩ := (C34_dist_point o s.terminal).1
    constructor
    · rcases min_choice (min (min (s.distPoint o.origin) (s.distPoint o.terminal)) (o.distPoint s.origin))
        (o.distPoint s.terminal) with h | h
      · rw [h]
        rcases min_choice (min (s.distPoint o.origin) (s.distPoint o.terminal)) (o.distPoint s.origin) with h | h
        · rw [h]
          rcases min_choice (s.distPoint o.origin) (s.distPoint o.terminal) with h | h
          · rw [h]; exact ⟨q1, m1, _, seg_left_mem _ _, by rw [Spec.d_comm, e1]⟩
          · rw [h]; exact ⟨q2, m2, _, seg_right_mem _ _, by rw [Spec.d_comm, e2]⟩
        · rw [h]; exact ⟨_, seg_left_mem _ _, q3, m3, e3⟩
      · rw [h]; exact ⟨_, seg_right_mem _ _, q4, m4, e4⟩
    · intro p hp q hq
      obtain ⟨p', hp', q', hq', hle, hend⟩ := slide hp hq hd
      refine le_trans ?_ hle
      rcases hend with rfl | rfl | rfl | rfl
      · exact (min_le_left _ _).trans ((min_le_right _ _).trans (l3 q' hq'))
      · exact (min_le_right _ _).trans (l4 q' hq')
      · exact (min_le_left _ _).trans ((min_le_left _ _).trans ((min_le_left _ _).trans
          (by rw [Spec.d_comm]; exact l1 p' hp')))
      · exact (min_le_left _ _).trans ((min_le_left _ _).trans ((min_le_right _ _).trans
          (by rw [Spec.d_comm]; exact l2 p' hp')))

/-- **C35**, symmetry and zero. -/
theorem C35_symm_and_zero (s o : Seg ℝ) : s.distSeg o = o.distSeg s ∧ 0 ≤ s.distSeg o ∧
    (s.distSeg o = 0 ↔ (s.pts ∩ o.pts).Nonempty) := by
  have h := C35_dist_segment s o
  refine ⟨IsMinDistSets.unique h (IsMinDistSets.symm (C35_dist_segment o s)), ?_, ?_⟩
  · obtain ⟨⟨p, _, q, _, e⟩, _⟩ := h
    rw [← e]; exact Spec.d_nonneg _ _
  · constructor
    · intro h0
      obtain ⟨⟨p, hp, q, hq, e⟩, _⟩ := h
      rw [h0, Spec.d_eq_zero] at e
      exact ⟨p, hp, e ▸ hq⟩
    · rintro ⟨z, z1, z2⟩
      refine IsMinDistSets.unique h ⟨⟨z, z1, z, z2, Spec.d_eq_zero.mpr rfl⟩, fun p _ q _ => Spec.d_nonneg p q⟩

/-- Non-vacuity of C35: two disjoint parallel segments at distance 5. -/
example : (Seg.ofXYXY (0:ℝ) 0 4 0).distSeg (Seg.ofXYXY 7 4 9 4) = 5 := by
  refine IsMinDistSets.unique (C35_dist_segment _ _) ⟨⟨(4, 0), ?_, (7, 4), ?_, ?_⟩, ?_⟩
  · exact seg_right_mem _ _
  · exact seg_left_mem _ _
  · exact Spec.d_eq_of_sq (by norm_num) (by norm_num)
  · rintro p hp q hq
    obtain ⟨t, t0, t1, tx, ty⟩ := mem_seg.mp hp
    obtain ⟨w, w0, w1, wx, wy⟩ := mem_seg.mp hq
    norm_num [Seg.ofXYXY, Vec.ofXY] at tx ty wx wy
    apply Real.le_sqrt_of_sq_le
    rw [tx, ty, wx, wy]; nlinarith

/-! ## C36 -/

/-- **C36.** -/
theorem C36_farthest_dist (s : Seg ℝ) (p : Vec ℝ) : IsMaxDist s.pts p.pt (s.farthestDist p) := by
  have e : s.farthestDist p = max (Spec.d p.pt s.origin.pt) (Spec.d p.pt s.terminal.pt) := by
    unfold Seg.farthestDist
    rw [pyMax_real, Vec.dist2_real, Vec.dist2_real, Spec.d_comm p.pt, Spec.d_comm p.pt]
    change √(max _ _) = _
    unfold Spec.d
    simp only [Vec.pt_fst, Vec.pt_snd]
    rcases le_total ((s.origin.x - p.x) ^ 2 + (s.origin.y - p.y) ^ 2)
      ((s.terminal.x - p.x) ^ 2 + (s.terminal.y - p.y) ^ 2) with h | h
    · rw [max_eq_right h, max_eq_right (Real.sqrt_le_sqrt h)]
    · rw [max_eq_left h, max_eq_left (Real.sqrt_le_sqrt h)]
  rw [e]
  constructor
  · rcases max_choice (Spec.d p.pt s.origin.pt) (Spec.d p.pt s.terminal.pt) with h | h
    · exact ⟨_, seg_left_mem _ _, h.symm⟩
    · exact ⟨_, seg_right_mem _ _, h.symm⟩
  · intro q hq
    obtain ⟨t, t0, t1, tx, ty⟩ := mem_seg.mp hq
    simp only [Vec.pt_fst, Vec.pt_snd] at tx ty
    rcases le_total ((p.x - s.origin.x) ^ 2 + (p.y - s.origin.y) ^ 2)
      ((p.x - s.terminal.x) ^ 2 + (p.y - s.terminal.y) ^ 2) with h | h
    · refine le_trans (Spec.d_le_d ?_) (le_max_right _ _)
      simp only [Vec.pt_fst, Vec.pt_snd]
      rw [tx, ty]
      have key : (p.x - (s.origin.x + t * (s.terminal.x - s.origin.x))) ^ 2 +
        (p.y - (s.origin.y + t * (s.terminal.y - s.origin.y))) ^ 2 =
        (1 - t) * ((p.x - s.origin.x) ^ 2 + (p.y - s.origin.y) ^ 2) +
        t * ((p.x - s.terminal.x) ^ 2 + (p.y - s.terminal.y) ^ 2) -
        t * (1 - t) * ((s.terminal.x - s.origin.x) ^ 2 + (s.terminal.y - s.origin.y) ^ 2) := by ring
      rw [key]
      have : 0 ≤ t * (1 - t) * ((s.terminal.x - s.origin.x) ^ 2 + (s.terminal.y - s.origin.y) ^ 2) :=
        mul_nonneg (mul_nonneg t0 (by linarith)) (by positivity)
      nlinarith [mul_le_mul_of_nonneg_left h (sub_nonneg.mpr t1)]
    · refine le_trans (Spec.d_le_d ?_) (le_max_left _ _)
      simp only [Vec.pt_fst, Vec.pt_snd]
      rw [tx, ty]
      have key : (p.x - (s.origin.x + t * (s.terminal.x - s.origin.x))) ^ 2 +
        (p.y - (s.origin.y + t * (s.terminal.y - s.origin.y))) ^ 2 =
        (1 - t) * ((p.x - s.origin.x) ^ 2 + (p.y - s.origin.y) ^ 2) +
        t * ((p.x - s.terminal.x) ^ 2 + (p.y - s.terminal.y) ^ 2) -
        t * (1 - t) * ((s.terminal.x - s.origin.x) ^ 2 + (s.terminal.y - s.origin.y) ^ 2) := by ring
      rw [key]
      have : 0 ≤ t * (1 - t) * ((s.terminal.x - s.origin.x) ^ 2 + (s.terminal.y - s.origin.y) ^ 2) :=
        mul_nonneg (mul_nonneg t0 (by linarith)) (by positivity)
      nlinarith [mul_le_mul_of_nonneg_left h t0]

/-- Non-vacuity of C36. -/
example : (Seg.ofXYXY (0:ℝ) 0 4 0).farthestDist (Vec.ofXY 1 4) = 5 := by
  refine IsMaxDist.unique (C36_farthest_dist _ _) ⟨⟨(4, 0), seg_right_mem _ _, ?_⟩, ?_⟩
  · exact Spec.d_eq_of_sq (by norm_num) (by norm_num [Vec.ofXY])
  · intro q hq
    obtain ⟨t, t0, t1, tx, ty⟩ := mem_seg.mp hq
    norm_num [Seg.ofXYXY, Vec.ofXY] at tx ty
    apply Real.sqrt_le_iff.mpr
    refine ⟨by norm_num, ?_⟩
    rw [tx, ty]; norm_num [Vec.ofXY]; nlinarith

/-! ## C37 -/

/-- `f` is the foot of the perpendicular from `p` to the line through `a` and `b`. -/
def Spec.IsFoot (a b p f : Pt) : Prop := f ∈ lineThrough a (b - a) ∧ dot (p - f) (b - a) = 0

theorem foot_exists {a b : Pt} (h : a ≠ b) (p : Pt) : ∃ f, IsFoot a b p f := by
  have hp := dir_pos h
  refine ⟨_, ⟨((b.1 - a.1) * (p.1 - a.1) + (b.2 - a.2) * (p.2 - a.2)) / ((b.1 - a.1) ^ 2 + (b.2 - a.2) ^ 2), rfl⟩, ?_⟩
  simp only [dot, Prod.fst_sub, Prod.snd_sub, Prod.fst_add, Prod.snd_add, Prod.smul_fst, Prod.smul_snd, smul_eq_mul]
  field_simp
  ring

theorem Seg.projection_real (s : Seg ℝ) (p : Vec ℝ) (h : EPSILON ≤ len (s.terminal.pt - s.origin.pt)) :
    let L := len (s.terminal.pt - s.origin.pt)
    let k := ((s.terminal.x - s.origin.x) * (p.x - s.origin.x) + (s.terminal.y - s.origin.y) * (p.y - s.origin.y)) / L
    s.projection p = if -EPSILON < k ∧ k < L + EPSILON then
      Vec.ofXY (s.origin.x + (s.terminal.x - s.origin.x) / L * k) (s.origin.y + (s.terminal.y - s.origin.y) / L * k)
      else Vec.invalid := by
  intro L k
  have hr : (s.terminal.sub s.origin).r = L := by rw [Vec.r_real]; rfl
  have hk : (Vec.ofXY ((s.terminal.sub s.origin).x / L) ((s.terminal.sub s.origin).y / L)).innerProduct
      (p.sub s.origin) = k := by
    simp only [Vec.innerProduct, Vec.ofXY_x, Vec.ofXY_y, Vec.sub_x, Vec.sub_y, k]; ring
  simp only [Seg.projection, hr, hk]
  rw [if_neg (not_lt.mpr h)]
  rfl

/-- **C37.** The foot exists (`foot_exists`) because the end points differ. -/
theorem C37_projection (s : Seg ℝ) (p : Vec ℝ) (f : Pt) (h : EPSILON ≤ s.length)
    (hf : IsFoot s.origin.pt s.terminal.pt p.pt f) :
    ((s.projection p).isValid = true ↔ ∃ q ∈ s.pts, Spec.d f q < EPSILON) ∧
    ((s.projection p).isValid = true → (s.projection p).pt = f) ∧
    (s.onSegmentWeakly p = true ↔
      (∃ q ∈ s.pts, Spec.d f q < EPSILON) ∧ |p.x - f.1| < EPSILON ∧ |p.y - f.2| < EPSILON) := by
  have e0 := EPSILON_pos
  have hlen : s.length = len (s.terminal.pt - s.origin.pt) := by
    unfold Seg.length; rw [Vec.dist_real, Spec.d_comm, Spec.d_eq_len]
  rw [hlen] at h
  have hpr := Seg.projection_real s p h
  simp only at hpr
  set L := len (s.terminal.pt - s.origin.pt) with hL
  have hLp : 0 < L := lt_of_lt_of_le e0 h
  obtain ⟨⟨τ, hτ⟩, hdot⟩ := hf
  set u := s.terminal.x - s.origin.x with hu
  set v := s.terminal.y - s.origin.y with hv
  have hL2 : L ^ 2 = u ^ 2 + v ^ 2 := by
    rw [hL, Spec.len_sq]; rfl
  have fx : f.1 = s.origin.x + τ * u := by rw [hτ]; rfl
  have fy : f.2 = s.origin.y + τ * v := by rw [hτ]; rfl
  have hd : (p.x - f.1) * u + (p.y - f.2) * v = 0 := hdot
  have hk : (u * (p.x - s.origin.x) + v * (p.y - s.origin.y)) / L = τ * L := by
    rw [div_eq_iff hLp.ne']
    rw [fx, fy] at hd
    linear_combination hd - τ * hL2
  rw [hk] at hpr
  have hcond : (-EPSILON < τ * L ∧ τ * L < L + EPSILON) ↔ ∃ q ∈ s.pts, Spec.d f q < EPSILON := by
    have hdist : ∀ t : ℝ, Spec.d f (s.origin.x + t * u, s.origin.y + t * v) = |τ - t| * L := by
      intro t
      apply Spec.d_eq_of_sq (by positivity)
      simp only
      rw [mul_pow, sq_abs, hL2, fx, fy]; ring
    constructor
    · rintro ⟨h1, h2⟩
      by_cases c0 : τ < 0
      · refine ⟨(s.origin.x + 0 * u, s.origin.y + 0 * v), mem_seg.mpr ⟨0, le_refl _, zero_le_one, rfl, rfl⟩, ?_⟩
        rw [hdist, sub_zero, abs_of_neg c0]; linarith
      by_cases c1 : 1 < τ
      · refine ⟨(s.origin.x + 1 * u, s.origin.y + 1 * v), mem_seg.mpr ⟨1, zero_le_one, le_refl _, rfl, rfl⟩, ?_⟩
        rw [hdist, abs_of_pos (by linarith)]; linarith
      · push Not at c0 c1
        refine ⟨(s.origin.x + τ * u, s.origin.y + τ * v), mem_seg.mpr ⟨τ, c0, c1, rfl, rfl⟩, ?_⟩
        rw [hdist, sub_self, abs_zero, zero_mul]; exact e0
    · rintro ⟨q, hq, hlt⟩
      obtain ⟨t, t0, t1, tx, ty⟩ := mem_seg.mp hq
      have : q = (s.origin.x + t * u, s.origin.y + t * v) := Prod.ext tx ty
      rw [this, hdist] at hlt
      have h1 : -(EPSILON) < (τ - t) * L ∧ (τ - t) * L < EPSILON := by
        rw [← abs_lt, abs_mul, abs_of_pos hLp]; exact hlt
      constructor
      · nlinarith [h1.1, mul_nonneg t0 hLp.le]
      · nlinarith [h1.2, mul_nonneg (sub_nonneg.mpr t1) hLp.le]
  have hpt : (-EPSILON < τ * L ∧ τ * L < L + EPSILON) → s.projection p = Vec.ofXY f.1 f.2 := by
    intro hc
    rw [hpr, if_pos hc, fx, fy]
    congr 1
    · field_simp
    · field_simp
  refine ⟨?_, ?_, ?_⟩
  · rw [← hcond]
    constructor
    · intro hv; by_contra hc; rw [hpr, if_neg hc] at hv; exact absurd hv (by simp [Vec.isValid])
    · intro hc; rw [hpt hc]; rfl
  · intro hv
    by_cases hc : -EPSILON < τ * L ∧ τ * L < L + EPSILON
    · rw [hpt hc]; rfl
    · rw [hpr, if_neg hc] at hv; exact absurd hv (by simp [Vec.isValid])
  · rw [← hcond]
    unfold Seg.onSegmentWeakly
    by_cases hc : -EPSILON < τ * L ∧ τ * L < L + EPSILON
    · rw [hpt hc]; simp only [Vec.ofXY_valid, Bool.true_and]; rw [Vec.equalsWeakly_iff]
      simp only [Vec.ofXY_x, Vec.ofXY_y, hc, true_and]
    · rw [hpr, if_neg hc]
      simp only [Vec.invalid_valid, Bool.false_and, Bool.false_eq_true, hc, false_and]

/-- **C37**, shorter segments: `projection` returns the origin. -/
theorem C37_tiny (s : Seg ℝ) (p : Vec ℝ) (h : s.length < EPSILON) : s.projection p = s.origin := by
  have hlen : s.length = (s.terminal.sub s.origin).r := by
    unfold Seg.length; rw [Vec.dist_real, Vec.r_real, Spec.d_comm, Spec.d_eq_len]; rfl
  rw [hlen] at h
  exact if_pos h

/-- Non-vacuity of C37: the foot of (1, 5) on the segment (0,0)–(4,0) is (1, 0). -/
example : ((Seg.ofXYXY (0:ℝ) 0 4 0).projection (Vec.ofXY 1 5)).isValid = true ∧
    ((Seg.ofXYXY (0:ℝ) 0 4 0).projection (Vec.ofXY 1 5)).pt = (1, 0) := by
  have hl : (Seg.ofXYXY (0:ℝ) 0 4 0).length = 4 := by
    unfold Seg.length; rw [Vec.dist_real]
    exact Spec.d_eq_of_sq (by norm_num) (by norm_num [Seg.ofXYXY, Vec.ofXY])
  have hfoot : IsFoot (Seg.ofXYXY (0:ℝ) 0 4 0).origin.pt (Seg.ofXYXY (0:ℝ) 0 4 0).terminal.pt (Vec.ofXY 1 5).pt (1, 0) := by
    refine ⟨⟨1 / 4, ?_⟩, ?_⟩
    · refine Prod.ext ?_ ?_ <;> norm_num [Seg.ofXYXY, Vec.ofXY, Vec.pt]
    · norm_num [Seg.ofXYXY, Vec.ofXY, Vec.pt, dot]
  have h := C37_projection (Seg.ofXYXY (0:ℝ) 0 4 0) (Vec.ofXY 1 5) (1, 0)
    (by rw [hl, EPSILON_real]; norm_num) hfoot
  have hv := h.1.mpr ⟨(1, 0), mem_seg.mpr ⟨1 / 4, by norm_num, by norm_num, by norm_num [Seg.ofXYXY, Vec.ofXY],
    by norm_num [Seg.ofXYXY, Vec.ofXY]⟩, by rw [Spec.d_eq_zero.mpr rfl]; exact EPSILON_pos⟩
  exact ⟨hv, h.2.1 hv⟩

/-! ## C38 -/

/-- `z` is within `√CALC_ERROR` (about `3.2e-5`) of a point of `S`, coordinate by coordinate. -/
def Spec.NearSet (S : Set Pt) (z : Pt) : Prop :=
  ∃ q ∈ S, |z.1 - q.1| ≤ √CALC_ERROR ∧ |z.2 - q.2| ≤ √CALC_ERROR

theorem Seg.contains_iff (s : Seg ℝ) (p : Vec ℝ) : s.contains p = true ↔
    (p.x - s.origin.x) * (p.x - s.terminal.x) ≤ CALC_ERROR ∧
    (p.y - s.origin.y) * (p.y - s.terminal.y) ≤ CALC_ERROR := by
  simp [Seg.contains]

theorem Seg.contains_of_mem (s : Seg ℝ) (p : Vec ℝ) (h : p.pt ∈ s.pts) : s.contains p = true := by
  have c0 := CALC_ERROR_pos
  rw [Seg.contains_iff]
  obtain ⟨t, t0, t1, tx, ty⟩ := mem_seg.mp h
  simp only [Vec.pt_fst, Vec.pt_snd] at tx ty
  rw [tx, ty]
  have : 0 ≤ t * (1 - t) := mul_nonneg t0 (by linarith)
  constructor
  · nlinarith [mul_nonneg this (sq_nonneg (s.terminal.x - s.origin.x))]
  · nlinarith [mul_nonneg this (sq_nonneg (s.terminal.y - s.origin.y))]

theorem near_of_box {o e t C : ℝ} (h : (o + t * (e - o) - o) * (o + t * (e - o) - e) ≤ C) :
    (t < 0 → |o + t * (e - o) - o| ≤ √C) ∧ (1 < t → |o + t * (e - o) - e| ≤ √C) := by
  have h' : t * (t - 1) * (e - o) ^ 2 ≤ C := by linarith [h, (by ring : (o + t * (e - o) - o) *
    (o + t * (e - o) - e) = t * (t - 1) * (e - o) ^ 2)]
  constructor
  · intro ht
    apply Real.abs_le_sqrt
    nlinarith [mul_nonneg (neg_nonneg.mpr ht.le) (sq_nonneg (e - o))]
  · intro ht
    apply Real.abs_le_sqrt
    nlinarith [mul_nonneg (sub_nonneg.mpr ht.le) (sq_nonneg (e - o))]

theorem Seg.near_of_contains (s : Seg ℝ) (p : Vec ℝ) (hs : s.NonDeg) (hl : p.pt ∈ s.line.pts)
    (h : s.contains p = true) : NearSet s.pts p.pt := by
  rw [Seg.contains_iff] at h
  unfold Seg.line at hl
  rw [C20_two_points _ _ hs] at hl
  obtain ⟨t, ht⟩ := hl
  have hx : p.x = s.origin.x + t * (s.terminal.x - s.origin.x) := congrArg Prod.fst ht
  have hy : p.y = s.origin.y + t * (s.terminal.y - s.origin.y) := congrArg Prod.snd ht
  rw [hx, hy] at h
  have n1 := near_of_box h.1
  have n2 := near_of_box h.2
  by_cases c0 : t < 0
  · refine ⟨s.origin.pt, seg_left_mem _ _, ?_, ?_⟩
    · simp only [Vec.pt_fst]; rw [hx]; exact n1.1 c0
    · simp only [Vec.pt_snd]; rw [hy]; exact n2.1 c0
  by_cases c1 : 1 < t
  · refine ⟨s.terminal.pt, seg_right_mem _ _, ?_, ?_⟩
    · simp only [Vec.pt_fst]; rw [hx]; exact n1.2 c1
    · simp only [Vec.pt_snd]; rw [hy]; exact n2.2 c1
  push Not at c0 c1
  refine ⟨p.pt, mem_seg.mpr ⟨t, c0, c1, hx, hy⟩, ?_, ?_⟩ <;> simp

theorem Seg.line_parallel (s : Seg ℝ) (l : Line ℝ) : s.line.isParallel l = false ↔
    EPSILON ≤ |(s.terminal.x - s.origin.x) * l.a + (s.terminal.y - s.origin.y) * l.b| := by
  rw [← Bool.not_eq_true, Line.isParallel_iff, not_lt]
  have : s.line.a * l.b - l.a * s.line.b = -((s.terminal.x - s.origin.x) * l.a + (s.terminal.y - s.origin.y) * l.b) := by
    simp only [Seg.line, Line.ofPoints]; ring
  rw [this, abs_neg]

theorem Seg.mem_line (s : Seg ℝ) {z : Pt} (h : z ∈ s.pts) : z ∈ s.line.pts := by
  obtain ⟨t, -, -, tx, ty⟩ := mem_seg.mp h
  rw [Line.mem_pts]
  simp only [Seg.line, Line.ofPoints, tx, ty, Vec.pt_fst, Vec.pt_snd]; ring

/-- **C38**, segment and line: what a valid result is. -/
theorem C38_line_sound (s : Seg ℝ) (l : Line ℝ) (h : (s.intersectionLine l).isValid = true) :
    s.line.pts ∩ l.pts = {(s.intersectionLine l).pt} ∧ NearSet s.pts (s.intersectionLine l).pt ∧
    EPSILON ≤ |(s.terminal.x - s.origin.x) * l.a + (s.terminal.y - s.origin.y) * l.b| := by
  unfold Seg.intersectionLine at h ⊢
  simp only at h ⊢
  by_cases hc : (!(s.line.intersection l).valid || !s.contains (s.line.intersection l)) = true
  · rw [if_pos hc] at h; exact absurd h (by simp [Vec.isValid])
  rw [if_neg hc]
  simp only [Bool.or_eq_true, Bool.not_eq_true', not_or, Bool.not_eq_false] at hc
  have h21 := C21_intersection s.line l
  have hi := h21.2.1 hc.1
  have hpar := h21.1.mp hc.1
  have hpar' := (Seg.line_parallel s l).mp hpar
  refine ⟨hi, ?_, hpar'⟩
  have hmem : (s.line.intersection l).pt ∈ s.line.pts := by
    have : (s.line.intersection l).pt ∈ s.line.pts ∩ l.pts := by rw [hi]; rfl
    exact this.1
  refine Seg.near_of_contains s _ ?_ hmem hc.2
  intro hd
  rw [Vec.pt_eq_iff] at hd
  rw [hd.1, hd.2] at hpar'
  simp only [sub_self, zero_mul, add_zero, abs_zero] at hpar'
  exact absurd hpar' (not_le.mpr EPSILON_pos)

/-- **C38**, segment and line: a common point is found. -/
theorem C38_line_complete (s : Seg ℝ) (l : Line ℝ) (z : Pt) (hz : z ∈ s.pts) (hl : z ∈ l.pts)
    (hp : EPSILON ≤ |(s.terminal.x - s.origin.x) * l.a + (s.terminal.y - s.origin.y) * l.b|) :
    (s.intersectionLine l).isValid = true ∧ (s.intersectionLine l).pt = z := by
  have h21 := C21_intersection s.line l
  have hv := h21.1.mpr ((Seg.line_parallel s l).mpr hp)
  have hi := h21.2.1 hv
  have hzz : z = (s.line.intersection l).pt := by
    have : z ∈ s.line.pts ∩ l.pts := ⟨Seg.mem_line s hz, hl⟩
    rw [hi] at this; exact this
  have hc := Seg.contains_of_mem s (s.line.intersection l) (hzz ▸ hz)
  unfold Seg.intersectionLine
  simp only
  rw [if_neg (by rw [hc]; simpa [Vec.isValid] using hv)]
  exact ⟨hv, hzz.symm⟩

theorem Seg.line_parallel_seg (s o : Seg ℝ) : s.line.isParallel o.line = false ↔
    EPSILON ≤ |cross (s.terminal.pt - s.origin.pt) (o.terminal.pt - o.origin.pt)| := by
  rw [Seg.line_parallel]
  have : (s.terminal.x - s.origin.x) * o.line.a + (s.terminal.y - s.origin.y) * o.line.b =
      -cross (s.terminal.pt - s.origin.pt) (o.terminal.pt - o.origin.pt) := by
    simp only [Seg.line, Line.ofPoints, cross, Prod.fst_sub, Prod.snd_sub, Vec.pt_fst, Vec.pt_snd]; ring
  rw [this, abs_neg]

theorem Seg.nonDeg_of_cross {s o : Seg ℝ}
    (h : EPSILON ≤ |cross (s.terminal.pt - s.origin.pt) (o.terminal.pt - o.origin.pt)|) : s.NonDeg ∧ o.NonDeg := by
  have e0 := EPSILON_pos
  constructor
  · intro hd
    rw [hd] at h; simp [cross] at h; linarith
  · intro hd
    rw [hd] at h; simp [cross] at h; linarith

/-- **C38**, two segments with end points allowed. -/
theorem C38_seg_sound (s o : Seg ℝ) (allow : Bool) (h : (s.intersectionSeg o allow).isValid = true) :
    s.line.pts ∩ o.line.pts = {(s.intersectionSeg o allow).pt} ∧
    NearSet s.pts (s.intersectionSeg o allow).pt ∧ NearSet o.pts (s.intersectionSeg o allow).pt ∧
    EPSILON ≤ |cross (s.terminal.pt - s.origin.pt) (o.terminal.pt - o.origin.pt)| ∧
    (allow = false → (s.intersectionSeg o allow).pt ∈ openSegment ℝ s.origin.pt s.terminal.pt ∧
      (s.intersectionSeg o allow).pt ∈ openSegment ℝ o.origin.pt o.terminal.pt) := by
  unfold Seg.intersectionSeg at h ⊢
  simp only at h ⊢
  by_cases hc : (!(s.line.intersection o.line).valid || !s.contains (s.line.intersection o.line) ||
      !o.contains (s.line.intersection o.line)) = true
  · rw [if_pos hc] at h; exact absurd h (by simp [Vec.isValid])
  rw [if_neg hc] at h ⊢
  by_cases hc2 : (!allow && !s.existIntersectionExceptEndpoint o) = true
  · rw [if_pos hc2] at h; exact absurd h (by simp [Vec.isValid])
  rw [if_neg hc2]
  simp only [Bool.or_eq_true, Bool.not_eq_true', not_or, Bool.not_eq_false] at hc
  obtain ⟨⟨c1, c2⟩, c3⟩ := hc
  have h21 := C21_intersection s.line o.line
  have hi := h21.2.1 c1
  have hpar := (Seg.line_parallel_seg s o).mp (h21.1.mp c1)
  have hnd := Seg.nonDeg_of_cross hpar
  have hmem : (s.line.intersection o.line).pt ∈ s.line.pts ∩ o.line.pts := by rw [hi]; rfl
  refine ⟨hi, Seg.near_of_contains s _ hnd.1 hmem.1 c2, Seg.near_of_contains o _ hnd.2 hmem.2 c3, hpar, ?_⟩
  intro ha
  rw [ha] at hc2
  simp only [Bool.not_false, Bool.true_and, Bool.not_eq_true', Bool.not_eq_false] at hc2
  obtain ⟨_, z, z1, z2⟩ := (C32_except_endpoint s o).mp hc2
  have : z ∈ s.line.pts ∩ o.line.pts :=
    ⟨Seg.mem_line s (openSegment_subset_segment ℝ _ _ z1), Seg.mem_line o (openSegment_subset_segment ℝ _ _ z2)⟩
  rw [hi] at this
  have e : z = (s.line.intersection o.line).pt := this
  rw [← e]; exact ⟨z1, z2⟩

/-- **C38**, two segments: a common point is found (a common inner point when end points are disallowed). -/
theorem C38_seg_complete (s o : Seg ℝ) (allow : Bool) (z : Pt) (hz : z ∈ s.pts) (hzo : z ∈ o.pts)
    (ha : allow = false → z ∈ openSegment ℝ s.origin.pt s.terminal.pt ∧ z ∈ openSegment ℝ o.origin.pt o.terminal.pt)
    (hp : EPSILON ≤ |cross (s.terminal.pt - s.origin.pt) (o.terminal.pt - o.origin.pt)|) :
    (s.intersectionSeg o allow).isValid = true ∧ (s.intersectionSeg o allow).pt = z := by
  have h21 := C21_intersection s.line o.line
  have hv := h21.1.mpr ((Seg.line_parallel_seg s o).mpr hp)
  have hi := h21.2.1 hv
  have hzz : z = (s.line.intersection o.line).pt := by
    have : z ∈ s.line.pts ∩ o.line.pts := ⟨Seg.mem_line s hz, Seg.mem_line o hzo⟩
    rw [hi] at this; exact this
  have c2 := Seg.contains_of_mem s (s.line.intersection o.line) (hzz ▸ hz)
  have c3 := Seg.contains_of_mem o (s.line.intersection o.line) (hzz ▸ hzo)
  have hv' : (s.line.intersection o.line).valid = true := hv
  unfold Seg.intersectionSeg
  simp only
  rw [if_neg (by rw [c2, c3, hv']; simp)]
  have hall : ¬ (!allow && !s.existIntersectionExceptEndpoint o) = true := by
    cases allow with
    | true => simp
    | false =>
      have : s.existIntersectionExceptEndpoint o = true := by
        rw [C32_except_endpoint]
        refine ⟨?_, z, ha rfl⟩
        rintro ⟨x, y, w, hxy, p1, p2, p3, p4⟩
        simp only [lineSet, Set.mem_ofPred_eq] at p1 p2 p3 p4
        have hz0 : cross (s.terminal.pt - s.origin.pt) (o.terminal.pt - o.origin.pt) = 0 := by
          simp only [cross, Prod.fst_sub, Prod.snd_sub]
          rcases hxy with h | h
          · apply mul_left_cancel₀ h
            linear_combination (o.terminal.pt.2 - o.origin.pt.2) * (p2 - p1) -
              (s.terminal.pt.2 - s.origin.pt.2) * (p4 - p3)
          · apply mul_left_cancel₀ h
            linear_combination (-(o.terminal.pt.1 - o.origin.pt.1)) * (p2 - p1) +
              (s.terminal.pt.1 - s.origin.pt.1) * (p4 - p3)
        rw [hz0, abs_zero] at hp
        exact absurd hp (not_le.mpr EPSILON_pos)
      simp [this]
  rw [if_neg hall]
  exact ⟨hv, hzz.symm⟩

/-- Non-vacuity of C38: a cross of two diagonals, end points disallowed. -/
example : ((Seg.ofXYXY (0:ℝ) 0 2 2).intersectionSeg (Seg.ofXYXY 0 2 2 0) false).isValid = true ∧
    ((Seg.ofXYXY (0:ℝ) 0 2 2).intersectionSeg (Seg.ofXYXY 0 2 2 0) false).pt = (1, 1) := by
  have m1 : ((1, 1) : Pt) ∈ openSegment ℝ (Seg.ofXYXY (0:ℝ) 0 2 2).origin.pt (Seg.ofXYXY (0:ℝ) 0 2 2).terminal.pt :=
    mem_openSeg.mpr ⟨1 / 2, by norm_num, by norm_num, by norm_num [Seg.ofXYXY, Vec.ofXY], by
      norm_num [Seg.ofXYXY, Vec.ofXY]⟩
  have m2 : ((1, 1) : Pt) ∈ openSegment ℝ (Seg.ofXYXY (0:ℝ) 2 2 0).origin.pt (Seg.ofXYXY (0:ℝ) 2 2 0).terminal.pt :=
    mem_openSeg.mpr ⟨1 / 2, by norm_num, by norm_num, by norm_num [Seg.ofXYXY, Vec.ofXY], by
      norm_num [Seg.ofXYXY, Vec.ofXY]⟩
  refine C38_seg_complete _ _ false (1, 1) (openSegment_subset_segment ℝ _ _ m1)
    (openSegment_subset_segment ℝ _ _ m2) (fun _ => ⟨m1, m2⟩) ?_
  rw [EPSILON_real]; norm_num [Seg.ofXYXY, Vec.ofXY, cross, Vec.pt]

/-! ## C39 -/

theorem Seg.swap_pts (s : Seg ℝ) : s.swap.pts = s.pts := segment_symm ℝ _ _

/-- **C39.** -/
theorem C39_orientation (s o : Seg ℝ) (p : Vec ℝ) (l : Line ℝ) :
    s.swap.origin = s.terminal ∧ s.swap.terminal = s.origin ∧ s.swap.swap = s ∧ s.swap.pts = s.pts ∧
    s.reversedSegment.origin.pt = s.terminal.pt ∧ s.reversedSegment.terminal.pt = s.origin.pt ∧
    s.swap.length = s.length ∧ s.swap.contains p = s.contains p ∧ s.swap.onSegment p = s.onSegment p ∧
    s.swap.existIntersection o = s.existIntersection o ∧ s.existIntersection o.swap = s.existIntersection o ∧
    s.swap.existIntersectionLine l = s.existIntersectionLine l ∧
    s.swap.existIntersectionExceptEndpoint o = s.existIntersectionExceptEndpoint o ∧
    s.swap.distPoint p = s.distPoint p ∧ s.swap.distSeg o = s.distSeg o ∧ s.distSeg o.swap = s.distSeg o ∧
    s.swap.farthestDist p = s.farthestDist p := by
  refine ⟨rfl, rfl, rfl, s.swap_pts, rfl, rfl, ?_, ?_, ?_, ?_, ?_, ?_, ?_, ?_, ?_, ?_, ?_⟩
  · unfold Seg.length; rw [Vec.dist_real, Vec.dist_real, Spec.d_comm]; rfl
  · rw [Bool.eq_iff_iff, Seg.contains_iff, Seg.contains_iff]
    simp only [Seg.swap]
    rw [mul_comm (p.x - s.terminal.x), mul_comm (p.y - s.terminal.y)]
  · rw [Bool.eq_iff_iff]
    by_cases h : s.NonDeg
    · rw [C29_on_segment_partial s p h, C29_on_segment_partial s.swap p (Ne.symm h), s.swap_pts]
    · have h' : ¬ s.swap.NonDeg := fun hc => h (Ne.symm hc)
      rw [C29_degenerate s p h, C29_degenerate s.swap p h']
      unfold Seg.NonDeg at h; push Not at h; rw [Vec.pt_eq_iff] at h
      simp only [Seg.swap]; rw [h.2]
  · rw [Bool.eq_iff_iff, C30_exist_intersection, C30_exist_intersection, s.swap_pts]
  · rw [Bool.eq_iff_iff, C30_exist_intersection, C30_exist_intersection, o.swap_pts]
  · rw [Bool.eq_iff_iff, C31_exist_intersection_line, C31_exist_intersection_line, s.swap_pts]
  · rw [Bool.eq_iff_iff, Seg.except_iff, Seg.except_iff]
    simp only [Seg.swap]
    have e1 : area2 s.terminal.pt s.origin.pt o.origin.pt = -area2 s.origin.pt s.terminal.pt o.origin.pt := by
      unfold area2; ring
    have e2 : area2 s.terminal.pt s.origin.pt o.terminal.pt = -area2 s.origin.pt s.terminal.pt o.terminal.pt := by
      unfold area2; ring
    rw [e1, e2, neg_mul_neg, mul_comm (area2 o.origin.pt o.terminal.pt s.terminal.pt)]
  · refine IsMinDist.unique (C34_dist_point s.swap p).1 ?_
    rw [s.swap_pts]; exact (C34_dist_point s p).1
  · refine IsMinDistSets.unique (C35_dist_segment s.swap o) ?_
    rw [s.swap_pts]; exact C35_dist_segment s o
  · refine IsMinDistSets.unique (C35_dist_segment s o.swap) ?_
    rw [o.swap_pts]; exact C35_dist_segment s o
  · refine IsMaxDist.unique (C36_farthest_dist s.swap p) ?_
    rw [s.swap_pts]; exact C36_farthest_dist s p

/-- Non-vacuity of C39: reversing (0,0)–(4,2) really exchanges two different end points. -/
example : (Seg.ofXYXY (0:ℝ) 0 4 2).swap.origin.pt = (4, 2) ∧ (Seg.ofXYXY (0:ℝ) 0 4 2).origin.pt = (0, 0) := ⟨rfl, rfl⟩

end PyrusGeom
