import Verif.Props.Mirror
import Verif.Props.PolygonParity

/-! # Property C175, continued: containment in the mirror image of a polygon, and where the code is not symmetric -/

namespace PyrusGeom
open Spec

/-- The mirror as an affine map. -/
noncomputable def Mat.mirror (s t : Bool) : Mat ℝ := ⟨if s then -1 else 1, 0, 0, if t then -1 else 1, 0, 0⟩

theorem Mat.mirror_det (s t : Bool) : (Mat.mirror s t).det ≠ 0 := by
  unfold Mat.mirror Mat.det
  cases s <;> cases t <;> norm_num

theorem Mat.mirror_pt (s t : Bool) (v : Vec ℝ) : ((Mat.mirror s t).transform v).pt = (v.flip s t).pt := by
  rw [Mat.transform_pt]
  unfold Mat.mirror Mat.map affine Vec.flip Vec.pt sg
  cases s <;> cases t <;> simp

theorem Poly.contains_of_pts {g h : Poly ℝ} {p q : Vec ℝ} (hg : g.pts = h.pts) (hp : p.pt = q.pt) :
    g.contains p true = h.contains q true := by
  rw [Bool.eq_iff_iff, C73_parity, C73_parity]
  unfold Poly.crossings
  rw [hg, hp]

theorem Poly.flip_pts (s t : Bool) (g : Poly ℝ) : (g.flip s t).pts = g.pts.map (Mat.mirror s t).map := by
  unfold Poly.flip Poly.pts
  rw [List.map_map, List.map_map]
  refine List.map_congr_left fun v _ => ?_
  exact (Mat.mirror_pt s t v).symm

theorem Poly.flip_outline (s t : Bool) (g : Poly ℝ) (p : Vec ℝ) :
    (p.flip s t).pt ∈ outline (g.flip s t).pts ↔ p.pt ∈ outline g.pts := by
  rw [Poly.flip_pts, ← Mat.mirror_pt, Mat.transform_pt, outline_map _ (Mat.mirror_det s t)]

/-- **C175** `contains(p, True)` of the mirrored polygon, for a point off the outline. -/
theorem C175_contains_partial (s t : Bool) (g : Poly ℝ) (p : Vec ℝ) (h : p.pt ∉ outline g.pts) :
    (g.flip s t).contains (p.flip s t) true = g.contains p true := by
  have := (C152_transform (Mat.mirror s t) (Mat.mirror_det s t) g.vertices p h).1
  rw [show Poly.ofList g.vertices = g from rfl] at this
  rw [← this]
  refine Poly.contains_of_pts ?_ (Mat.mirror_pt s t p).symm
  rw [Poly.flip_pts]
  unfold Poly.pts Poly.ofList
  rw [List.map_map, List.map_map]
  rfl

/-- **C175** `contains(p, False)` of the mirrored polygon: the same for every polygon, also one with repeated vertices, and every point. -/
theorem C175_contains_strict (s t : Bool) (g : Poly ℝ) (p : Vec ℝ) :
    (g.flip s t).contains (p.flip s t) false = g.contains p false := by
  by_cases h : p.pt ∈ outline g.pts
  · rw [C74_strict g p h, C74_strict _ _ ((Poly.flip_outline s t g p).mpr h)]
  · have h' := (Poly.flip_outline s t g p).not.mpr h
    have hc := C175_contains_partial s t g p h
    rw [Bool.eq_iff_iff, C73_odd g p h, C73_odd _ _ h'] at hc
    rw [Bool.eq_iff_iff, C73_parity_strict, C73_parity_strict, hc]
    refine and_congr_left fun _ => ?_
    have hv : (g.flip s t).vertices = g.vertices.map (Vec.flip s t) := rfl
    rw [hv, cyclicPairs_flip]
    simp only [List.forall_mem_map]
    refine forall₂_congr fun e _ => ?_
    have := (C175_segment s t false false (Seg.ofPoints e.1 e.2) (Seg.ofPoints e.1 e.2) ⟨0, 0, 0⟩ p).2.2.1
    exact iff_of_eq (congrArg (· = false) this)

/-- **C175** `dist(p)` with the plane check, for a point off the outline. -/
theorem C175_dist_partial (s t : Bool) (g : Poly ℝ) (p : Vec ℝ) (h : p.pt ∉ outline g.pts) :
    (g.flip s t).dist (p.flip s t) true = g.dist p true := by
  have hc := C175_contains_partial s t g p h
  have hd := (C175_polygon s t g p).2.2.2.2
  rcases g with ⟨_ | ⟨a, _ | ⟨b, r⟩⟩⟩
  · simp only [Poly.dist, Poly.flip, List.map_nil, Bool.true_and, Bool.false_and] at hd hc ⊢
    rw [hc]; split <;> rfl
  · exact hd
  · simp only [Poly.dist, Poly.flip, List.map_cons, Bool.true_and, Bool.false_and, Bool.false_eq_true, if_false] at hd hc ⊢
    rw [hc]
    split
    · rfl
    · exact hd

/-- **C175** is false for points on the outline: the middle of the left side of a square is not contained, but it is after mirroring
the x coordinates. -/
theorem C175_contains_refuted : ∃ (g : Poly ℝ) (p : Vec ℝ), g.contains p true = false ∧ (g.flip true false).contains (p.flip true false) true = true := by
  refine ⟨Poly.square4, Vec.ofXY 0 2, ?_, ?_⟩
  · rw [← Bool.not_eq_true, C73_parity, Poly.square4_crossings]
    norm_num [crosses_iff, area2, Poly.square4_pts]
  · rw [C73_parity]
    right
    unfold Poly.crossings
    rw [Poly.flip_pts, Poly.square4_pts, ← Mat.mirror_pt, Mat.transform_pt]
    norm_num [Mat.mirror, Mat.map, affine, Vec.pt, Vec.ofXY, cyclicPairs, count_cons, crosses_iff, area2]

/-- **C175** is false for the perpendicular bisector of two points within EPSILON of each other: the line through the first point, for
which the code takes the difference of y but a step of 1 in x, is not mirrored. -/
theorem C175_bisector_refuted : ∃ p q v : Vec ℝ,
    (Line.perpendicularBisector p q).a * v.x + (Line.perpendicularBisector p q).b * v.y + (Line.perpendicularBisector p q).c = 0 ∧
    (Line.perpendicularBisector (p.flip true false) (q.flip true false)).a * (v.flip true false).x +
      (Line.perpendicularBisector (p.flip true false) (q.flip true false)).b * (v.flip true false).y +
      (Line.perpendicularBisector (p.flip true false) (q.flip true false)).c ≠ 0 := by
  refine ⟨Vec.ofXY 0 0, Vec.ofXY 0 (1 / 10000000), Vec.ofXY 1 (1 / 10000000), ?_, ?_⟩ <;>
  · unfold Line.perpendicularBisector
    rw [if_pos (by simp [fabs_real, EPSILON, Vec.ofXY, Vec.flip, sg, abs_of_pos]; norm_num)]
    norm_num [Line.ofPoints, Vec.ofXY, Vec.flip, sg]

/-- C175 covers rounded arithmetic and the special values. -/
example : OddNum ℝ ∧ OddNum (FP double) ∧ OddNum Ieee := ⟨inferInstance, inferInstance, inferInstance⟩

/-- Non-vacuity of C175: the mirror images of a triangle and a point, with the results. -/
example : (Vec.ofXY (1 : ℝ) 2).flip true false = Vec.ofXY (-1) 2 ∧
    ((Vec.ofXY (1 : ℝ) 2).flip true false).outerProduct ((Vec.ofXY 3 4).flip true false) = 2 ∧
    (Vec.ofXY (1 : ℝ) 2).outerProduct (Vec.ofXY 3 4) = -2 := by
  norm_num [Vec.flip, sg, Vec.ofXY, Vec.outerProduct]

example : (Poly.square4.flip true false).contains ((Vec.ofXY 2 2).flip true false) false = true := by
  rw [C175_contains_strict, (C73_convex Poly.square4 Poly.square4_convex (Vec.ofXY 2 2)).2, ← Poly.square4_convex.leftOfAll_eq]
  change _ ∈ leftOfAll _
  unfold leftOfAll
  rw [Poly.square4_pairs]
  norm_num [area2, Vec.pt, Vec.ofXY]

example : (Poly.square4.flip true false).doubleSignedArea = -32 := by
  rw [(C175_polygon true false Poly.square4 Vec.zero).1]
  norm_num [sg, Poly.square4, Poly.ofList, Poly.doubleSignedArea, cyclicPairs, Vec.ofXY]

end PyrusGeom
