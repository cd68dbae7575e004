import Verif.Props.Area
import Verif.Props.Graham
import Verif.Props.HullInput
import Mathlib.Analysis.Convex.Extreme
import Mathlib.Analysis.Convex.Topology

/-! C171: the polygon of a computed hull. Its area is the measure of the convex hull of the input, its vertices are the extreme points,
and its outline is the boundary. -/

namespace PyrusGeom

open Spec MeasureTheory Hull

/-! ## Strictly convex polygons -/

theorem Spec.StrictConvex.simple {l : List Pt} (H : StrictConvex l) : Simple l := by
  have key : ∀ e ∈ cyclicPairs l, ∀ f ∈ cyclicPairs l, e ≠ f → ∀ z, z ∈ segment ℝ e.1 e.2 → z ∈ segment ℝ f.1 f.2 →
      z = e.1 ∨ z = e.2 := by
    intro e he f hf hne z hz hz'
    by_cases h1 : z = e.1
    · exact Or.inl h1
    by_cases h2 : z = e.2
    · exact Or.inr h2
    · have h := mem_openSegment_of_ne_left_right (Ne.symm h1) (Ne.symm h2) hz
      refine absurd (H.edge_point he hf h ?_).symm hne
      obtain ⟨s, t, -, -, hst, rfl⟩ := hz'
      rw [area2_affine _ _ _ _ _ _ hst]
      unfold area2; ring
  refine ⟨H.three, H.nodup, fun e he f hf hne z hz hz' => ?_⟩
  rcases key e he f hf hne z hz hz' with h1 | h1 <;> rcases key f hf e he hne.symm z hz' hz with h2 | h2
  · exact absurd (H.fst_inj he hf (h1 ▸ h2)) hne
  · exact Or.inr ⟨h1, h2⟩
  · exact Or.inl ⟨h1, h2⟩
  · exact absurd (H.snd_inj he hf (h1 ▸ h2)) hne

/-- The inside of a strictly convex polygon. -/
theorem Spec.StrictConvex.interior_eq {poly : Poly ℝ} (H : StrictConvex poly.pts) :
    {z : Pt | z ∉ outline poly.pts ∧ poly.contains (Vec.ofXY z.1 z.2) true = true} = interior (convexHull ℝ {z | z ∈ poly.pts}) := by
  ext z
  constructor
  · rintro ⟨h1, h2⟩
    exact ((C73_convex poly H (Vec.ofXY z.1 z.2)).1 h1).mp h2
  · intro h
    have h1 : z ∉ outline poly.pts := by
      rw [← H.leftOfAll_eq] at h
      exact fun ho => H.leftOfAll_disjoint h ho
    exact ⟨h1, ((C73_convex poly H (Vec.ofXY z.1 z.2)).1 h1).mpr h⟩

/-- **C171** The boundary of the convex hull of the vertices is the outline. -/
theorem C171_frontier (poly : Poly ℝ) (H : StrictConvex poly.pts) :
    frontier (convexHull ℝ {z | z ∈ poly.pts}) = outline poly.pts := by
  obtain ⟨⟨h1, -, h2⟩, -⟩ := C168_two_sides poly H.simple true
  rw [H.interior_eq] at h1 h2
  have hc := (convex_convexHull ℝ {z : Pt | z ∈ poly.pts}).closure_interior_eq_closure_of_nonempty_interior h1.nonempty
  rw [← h2, frontier, frontier, hc, interior_interior]

theorem shoelace_about (l : List Pt) (p : Pt) : shoelace l = ((cyclicPairs l).map fun e => area2 e.1 e.2 p).sum := by
  have h : ∀ E : List (Pt × Pt), (E.map fun e => area2 e.1 e.2 p).sum = (E.map fun e => cross e.1 e.2).sum +
      (E.map fun e => cross e.2 p).sum - (E.map fun e => cross e.1 p).sum := by
    intro E
    induction E with
    | nil => simp
    | cons e E ih =>
      simp only [List.map_cons, List.sum_cons, ih]
      simp only [area2, cross]; ring
  rw [h, sum_fst_eq_snd l (fun z => cross z p), shoelace]; ring

/-- **C171** The area of a strictly convex polygon is the measure of the convex hull of its vertices. -/
theorem C171_area (poly : Poly ℝ) (H : StrictConvex poly.pts) :
    volume (convexHull ℝ {z | z ∈ poly.pts}) = ENNReal.ofReal poly.area ∧ 0 < poly.area ∧ poly.isCounterClockwise = true := by
  obtain ⟨c, hc, -, hpos, hd, hv⟩ := H.simple.area
  have hcl : IsClosed (convexHull ℝ {z : Pt | z ∈ poly.pts}) :=
    ((List.finite_toSet poly.pts).isCompact_convexHull (𝕜 := ℝ)).isClosed
  refine ⟨?_, hpos, ?_⟩
  · rw [← hv true]
    refine measure_congr ?_
    have hoff : ∀ᵐ z : Pt, z ∉ outline poly.pts := measure_eq_zero_iff_ae_notMem.mp (volume_outline _)
    filter_upwards [hoff] with z hz
    refine propext ?_
    change z ∈ convexHull ℝ {z | z ∈ poly.pts} ↔ poly.contains (Vec.ofXY z.1 z.2) true = true
    rw [(C73_convex poly H (Vec.ofXY z.1 z.2)).1 hz]
    change _ ↔ z ∈ _
    rw [← C171_frontier poly H, hcl.frontier_eq] at hz
    exact ⟨fun h => by_contra fun h' => hz ⟨h, h'⟩, fun h => interior_subset h⟩
  · have h1 : 0 < poly.doubleSignedArea := by
      obtain ⟨p, hp, -⟩ := H.third 0 0
      have h0 : 0 ≤ poly.doubleSignedArea := by
        rw [C72_shoelace, shoelace_about _ p]
        refine List.sum_nonneg fun x hx => ?_
        obtain ⟨e, he, rfl⟩ := List.mem_map.mp hx
        exact H.weak he hp
      refine lt_of_le_of_ne h0 fun h => ?_
      rw [(C72_area poly).1, ← h] at hpos
      simp at hpos
    simpa [Poly.isCounterClockwise] using h1

/-- **C171** The vertices of a strictly convex polygon are the extreme points of their convex hull. -/
theorem C171_extreme {l : List Pt} (H : StrictConvex l) : (convexHull ℝ {z | z ∈ l}).extremePoints ℝ = {z | z ∈ l} := by
  refine Set.Subset.antisymm extremePoints_convexHull_subset fun m hm => ?_
  obtain ⟨k, n, hk, hn, ht⟩ := H.turn hm
  rw [mem_extremePoints]
  refine ⟨subset_convexHull ℝ _ hm, ?_⟩
  have key : ∀ x ∈ convexHull ℝ {z | z ∈ l}, ∀ y ∈ convexHull ℝ {z | z ∈ l}, m ∈ openSegment ℝ x y → x = m := by
    rintro x hx y hy ⟨s, t, hs, ht', hst, hm'⟩
    have z1 : area2 k m x = 0 := by
      have a1 := H.hull hk hx
      have a2 := H.hull hk hy
      simp only at a1 a2
      have a3 : s * area2 k m x + t * area2 k m y = 0 := by
        rw [← area2_affine _ _ _ _ _ _ hst, hm']; unfold area2; ring
      have := mul_nonneg hs.le a1; have := mul_nonneg ht'.le a2
      exact (mul_eq_zero.mp (show s * area2 k m x = 0 by linarith)).resolve_left hs.ne'
    have z2 : area2 m n x = 0 := by
      have a1 := H.hull hn hx
      have a2 := H.hull hn hy
      simp only at a1 a2
      have a3 : s * area2 m n x + t * area2 m n y = 0 := by
        rw [← area2_affine _ _ _ _ _ _ hst, hm']; unfold area2; ring
      have := mul_nonneg hs.le a1; have := mul_nonneg ht'.le a2
      exact (mul_eq_zero.mp (show s * area2 m n x = 0 by linarith)).resolve_left hs.ne'
    have e1 : area2 k m n * (x.1 - m.1) = 0 := by
      have : area2 k m n * (x.1 - m.1) = (n.1 - m.1) * area2 k m x - (k.1 - m.1) * area2 m n x * (-1) := by unfold area2; ring
      rw [this, z1, z2]; ring
    have e2 : area2 k m n * (x.2 - m.2) = 0 := by
      have : area2 k m n * (x.2 - m.2) = (n.2 - m.2) * area2 k m x - (k.2 - m.2) * area2 m n x * (-1) := by unfold area2; ring
      rw [this, z1, z2]; ring
    ext
    · have := (mul_eq_zero.mp e1).resolve_left ht.ne'; linarith
    · have := (mul_eq_zero.mp e2).resolve_left ht.ne'; linarith
  exact fun x hx y hy h => ⟨key x hx y hy h, key y hy x hx (by rwa [openSegment_symm])⟩

/-! ## Computed hulls -/

/-- **C171** Gift wrapping: the polygon of the hull has the area of the convex hull of the input, its vertices are the extreme points and
its outline is the boundary. -/
theorem C171_wrapping_partial (pts : List (Vec ℝ)) (h3 : 3 ≤ pts.length) (hg : HullPos (pts.map Vec.pt) EPSILON) :
    let hull := convexHull ℝ {z | z ∈ pts.map Vec.pt}
    let poly := (wrapping (Obj.ofList pts)).toPolygon
    volume hull = ENNReal.ofReal poly.area ∧ 0 < poly.area ∧ poly.isCounterClockwise = true ∧
    hull.extremePoints ℝ = {z | z ∈ poly.pts} ∧ frontier hull = outline poly.pts := by
  obtain ⟨H, he⟩ := C78_convex_hull pts h3 hg
  intro hull poly
  have e : hull = convexHull ℝ {z | z ∈ poly.pts} := he.symm
  have H' : StrictConvex poly.pts := H
  obtain ⟨h1, h2, h3⟩ := C171_area poly H'
  rw [e]
  exact ⟨h1, h2, h3, C171_extreme H', C171_frontier poly H'⟩

theorem Spec.outline_reverse (l : List Pt) : outline l.reverse = outline l := by
  have key : ∀ l : List Pt, outline l ⊆ outline l.reverse := by
    rintro l z ⟨e, he, hz⟩
    refine ⟨e.swap, ?_, by rwa [Prod.fst_swap, Prod.snd_swap, segment_symm]⟩
    rw [(cyclicPairs_reverse_perm l).mem_iff]
    exact List.mem_map_of_mem (f := Prod.swap) he
  exact Set.Subset.antisymm (by simpa using key l.reverse) (key l)

/-- **C171** Graham scan, for the inputs for which it computes the hull: the same, but clockwise. -/
theorem C171_graham_partial (pts : List (Vec ℝ)) {o : Vec ℝ} {h' : Obj ℝ} (g : GrahamHull pts o h') :
    let hull := convexHull ℝ {z | z ∈ pts.map Vec.pt}
    let poly := h'.toPolygon
    volume hull = ENNReal.ofReal poly.area ∧ 0 < poly.area ∧ poly.isClockwise = true ∧
    hull.extremePoints ℝ = {z | z ∈ poly.pts} ∧ frontier hull = outline poly.pts := by
  intro hull poly
  set rev : Poly ℝ := Poly.ofList h'.vertices.reverse with hrev
  have er : rev.pts = poly.pts.reverse := by
    simp [hrev, Poly.pts, Poly.ofList, List.map_reverse, poly, Obj.toPolygon]
  have H : StrictConvex rev.pts := by
    rw [er]; exact g.convex
  have e : hull = convexHull ℝ {z | z ∈ rev.pts} := by
    have : {z | z ∈ rev.pts} = {z | z ∈ poly.pts} := by ext z; rw [er]; simp
    rw [this]; exact g.hull.symm
  have hd : rev.doubleSignedArea = -poly.doubleSignedArea := C72_reverse h'.vertices
  have ha : rev.area = poly.area := by rw [(C72_area rev).1, (C72_area poly).1, hd, abs_neg]
  obtain ⟨h1, h2, h3⟩ := C171_area rev H
  rw [e]
  refine ⟨by rw [h1, ha], by rwa [← ha], ?_, ?_, ?_⟩
  · simp only [Poly.isCounterClockwise, Poly.isClockwise, decide_eq_true_eq, num_real, Nat.cast_zero, hd] at h3 ⊢
    linarith
  · rw [C171_extreme H, er]; ext z; simp
  · rw [C171_frontier rev H, er, outline_reverse]

/-- **C171 is false** for three points on a line of the boundary: the extreme point (2,0) is no vertex, the vertex (1,0) is no extreme
point, and the area is 1/2 instead of 1. -/
theorem C171_refuted :
    let hull := convexHull ℝ {z | z ∈ edgePts.map Vec.pt}
    let poly := (wrapping (Obj.ofList edgePts)).toPolygon
    ((1, 0) : Pt) ∈ poly.pts ∧ ((1, 0) : Pt) ∉ hull.extremePoints ℝ ∧ poly.area = 1 / 2 ∧ volume hull = 1 := by
  intro hull poly
  have hv : poly = Poly.ofList [⟨0, 0, true⟩, ⟨1, 0, true⟩, ⟨1, 1, true⟩] := by
    simp only [poly, Obj.toPolygon, C117_collinear_refuted.1]
  refine ⟨by rw [hv]; simp [Poly.pts, Poly.ofList, Vec.pt], ?_, ?_, ?_⟩
  · intro h
    have := ((mem_extremePoints.mp h).2 (0, 0) (subset_convexHull ℝ _ (by simp [edgePts, Vec.pt])) (2, 0)
      (subset_convexHull ℝ _ (by simp [edgePts, Vec.pt])) ⟨1 / 2, 1 / 2, by norm_num, by norm_num, by norm_num, by norm_num⟩).1
    simp at this
  · rw [hv, (C72_area _).1, C72_triangle]
    norm_num [area2, Vec.pt]
  · set tri : Poly ℝ := Poly.ofList [⟨0, 0, true⟩, ⟨2, 0, true⟩, ⟨1, 1, true⟩] with htri
    have hp : tri.pts = [(0, 0), (2, 0), (1, 1)] := rfl
    have H : StrictConvex tri.pts := by
      refine ⟨by rw [hp]; simp, by rw [hp]; norm_num, ?_⟩
      rw [hp]
      simp only [cyclicPairs, List.cons_append, List.nil_append, List.zip_cons_cons, List.zip_nil_right, List.mem_cons,
        List.not_mem_nil, or_false, forall_eq_or_imp, forall_eq]
      norm_num [area2]
    have e : hull = convexHull ℝ {z | z ∈ tri.pts} := by
      refine Set.Subset.antisymm (convexHull_min ?_ (convex_convexHull ℝ _)) (convexHull_mono ?_)
      · intro z hz
        simp only [edgePts, List.map_cons, List.map_nil, List.mem_cons, List.not_mem_nil, or_false, Set.mem_ofPred_eq, Vec.pt] at hz
        rcases hz with rfl | rfl | rfl | rfl
        · exact subset_convexHull ℝ _ (by simp [hp])
        · refine convexHull_mono (s := {(0, 0), (2, 0)}) ?_ ?_
          · rintro z (rfl | rfl) <;> simp [hp]
          · rw [convexHull_pair]
            exact ⟨1 / 2, 1 / 2, by norm_num, by norm_num, by norm_num, by norm_num⟩
        · exact subset_convexHull ℝ _ (by simp [hp])
        · exact subset_convexHull ℝ _ (by simp [hp])
      · intro z hz
        simp only [hp, List.mem_cons, List.not_mem_nil, or_false, Set.mem_ofPred_eq] at hz
        rcases hz with rfl | rfl | rfl <;> simp [edgePts, Vec.pt]
    rw [e, (C171_area tri H).1, (C72_area _).1, C72_triangle]
    norm_num [area2, Vec.pt]

/-- Non-vacuity of C171: a square and its center. -/
example : volume (convexHull ℝ {z | z ∈ crossPts.map Vec.pt}) =
    ENNReal.ofReal (wrapping (Obj.ofList crossPts)).toPolygon.area :=
  (C171_wrapping_partial crossPts (by simp [crossPts]) crossPts_ok.1).1

end PyrusGeom
