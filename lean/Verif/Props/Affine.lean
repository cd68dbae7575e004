import Verif.Model.Wrappers
import Verif.Props.Matrix
import Verif.Props.PolygonClip
import Verif.Props.Circle

/-! # Property C111: how `Matrix2D` transforms act on areas, distances and containment -/

namespace PyrusGeom
open Spec

/-- The map of a matrix. -/
def Mat.map (M : Mat ℝ) : Pt → Pt := affine M.m11 M.m12 M.m21 M.m22 M.dx M.dy

theorem Mat.transform_pt (M : Mat ℝ) (v : Vec ℝ) : (M.transform v).pt = M.map v.pt := rfl

/-- A segment with both end points transformed. -/
noncomputable def Seg.image (M : Mat ℝ) (s : Seg ℝ) : Seg ℝ := Seg.ofPoints (M.transform s.origin) (M.transform s.terminal)

theorem Mat.map_comb (M : Mat ℝ) (a b : Pt) {s t : ℝ} (h : s + t = 1) :
    M.map (s • a + t • b) = s • M.map a + t • M.map b := by
  obtain rfl : s = 1 - t := by linarith
  refine Prod.ext ?_ ?_ <;> simp [Mat.map, affine] <;> ring

theorem Mat.image_segment (M : Mat ℝ) (a b : Pt) : segment ℝ (M.map a) (M.map b) = M.map '' segment ℝ a b := by
  ext z
  constructor
  · rintro ⟨s, t, hs, ht, h, rfl⟩
    exact ⟨s • a + t • b, ⟨s, t, hs, ht, h, rfl⟩, M.map_comb a b h⟩
  · rintro ⟨w, ⟨s, t, hs, ht, h, rfl⟩, rfl⟩
    exact ⟨s, t, hs, ht, h, (M.map_comb a b h).symm⟩

theorem Mat.map_inj (M : Mat ℝ) (h : M.det ≠ 0) : Function.Injective M.map := by
  intro a b hab
  have h1 := congrArg Prod.fst hab
  have h2 := congrArg Prod.snd hab
  simp only [Mat.map, affine] at h1 h2
  have hd : M.det = M.m11 * M.m22 - M.m12 * M.m21 := rfl
  have e1 : M.det * (a.1 - b.1) = 0 := by rw [hd]; linear_combination M.m22 * h1 - M.m12 * h2
  have e2 : M.det * (a.2 - b.2) = 0 := by rw [hd]; linear_combination M.m11 * h2 - M.m21 * h1
  refine Prod.ext ?_ ?_
  · have := (mul_eq_zero.mp e1).resolve_left h; linarith
  · have := (mul_eq_zero.mp e2).resolve_left h; linarith

theorem Seg.image_pts (M : Mat ℝ) (s : Seg ℝ) : (s.image M).pts = M.map '' s.pts :=
  M.image_segment s.origin.pt s.terminal.pt

theorem Mat.area2_map (M : Mat ℝ) (a b c : Pt) : area2 (M.map a) (M.map b) (M.map c) = M.det * area2 a b c := by
  simp only [area2, Mat.map, affine, Mat.det]; ring

/-- Factor by which an elementary operation multiplies areas. -/
def MatOp.area : MatOp → ℝ
  | .scale x y => x * y
  | .translate _ _ => 1
  | .rotate _ => 1

/-- **C111**, areas: a transform multiplies the signed area of every triangle and every polygon by the determinant, the
determinant is multiplicative, and after any sequence of in-place calls it is the old one times the product of all
scale factors (translations and rotations do not change it). -/
theorem C111_area (M N : Mat ℝ) (a b c : Vec ℝ) (l : List (Vec ℝ)) (ops : List MatOp) :
    Tri.dsa (M.transform a) (M.transform b) (M.transform c) = M.det * Tri.dsa a b c ∧
    (Poly.ofList (l.map M.transform)).doubleSignedArea = M.det * (Poly.ofList l).doubleSignedArea ∧
    (Poly.ofList (l.map M.transform)).area = |M.det| * (Poly.ofList l).area ∧
    (M.mul N).det = M.det * N.det ∧
    (ops.foldl MatOp.apply M).det = M.det * (ops.map MatOp.area).prod := by
  have hpoly : (Poly.ofList (l.map M.transform)).doubleSignedArea = M.det * (Poly.ofList l).doubleSignedArea := by
    rw [C72_shoelace, C72_shoelace]
    have hp : (Poly.ofList (l.map M.transform)).pts = (l.map Vec.pt).map M.map := by
      simp only [Poly.pts, Poly.ofList, List.map_map]; rfl
    have hp' : (Poly.ofList l).pts = l.map Vec.pt := rfl
    rw [hp, hp']
    generalize l.map Vec.pt = L
    unfold shoelace
    rw [cyclicPairs_map, List.map_map]
    have key : ∀ E : List (Pt × Pt), (E.map ((fun e : Pt × Pt => cross e.1 e.2) ∘ Prod.map M.map M.map)).sum =
        M.det * (E.map (fun e => cross e.1 e.2)).sum +
        ((E.map (fun e => (M.m11 * M.dy - M.m21 * M.dx) * e.1.1 + (M.m12 * M.dy - M.m22 * M.dx) * e.1.2)).sum -
          (E.map (fun e => (M.m11 * M.dy - M.m21 * M.dx) * e.2.1 + (M.m12 * M.dy - M.m22 * M.dx) * e.2.2)).sum) := by
      intro E
      induction E with
      | nil => simp
      | cons e E ih =>
        simp only [List.map_cons, List.sum_cons, ih]
        simp only [Function.comp, Prod.map, Mat.map, affine, cross, Mat.det]; ring
    rw [key, sum_fst_eq_snd L (fun z => (M.m11 * M.dy - M.m21 * M.dx) * z.1 + (M.m12 * M.dy - M.m22 * M.dx) * z.2)]
    ring
  refine ⟨?_, hpoly, ?_, ?_, ?_⟩
  · rw [Tri.dsa_real, Tri.dsa_real]; exact M.area2_map a.pt b.pt c.pt
  · rw [(C72_area _).1, (C72_area _).1, hpoly, abs_mul]; ring
  · simp only [Mat.mul, Mat.det]; ring
  · clear hpoly
    induction ops generalizing M with
    | nil => simp
    | cons op ops ih =>
      rw [List.foldl_cons, ih, List.map_cons, List.prod_cons, MatOp.apply_eq,
        show (op.make.mul M).det = op.make.det * M.det from (C66_product op.make M M a).2.2.2.2.2.2.1]
      have : op.make.det = op.area := by
        cases op with
        | translate x y => simp [MatOp.make, MatOp.area, Mat.makeTranslation, Mat.det]
        | scale x y => simp [MatOp.make, MatOp.area, Mat.makeScaling, Mat.det]
        | rotate t => exact (C69_rotation t M a a).1
      rw [this]; ring

/-- **C111**, matrices with non-zero determinant: the answers about triangles and about crossing segments are the same
before and after the transform. -/
theorem C111_invertible (M : Mat ℝ) (h : M.det ≠ 0) (a b c p : Vec ℝ) (s o : Seg ℝ) :
    Tri.triContains (M.transform a) (M.transform b) (M.transform c) (M.transform p) = Tri.triContains a b c p ∧
    (s.image M).existIntersection (o.image M) = s.existIntersection o ∧
    (s.image M).existIntersectionExceptEndpoint (o.image M) = s.existIntersectionExceptEndpoint o := by
  refine ⟨?_, ?_, ?_⟩
  · rw [Bool.eq_iff_iff, Tri.triContains_iff, Tri.triContains_iff]
    simp only [Mat.transform_pt, Mat.area2_map]
    rcases lt_or_gt_of_ne h with hn | hp
    · have e1 : ∀ x : ℝ, 0 ≤ M.det * x ↔ x ≤ 0 := fun x => by
        constructor
        · intro hx; by_contra hc; push Not at hc; nlinarith
        · intro hx; nlinarith
      have e2 : ∀ x : ℝ, M.det * x ≤ 0 ↔ 0 ≤ x := fun x => by
        constructor
        · intro hx; by_contra hc; push Not at hc; nlinarith
        · intro hx; nlinarith
      simp only [e1, e2]; tauto
    · have e1 : ∀ x : ℝ, 0 ≤ M.det * x ↔ 0 ≤ x := fun x => mul_nonneg_iff_of_pos_left hp
      have e2 : ∀ x : ℝ, M.det * x ≤ 0 ↔ x ≤ 0 := fun x => by
        constructor
        · intro hx; by_contra hc; push Not at hc; nlinarith
        · intro hx; nlinarith
      simp only [e1, e2]
  · rw [Bool.eq_iff_iff, C30_exist_intersection, C30_exist_intersection, Seg.image_pts, Seg.image_pts,
      ← Set.image_inter (M.map_inj h), Set.image_nonempty]
  · rw [Bool.eq_iff_iff, Seg.except_iff, Seg.except_iff]
    have h1 : (s.image M).origin.pt = M.map s.origin.pt := rfl
    have h2 : (s.image M).terminal.pt = M.map s.terminal.pt := rfl
    have h3 : (o.image M).origin.pt = M.map o.origin.pt := rfl
    have h4 : (o.image M).terminal.pt = M.map o.terminal.pt := rfl
    rw [h1, h2, h3, h4]
    simp only [Mat.area2_map]
    have hsq : 0 < M.det * M.det := mul_self_pos.mpr h
    have e : ∀ x y : ℝ, M.det * x * (M.det * y) < 0 ↔ x * y < 0 := fun x y => by
      have : M.det * x * (M.det * y) = (M.det * M.det) * (x * y) := by ring
      rw [this]
      constructor
      · intro hx; by_contra hc; push Not at hc; nlinarith
      · intro hx; nlinarith
    rw [e, e]

/-- Only translations and rotations. -/
def MatOp.Rigid : MatOp → Prop
  | .scale _ _ => False
  | _ => True

/-- A transform reached from the identity by translations and rotations. -/
structure Mat.IsRigid (M : Mat ℝ) : Prop where
  h1 : M.m11 = M.m22
  h2 : M.m12 = -M.m21
  h3 : M.m11 ^ 2 + M.m21 ^ 2 = 1

theorem Mat.isRigid_history (ops : List MatOp) (h : ∀ op ∈ ops, op.Rigid) (M : Mat ℝ) (hM : M.IsRigid) :
    (ops.foldl MatOp.apply M).IsRigid := by
  induction ops generalizing M with
  | nil => exact hM
  | cons op ops ih =>
    refine ih (fun o ho => h o (List.mem_cons_of_mem _ ho)) _ ?_
    obtain ⟨h1, h2, h3⟩ := hM
    have hop := h op List.mem_cons_self
    cases op with
    | translate x y => exact ⟨h1, h2, h3⟩
    | scale x y => exact absurd hop (by simp [MatOp.Rigid])
    | rotate t =>
      have hu := unit_sq t.deg
      constructor
      · simp only [MatOp.apply, Mat.rotate, h1, h2]; ring
      · simp only [MatOp.apply, Mat.rotate, h1, h2]; ring
      · simp only [MatOp.apply, Mat.rotate, cosA_real, sinA_real]
        linear_combination (M.m11 ^ 2 + M.m21 ^ 2) * hu + h3

theorem Mat.IsRigid.d_map {M : Mat ℝ} (h : M.IsRigid) (a b : Pt) : Spec.d (M.map a) (M.map b) = Spec.d a b := by
  obtain ⟨h1, h2, h3⟩ := h
  unfold Spec.d
  congr 1
  simp only [Mat.map, affine]
  rw [h2, ← h1]
  linear_combination ((a.1 - b.1) ^ 2 + (a.2 - b.2) ^ 2) * h3

theorem Mat.IsRigid.minDist {M : Mat ℝ} (h : M.IsRigid) {S : Set Pt} {p : Pt} {m : ℝ} (hm : IsMinDist S p m) :
    IsMinDist (M.map '' S) (M.map p) m := by
  obtain ⟨⟨q, hq, e⟩, hl⟩ := hm
  refine ⟨⟨M.map q, ⟨q, hq, rfl⟩, by rw [h.d_map, e]⟩, ?_⟩
  rintro _ ⟨w, hw, rfl⟩
  rw [h.d_map]; exact hl w hw

/-- **C111**, rigid motions: after any sequence of `translate` and `rotate` calls on a new matrix, transforming both
objects changes no distance (point-point, segment-point, segment-segment, farthest, polygon-point), no length and no
containment of a point in a circle, and keeps the orientation of triangles. -/
theorem C111_rigid (ops : List MatOp) (hr : ∀ op ∈ ops, op.Rigid) (v w : Vec ℝ) (a b c : Vec ℝ) (s o : Seg ℝ)
    (l : List (Vec ℝ)) (hl : 2 ≤ l.length) (r : ℝ) :
    let M := ops.foldl MatOp.apply Mat.identity
    (M.transform v).dist (M.transform w) = v.dist w ∧
    (s.image M).length = s.length ∧
    (s.image M).distPoint (M.transform v) = s.distPoint v ∧
    (s.image M).farthestDist (M.transform v) = s.farthestDist v ∧
    (s.image M).distSeg (o.image M) = s.distSeg o ∧
    (Poly.ofList (l.map M.transform)).dist (M.transform v) false = (Poly.ofList l).dist v false ∧
    (Circle.ofCR (M.transform v) r).contains (M.transform w) = (Circle.ofCR v r).contains w ∧
    Tri.ccw (M.transform a) (M.transform b) (M.transform c) = Tri.ccw a b c ∧ M.det = 1 := by
  intro M
  have hM : M.IsRigid := Mat.isRigid_history ops hr _ (by rw [Mat.identity_real]; constructor <;> norm_num)
  have hdet : M.det = 1 := by
    have := hM.h3
    simp only [Mat.det]; rw [hM.h2, ← hM.h1]; linarith
  refine ⟨?_, ?_, ?_, ?_, ?_, ?_, ?_, ?_, hdet⟩
  · rw [Vec.dist_real, Vec.dist_real]; exact hM.d_map v.pt w.pt
  · unfold Seg.length
    rw [Vec.dist_real, Vec.dist_real]; exact hM.d_map s.origin.pt s.terminal.pt
  · refine IsMinDist.unique (C34_dist_point (s.image M) (M.transform v)).1 ?_
    rw [Seg.image_pts]
    exact hM.minDist (C34_dist_point s v).1
  · refine IsMaxDist.unique (C36_farthest_dist (s.image M) (M.transform v)) ?_
    rw [Seg.image_pts]
    obtain ⟨⟨q, hq, e⟩, hm⟩ := C36_farthest_dist s v
    refine ⟨⟨M.map q, ⟨q, hq, rfl⟩, by rw [Mat.transform_pt, hM.d_map, e]⟩, ?_⟩
    rintro _ ⟨z, hz, rfl⟩
    rw [Mat.transform_pt, hM.d_map]; exact hm z hz
  · refine IsMinDistSets.unique (C35_dist_segment (s.image M) (o.image M)) ?_
    rw [Seg.image_pts, Seg.image_pts]
    obtain ⟨⟨p, hp, q, hq, e⟩, hm⟩ := C35_dist_segment s o
    refine ⟨⟨M.map p, ⟨p, hp, rfl⟩, M.map q, ⟨q, hq, rfl⟩, by rw [hM.d_map, e]⟩, ?_⟩
    rintro _ ⟨z, hz, rfl⟩ _ ⟨u, hu, rfl⟩
    rw [hM.d_map]; exact hm z hz u hu
  · obtain ⟨m, e, hm⟩ := C75_dist (Poly.ofList l) v hl
    obtain ⟨m', e', hm'⟩ := C75_dist (Poly.ofList (l.map M.transform)) (M.transform v) (by
      simpa [Poly.ofList] using hl)
    rw [e, e']
    congr 1
    refine IsMinDist.unique hm' ?_
    have ho : outline (Poly.ofList (l.map M.transform)).pts = M.map '' outline (Poly.ofList l).pts := by
      have hp : (Poly.ofList (l.map M.transform)).pts = (l.map Vec.pt).map M.map := by
        simp only [Poly.pts, Poly.ofList, List.map_map]; rfl
      have hp' : (Poly.ofList l).pts = l.map Vec.pt := rfl
      rw [hp, hp']
      ext z
      constructor
      · rintro ⟨f, hf, hz⟩
        rw [cyclicPairs_map] at hf
        obtain ⟨g, hg, rfl⟩ := List.mem_map.mp hf
        simp only [Prod.map] at hz
        rw [Mat.image_segment] at hz
        obtain ⟨w, hw, rfl⟩ := hz
        exact ⟨w, ⟨g, hg, hw⟩, rfl⟩
      · rintro ⟨w, ⟨g, hg, hw⟩, rfl⟩
        refine ⟨(M.map g.1, M.map g.2), ?_, ?_⟩
        · rw [cyclicPairs_map]
          exact List.mem_map_of_mem (f := Prod.map M.map M.map) hg
        · rw [Mat.image_segment]; exact ⟨w, hw, rfl⟩
    rw [ho]
    exact hM.minDist hm
  · simp only [Circle.contains, Circle.ofCR, Vec.dist2_real]
    have e1 : (Vec.ofVec (M.transform v)).pt = M.map v.pt := rfl
    have e2 := hM.d_map v.pt w.pt
    have e3 := congrArg (· ^ 2) e2
    simp only [Spec.d_sq] at e3
    have e4 : ((Vec.ofVec (M.transform v)).x - (M.transform w).x) ^ 2 + ((Vec.ofVec (M.transform v)).y - (M.transform w).y) ^ 2
        = ((Vec.ofVec v).x - w.x) ^ 2 + ((Vec.ofVec v).y - w.y) ^ 2 := e3
    rw [e4]
  · rw [Bool.eq_iff_iff, (C41_signed_area _ _ _ v).2.2.2.2.2.2.2.2.2.2, (C41_signed_area _ _ _ v).2.2.2.2.2.2.2.2.2.2,
      (C111_area M M a b c l []).1, hdet, one_mul]

/-- Non-vacuity of C111: rotating by 90 degrees and moving; a shear of determinant 2 doubles areas. -/
example : (∀ op ∈ [MatOp.rotate (AngleDeg.ofNum 90), MatOp.translate 3 4], op.Rigid) ∧
    Tri.dsa ((Mat.mk 2 1 0 1 5 5 : Mat ℝ).transform (Vec.ofXY 0 0)) ((Mat.mk 2 1 0 1 5 5 : Mat ℝ).transform (Vec.ofXY 1 0))
      ((Mat.mk 2 1 0 1 5 5 : Mat ℝ).transform (Vec.ofXY 0 1)) = 2 := by
  constructor
  · intro op hop
    simp only [List.mem_cons, List.not_mem_nil, or_false] at hop
    rcases hop with rfl | rfl <;> trivial
  · rw [(C111_area _ Mat.identity _ _ _ [] []).1]
    norm_num [Mat.det, Tri.dsa, Vec.ofXY]

end PyrusGeom
