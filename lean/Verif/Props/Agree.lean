import Verif.Model.Wrappers
import Verif.Props.Polygon
import Verif.Props.Triangle
import Verif.Props.Rect
import Verif.Props.Circle

/-! # Properties C109 – C110: the same region described by two classes -/

namespace PyrusGeom
open Spec

/-! ## C109: Triangle2D and Polygon2D -/

theorem area2_rot (a b c : Pt) : area2 a b c = area2 b c a := by unfold area2; ring

theorem strictConvex_triangle {a b c : Pt} (h : 0 < area2 a b c) : StrictConvex [a, b, c] := by
  have hab : a ≠ b := by rintro rfl; simp [area2] at h
  have hac : a ≠ c := by
    rintro rfl
    have : area2 a b a = 0 := by unfold area2; ring
    linarith
  have hbc : b ≠ c := by
    rintro rfl
    have : area2 a b b = 0 := by unfold area2; ring
    linarith
  refine ⟨by simp, by simp [hab, hac, hbc], ?_⟩
  intro e he z hz h1 h2
  simp only [cyclicPairs, List.cons_append, List.nil_append, List.zip_cons_cons, List.zip_nil_right, List.mem_cons,
    List.not_mem_nil, or_false] at he hz
  rcases he with rfl | rfl | rfl <;> rcases hz with rfl | rfl | rfl <;>
    first
    | exact absurd rfl h1
    | exact absurd rfl h2
    | exact h
    | (rw [← area2_rot]; exact h)
    | (rw [area2_rot]; exact h)

/-- A point of the triangle with one zero sub-area is on the corresponding side. -/
theorem mem_segment_of_area {a b c p : Pt} (h : area2 a b c ≠ 0) (ht : InTriangle a b c p) (h0 : area2 p a b = 0) :
    p ∈ segment ℝ a b := by
  obtain ⟨α, β, γ, h1, h2, h3, h4, rfl⟩ := ht
  have hα : α = 1 - β - γ := by linarith
  have e1 : area2 (α • a + β • b + γ • c) a b = γ * area2 a b c := by
    unfold area2
    simp only [Prod.fst_add, Prod.snd_add, Prod.smul_fst, Prod.smul_snd, smul_eq_mul]
    rw [hα]; ring
  rw [e1] at h0
  have hγ : γ = 0 := by
    rcases mul_eq_zero.mp h0 with h0 | h0
    · exact h0
    · exact absurd h0 h
  exact ⟨α, β, h1, h2, by linarith, by rw [hγ]; simp⟩

theorem inTriangle_rot {a b c p : Pt} : InTriangle a b c p ↔ InTriangle b c a p := by
  constructor
  · rintro ⟨α, β, γ, h1, h2, h3, h4, rfl⟩
    exact ⟨β, γ, α, h2, h3, h1, by linarith, by abel⟩
  · rintro ⟨α, β, γ, h1, h2, h3, h4, rfl⟩
    exact ⟨γ, α, β, h3, h1, h2, by linarith, by abel⟩

theorem inTriangle_swap {a b c p : Pt} : InTriangle a b c p ↔ InTriangle c b a p := by
  constructor
  · rintro ⟨α, β, γ, h1, h2, h3, h4, rfl⟩
    exact ⟨γ, β, α, h3, h2, h1, by linarith, by abel⟩
  · rintro ⟨α, β, γ, h1, h2, h3, h4, rfl⟩
    exact ⟨γ, β, α, h3, h2, h1, by linarith, by abel⟩

theorem leftOfAll_triangle {a b c p : Pt} (h : 0 < area2 a b c) (ho : p ∉ outline [a, b, c]) :
    p ∈ leftOfAll [a, b, c] ↔ InTriangle a b c p := by
  have hl : p ∈ leftOfAll [a, b, c] ↔ 0 < area2 a b p ∧ 0 < area2 b c p ∧ 0 < area2 c a p := by
    simp [leftOfAll, cyclicPairs]
  have hs := area2_sum a b c p
  have r1 : area2 a b p = area2 p a b := by unfold area2; ring
  have r2 : area2 b c p = area2 p b c := by unfold area2; ring
  have r3 : area2 c a p = area2 p c a := by unfold area2; ring
  rw [hl, r1, r2, r3]
  constructor
  · rintro ⟨h1, h2, h3⟩
    exact (inTriangle_iff_area h.ne' p).mpr (Or.inl ⟨h1.le, h2.le, h3.le⟩)
  · intro ht
    have hout : ∀ e ∈ [(a, b), (b, c), (c, a)], p ∉ segment ℝ e.1 e.2 := by
      intro e he hp
      exact ho ⟨e, by simpa [cyclicPairs] using he, hp⟩
    have n1 : area2 p a b ≠ 0 := fun h0 => hout (a, b) (by simp) (mem_segment_of_area h.ne' ht h0)
    have n2 : area2 p b c ≠ 0 := fun h0 => hout (b, c) (by simp)
      (mem_segment_of_area (by rw [← area2_rot]; exact h.ne') (inTriangle_rot.mp ht) h0)
    have n3 : area2 p c a ≠ 0 := fun h0 => hout (c, a) (by simp)
      (mem_segment_of_area (by rw [area2_rot]; exact h.ne') (inTriangle_rot.mpr ht) h0)
    rcases (inTriangle_iff_area h.ne' p).mp ht with ⟨h1, h2, h3⟩ | ⟨h1, h2, h3⟩
    · exact ⟨lt_of_le_of_ne h1 n1.symm, lt_of_le_of_ne h2 n2.symm, lt_of_le_of_ne h3 n3.symm⟩
    · linarith

theorem outline_reverse3 (a b c : Pt) : outline [c, b, a] = outline [a, b, c] := by
  ext p
  simp only [outline, cyclicPairs, List.cons_append, List.nil_append, List.zip_cons_cons, List.zip_nil_right,
    List.mem_cons, List.not_mem_nil, or_false, exists_eq_or_imp, exists_eq_left, Set.mem_setOf_eq]
  rw [segment_symm ℝ c b, segment_symm ℝ b a, segment_symm ℝ a c]
  tauto

/-- **C109**: for every triangle with area and every point off its three sides, `Triangle2D.contains` and
`Polygon2D.contains` (both modes) agree; on the sides `Triangle2D.contains` is True and the strict polygon mode False. -/
theorem C109_contains (a b c p : Vec ℝ) (h : area2 a.pt b.pt c.pt ≠ 0) :
    (p.pt ∉ outline [a.pt, b.pt, c.pt] → ∀ allow,
      (Poly.ofList [a, b, c]).contains p allow = (Tri.ofPoints a b c).contains p) ∧
    (p.pt ∈ outline [a.pt, b.pt, c.pt] → (Tri.ofPoints a b c).contains p = true ∧
      (Poly.ofList [a, b, c]).contains p false = false) := by
  have hpts : (Poly.ofList [a, b, c]).pts = [a.pt, b.pt, c.pt] := rfl
  have ht := (C40_contains_partial a b c p h).2
  constructor
  · intro ho allow
    have hne : ∀ e ∈ cyclicPairs (Poly.ofList [a, b, c]).vertices, e.1.pt ≠ e.2.pt := by
      intro e he
      simp only [Poly.ofList, cyclicPairs, List.cons_append, List.nil_append, List.zip_cons_cons, List.zip_nil_right,
        List.mem_cons, List.not_mem_nil, or_false] at he
      rcases he with rfl | rfl | rfl <;> intro he <;> apply h <;> simp only at he
      · rw [he]; unfold area2; ring
      · rw [he]; unfold area2; ring
      · rw [he]; unfold area2; ring
    have hmode : (Poly.ofList [a, b, c]).contains p allow = (Poly.ofList [a, b, c]).contains p true := by
      cases allow
      · exact C73_strict_partial _ p ho hne
      · rfl
    rw [hmode, Bool.eq_iff_iff, ht]
    rcases lt_or_gt_of_ne h with hn | hp
    · have h' : 0 < area2 c.pt b.pt a.pt := by
        have : area2 c.pt b.pt a.pt = -area2 a.pt b.pt c.pt := by unfold area2; ring
        linarith
      have hr := C73_reverse [c, b, a] p
      have e : [c, b, a].reverse = [a, b, c] := rfl
      rw [e] at hr
      have ho' : p.pt ∉ outline [c.pt, b.pt, a.pt] := by rwa [outline_reverse3]
      have hc := (C73_convex (Poly.ofList [c, b, a]) (strictConvex_triangle h') p).1 ho'
      rw [show (Poly.ofList [c, b, a]).pts = [c.pt, b.pt, a.pt] from rfl, ← (strictConvex_triangle h').leftOfAll_eq] at hc
      rw [hr, hc]
      exact (leftOfAll_triangle h' ho').trans inTriangle_swap
    · have hc := (C73_convex (Poly.ofList [a, b, c]) (strictConvex_triangle hp) p).1 ho
      rw [hpts, ← (strictConvex_triangle hp).leftOfAll_eq] at hc
      rw [hc]
      exact leftOfAll_triangle hp ho
  · intro ho
    refine ⟨ht.mpr ?_, C74_strict _ p ho⟩
    obtain ⟨e, he, hz⟩ := ho
    simp only [cyclicPairs, List.cons_append, List.nil_append, List.zip_cons_cons, List.zip_nil_right,
        List.mem_cons, List.not_mem_nil, or_false] at he
    obtain ⟨s, t, hs, ht', hst, hz⟩ := hz
    rcases he with rfl | rfl | rfl
    · exact ⟨s, t, 0, hs, ht', le_refl _, by linarith, by rw [← hz]; simp⟩
    · exact ⟨0, s, t, le_refl _, hs, ht', by linarith, by rw [← hz]; simp⟩
    · exact ⟨t, 0, s, ht', le_refl _, hs, by linarith, by rw [← hz]; simp [add_comm]⟩

/-- **C109**, areas: both classes give the same area and orientation, for all
triangles; the methods of `Triangle2D` and its static functions give the same numbers. -/
theorem C109_area (a b c : Vec ℝ) :
    (Poly.ofList [a, b, c]).area = (Tri.ofPoints a b c).area ∧
    (Poly.ofList [a, b, c]).doubleSignedArea = (Tri.ofPoints a b c).methodDsa ∧
    (Tri.ofPoints a b c).methodDsa = Tri.dsa a b c ∧
    (Tri.ofPoints a b c).methodSignedArea = (Poly.ofList [a, b, c]).doubleSignedArea / 2 ∧
    (Poly.ofList [a, b, c]).isCounterClockwise = (Tri.ofPoints a b c).methodCcw ∧
    (Poly.ofList [a, b, c]).isClockwise = (Tri.ofPoints c b a).methodCcw := by
  have hd := C72_triangle a b c
  have h1 : (Tri.ofPoints a b c).methodDsa = area2 a.pt b.pt c.pt := Tri.dsa_real _ _ _
  have h2 : (Tri.ofPoints c b a).methodDsa = area2 c.pt b.pt a.pt := Tri.dsa_real _ _ _
  have hA := C72_area (Poly.ofList [a, b, c])
  refine ⟨?_, ?_, ?_, ?_, ?_, ?_⟩
  · rw [hA.1, (C41_signed_area a b c a).2.2.2.2.2.2.2.2.1, hd, Tri.dsa_real]
  · rw [hd, h1]
  · rfl
  · rw [hd, ← h1]
    simp only [Tri.methodSignedArea, Tri.signedArea, Tri.methodDsa, num_real]
    norm_num; ring
  · rw [Bool.eq_iff_iff, hA.2.1, hd, ← h1]
    simp only [Tri.methodCcw, Tri.ccw, Tri.methodDsa, decide_eq_true_eq, Nat.cast_zero]
  · rw [Bool.eq_iff_iff, hA.2.2.1, hd]
    have : (Tri.ofPoints c b a).methodCcw = true ↔ 0 < (Tri.ofPoints c b a).methodDsa := by
      simp only [Tri.methodCcw, Tri.ccw, Tri.methodDsa, decide_eq_true_eq, Nat.cast_zero]
    rw [this, h2]
    have : area2 c.pt b.pt a.pt = -area2 a.pt b.pt c.pt := by unfold area2; ring
    rw [this]
    constructor <;> intro h <;> linarith

/-- Non-vacuity of C109: `(1, 1)` is in the triangle `(0,0), (4,0), (0,4)` for both classes. -/
example : (Poly.ofList [Vec.ofXY (0:ℝ) 0, Vec.ofXY 4 0, Vec.ofXY 0 4]).contains (Vec.ofXY 1 1) true = true := by
  have hA : area2 (Vec.ofXY (0:ℝ) 0).pt (Vec.ofXY 4 0).pt (Vec.ofXY 0 4).pt ≠ 0 := by norm_num [area2]
  rw [(C109_contains _ _ _ (Vec.ofXY 1 1) hA).1 ?_ true]
  · rw [(C40_contains_partial _ _ _ _ hA).2]
    exact ⟨1 / 2, 1 / 4, 1 / 4, by norm_num, by norm_num, by norm_num, by norm_num, by
      refine Prod.ext ?_ ?_ <;> norm_num⟩
  · rintro ⟨e, he, hz⟩
    rw [mem_seg] at hz
    obtain ⟨t, h0, h1, hx, hy⟩ := hz
    simp only [cyclicPairs, List.cons_append, List.nil_append, List.zip_cons_cons, List.zip_nil_right,
      List.mem_cons, List.not_mem_nil, or_false] at he
    rcases he with rfl | rfl | rfl
    · norm_num at hy
    · norm_num at hx hy; linarith
    · norm_num at hx

/-! ## C110: Rect2D and Polygon2D -/

/-- The polygon of the four corners in the order top-left, top-right, bottom-right, bottom-left. -/
noncomputable def Rect.cornerPoly (r : Rect ℝ) : Poly ℝ :=
  Poly.ofVecs [r.getTopLeft, r.topRight, r.bottomRight, r.bottomLeft]

theorem Rect.cornerPoly_pts (r : Rect ℝ) : r.cornerPoly.pts =
    [(r.left, r.top), (r.right, r.top), (r.right, r.bottom), (r.left, r.bottom)] := rfl

theorem Rect.corner_pairs (r : Rect ℝ) : cyclicPairs r.cornerPoly.pts =
    [((r.left, r.top), (r.right, r.top)), ((r.right, r.top), (r.right, r.bottom)),
      ((r.right, r.bottom), (r.left, r.bottom)), ((r.left, r.bottom), (r.left, r.top))] := rfl

theorem Rect.cornerPoly_convex (r : Rect ℝ) (h1 : 0 < r.size.length) (h2 : 0 < r.size.width) :
    StrictConvex r.cornerPoly.pts := by
  have hx : r.left < r.right := by unfold Rect.right; linarith
  have hy : r.top < r.bottom := by unfold Rect.bottom; linarith
  refine ⟨by rw [Rect.cornerPoly_pts]; simp, ?_, ?_⟩
  · rw [Rect.cornerPoly_pts]
    simp [hx.ne, hx.ne', hy.ne, hy.ne']
  · rw [Rect.corner_pairs, Rect.cornerPoly_pts]
    intro e he z hz n1 n2
    have hp : 0 < (r.right - r.left) * (r.bottom - r.top) := mul_pos (by
      have : r.left < r.right := by unfold Rect.right; linarith
      linarith) (by linarith)
    simp only [List.mem_cons, List.not_mem_nil, or_false] at he hz
    rcases he with rfl | rfl | rfl | rfl <;> rcases hz with rfl | rfl | rfl | rfl <;>
      first
      | exact absurd rfl n1
      | exact absurd rfl n2
      | (unfold area2; nlinarith [hp])

/-- **C110**: for every rectangle with non-negative sizes (C54: every rectangle), the polygon of its corners has the same area, the same
bounding box, and the center of the box is the center of the rectangle. -/
theorem C110_area_box (r : Rect ℝ) (h : r.Ok) :
    r.cornerPoly.area = r.area ∧ 0 ≤ r.cornerPoly.doubleSignedArea ∧
    (∃ b, r.cornerPoly.boundingBox = .ok b ∧ b.left = r.left ∧ b.right = r.right ∧ b.top = r.top ∧
      b.bottom = r.bottom) ∧
    (∃ z, r.cornerPoly.boundingBoxCenter = .ok z ∧ z.pt = r.center.pt) := by
  have hx : r.left ≤ r.right := by unfold Rect.right; linarith [h.1]
  have hy : r.top ≤ r.bottom := by unfold Rect.bottom; linarith [h.2]
  have hd : r.cornerPoly.doubleSignedArea = 2 * ((r.right - r.left) * (r.bottom - r.top)) := by
    rw [C72_shoelace]
    unfold shoelace
    rw [Rect.corner_pairs]
    simp only [List.map_cons, List.map_nil, List.sum_cons, List.sum_nil, cross]
    ring
  have hnn : 0 ≤ (r.right - r.left) * (r.bottom - r.top) := mul_nonneg (by linarith) (by linarith)
  have hbox : ∃ b, r.cornerPoly.boundingBox = .ok b ∧ b.left = r.left ∧ b.right = r.right ∧ b.top = r.top ∧
      b.bottom = r.bottom := by
    obtain ⟨b, e1, e2, e3, e4⟩ := C71_bounding_box_partial r.cornerPoly (by simp [Rect.cornerPoly, Poly.ofVecs])
    have hall : ∀ v ∈ r.cornerPoly.vertices, v.pt ∈ box r.left r.right r.top r.bottom := by
      intro v hv
      have : v.pt ∈ r.cornerPoly.pts := List.mem_map_of_mem hv
      rw [Rect.cornerPoly_pts] at this
      simp only [List.mem_cons, List.not_mem_nil, or_false] at this
      rcases this with h | h | h | h <;> rw [h] <;> simp [box, hx, hy]
    have hsub := e4 _ _ _ _ hall
    have hin : ∀ z ∈ r.cornerPoly.pts, z ∈ b.pts := by
      intro z hz
      obtain ⟨v, hv, rfl⟩ := List.mem_map.mp hz
      exact e3 v hv
    have c1 := Rect.mem_pts.mp (hin (r.left, r.top) (by rw [Rect.cornerPoly_pts]; simp))
    have c2 := Rect.mem_pts.mp (hin (r.right, r.bottom) (by rw [Rect.cornerPoly_pts]; simp))
    have bx : b.left ≤ b.right := by unfold Rect.right; linarith [e2.1]
    have bt : b.top ≤ b.bottom := by unfold Rect.bottom; linarith [e2.2]
    have d1 := hsub (show (b.left, b.top) ∈ b.pts from Rect.mem_pts.mpr ⟨le_refl _, bx, le_refl _, bt⟩)
    have d2 := hsub (show (b.right, b.bottom) ∈ b.pts from Rect.mem_pts.mpr ⟨bx, le_refl _, bt, le_refl _⟩)
    simp only [box, Set.mem_ofPred_eq] at d1 d2
    simp only at c1 c2
    exact ⟨b, e1, by linarith [c1.1, d1.1], by linarith [c2.2.1, d2.2.1], by linarith [c1.2.2.1, d1.2.2.1],
      by linarith [c2.2.2.2, d2.2.2.2]⟩
  refine ⟨?_, by rw [hd]; linarith, hbox, ?_⟩
  · rw [(C72_area _).1, hd, abs_of_nonneg (by linarith), (C59_contains_partial r h r.center).2.2.2.2.2.2.2]
    ring
  · obtain ⟨b, e1, l, ri, t, bo⟩ := hbox
    refine ⟨b.center, by simp [Poly.boundingBoxCenter, e1, bind, Except.bind, pure, Except.pure], ?_⟩
    have hc : ∀ q : Rect ℝ, q.center.pt = ((q.left + q.right) / 2, (q.top + q.bottom) / 2) := by
      intro q
      simp only [Rect.center, Vec.pt_ofXY, num_real]
      refine Prod.ext ?_ ?_ <;> simp <;> ring
    rw [hc, hc, l, ri, t, bo]

/-- **C110**, containment: for every rectangle with area and every point off its border `Rect2D.contains` and
`Polygon2D.contains` of the corners agree in both modes; on the border the rectangle contains the point and the strict
polygon mode does not. -/
theorem C110_contains (r : Rect ℝ) (h1 : 0 < r.size.length) (h2 : 0 < r.size.width) (p : Vec ℝ) :
    (p.pt ∉ outline r.cornerPoly.pts → ∀ allow, r.cornerPoly.contains p allow = r.contains p) ∧
    (p.pt ∈ outline r.cornerPoly.pts → r.contains p = true ∧ r.cornerPoly.contains p false = false) := by
  have hx : r.left < r.right := by unfold Rect.right; linarith
  have hy : r.top < r.bottom := by unfold Rect.bottom; linarith
  have H := r.cornerPoly_convex h1 h2
  have hr := (C59_contains_partial r ⟨h1.le, h2.le⟩ p).1
  rw [Rect.mem_pts] at hr
  simp only [Vec.pt_fst, Vec.pt_snd] at hr
  have hl : p.pt ∈ leftOfAll r.cornerPoly.pts ↔ r.left < p.x ∧ p.x < r.right ∧ r.top < p.y ∧ p.y < r.bottom := by
    unfold leftOfAll
    rw [Rect.corner_pairs]
    simp only [List.mem_cons, List.not_mem_nil, or_false, forall_eq_or_imp, forall_eq, Set.mem_setOf_eq, area2,
      Vec.pt_fst, Vec.pt_snd, sub_self, zero_mul, mul_zero, sub_zero, zero_sub]
    constructor
    · rintro ⟨g1, g2, g3, g4⟩
      refine ⟨?_, ?_, ?_, ?_⟩
      · by_contra hc; push Not at hc; nlinarith
      · by_contra hc; push Not at hc; nlinarith
      · by_contra hc; push Not at hc; nlinarith
      · by_contra hc; push Not at hc; nlinarith
    · rintro ⟨g1, g2, g3, g4⟩
      refine ⟨?_, ?_, ?_, ?_⟩ <;> nlinarith
  have hout : p.pt ∈ outline r.cornerPoly.pts ↔
      (r.left ≤ p.x ∧ p.x ≤ r.right ∧ r.top ≤ p.y ∧ p.y ≤ r.bottom) ∧
      (p.x = r.left ∨ p.x = r.right ∨ p.y = r.top ∨ p.y = r.bottom) := by
    unfold outline
    rw [Rect.corner_pairs]
    simp only [List.mem_cons, List.not_mem_nil, or_false, exists_eq_or_imp, exists_eq_left, Set.mem_setOf_eq, mem_seg,
      Vec.pt_fst, Vec.pt_snd]
    constructor
    · rintro (⟨t, t0, t1, e1, e2⟩ | ⟨t, t0, t1, e1, e2⟩ | ⟨t, t0, t1, e1, e2⟩ | ⟨t, t0, t1, e1, e2⟩)
      · refine ⟨⟨by nlinarith, by nlinarith, by nlinarith, by nlinarith⟩, ?_⟩
        right; right; left; linarith
      · refine ⟨⟨by nlinarith, by nlinarith, by nlinarith, by nlinarith⟩, ?_⟩
        right; left; linarith
      · refine ⟨⟨by nlinarith, by nlinarith, by nlinarith, by nlinarith⟩, ?_⟩
        right; right; right; linarith
      · refine ⟨⟨by nlinarith, by nlinarith, by nlinarith, by nlinarith⟩, ?_⟩
        left; linarith
    · rintro ⟨⟨g1, g2, g3, g4⟩, g | g | g | g⟩
      · right; right; right
        refine ⟨(r.bottom - p.y) / (r.bottom - r.top), div_nonneg (by linarith) (by linarith),
          (div_le_one (by linarith)).mpr (by linarith), by rw [g]; ring, ?_⟩
        have : r.bottom - r.top ≠ 0 := by linarith
        field_simp; ring
      · right; left
        refine ⟨(p.y - r.top) / (r.bottom - r.top), div_nonneg (by linarith) (by linarith),
          (div_le_one (by linarith)).mpr (by linarith), by rw [g]; ring, ?_⟩
        have : r.bottom - r.top ≠ 0 := by linarith
        field_simp; ring
      · left
        refine ⟨(p.x - r.left) / (r.right - r.left), div_nonneg (by linarith) (by linarith),
          (div_le_one (by linarith)).mpr (by linarith), ?_, by rw [g]; ring⟩
        have : r.right - r.left ≠ 0 := by linarith
        field_simp; ring
      · right; right; left
        refine ⟨(r.right - p.x) / (r.right - r.left), div_nonneg (by linarith) (by linarith),
          (div_le_one (by linarith)).mpr (by linarith), ?_, by rw [g]; ring⟩
        have : r.right - r.left ≠ 0 := by linarith
        field_simp; ring
  constructor
  · intro ho allow
    have hin : p.pt ∈ leftOfAll r.cornerPoly.pts ↔ r.contains p = true := by
      rw [hl, hr]
      rw [hout] at ho
      constructor
      · rintro ⟨a, b, c, d⟩; exact ⟨a.le, b.le, c.le, d.le⟩
      · rintro ⟨a, b, c, d⟩
        have hne : ∀ q : Prop, q → (q → p.x = r.left ∨ p.x = r.right ∨ p.y = r.top ∨ p.y = r.bottom) → False :=
          fun q hq hf => ho ⟨⟨a, b, c, d⟩, hf hq⟩
        refine ⟨lt_of_le_of_ne a ?_, lt_of_le_of_ne b ?_, lt_of_le_of_ne c ?_, lt_of_le_of_ne d ?_⟩
        · intro h; exact hne True trivial (fun _ => Or.inl h.symm)
        · intro h; exact hne True trivial (fun _ => Or.inr (Or.inl h))
        · intro h; exact hne True trivial (fun _ => Or.inr (Or.inr (Or.inl h.symm)))
        · intro h; exact hne True trivial (fun _ => Or.inr (Or.inr (Or.inr h)))
    have hc := C73_convex r.cornerPoly H p
    rw [← H.leftOfAll_eq] at hc
    rw [Bool.eq_iff_iff, ← hin]
    cases allow
    · exact hc.2
    · exact hc.1 ho
  · intro ho
    exact ⟨hr.mpr (hout.mp ho).1, C74_strict _ p ho⟩

/-- Non-vacuity of C110. -/
example : 0 < (Rect.ofLTLW (0:ℝ) 0 2 4).size.length ∧ 0 < (Rect.ofLTLW (0:ℝ) 0 2 4).size.width := by
  norm_num [Rect.ofLTLW]

/-! ## The forwarding methods -/

/-- **C24** for `Segment2D.perpendicular_bisector` (partial as C24): the points with the same distance from both end points. -/
theorem C24_segment_partial (s : Seg ℝ) (h : ¬ BoxNear s.origin.pt s.terminal.pt) (z : Pt) :
    z ∈ s.perpendicularBisector.pts ↔ Spec.d z s.origin.pt = Spec.d z s.terminal.pt := by
  refine C24_bisector_partial s.origin s.terminal ?_ z
  intro hh
  exact h (by simpa [BoxNear, abs_sub_comm] using hh)

/-- **C45** for the method: it raises as well. -/
theorem C45_refuted_method (t : Tri ℝ) : t.centroid = .error .attributeError := rfl

/-- The four `intersection_with_…` methods of Circle2D are `intersection` (C50–C52). -/
theorem C50_methods (c o : Circle ℝ) (l : Line ℝ) (r : Ray ℝ) (s : Seg ℝ) :
    c.intersectionWithLine l = c.intersectionLine l ∧ c.intersectionWithRay r = c.intersectionRay r ∧
    c.intersectionWithSegment s = c.intersectionSeg s ∧ c.intersectionWithCircle o = c.intersectionCircle o :=
  ⟨rfl, rfl, rfl, rfl⟩

end PyrusGeom
