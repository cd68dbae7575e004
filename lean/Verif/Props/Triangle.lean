import Verif.Props.Segment
import Mathlib.Analysis.Convex.Join

/-! # Properties C40 – C47: `Triangle2D` -/

namespace PyrusGeom
open Spec

/-! ## C40 -/

/-- `p` is a convex combination of `a`, `b`, `c`. -/
def Spec.InTriangle (a b c p : Pt) : Prop :=
  ∃ α β γ : ℝ, 0 ≤ α ∧ 0 ≤ β ∧ 0 ≤ γ ∧ α + β + γ = 1 ∧ p = α • a + β • b + γ • c

theorem inTriangle_iff_convexHull (a b c p : Pt) : InTriangle a b c p ↔ p ∈ convexHull ℝ {a, b, c} := by
  rw [convexHull_insert (Set.insert_nonempty b {c}), convexHull_pair, mem_convexJoin]
  constructor
  · rintro ⟨α, β, γ, h1, h2, h3, h4, rfl⟩
    refine ⟨a, rfl, ?_⟩
    by_cases hz : β + γ = 0
    · have hb : β = 0 := by linarith
      have hc : γ = 0 := by linarith
      have ha : α = 1 := by linarith
      refine ⟨b, left_mem_segment ℝ b c, ?_⟩
      rw [ha, hb, hc]; simp only [one_smul, zero_smul, add_zero]; exact left_mem_segment ℝ a b
    · have hp : 0 < β + γ := lt_of_le_of_ne (by linarith) (Ne.symm hz)
      refine ⟨(β / (β + γ)) • b + (γ / (β + γ)) • c,
        ⟨β / (β + γ), γ / (β + γ), by positivity, by positivity, by field_simp, rfl⟩,
        ⟨α, β + γ, h1, hp.le, by linarith, ?_⟩⟩
      rw [smul_add, smul_smul, smul_smul, mul_div_cancel₀ _ hz, mul_div_cancel₀ _ hz, add_assoc]
  · rintro ⟨a', ha', q, ⟨β, γ, h2, h3, h4, rfl⟩, ⟨α, δ, h1, h5, h6, rfl⟩⟩
    obtain rfl : a' = a := ha'
    refine ⟨α, δ * β, δ * γ, h1, by positivity, by positivity, ?_, ?_⟩
    · have : δ * β + δ * γ = δ := by rw [← mul_add, h4, mul_one]
      linarith
    · rw [smul_add, smul_smul, smul_smul, add_assoc]

theorem Tri.triContains_iff (a b c p : Vec ℝ) : Tri.triContains a b c p = true ↔
    (0 ≤ area2 p.pt a.pt b.pt ∧ 0 ≤ area2 p.pt b.pt c.pt ∧ 0 ≤ area2 p.pt c.pt a.pt) ∨
    (area2 p.pt a.pt b.pt ≤ 0 ∧ area2 p.pt b.pt c.pt ≤ 0 ∧ area2 p.pt c.pt a.pt ≤ 0) := by
  have e : ∀ u v : Vec ℝ, (Vec.ofVec (u.sub p)).outerProduct (Vec.ofVec (v.sub p)) = area2 p.pt u.pt v.pt := by
    intro u v
    simp only [Vec.outerProduct, Vec.ofVec_x, Vec.ofVec_y, Vec.sub_x, Vec.sub_y, area2, Vec.pt_fst, Vec.pt_snd]
  simp only [Tri.triContains, e, Bool.or_eq_true, Bool.and_eq_true, decide_eq_true_eq, Nat.cast_zero, and_assoc]

theorem area2_sum (a b c p : Pt) : area2 p a b + area2 p b c + area2 p c a = area2 a b c := by
  unfold area2; ring

theorem inTriangle_iff_area {a b c : Pt} (h : area2 a b c ≠ 0) (p : Pt) : InTriangle a b c p ↔
    (0 ≤ area2 p a b ∧ 0 ≤ area2 p b c ∧ 0 ≤ area2 p c a) ∨
    (area2 p a b ≤ 0 ∧ area2 p b c ≤ 0 ∧ area2 p c a ≤ 0) := by
  have hsum := area2_sum a b c p
  constructor
  · rintro ⟨α, β, γ, h1, h2, h3, h4, rfl⟩
    set p := α • a + β • b + γ • c with hp
    have p1 : p.1 = α * a.1 + β * b.1 + γ * c.1 := rfl
    have p2 : p.2 = α * a.2 + β * b.2 + γ * c.2 := rfl
    have hα : α = 1 - β - γ := by linarith
    have e1 : area2 p a b = γ * area2 a b c := by
      unfold area2; rw [p1, p2, hα]; ring
    have e2 : area2 p b c = α * area2 a b c := by
      unfold area2; rw [p1, p2, hα]; ring
    have e3 : area2 p c a = β * area2 a b c := by
      unfold area2; rw [p1, p2, hα]; ring
    rw [e1, e2, e3]
    rcases lt_or_gt_of_ne h with hn | hp
    · right
      exact ⟨mul_nonpos_of_nonneg_of_nonpos h3 hn.le, mul_nonpos_of_nonneg_of_nonpos h1 hn.le,
        mul_nonpos_of_nonneg_of_nonpos h2 hn.le⟩
    · left; exact ⟨by positivity, by positivity, by positivity⟩
  · intro hor
    refine ⟨area2 p b c / area2 a b c, area2 p c a / area2 a b c, area2 p a b / area2 a b c, ?_, ?_, ?_, ?_, ?_⟩
    · rcases hor with ⟨h1, h2, h3⟩ | ⟨h1, h2, h3⟩
      · exact div_nonneg h2 (by linarith)
      · exact div_nonneg_of_nonpos h2 (by linarith)
    · rcases hor with ⟨h1, h2, h3⟩ | ⟨h1, h2, h3⟩
      · exact div_nonneg h3 (by linarith)
      · exact div_nonneg_of_nonpos h3 (by linarith)
    · rcases hor with ⟨h1, h2, h3⟩ | ⟨h1, h2, h3⟩
      · exact div_nonneg h1 (by linarith)
      · exact div_nonneg_of_nonpos h1 (by linarith)
    · rw [← add_div, ← add_div, div_eq_one_iff_eq h]; linarith
    · refine Prod.ext ?_ ?_
      · simp only [Prod.fst_add, Prod.smul_fst, smul_eq_mul]
        field_simp
        unfold area2; ring
      · simp only [Prod.snd_add, Prod.smul_snd, smul_eq_mul]
        field_simp
        unfold area2; ring

/-- **C40**, triangles with non-zero area. -/
theorem C40_contains_partial (a b c p : Vec ℝ) (h : area2 a.pt b.pt c.pt ≠ 0) :
    (Tri.triContains a b c p = true ↔ InTriangle a.pt b.pt c.pt p.pt) ∧
    ((Tri.ofPoints a b c).contains p = true ↔ InTriangle a.pt b.pt c.pt p.pt) :=
  ⟨(Tri.triContains_iff a b c p).trans (inTriangle_iff_area h p.pt).symm,
    (Tri.triContains_iff a b c p).trans (inTriangle_iff_area h p.pt).symm⟩

/-- **C40**, one direction holds for all triangles: members are always accepted. -/
theorem C40_complete (a b c p : Vec ℝ) (h : InTriangle a.pt b.pt c.pt p.pt) : Tri.triContains a b c p = true := by
  by_cases h0 : area2 a.pt b.pt c.pt = 0
  · rw [Tri.triContains_iff]
    obtain ⟨α, β, γ, h1, h2, h3, h4, hp⟩ := h
    have p1 : p.pt.1 = α * a.pt.1 + β * b.pt.1 + γ * c.pt.1 := by rw [hp]; rfl
    have p2 : p.pt.2 = α * a.pt.2 + β * b.pt.2 + γ * c.pt.2 := by rw [hp]; rfl
    have hα : α = 1 - β - γ := by linarith
    have e1 : area2 p.pt a.pt b.pt = γ * area2 a.pt b.pt c.pt := by
      unfold area2; rw [p1, p2, hα]; ring
    have e2 : area2 p.pt b.pt c.pt = α * area2 a.pt b.pt c.pt := by
      unfold area2; rw [p1, p2, hα]; ring
    have e3 : area2 p.pt c.pt a.pt = β * area2 a.pt b.pt c.pt := by
      unfold area2; rw [p1, p2, hα]; ring
    left; rw [e1, e2, e3, h0]; simp
  · exact ((C40_contains_partial a b c p h0).1).mpr h

/-- **C40**, collinear vertices: `contains` accepts exactly the points collinear with every pair of vertices, i.e.
the whole line through them (every point of the plane if the vertices coincide). -/
theorem C40_degenerate (a b c p : Vec ℝ) (h : area2 a.pt b.pt c.pt = 0) : Tri.triContains a b c p = true ↔
    area2 p.pt a.pt b.pt = 0 ∧ area2 p.pt b.pt c.pt = 0 ∧ area2 p.pt c.pt a.pt = 0 := by
  have hs := area2_sum a.pt b.pt c.pt p.pt
  rw [Tri.triContains_iff]
  constructor
  · rintro (⟨h1, h2, h3⟩ | ⟨h1, h2, h3⟩) <;> refine ⟨?_, ?_, ?_⟩ <;> linarith
  · rintro ⟨h1, h2, h3⟩; left; rw [h1, h2, h3]; simp

/-- **C40** is false for collinear vertices: `(5, 0)` is "in" the triangle (0,0), (1,0), (2,0). -/
theorem C40_refuted : ∃ a b c p : Vec ℝ, Tri.triContains a b c p = true ∧ ¬ InTriangle a.pt b.pt c.pt p.pt := by
  refine ⟨Vec.ofXY 0 0, Vec.ofXY 1 0, Vec.ofXY 2 0, Vec.ofXY 5 0, ?_, ?_⟩
  · rw [C40_degenerate _ _ _ _ (by norm_num [area2])]; norm_num [area2]
  · rintro ⟨α, β, γ, h1, h2, h3, h4, h5⟩
    have := congrArg Prod.fst h5
    norm_num at this
    linarith

/-- Non-vacuity of C40: a point inside a right triangle and one outside. -/
example : Tri.triContains (Vec.ofXY (0:ℝ) 0) (Vec.ofXY 4 0) (Vec.ofXY 0 4) (Vec.ofXY 1 1) = true ∧
    Tri.triContains (Vec.ofXY (0:ℝ) 0) (Vec.ofXY 4 0) (Vec.ofXY 0 4) (Vec.ofXY 3 3) = false ∧
    area2 (Vec.ofXY (0:ℝ) 0).pt (Vec.ofXY 4 0).pt (Vec.ofXY 0 4).pt ≠ 0 := by
  refine ⟨?_, ?_, ?_⟩
  · rw [Tri.triContains_iff]; norm_num [area2]
  · rw [← Bool.not_eq_true, Tri.triContains_iff]; norm_num [area2]
  · norm_num [area2]

/-! ## C41 -/

/-- Three points are on a common line. -/
def Spec.Collinear3 (p q r : Pt) : Prop :=
  ∃ a b c : ℝ, (a ≠ 0 ∨ b ≠ 0) ∧ p ∈ lineSet a b c ∧ q ∈ lineSet a b c ∧ r ∈ lineSet a b c

theorem area2_eq_zero_iff (p q r : Pt) : area2 p q r = 0 ↔ Collinear3 p q r := by
  constructor
  · intro h
    by_cases hpq : p = q
    · by_cases hpr : p = r
      · refine ⟨1, 0, -p.1, Or.inl one_ne_zero, ?_, ?_, ?_⟩
        · simp [lineSet]
        · simp [lineSet, hpq]
        · simp [lineSet, ← hpr]
      · refine ⟨-(r.2 - p.2), r.1 - p.1, (r.2 - p.2) * p.1 - (r.1 - p.1) * p.2, ?_, ?_, ?_, ?_⟩
        · rcases pt_ne hpr with h | ⟨_, h⟩
          · right; exact sub_ne_zero.mpr h.symm
          · left; exact neg_ne_zero.mpr (sub_ne_zero.mpr h.symm)
        all_goals simp only [lineSet, Set.mem_ofPred_eq]
        · ring
        · rw [← hpq]; ring
        · ring
    · refine ⟨-(q.2 - p.2), q.1 - p.1, (q.2 - p.2) * p.1 - (q.1 - p.1) * p.2, ?_, ?_, ?_, ?_⟩
      · rcases pt_ne hpq with h | ⟨_, h⟩
        · right; exact sub_ne_zero.mpr h.symm
        · left; exact neg_ne_zero.mpr (sub_ne_zero.mpr h.symm)
      all_goals simp only [lineSet, Set.mem_ofPred_eq]
      · ring
      · ring
      · unfold area2 at h; linear_combination h
  · rintro ⟨x, y, w, hxy, ha, hb, hc⟩
    simp only [lineSet, Set.mem_ofPred_eq] at ha hb hc
    unfold area2
    rcases hxy with h | h
    · apply mul_left_cancel₀ h
      linear_combination (r.2 - p.2) * (hb - ha) - (q.2 - p.2) * (hc - ha)
    · apply mul_left_cancel₀ h
      linear_combination (-(r.1 - p.1)) * (hb - ha) + (q.1 - p.1) * (hc - ha)

/-- **C41.** -/
theorem C41_signed_area (a b c v : Vec ℝ) :
    Tri.dsa b c a = Tri.dsa a b c ∧ Tri.dsa c a b = Tri.dsa a b c ∧
    Tri.dsa b a c = -Tri.dsa a b c ∧ Tri.dsa a c b = -Tri.dsa a b c ∧ Tri.dsa c b a = -Tri.dsa a b c ∧
    Tri.dsa (a.add v) (b.add v) (c.add v) = Tri.dsa a b c ∧
    (Tri.dsa a b c = 0 ↔ Collinear3 a.pt b.pt c.pt) ∧
    Tri.dsa a b c = cross (b.pt - a.pt) (c.pt - a.pt) ∧
    (Tri.ofPoints a b c).area = |Tri.dsa a b c| / 2 ∧ Tri.signedArea a b c = Tri.dsa a b c / 2 ∧
    (Tri.ccw a b c = true ↔ 0 < Tri.dsa a b c) := by
  refine ⟨?_, ?_, ?_, ?_, ?_, ?_, ?_, ?_, ?_, ?_, ?_⟩
  · simp only [Tri.dsa]; ring
  · simp only [Tri.dsa]; ring
  · simp only [Tri.dsa]; ring
  · simp only [Tri.dsa]; ring
  · simp only [Tri.dsa]; ring
  · simp only [Tri.dsa, Vec.add, Vec.ofXY]; ring
  · rw [Tri.dsa_real]; exact area2_eq_zero_iff _ _ _
  · rw [Tri.dsa_real]; simp only [area2, cross, Prod.fst_sub, Prod.snd_sub]
  · simp only [Tri.area, fabs_real, Tri.dsa_real, Tri.ofPoints, area2, Vec.outerProduct, Vec.sub_x, Vec.sub_y,
      Vec.ofVec_x, Vec.ofVec_y, Vec.pt_fst, Vec.pt_snd, Nat.cast_one, Nat.cast_ofNat]
    ring
  · simp only [Tri.signedArea, Nat.cast_one, Nat.cast_ofNat]; ring
  · simp [Tri.ccw]

/-- Non-vacuity of C41: a counter-clockwise triangle of area 6. -/
example : Tri.dsa (Vec.ofXY (0:ℝ) 0) (Vec.ofXY 4 0) (Vec.ofXY 0 3) = 12 := by
  norm_num [Tri.dsa]

/-! ## C42 -/

/-- The two points are closer than EPSILON in both coordinates. -/
def VNear (p q : Vec ℝ) : Prop := |q.x - p.x| < EPSILON ∧ |q.y - p.y| < EPSILON

theorem Line.perpendicularBisector_of_not_near {p q : Vec ℝ} (h : ¬ VNear p q) :
    (Line.perpendicularBisector p q).a = q.x - p.x ∧ (Line.perpendicularBisector p q).b = q.y - p.y := by
  unfold Line.perpendicularBisector
  simp only [fabs_real]
  rw [if_neg (show ¬ (|q.x - p.x| < EPSILON ∧ |q.y - p.y| < EPSILON) from h)]
  exact ⟨rfl, rfl⟩

/-- The closed formula for the circumcenter. -/
noncomputable def circumFormula (a b c : Vec ℝ) : Vec ℝ :=
  if |area2 a.pt b.pt c.pt| < 1 / 10000000000 then Vec.invalid else
    Vec.ofXY (a.x + (1 / 2) / area2 a.pt b.pt c.pt *
        (((b.x - a.x) ^ 2 + (b.y - a.y) ^ 2) * (c.y - a.y) - ((c.x - a.x) ^ 2 + (c.y - a.y) ^ 2) * (b.y - a.y)))
      (a.y + (1 / 2) / area2 a.pt b.pt c.pt *
        ((b.x - a.x) * ((c.x - a.x) ^ 2 + (c.y - a.y) ^ 2) - (c.x - a.x) * ((b.x - a.x) ^ 2 + (b.y - a.y) ^ 2)))

theorem Tri.triCircumcenter_real (a b c : Vec ℝ) : Tri.triCircumcenter a b c =
    let pab := Line.perpendicularBisector a b
    let pbc := Line.perpendicularBisector b c
    let pca := Line.perpendicularBisector c a
    if (pab.intersection pbc).valid = true then circumFormula a b c
    else if (pab.intersection pca).valid = true then pab.intersection pca
    else if (pbc.intersection pca).valid = true then pbc.intersection pca
    else circumFormula a b c := by
  have hout : (b.sub a).outerProduct (c.sub a) = area2 a.pt b.pt c.pt := by
    simp only [Vec.outerProduct, Vec.sub_x, Vec.sub_y, area2, Vec.pt_fst, Vec.pt_snd]
  simp only [Tri.triCircumcenter, circumFormula, hout, fabs_real, Vec.r2_real, Vec.sub_x, Vec.sub_y, Nat.cast_one,
    Nat.cast_ofNat]
  cases h : ((Line.perpendicularBisector a b).intersection (Line.perpendicularBisector b c)).valid <;> simp

theorem circumFormula_dist (a b c : Vec ℝ) (h : (circumFormula a b c).isValid = true) :
    Spec.d (circumFormula a b c).pt a.pt = Spec.d (circumFormula a b c).pt b.pt ∧
    Spec.d (circumFormula a b c).pt b.pt = Spec.d (circumFormula a b c).pt c.pt := by
  unfold circumFormula at h ⊢
  by_cases hc : |area2 a.pt b.pt c.pt| < 1 / 10000000000
  · rw [if_pos hc] at h; exact absurd h (by simp [Vec.isValid])
  rw [if_neg hc]
  have hne : area2 a.pt b.pt c.pt ≠ 0 := by
    intro h0; rw [h0, abs_zero] at hc; norm_num at hc
  have hD : (b.x - a.x) * (c.y - a.y) - (b.y - a.y) * (c.x - a.x) ≠ 0 := hne
  have hA : area2 a.pt b.pt c.pt = (b.x - a.x) * (c.y - a.y) - (b.y - a.y) * (c.x - a.x) := rfl
  rw [hA, Spec.d_eq_d_iff, Spec.d_eq_d_iff]
  simp only [Vec.pt_ofXY, Vec.pt_fst, Vec.pt_snd]
  constructor
  · field_simp; ring
  · field_simp; ring

/-- **C42**, no two vertices within EPSILON: equidistance, and the exact validity condition. -/
theorem C42_circumcenter_partial (a b c : Vec ℝ) (hab : ¬ VNear a b) (hbc : ¬ VNear b c) (hca : ¬ VNear c a) :
    let o := Tri.triCircumcenter a b c
    (o.isValid = true → Spec.d o.pt a.pt = Spec.d o.pt b.pt ∧ Spec.d o.pt b.pt = Spec.d o.pt c.pt) ∧
    (o.isValid = true ↔ 1 / 10000000000 ≤ |area2 a.pt b.pt c.pt|) ∧
    (Collinear3 a.pt b.pt c.pt → o.isValid = false) := by
  intro o
  have ho : o = circumFormula a b c := by
    simp only [o]
    rw [Tri.triCircumcenter_real]
    simp only
    obtain ⟨a1, b1⟩ := Line.perpendicularBisector_of_not_near hab
    obtain ⟨a2, b2⟩ := Line.perpendicularBisector_of_not_near hbc
    obtain ⟨a3, b3⟩ := Line.perpendicularBisector_of_not_near hca
    by_cases hv : ((Line.perpendicularBisector a b).intersection (Line.perpendicularBisector b c)).valid = true
    · rw [if_pos hv]
    · rw [if_neg hv]
      have hlt : |area2 a.pt b.pt c.pt| < EPSILON := by
        by_contra hc
        apply hv
        rw [Line.intersection_real, a1, b1, a2, b2]
        have e : (b.x - a.x) * (c.y - b.y) - (b.y - a.y) * (c.x - b.x) = area2 a.pt b.pt c.pt := by
          simp only [area2, Vec.pt_fst, Vec.pt_snd]; ring
        rw [e, if_neg hc]; rfl
      have i2 : ((Line.perpendicularBisector a b).intersection (Line.perpendicularBisector c a)).valid = false := by
        rw [Line.intersection_real, a1, b1, a3, b3]
        have e : (b.x - a.x) * (a.y - c.y) - (b.y - a.y) * (a.x - c.x) = -area2 a.pt b.pt c.pt := by
          simp only [area2, Vec.pt_fst, Vec.pt_snd]; ring
        rw [e, abs_neg, if_pos hlt]; rfl
      have i3 : ((Line.perpendicularBisector b c).intersection (Line.perpendicularBisector c a)).valid = false := by
        rw [Line.intersection_real, a2, b2, a3, b3]
        have e : (c.x - b.x) * (a.y - c.y) - (c.y - b.y) * (a.x - c.x) = area2 a.pt b.pt c.pt := by
          simp only [area2, Vec.pt_fst, Vec.pt_snd]; ring
        rw [e, if_pos hlt]; rfl
      rw [i2, i3]; simp
  have hval : o.isValid = true ↔ 1 / 10000000000 ≤ |area2 a.pt b.pt c.pt| := by
    rw [ho]; unfold circumFormula
    by_cases hc : |area2 a.pt b.pt c.pt| < 1 / 10000000000
    · rw [if_pos hc]; simp only [Vec.isValid, Vec.invalid_valid, Bool.false_eq_true, false_iff, not_le]; exact hc
    · rw [if_neg hc]; simp only [Vec.isValid, Vec.ofXY_valid, true_iff]; exact not_lt.mp hc
  refine ⟨?_, hval, ?_⟩
  · intro hv; rw [ho] at hv ⊢; exact circumFormula_dist a b c hv
  · intro hcol
    rw [← Bool.not_eq_true, hval]
    rw [(area2_eq_zero_iff _ _ _).mpr hcol, abs_zero]; norm_num

/-- **C42** is false when two vertices are within EPSILON: for the collinear points `0`, `9e-7`, `1.5e-6` on the x-axis
a valid point is returned, and it is not equidistant from the vertices. -/
theorem C42_refuted : ∃ a b c : Vec ℝ, Collinear3 a.pt b.pt c.pt ∧ (Tri.triCircumcenter a b c).isValid = true ∧
    Spec.d (Tri.triCircumcenter a b c).pt a.pt ≠ Spec.d (Tri.triCircumcenter a b c).pt b.pt := by
  refine ⟨Vec.ofXY 0 0, Vec.ofXY (9 / 10000000) 0, Vec.ofXY (15 / 10000000) 0, ?_, ?_⟩
  · exact ⟨0, 1, 0, Or.inr one_ne_zero, by simp [lineSet], by simp [lineSet], by simp [lineSet]⟩
  have p1 : Line.perpendicularBisector (Vec.ofXY (0:ℝ) 0) (Vec.ofXY (9 / 10000000) 0) = ⟨0, 1, 0⟩ := by
    unfold Line.perpendicularBisector
    simp only [fabs_real, EPSILON_real, Vec.ofXY_x, Vec.ofXY_y]
    rw [if_pos (by norm_num [abs_of_pos])]
    simp [Line.ofPoints]
  have p2 : Line.perpendicularBisector (Vec.ofXY (9 / 10000000 : ℝ) 0) (Vec.ofXY (15 / 10000000) 0) = ⟨0, 1, 0⟩ := by
    unfold Line.perpendicularBisector
    simp only [fabs_real, EPSILON_real, Vec.ofXY_x, Vec.ofXY_y]
    rw [if_pos (by norm_num [abs_of_pos])]
    simp [Line.ofPoints]
  have p3 : Line.perpendicularBisector (Vec.ofXY (15 / 10000000 : ℝ) 0) (Vec.ofXY 0 0) =
      ⟨-(15 / 10000000), 0, (15 / 10000000) ^ 2 / 2⟩ := by
    unfold Line.perpendicularBisector
    simp only [fabs_real, EPSILON_real, Vec.ofXY_x, Vec.ofXY_y]
    rw [if_neg (by norm_num [abs_of_neg])]
    norm_num
  have i1 : (Line.mk (0:ℝ) 1 0).intersection ⟨0, 1, 0⟩ = Vec.invalid := by
    rw [Line.intersection_real, if_pos (by norm_num [EPSILON_real])]
  have i2 : (Line.mk (0:ℝ) 1 0).intersection ⟨-(15 / 10000000), 0, (15 / 10000000) ^ 2 / 2⟩ =
      Vec.ofXY (15 / 20000000) 0 := by
    rw [Line.intersection_real, if_neg (by norm_num [EPSILON_real, abs_of_pos])]
    norm_num
  have : Tri.triCircumcenter (Vec.ofXY (0:ℝ) 0) (Vec.ofXY (9 / 10000000) 0) (Vec.ofXY (15 / 10000000) 0) =
      Vec.ofXY (15 / 20000000) 0 := by
    rw [Tri.triCircumcenter_real]; simp only [p1, p2, p3]
    rw [i1, i2]; simp
  rw [this]
  refine ⟨rfl, ?_⟩
  rw [Ne, Spec.d_eq_d_iff]; norm_num

/-- Non-vacuity of C42: the circumcenter of a right triangle is valid. -/
example : (Tri.triCircumcenter (Vec.ofXY (0:ℝ) 0) (Vec.ofXY 4 0) (Vec.ofXY 0 3)).isValid = true := by
  refine (C42_circumcenter_partial _ _ _ ?_ ?_ ?_).2.1.mpr ?_
  · unfold VNear; norm_num [EPSILON_real, abs_of_pos]
  · unfold VNear; norm_num [EPSILON_real, abs_of_pos]
  · unfold VNear; norm_num [EPSILON_real, abs_of_neg]
  · norm_num [area2, abs_of_pos]

/-! ## C43 -/

/-- **C43.** -/
theorem C43_orthocenter (a b c : Vec ℝ) :
    let h := Tri.triOrthocenter a b c
    (h.isValid = true ↔ EPSILON ≤ |area2 a.pt b.pt c.pt|) ∧
    (h.isValid = true → dot (h.pt - a.pt) (c.pt - b.pt) = 0 ∧ dot (h.pt - b.pt) (a.pt - c.pt) = 0 ∧
      dot (h.pt - c.pt) (b.pt - a.pt) = 0) := by
  intro h
  have e0 := EPSILON_pos
  have hh : h = Tri.triOrthocenter a b c := rfl
  unfold Tri.triOrthocenter at hh
  simp only at hh
  have h21 := C21_intersection ((Line.ofPoints b c).perpendicular a) ((Line.ofPoints c a).perpendicular b)
  rw [← hh] at h21
  constructor
  · rw [h21.1, ← Bool.not_eq_true, Line.isParallel_iff, not_lt]
    have e : ((Line.ofPoints b c).perpendicular a).a * ((Line.ofPoints c a).perpendicular b).b -
        ((Line.ofPoints c a).perpendicular b).a * ((Line.ofPoints b c).perpendicular a).b = area2 a.pt b.pt c.pt := by
      simp only [Line.perpendicular, Line.ofPoints, area2, Vec.pt_fst, Vec.pt_snd]; ring
    rw [e]
  · intro hv
    have hm : h.pt ∈ ((Line.ofPoints b c).perpendicular a).pts ∩ ((Line.ofPoints c a).perpendicular b).pts := by
      rw [h21.2.1 hv]; rfl
    have m1 := Line.mem_pts.mp hm.1
    have m2 := Line.mem_pts.mp hm.2
    simp only [Line.perpendicular, Line.ofPoints] at m1 m2
    simp only [dot, Prod.fst_sub, Prod.snd_sub, Vec.pt_fst, Vec.pt_snd] at m1 m2 ⊢
    refine ⟨by linarith, by linarith, by linarith⟩

/-- Non-vacuity of C43. -/
example : (Tri.triOrthocenter (Vec.ofXY (0:ℝ) 0) (Vec.ofXY 4 0) (Vec.ofXY 1 3)).isValid = true :=
  (C43_orthocenter _ _ _).1.mpr (by norm_num [EPSILON_real, area2, abs_of_pos])

/-! ## C44 -/

theorem cross_unit (a b : ℝ) : cross (unit a) (unit b) = Real.sin ((b - a) * (Real.pi / 180)) := by
  simp only [cross, unit]
  rw [sub_mul, Real.sin_sub]; ring

/-- If `2φ ≡ α + β`, the direction `φ` is parallel to `unit α + unit β`. -/
theorem bisector_parallel {φ α β : ℝ} (h : AngleEq (2 * φ) (α + β)) : cross (unit φ) (unit α + unit β) = 0 := by
  obtain ⟨k, hk⟩ := h
  have e : cross (unit φ) (unit α + unit β) = cross (unit φ) (unit α) + cross (unit φ) (unit β) := by
    simp only [cross, Prod.fst_add, Prod.snd_add]; ring
  rw [e, cross_unit, cross_unit]
  have : (β - φ) * (Real.pi / 180) = -((α - φ) * (Real.pi / 180)) + ((-k : ℤ) : ℝ) * (2 * Real.pi) := by
    have : β - φ = -(α - φ) - 360 * k := by linarith
    rw [this]; push_cast; ring
  rw [this, Real.sin_add_int_mul_two_pi, Real.sin_neg]; ring

theorem bisect_line (p : Vec ℝ) (α β : ℝ) (z : Pt) :
    z ∈ (Line.ofAngle p (AngleDeg.bisect α β)).pts ↔ cross (unit (AngleDeg.bisect α β).degree) (z - p.pt) = 0 := by
  rw [Line.mem_pts]
  have hu := unit_congr (AngleDeg.degree_angleEq (AngleDeg.bisect α β))
  simp only [Line.ofAngle, cosA_real, sinA_real]
  rw [hu]
  simp only [cross, Prod.fst_sub, Prod.snd_sub, Vec.pt_fst, Vec.pt_snd]
  constructor <;> intro h <;> linarith

/-- The incenter: mean of the vertices weighted by the lengths of the opposite sides. -/
noncomputable def Spec.incenterPt (a b c : Pt) : Pt :=
  (1 / (Spec.d b c + Spec.d c a + Spec.d a b)) • (Spec.d b c • a + Spec.d c a • b + Spec.d a b • c)

theorem th_degree_unit {v : Vec ℝ} (h : ¬ v.Tiny) : v.pt = len v.pt • unit v.th.degree := by
  rw [unit_congr (AngleDeg.degree_angleEq v.th)]; exact Vec.th_polar h

theorem cross_smul_eq_zero {u v : Pt} {t : ℝ} (h : cross u v = 0) : cross u (t • v) = 0 := by
  simp only [cross, Prod.smul_fst, Prod.smul_snd, smul_eq_mul] at h ⊢
  linear_combination t * h

/-- The two bisector lines of `tri_incenter` both pass through the incenter. -/
theorem incenter_on_bisector {p q r : Vec ℝ} (h1 : ¬ (q.sub p).Tiny) (h2 : ¬ (r.sub p).Tiny) (m : ℝ) :
    (m • ((Spec.d p.pt r.pt) • (q.pt - p.pt) + (Spec.d p.pt q.pt) • (r.pt - p.pt)) + p.pt) ∈
      (Line.ofAngle p (AngleDeg.bisect (q.sub p).th.degree (r.sub p).th.degree)).pts := by
  rw [bisect_line]
  have hq := th_degree_unit h1
  have hr := th_degree_unit h2
  rw [Vec.pt_sub] at hq hr
  have lq : len (q.pt - p.pt) = Spec.d p.pt q.pt := by rw [Spec.d_comm, Spec.d_eq_len]
  have lr : len (r.pt - p.pt) = Spec.d p.pt r.pt := by rw [Spec.d_comm, Spec.d_eq_len]
  rw [lq] at hq; rw [lr] at hr
  have e : m • ((Spec.d p.pt r.pt) • (q.pt - p.pt) + (Spec.d p.pt q.pt) • (r.pt - p.pt)) + p.pt - p.pt =
      (m * (Spec.d p.pt r.pt * Spec.d p.pt q.pt)) • (unit (q.sub p).th.degree + unit (r.sub p).th.degree) := by
    rw [add_sub_cancel_right]
    nth_rewrite 1 [hq]
    nth_rewrite 1 [hr]
    rw [smul_smul, smul_smul, mul_comm (Spec.d p.pt q.pt) (Spec.d p.pt r.pt), ← smul_add, smul_smul]
  rw [e]
  exact cross_smul_eq_zero (bisector_parallel (C06_double_partial _ _))

theorem incenter_val {a b c : Vec ℝ} (hab : ¬ (b.sub a).Tiny) (hac : ¬ (c.sub a).Tiny) (hbc : ¬ (c.sub b).Tiny)
    (h : (Tri.triIncenter a b c).isValid = true) : (Tri.triIncenter a b c).pt = incenterPt a.pt b.pt c.pt := by
  have hba : ¬ (a.sub b).Tiny := by
    intro hc; apply hab
    unfold Vec.Tiny at hc ⊢
    simp only [Vec.sub_x, Vec.sub_y] at hc ⊢
    rw [abs_sub_comm b.x, abs_sub_comm b.y]; exact hc
  have h21 := C21_intersection (Line.ofAngle a (AngleDeg.bisect (b.sub a).th.degree (c.sub a).th.degree))
    (Line.ofAngle b (AngleDeg.bisect (a.sub b).th.degree (c.sub b).th.degree))
  have hi := h21.2.1 h
  have pos : 0 < Spec.d b.pt c.pt + Spec.d c.pt a.pt + Spec.d a.pt b.pt := by
    have h1 := Vec.len_pos_of_not_tiny hab
    have : len (b.sub a).pt = Spec.d a.pt b.pt := by rw [Vec.pt_sub, Spec.d_comm, Spec.d_eq_len]
    rw [this] at h1
    linarith [Spec.d_nonneg b.pt c.pt, Spec.d_nonneg c.pt a.pt]
  have m1 : incenterPt a.pt b.pt c.pt ∈
      (Line.ofAngle a (AngleDeg.bisect (b.sub a).th.degree (c.sub a).th.degree)).pts := by
    have := incenter_on_bisector hab hac (1 / (Spec.d b.pt c.pt + Spec.d c.pt a.pt + Spec.d a.pt b.pt))
    rw [Spec.d_comm a.pt c.pt] at this
    convert this using 1
    unfold incenterPt
    refine Prod.ext ?_ ?_
    · simp only [Prod.fst_add, Prod.smul_fst, smul_eq_mul, Prod.fst_sub]; field_simp; ring
    · simp only [Prod.snd_add, Prod.smul_snd, smul_eq_mul, Prod.snd_sub]; field_simp; ring
  have m2 : incenterPt a.pt b.pt c.pt ∈
      (Line.ofAngle b (AngleDeg.bisect (a.sub b).th.degree (c.sub b).th.degree)).pts := by
    have := incenter_on_bisector hba hbc (1 / (Spec.d b.pt c.pt + Spec.d c.pt a.pt + Spec.d a.pt b.pt))
    rw [Spec.d_comm b.pt a.pt] at this
    convert this using 1
    unfold incenterPt
    refine Prod.ext ?_ ?_
    · simp only [Prod.fst_add, Prod.smul_fst, smul_eq_mul, Prod.fst_sub]; field_simp; ring
    · simp only [Prod.snd_add, Prod.smul_snd, smul_eq_mul, Prod.snd_sub]; field_simp; ring
  have : incenterPt a.pt b.pt c.pt ∈ ({(Tri.triIncenter a b c).pt} : Set Pt) := by
    exact Set.Subset.antisymm_iff.mp hi |>.1 ⟨m1, m2⟩
  exact this.symm

/-- Distance from a point to the line through two different points. -/
theorem minDist_line {a b : Pt} (h : a ≠ b) (z : Pt) :
    IsMinDist (lineThrough a (b - a)) z (|area2 a b z| / Spec.d a b) := by
  have hp := dir_pos h
  have hne : (-(b.2 - a.2)) ^ 2 + (b.1 - a.1) ^ 2 ≠ 0 := by nlinarith
  have hset : lineThrough a (b - a) = lineSet (-(b.2 - a.2)) (b.1 - a.1) ((b.2 - a.2) * a.1 - (b.1 - a.1) * a.2) := by
    ext w
    have := lineSet_dir (p := a) hne w
    have e2 : ((b.1 - a.1, -(-(b.2 - a.2))) : Pt) = b - a := Prod.ext rfl (by simp)
    rw [e2] at this
    unfold lineThrough lineSet
    simp only [Set.mem_ofPred_eq]
    rw [← this]
    constructor <;> intro h <;> linarith
  rw [hset]
  have hf := lineSet_foot (c := (b.2 - a.2) * a.1 - (b.1 - a.1) * a.2) hne z
  simp only at hf
  obtain ⟨f1, f2, f3⟩ := hf
  have hd : √((-(b.2 - a.2)) ^ 2 + (b.1 - a.1) ^ 2) = Spec.d a b := by
    unfold Spec.d; congr 1; ring
  have hval : |((-(b.2 - a.2)) * z.1 + (b.1 - a.1) * z.2 + ((b.2 - a.2) * a.1 - (b.1 - a.1) * a.2)) /
      √((-(b.2 - a.2)) ^ 2 + (b.1 - a.1) ^ 2)| = |area2 a b z| / Spec.d a b := by
    rw [hd, abs_div, abs_of_nonneg (Spec.d_nonneg a b)]
    congr 2; unfold area2; ring
  rw [hval] at f2
  refine ⟨⟨_, f1, f2⟩, fun q hq => ?_⟩
  rw [← f2]
  by_cases he : q = (z.1 - ((-(b.2 - a.2)) * z.1 + (b.1 - a.1) * z.2 + ((b.2 - a.2) * a.1 - (b.1 - a.1) * a.2)) /
      ((-(b.2 - a.2)) ^ 2 + (b.1 - a.1) ^ 2) * (-(b.2 - a.2)), z.2 - ((-(b.2 - a.2)) * z.1 + (b.1 - a.1) * z.2 +
      ((b.2 - a.2) * a.1 - (b.1 - a.1) * a.2)) / ((-(b.2 - a.2)) ^ 2 + (b.1 - a.1) ^ 2) * (b.1 - a.1))
  · rw [he]
  · exact (f3 q hq he).le

theorem ne_of_not_tiny {a b : Vec ℝ} (h : ¬ (b.sub a).Tiny) : a.pt ≠ b.pt := by
  intro he
  rw [Vec.pt_eq_iff] at he
  apply h
  constructor
  · simp only [Vec.sub_x, he.1, sub_self, abs_zero]; exact EPSILON_pos
  · simp only [Vec.sub_y, he.2, sub_self, abs_zero]; exact EPSILON_pos

/-- **C44.** -/
theorem C44_incenter (a b c : Vec ℝ) (hab : ¬ (b.sub a).Tiny) (hac : ¬ (c.sub a).Tiny) (hbc : ¬ (c.sub b).Tiny)
    (h : (Tri.triIncenter a b c).isValid = true) :
    InTriangle a.pt b.pt c.pt (Tri.triIncenter a b c).pt ∧
    ∃ r, IsMinDist (lineThrough a.pt (b.pt - a.pt)) (Tri.triIncenter a b c).pt r ∧
      IsMinDist (lineThrough b.pt (c.pt - b.pt)) (Tri.triIncenter a b c).pt r ∧
      IsMinDist (lineThrough c.pt (a.pt - c.pt)) (Tri.triIncenter a b c).pt r := by
  rw [incenter_val hab hac hbc h]
  have nab := ne_of_not_tiny hab
  have nbc := ne_of_not_tiny hbc
  have nca := (ne_of_not_tiny hac).symm
  generalize a.pt = A at *
  generalize b.pt = B at *
  generalize c.pt = C at *
  have lpos : ∀ {p q : Pt}, p ≠ q → 0 < Spec.d p q := fun hne =>
    lt_of_le_of_ne (Spec.d_nonneg _ _) (fun h0 => hne (Spec.d_eq_zero.mp h0.symm))
  have x := lpos nbc
  have y := lpos nca
  have z := lpos nab
  have m1 := minDist_line nab (incenterPt A B C)
  have m2 := minDist_line nbc (incenterPt A B C)
  have m3 := minDist_line nca (incenterPt A B C)
  have hI : incenterPt A B C = (1 / (Spec.d B C + Spec.d C A + Spec.d A B)) •
    (Spec.d B C • A + Spec.d C A • B + Spec.d A B • C) := rfl
  generalize Spec.d B C = p at *
  generalize Spec.d C A = q at *
  generalize Spec.d A B = r at *
  have hs : 0 < p + q + r := by positivity
  have i1 : (incenterPt A B C).1 = (p * A.1 + q * B.1 + r * C.1) / (p + q + r) := by
    rw [hI]; simp only [Prod.smul_fst, Prod.fst_add, smul_eq_mul]; ring
  have i2 : (incenterPt A B C).2 = (p * A.2 + q * B.2 + r * C.2) / (p + q + r) := by
    rw [hI]; simp only [Prod.smul_snd, Prod.snd_add, smul_eq_mul]; ring
  constructor
  · refine ⟨p / (p + q + r), q / (p + q + r), r / (p + q + r), by positivity, by positivity, by positivity, ?_, ?_⟩
    · field_simp
    · refine Prod.ext ?_ ?_
      · rw [i1]; simp only [Prod.fst_add, Prod.smul_fst, smul_eq_mul]; field_simp
      · rw [i2]; simp only [Prod.snd_add, Prod.smul_snd, smul_eq_mul]; field_simp
  · have e1 : area2 A B (incenterPt A B C) = r * (area2 A B C / (p + q + r)) := by
      unfold area2; rw [i1, i2]; field_simp; ring
    have e2 : area2 B C (incenterPt A B C) = p * (area2 A B C / (p + q + r)) := by
      unfold area2; rw [i1, i2]; field_simp; ring
    have e3 : area2 C A (incenterPt A B C) = q * (area2 A B C / (p + q + r)) := by
      unfold area2; rw [i1, i2]; field_simp; ring
    have f : ∀ {k : ℝ}, 0 < k → |k * (area2 A B C / (p + q + r))| / k = |area2 A B C / (p + q + r)| := by
      intro k hk; rw [abs_mul, abs_of_pos hk]; field_simp
    rw [e1, f z] at m1
    rw [e2, f x] at m2
    rw [e3, f y] at m3
    exact ⟨_, m1, m2, m3⟩

theorem abs_cross_le {u v w : Pt} (hu : len u = 1) (hv : cross u v = 0) :
    |cross v w| ≤ len v * |cross u w| := by
  have h1 : u.1 ^ 2 + u.2 ^ 2 = 1 := by rw [← Spec.len_sq, hu]; norm_num
  simp only [cross] at hv ⊢
  have e1 : v.1 = (u.1 * v.1 + u.2 * v.2) * u.1 := by linear_combination (-v.1) * h1 - u.2 * hv
  have e2 : v.2 = (u.1 * v.1 + u.2 * v.2) * u.2 := by linear_combination (-v.2) * h1 + u.1 * hv
  have hl : len v = |u.1 * v.1 + u.2 * v.2| := by
    unfold len
    have : v.1 ^ 2 + v.2 ^ 2 = (u.1 * v.1 + u.2 * v.2) ^ 2 := by
      linear_combination (-(v.1 ^ 2 + v.2 ^ 2)) * h1 + (u.1 * v.2 - u.2 * v.1) * hv
    rw [this, Real.sqrt_sq_eq_abs]
  rw [hl, ← abs_mul]
  have : v.1 * w.2 - v.2 * w.1 = (u.1 * v.1 + u.2 * v.2) * (u.1 * w.2 - u.2 * w.1) := by
    linear_combination w.2 * e1 - w.1 * e2
  rw [this]

theorem len_add_units_le (α β : ℝ) : len (unit α + unit β) ≤ 2 := by
  rw [len_eq_norm, toC_add]
  refine (norm_add_le _ _).trans ?_
  rw [← len_eq_norm, ← len_eq_norm, unit_len, unit_len]; norm_num

/-- **C44**, when the result is valid: it is enough that the doubled area is not tiny compared with the sides. -/
theorem C44_valid (a b c : Vec ℝ) (hab : ¬ (b.sub a).Tiny) (hac : ¬ (c.sub a).Tiny) (hbc : ¬ (c.sub b).Tiny)
    (h : 4 * EPSILON * (Spec.d a.pt b.pt * Spec.d b.pt c.pt * Spec.d c.pt a.pt) ≤
      |area2 a.pt b.pt c.pt| * (Spec.d a.pt b.pt + Spec.d b.pt c.pt + Spec.d c.pt a.pt)) :
    (Tri.triIncenter a b c).isValid = true := by
  have hba : ¬ (a.sub b).Tiny := by
    intro hc; apply hab
    unfold Vec.Tiny at hc ⊢
    simp only [Vec.sub_x, Vec.sub_y] at hc ⊢
    rw [abs_sub_comm b.x, abs_sub_comm b.y]; exact hc
  have h21 := C21_intersection (Line.ofAngle a (AngleDeg.bisect (b.sub a).th.degree (c.sub a).th.degree))
    (Line.ofAngle b (AngleDeg.bisect (a.sub b).th.degree (c.sub b).th.degree))
  refine h21.1.mpr ?_
  rw [← Bool.not_eq_true, Line.isParallel_iff, not_lt]
  set φ := AngleDeg.bisect (b.sub a).th.degree (c.sub a).th.degree with hφ
  set ψ := AngleDeg.bisect (a.sub b).th.degree (c.sub b).th.degree with hψ
  have ecross : (Line.ofAngle a φ).a * (Line.ofAngle b ψ).b - (Line.ofAngle b ψ).a * (Line.ofAngle a φ).b =
      cross (unit φ.degree) (unit ψ.degree) := by
    rw [unit_congr (AngleDeg.degree_angleEq φ), unit_congr (AngleDeg.degree_angleEq ψ)]
    simp only [Line.ofAngle, cosA_real, sinA_real, cross]; ring
  rw [ecross]
  have b1 := bisector_parallel (C06_double_partial (b.sub a).th.degree (c.sub a).th.degree)
  have b2 := bisector_parallel (C06_double_partial (a.sub b).th.degree (c.sub b).th.degree)
  rw [← hφ] at b1; rw [← hψ] at b2
  have u1 := th_degree_unit hab
  have u2 := th_degree_unit hac
  have u3 := th_degree_unit hba
  have u4 := th_degree_unit hbc
  have l1 := len_add_units_le (b.sub a).th.degree (c.sub a).th.degree
  have l2 := len_add_units_le (a.sub b).th.degree (c.sub b).th.degree
  set U := unit (b.sub a).th.degree with hU
  set W := unit (c.sub a).th.degree with hW
  set X := unit (a.sub b).th.degree with hX
  set V := unit (c.sub b).th.degree with hV
  have lab : len (b.sub a).pt = Spec.d a.pt b.pt := by rw [Vec.pt_sub, Spec.d_comm, Spec.d_eq_len]
  have lac : len (c.sub a).pt = Spec.d c.pt a.pt := by rw [Vec.pt_sub, Spec.d_eq_len]
  have lba : len (a.sub b).pt = Spec.d a.pt b.pt := by rw [Vec.pt_sub, Spec.d_eq_len]
  have lbc : len (c.sub b).pt = Spec.d b.pt c.pt := by rw [Vec.pt_sub, Spec.d_comm, Spec.d_eq_len]
  have pz := Vec.len_pos_of_not_tiny hab
  have py := Vec.len_pos_of_not_tiny hac
  have px := Vec.len_pos_of_not_tiny hbc
  rw [lab] at u1 pz; rw [lac] at u2 py; rw [lba] at u3; rw [lbc] at u4 px
  -- |cross (U+W) (X+V)| ≤ 4 |cross φ ψ|
  have s1 := abs_cross_le (w := X + V) (unit_len φ.degree) b1
  have s2 := abs_cross_le (w := unit φ.degree) (unit_len ψ.degree) b2
  have sw1 : |cross (unit φ.degree) (X + V)| = |cross (X + V) (unit φ.degree)| := by
    rw [← abs_neg]; congr 1; simp only [cross]; ring
  have sw2 : |cross (unit ψ.degree) (unit φ.degree)| = |cross (unit φ.degree) (unit ψ.degree)| := by
    rw [← abs_neg]; congr 1; simp only [cross]; ring
  rw [sw1] at s1; rw [sw2] at s2
  have s3 : |cross (U + W) (X + V)| ≤ 4 * |cross (unit φ.degree) (unit ψ.degree)| := by
    calc |cross (U + W) (X + V)| ≤ len (U + W) * |cross (X + V) (unit φ.degree)| := s1
      _ ≤ 2 * |cross (X + V) (unit φ.degree)| := mul_le_mul_of_nonneg_right l1 (abs_nonneg _)
      _ ≤ 2 * (2 * |cross (unit φ.degree) (unit ψ.degree)|) := by
          apply mul_le_mul_of_nonneg_left _ (by norm_num)
          exact s2.trans (mul_le_mul_of_nonneg_right l2 (abs_nonneg _))
      _ = 4 * |cross (unit φ.degree) (unit ψ.degree)| := by ring
  set z := Spec.d a.pt b.pt
  set x := Spec.d b.pt c.pt
  set y := Spec.d c.pt a.pt
  -- the value of the left side
  have U1 : b.x - a.x = z * U.1 := congrArg Prod.fst u1
  have U2 : b.y - a.y = z * U.2 := congrArg Prod.snd u1
  have W1 : c.x - a.x = y * W.1 := congrArg Prod.fst u2
  have W2 : c.y - a.y = y * W.2 := congrArg Prod.snd u2
  have X1 : a.x - b.x = z * X.1 := congrArg Prod.fst u3
  have X2 : a.y - b.y = z * X.2 := congrArg Prod.snd u3
  have V1 : c.x - b.x = x * V.1 := congrArg Prod.fst u4
  have V2 : c.y - b.y = x * V.2 := congrArg Prod.snd u4
  have val : z * x * y * cross (U + W) (X + V) = area2 a.pt b.pt c.pt * (z + x + y) := by
    have hx1 : z * (X.1 + U.1) = 0 := by linarith
    have hx2 : z * (X.2 + U.2) = 0 := by linarith
    have hX1 : X.1 = -U.1 := by
      have := (mul_eq_zero.mp hx1).resolve_left pz.ne'; linarith
    have hX2 : X.2 = -U.2 := by
      have := (mul_eq_zero.mp hx2).resolve_left pz.ne'; linarith
    have hA : area2 a.pt b.pt c.pt = z * y * (U.1 * W.2 - U.2 * W.1) := by
      simp only [area2, Vec.pt_fst, Vec.pt_snd]; rw [U1, U2, W1, W2]; ring
    have hV1 : x * V.1 = y * W.1 - z * U.1 := by linarith
    have hV2 : x * V.2 = y * W.2 - z * U.2 := by linarith
    rw [hA]
    simp only [cross, Prod.fst_add, Prod.snd_add]
    rw [hX1, hX2]
    linear_combination (z * y * (U.1 + W.1)) * hV2 - (z * y * (U.2 + W.2)) * hV1
  have hpos : 0 < z * x * y := by positivity
  have h4 : 4 * EPSILON * (z * x * y) ≤ z * x * y * |cross (U + W) (X + V)| := by
    calc 4 * EPSILON * (z * x * y) ≤ |area2 a.pt b.pt c.pt| * (z + x + y) := h
      _ = |area2 a.pt b.pt c.pt * (z + x + y)| := by
          rw [abs_mul, abs_of_pos (by positivity : 0 < z + x + y)]
      _ = z * x * y * |cross (U + W) (X + V)| := by
          rw [← val, abs_mul, abs_of_pos hpos]
  have h5 : 4 * EPSILON ≤ |cross (U + W) (X + V)| := by
    by_contra hc; push Not at hc
    have := mul_lt_mul_of_pos_left hc hpos
    linarith
  linarith

/-- Non-vacuity of C44: the 3-4-5 triangle has a valid incenter, the point (1, 1). -/
example : (Tri.triIncenter (Vec.ofXY (0:ℝ) 0) (Vec.ofXY 4 0) (Vec.ofXY 0 3)).isValid = true ∧
    (Tri.triIncenter (Vec.ofXY (0:ℝ) 0) (Vec.ofXY 4 0) (Vec.ofXY 0 3)).pt = (1, 1) := by
  have t1 : ¬ ((Vec.ofXY (4:ℝ) 0).sub (Vec.ofXY 0 0)).Tiny := by unfold Vec.Tiny; norm_num [EPSILON_real]
  have t2 : ¬ ((Vec.ofXY (0:ℝ) 3).sub (Vec.ofXY 0 0)).Tiny := by unfold Vec.Tiny; norm_num [EPSILON_real]
  have t3 : ¬ ((Vec.ofXY (0:ℝ) 3).sub (Vec.ofXY 4 0)).Tiny := by unfold Vec.Tiny; norm_num [EPSILON_real]
  have d1 : Spec.d (Vec.ofXY (0:ℝ) 0).pt (Vec.ofXY 4 0).pt = 4 := Spec.d_eq_of_sq (by norm_num) (by norm_num)
  have d2 : Spec.d (Vec.ofXY (4:ℝ) 0).pt (Vec.ofXY 0 3).pt = 5 := Spec.d_eq_of_sq (by norm_num) (by norm_num)
  have d3 : Spec.d (Vec.ofXY (0:ℝ) 3).pt (Vec.ofXY 0 0).pt = 3 := Spec.d_eq_of_sq (by norm_num) (by norm_num)
  have hv := C44_valid _ _ _ t1 t2 t3 (by rw [d1, d2, d3, EPSILON_real]; norm_num [area2, abs_of_pos])
  refine ⟨hv, ?_⟩
  rw [incenter_val t1 t2 t3 hv]
  unfold incenterPt
  rw [d1, d2, d3]
  refine Prod.ext ?_ ?_ <;> norm_num

/-! ## C45 -/

/-- **C45** is false for every triangle: `tri_centroid` always raises `AttributeError`. -/
theorem C45_refuted (a b c : Vec ℝ) : Tri.triCentroid a b c = .error .attributeError := rfl

/-! ## C46 -/

/-- **C46** is false: `is_valid` answers False for every triangle. -/
theorem C46_refuted_always_false (t : Tri ℝ) : t.isValid = false := by
  unfold Tri.isValid
  have : t.a.eq t.a = true := by rw [Vec.eq_iff]; exact ⟨rfl, rfl⟩
  rw [this]; simp

/-- **C46**, the direction that does hold: an accepted triangle would be proper (no triangle is accepted);
a concrete proper triangle that is rejected. -/
theorem C46_refuted : ∃ t : Tri ℝ, t.a.valid = true ∧ t.b.valid = true ∧ t.c.valid = true ∧ t.a.pt ≠ t.b.pt ∧
    t.b.pt ≠ t.c.pt ∧ t.a.pt ≠ t.c.pt ∧ t.isValid = false := by
  refine ⟨⟨Vec.ofXY 0 0, Vec.ofXY 4 0, Vec.ofXY 0 3⟩, rfl, rfl, rfl, ?_, ?_, ?_, C46_refuted_always_false _⟩
  all_goals rw [Ne, Vec.pt_eq_iff]; norm_num

/-! ## C47 -/

/-- The three sides in the order the code uses. -/
def Tri.side (t : Tri ℝ) : Fin 3 → Seg ℝ
  | 0 => Seg.ofPoints t.a t.b
  | 1 => Seg.ofPoints t.b t.c
  | 2 => Seg.ofPoints t.c t.a

/-- The points of a result `[n, s0, s1]`: the first `n` of the two. -/
def Tri.InterRes.points (r : Tri.InterRes ℝ) : List Pt := [r.s0.pt, r.s1.pt].take r.n

/-- **C47**, exactly when `intersection(Line2D)` raises: sides `ab` and `bc` both meet the line. -/
theorem C47_raises_iff (t : Tri ℝ) (l : Line ℝ) : t.intersectionLine l = .error .indexError ↔
    ((t.side 0).intersectionLine l).isValid = true ∧ ((t.side 1).intersectionLine l).isValid = true := by
  simp only [Tri.side]
  cases h0 : ((Seg.ofPoints t.a t.b).intersectionLine l).valid <;>
  cases h1 : ((Seg.ofPoints t.b t.c).intersectionLine l).valid <;>
  simp [Tri.intersectionLine, Tri.setSol, h0, h1, Vec.isValid, bind, Except.bind, pure, Except.pure]

/-- **C47** (line), all other cases: the result lists crossing points of sides with the line, and misses none by more
than EPSILON. -/
theorem C47_line_partial (t : Tri ℝ) (l : Line ℝ)
    (h : ¬ (((t.side 0).intersectionLine l).isValid = true ∧ ((t.side 1).intersectionLine l).isValid = true)) :
    ∃ r, t.intersectionLine l = .ok r ∧ r.n ≤ 2 ∧
      (∀ z ∈ r.points, z ∈ l.pts ∧ ∃ i, NearSet (t.side i).pts z) ∧
      (∀ i z, z ∈ (t.side i).pts → z ∈ l.pts →
        EPSILON ≤ |((t.side i).terminal.x - (t.side i).origin.x) * l.a +
          ((t.side i).terminal.y - (t.side i).origin.y) * l.b| →
        ∃ w ∈ r.points, |z.1 - w.1| < EPSILON ∧ |z.2 - w.2| < EPSILON) := by
  have e0 := EPSILON_pos
  -- facts about one side
  have sound : ∀ i, ((t.side i).intersectionLine l).isValid = true →
      ((t.side i).intersectionLine l).pt ∈ l.pts ∧ NearSet (t.side i).pts ((t.side i).intersectionLine l).pt := by
    intro i hv
    have hs := C38_line_sound _ l hv
    have : ((t.side i).intersectionLine l).pt ∈ (t.side i).line.pts ∩ l.pts := by rw [hs.1]; rfl
    exact ⟨this.2, hs.2.1⟩
  have complete : ∀ i z, z ∈ (t.side i).pts → z ∈ l.pts →
        EPSILON ≤ |((t.side i).terminal.x - (t.side i).origin.x) * l.a +
          ((t.side i).terminal.y - (t.side i).origin.y) * l.b| →
        ((t.side i).intersectionLine l).isValid = true ∧ ((t.side i).intersectionLine l).pt = z :=
    fun i z hz hl hp => C38_line_complete _ l z hz hl hp
  suffices hsuf : ∃ r, t.intersectionLine l = .ok r ∧ r.n ≤ 2 ∧
      (∀ z ∈ r.points, ∃ i, ((t.side i).intersectionLine l).isValid = true ∧
        ((t.side i).intersectionLine l).pt = z) ∧
      (∀ i, ((t.side i).intersectionLine l).isValid = true → ∃ w ∈ r.points,
        |((t.side i).intersectionLine l).pt.1 - w.1| < EPSILON ∧
        |((t.side i).intersectionLine l).pt.2 - w.2| < EPSILON) by
    obtain ⟨r, h1, h2, h3, h4⟩ := hsuf
    refine ⟨r, h1, h2, ?_, ?_⟩
    · intro z hz
      obtain ⟨i, hv, rfl⟩ := h3 z hz
      exact ⟨(sound i hv).1, i, (sound i hv).2⟩
    · intro i z hz hl hp
      obtain ⟨hv, rfl⟩ := complete i z hz hl hp
      exact h4 i hv
  set v0 := (t.side 0).intersectionLine l with hv0
  set v1 := (t.side 1).intersectionLine l with hv1
  set v2 := (t.side 2).intersectionLine l with hv2
  have all : ∀ (P : Fin 3 → Prop), P 0 → P 1 → P 2 → ∀ i, P i := by
    intro P p0 p1 p2 i; fin_cases i <;> assumption
  have hrun : t.intersectionLine l = (do
      let sol ← Tri.setSol (Vec.zero, Vec.zero) 0 v0
      let n := if v0.valid then 1 else 0
      let sol ← Tri.setSol sol n v1
      let n := if n < 2 && v1.valid then n + 1 else n
      let sol ← Tri.setSol sol n v2
      let n := if n < 2 && v2.valid then n + 1 else n
      let n := if n = 2 ∧ |sol.1.x - sol.2.x| < EPSILON ∧ |sol.1.y - sol.2.y| < EPSILON then 1 else n
      return ⟨n, sol.1, sol.2⟩) := by
    simp only [Tri.intersectionLine, fabs_real, hv0, hv1, hv2, Tri.side]
  have near_self : ∀ x : ℝ, |x - x| < EPSILON := by intro x; rw [sub_self, abs_zero]; exact e0
  cases c0 : v0.valid <;> cases c1 : v1.valid <;> cases c2 : v2.valid
  · refine ⟨⟨0, v2, Vec.zero⟩, ?_, by norm_num, ?_, ?_⟩
    · rw [hrun]; simp [Tri.setSol, c0, c1, c2, bind, Except.bind, pure, Except.pure]
    · simp [Tri.InterRes.points]
    · apply all <;> intro hv
      · rw [← hv0, Vec.isValid, c0] at hv; exact absurd hv (by simp)
      · rw [← hv1, Vec.isValid, c1] at hv; exact absurd hv (by simp)
      · rw [← hv2, Vec.isValid, c2] at hv; exact absurd hv (by simp)
  · refine ⟨⟨1, v2, Vec.zero⟩, ?_, by norm_num, ?_, ?_⟩
    · rw [hrun]; simp [Tri.setSol, c0, c1, c2, bind, Except.bind, pure, Except.pure]
    · intro z hz
      simp only [Tri.InterRes.points, List.take_succ_cons, List.take_zero, List.mem_singleton] at hz
      exact ⟨2, c2, hz.symm⟩
    · apply all <;> intro hv
      · rw [← hv0, Vec.isValid, c0] at hv; exact absurd hv (by simp)
      · rw [← hv1, Vec.isValid, c1] at hv; exact absurd hv (by simp)
      · exact ⟨v2.pt, by simp [Tri.InterRes.points], near_self _, near_self _⟩
  · refine ⟨⟨1, v1, v2⟩, ?_, by norm_num, ?_, ?_⟩
    · rw [hrun]; simp [Tri.setSol, c0, c1, c2, bind, Except.bind, pure, Except.pure]
    · intro z hz
      simp only [Tri.InterRes.points, List.take_succ_cons, List.take_zero, List.mem_singleton] at hz
      exact ⟨1, c1, hz.symm⟩
    · apply all <;> intro hv
      · rw [← hv0, Vec.isValid, c0] at hv; exact absurd hv (by simp)
      · exact ⟨v1.pt, by simp [Tri.InterRes.points], near_self _, near_self _⟩
      · rw [← hv2, Vec.isValid, c2] at hv; exact absurd hv (by simp)
  · by_cases hn : |v1.x - v2.x| < EPSILON ∧ |v1.y - v2.y| < EPSILON
    · refine ⟨⟨1, v1, v2⟩, ?_, by norm_num, ?_, ?_⟩
      · rw [hrun]; simp [Tri.setSol, c0, c1, c2, bind, Except.bind, pure, Except.pure, hn]
      · intro z hz
        simp only [Tri.InterRes.points, List.take_succ_cons, List.take_zero, List.mem_singleton] at hz
        exact ⟨1, c1, hz.symm⟩
      · apply all <;> intro hv
        · rw [← hv0, Vec.isValid, c0] at hv; exact absurd hv (by simp)
        · exact ⟨v1.pt, by simp [Tri.InterRes.points], near_self _, near_self _⟩
        · refine ⟨v1.pt, by simp [Tri.InterRes.points], ?_, ?_⟩
          · rw [abs_sub_comm]; exact hn.1
          · rw [abs_sub_comm]; exact hn.2
    · refine ⟨⟨2, v1, v2⟩, ?_, by norm_num, ?_, ?_⟩
      · rw [hrun]; simp [Tri.setSol, c0, c1, c2, bind, Except.bind, pure, Except.pure, hn]
      · intro z hz
        simp only [Tri.InterRes.points, List.take_succ_cons, List.take_zero, List.mem_cons, List.not_mem_nil,
          or_false] at hz
        rcases hz with hz | hz
        · exact ⟨1, c1, hz.symm⟩
        · exact ⟨2, c2, hz.symm⟩
      · apply all <;> intro hv
        · rw [← hv0, Vec.isValid, c0] at hv; exact absurd hv (by simp)
        · exact ⟨v1.pt, by simp [Tri.InterRes.points], near_self _, near_self _⟩
        · exact ⟨v2.pt, by simp [Tri.InterRes.points], near_self _, near_self _⟩
  · refine ⟨⟨1, v0, v2⟩, ?_, by norm_num, ?_, ?_⟩
    · rw [hrun]; simp [Tri.setSol, c0, c1, c2, bind, Except.bind, pure, Except.pure]
    · intro z hz
      simp only [Tri.InterRes.points, List.take_succ_cons, List.take_zero, List.mem_singleton] at hz
      exact ⟨0, c0, hz.symm⟩
    · apply all <;> intro hv
      · exact ⟨v0.pt, by simp [Tri.InterRes.points], near_self _, near_self _⟩
      · rw [← hv1, Vec.isValid, c1] at hv; exact absurd hv (by simp)
      · rw [← hv2, Vec.isValid, c2] at hv; exact absurd hv (by simp)
  · by_cases hn : |v0.x - v2.x| < EPSILON ∧ |v0.y - v2.y| < EPSILON
    · refine ⟨⟨1, v0, v2⟩, ?_, by norm_num, ?_, ?_⟩
      · rw [hrun]; simp [Tri.setSol, c0, c1, c2, bind, Except.bind, pure, Except.pure, hn]
      · intro z hz
        simp only [Tri.InterRes.points, List.take_succ_cons, List.take_zero, List.mem_singleton] at hz
        exact ⟨0, c0, hz.symm⟩
      · apply all <;> intro hv
        · exact ⟨v0.pt, by simp [Tri.InterRes.points], near_self _, near_self _⟩
        · rw [← hv1, Vec.isValid, c1] at hv; exact absurd hv (by simp)
        · refine ⟨v0.pt, by simp [Tri.InterRes.points], ?_, ?_⟩
          · rw [abs_sub_comm]; exact hn.1
          · rw [abs_sub_comm]; exact hn.2
    · refine ⟨⟨2, v0, v2⟩, ?_, by norm_num, ?_, ?_⟩
      · rw [hrun]; simp [Tri.setSol, c0, c1, c2, bind, Except.bind, pure, Except.pure, hn]
      · intro z hz
        simp only [Tri.InterRes.points, List.take_succ_cons, List.take_zero, List.mem_cons, List.not_mem_nil,
          or_false] at hz
        rcases hz with hz | hz
        · exact ⟨0, c0, hz.symm⟩
        · exact ⟨2, c2, hz.symm⟩
      · apply all <;> intro hv
        · exact ⟨v0.pt, by simp [Tri.InterRes.points], near_self _, near_self _⟩
        · rw [← hv1, Vec.isValid, c1] at hv; exact absurd hv (by simp)
        · exact ⟨v2.pt, by simp [Tri.InterRes.points], near_self _, near_self _⟩
  · exact absurd ⟨c0, c1⟩ h
  · exact absurd ⟨c0, c1⟩ h

/-- The side intersections of the triangle (0,0), (4,0), (0,4) with a line, through C38. -/
theorem C47_refuted_line : ∃ (t : Tri ℝ) (l : Line ℝ), t.intersectionLine l = .error .indexError := by
  refine ⟨Tri.ofPoints (Vec.ofXY 0 0) (Vec.ofXY 4 0) (Vec.ofXY 0 4), ⟨1, 0, -2⟩, ?_⟩
  rw [C47_raises_iff]
  constructor
  · refine (C38_line_complete _ _ (2, 0) (mem_seg.mpr ⟨1 / 2, by norm_num, by norm_num, ?_, ?_⟩) ?_ ?_).1
    · norm_num [Tri.side, Tri.ofPoints, Seg.ofPoints]
    · norm_num [Tri.side, Tri.ofPoints, Seg.ofPoints]
    · rw [Line.mem_pts]; norm_num
    · norm_num [Tri.side, Tri.ofPoints, Seg.ofPoints, EPSILON_real, abs_of_pos]
  · refine (C38_line_complete _ _ (2, 2) (mem_seg.mpr ⟨1 / 2, by norm_num, by norm_num, ?_, ?_⟩) ?_ ?_).1
    · norm_num [Tri.side, Tri.ofPoints, Seg.ofPoints]
    · norm_num [Tri.side, Tri.ofPoints, Seg.ofPoints]
    · rw [Line.mem_pts]; norm_num
    · norm_num [Tri.side, Tri.ofPoints, Seg.ofPoints, EPSILON_real, abs_of_neg]

/-- **C47** is false for segments: the call always raises. -/
theorem C47_refuted_segment (t : Tri ℝ) (s : Seg ℝ) : t.intersectionSeg s = .error .unboundLocal := rfl

/-- **C47**, rays: the second crossing point is never tested. If the first one is accepted both are kept; if it is
rejected both are dropped. -/
theorem C47_ray_behaviour (t : Tri ℝ) (r : Ray ℝ) (s0 s1 : Vec ℝ) (h : t.intersectionLine r.line = .ok ⟨2, s0, s1⟩) :
    (r.inRightDir s0 1 = true → t.intersectionRay r = .ok ⟨2, s0, s1⟩) ∧
    (r.inRightDir s0 1 = false → t.intersectionRay r = .ok ⟨0, s1, s1⟩) := by
  constructor <;> intro hd <;>
  simp [Tri.intersectionRay, h, hd, bind, Except.bind, pure, Except.pure]

/-- **C47** is false for rays: the ray from (1/2, 1/2) towards (0, 1) leaves the triangle (0,0), (2,0), (0,2) at
(0, 1), but no point is reported. -/
theorem C47_refuted_ray : ∃ (t : Tri ℝ) (r : Ray ℝ) (res : Tri.InterRes ℝ), t.intersectionRay r = .ok res ∧ res.n = 0 ∧
    ((0, 1) : Pt) ∈ r.pts ∧ ((0, 1) : Pt) ∈ (t.side 2).pts := by
  set t : Tri ℝ := Tri.ofPoints (Vec.ofXY 0 0) (Vec.ofXY 2 0) (Vec.ofXY 0 2) with ht
  set r : Ray ℝ := Ray.ofPoint (Vec.ofXY (1/2) (1/2)) (Vec.ofXY 0 1) with hr
  have hnt : ¬ ((Vec.ofXY (0:ℝ) 1).sub (Vec.ofXY (1/2) (1/2))).Tiny := by
    unfold Vec.Tiny; norm_num [EPSILON_real, abs_of_neg, abs_of_pos]
  have hpos := Vec.len_pos_of_not_tiny hnt
  have hpol := th_degree_unit hnt
  set ℓ := len ((Vec.ofXY (0:ℝ) 1).sub (Vec.ofXY (1/2) (1/2))).pt with hℓ
  have hdir : r.dir = ((Vec.ofXY (0:ℝ) 1).sub (Vec.ofXY (1/2) (1/2))).th := rfl
  rw [← hdir] at hpol
  set U := unit r.dir.degree with hU
  have u1 : ℓ * U.1 = -(1/2) := by
    have := congrArg Prod.fst hpol
    simp only [Prod.smul_fst, smul_eq_mul, Vec.pt_fst, Vec.sub_x, Vec.ofXY_x] at this
    linarith
  have u2 : ℓ * U.2 = 1/2 := by
    have := congrArg Prod.snd hpol
    simp only [Prod.smul_snd, smul_eq_mul, Vec.pt_snd, Vec.sub_y, Vec.ofXY_y] at this
    linarith
  have usq : U.1 ^ 2 + U.2 ^ 2 = 1 := unit_sq _
  have uneg : U.2 = -U.1 := by
    have : ℓ * (U.2 + U.1) = 0 := by linarith
    have := (mul_eq_zero.mp this).resolve_left hpos.ne'
    linarith
  have hU2 : 1 / 2 ≤ |U.2| := by
    have h1 : U.2 ^ 2 = 1 / 2 := by rw [uneg] at usq ⊢; linarith
    by_contra hc; push Not at hc
    have := sq_lt_sq' (by linarith [abs_nonneg U.2]) hc
    rw [sq_abs] at this; linarith
  have la : r.line.a = -U.2 := by
    change -(r.dir.sin) = _; rw [sinA_real, ← unit_congr (AngleDeg.degree_angleEq r.dir)]
  have lb : r.line.b = U.1 := by
    change r.dir.cos = _; rw [cosA_real, ← unit_congr (AngleDeg.degree_angleEq r.dir)]
  have lc : r.line.c = -r.line.a * (1/2) - r.line.b * (1/2) := rfl
  have s0 := C38_line_complete (t.side 0) r.line (1, 0)
    (mem_seg.mpr ⟨1 / 2, by norm_num, by norm_num, by norm_num [ht, Tri.side, Tri.ofPoints, Seg.ofPoints],
      by norm_num [ht, Tri.side, Tri.ofPoints, Seg.ofPoints]⟩)
    (by rw [Line.mem_pts, lc, la, lb, uneg]; norm_num; ring)
    (by rw [la, lb, EPSILON_real]; norm_num [ht, Tri.side, Tri.ofPoints, Seg.ofPoints, abs_mul]; linarith)
  have s2 := C38_line_complete (t.side 2) r.line (0, 1)
    (mem_seg.mpr ⟨1 / 2, by norm_num, by norm_num, by norm_num [ht, Tri.side, Tri.ofPoints, Seg.ofPoints],
      by norm_num [ht, Tri.side, Tri.ofPoints, Seg.ofPoints]⟩)
    (by rw [Line.mem_pts, lc, la, lb, uneg]; norm_num; ring)
    (by rw [la, lb, EPSILON_real]; norm_num [ht, Tri.side, Tri.ofPoints, Seg.ofPoints, abs_mul]
        rw [uneg, abs_neg] at hU2; linarith)
  have s1 : ((t.side 1).intersectionLine r.line).isValid = false := by
    rw [← Bool.not_eq_true]
    intro hv
    have := (C38_line_sound _ _ hv).2.2
    rw [la, lb, uneg, EPSILON_real] at this
    norm_num [ht, Tri.side, Tri.ofPoints, Seg.ofPoints] at this
  have v0 : ((Seg.ofPoints t.a t.b).intersectionLine r.line).valid = true := s0.1
  have v1 : ((Seg.ofPoints t.b t.c).intersectionLine r.line).valid = false := s1
  have v2 : ((Seg.ofPoints t.c t.a).intersectionLine r.line).valid = true := s2.1
  have x0 : ((Seg.ofPoints t.a t.b).intersectionLine r.line).x = 1 := congrArg Prod.fst s0.2
  have x2 : ((Seg.ofPoints t.c t.a).intersectionLine r.line).x = 0 := congrArg Prod.fst s2.2
  have hline : t.intersectionLine r.line = .ok ⟨2, (t.side 0).intersectionLine r.line, (t.side 2).intersectionLine r.line⟩ := by
    simp only [Tri.intersectionLine, Tri.setSol, v0, v1, v2, bind, Except.bind, pure, Except.pure, Tri.side, fabs_real]
    simp only [if_true, Bool.and_false, Bool.false_eq_true, if_false, x0, x2, EPSILON_real]
    norm_num
  have hrej : r.inRightDir ((t.side 0).intersectionLine r.line) 1 = false := by
    rw [← Bool.not_eq_true]
    have hcar : ((t.side 0).intersectionLine r.line).pt ∈ r.carrier := by
      rw [s0.2]
      refine ⟨-ℓ, ?_⟩
      refine Prod.ext ?_ ?_
      · simp only [Prod.fst_add, Prod.smul_fst, smul_eq_mul]; rw [neg_mul, u1]; change (1:ℝ) = 1/2 + _; norm_num
      · simp only [Prod.snd_add, Prod.smul_snd, smul_eq_mul]; rw [neg_mul, u2]; change (0:ℝ) = 1/2 + _; norm_num
    have hnear : ¬ Near r.origin.pt ((t.side 0).intersectionLine r.line).pt := by
      rw [s0.2]
      unfold Near
      change ¬ (|(1:ℝ) - 1/2| < _ ∧ |(0:ℝ) - 1/2| < _)
      rw [EPSILON_real]; norm_num [abs_of_pos]
    rw [C27_in_right_dir_partial r _ 1 (by norm_num) (by norm_num) hcar hnear, s0.2]
    rintro ⟨k, hk, he⟩
    have h1 : (1:ℝ) = 1/2 + k * U.1 := congrArg Prod.fst he
    nlinarith [mul_nonneg hk hpos.le]
  refine ⟨t, r, _, (C47_ray_behaviour t r _ _ hline).2 hrej, rfl, ?_, ?_⟩
  · refine ⟨ℓ, hpos.le, Prod.ext ?_ ?_⟩
    · change (0:ℝ) = 1/2 + ℓ * U.1; rw [u1]; norm_num
    · change (1:ℝ) = 1/2 + ℓ * U.2; rw [u2]; norm_num
  · exact mem_seg.mpr ⟨1 / 2, by norm_num, by norm_num, by norm_num [ht, Tri.side, Tri.ofPoints, Seg.ofPoints],
      by norm_num [ht, Tri.side, Tri.ofPoints, Seg.ofPoints]⟩

/-- Non-vacuity of C47 (line): a line missing side `bc` satisfies the hypothesis of `C47_line_partial`. -/
example : ¬ ((((Tri.ofPoints (Vec.ofXY (0:ℝ) 0) (Vec.ofXY 4 0) (Vec.ofXY 0 4)).side 0).intersectionLine
      ⟨1, 1, -2⟩).isValid = true ∧
    (((Tri.ofPoints (Vec.ofXY (0:ℝ) 0) (Vec.ofXY 4 0) (Vec.ofXY 0 4)).side 1).intersectionLine
      ⟨1, 1, -2⟩).isValid = true) := by
  rintro ⟨_, h⟩
  have := (C38_line_sound _ _ h).2.2
  norm_num [Tri.side, Tri.ofPoints, Seg.ofPoints, EPSILON_real] at this

end PyrusGeom
