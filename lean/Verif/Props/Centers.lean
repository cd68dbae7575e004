import Verif.Model.Wrappers
import Verif.Props.Circle

/-! # Property C112: triangle centers do not depend on the order of the vertices and fit together -/

namespace PyrusGeom
open Spec

/-- Two vectors whose scalar products with two independent directions agree are equal. -/
theorem pt_eq_of_dots {u v x y : Pt} (h : cross u v ≠ 0) (h1 : dot x u = dot y u) (h2 : dot x v = dot y v) : x = y := by
  simp only [cross, dot] at h h1 h2
  have e1 : (u.1 * v.2 - u.2 * v.1) * (x.1 - y.1) = 0 := by linear_combination v.2 * h1 - u.2 * h2
  have e2 : (u.1 * v.2 - u.2 * v.1) * (x.2 - y.2) = 0 := by linear_combination u.1 * h2 - v.1 * h1
  refine Prod.ext ?_ ?_
  · have := (mul_eq_zero.mp e1).resolve_left h; linarith
  · have := (mul_eq_zero.mp e2).resolve_left h; linarith

theorem equidistant_dot {a b o : Pt} (h : Spec.d o a = Spec.d o b) :
    dot o (b - a) = (dot b b - dot a a) / 2 := by
  rw [Spec.d_eq_d_iff] at h
  simp only [dot, Prod.fst_sub, Prod.snd_sub]
  linarith

theorem equidistant_unique {a b c o o' : Pt} (h : area2 a b c ≠ 0) (h1 : Spec.d o a = Spec.d o b)
    (h2 : Spec.d o b = Spec.d o c) (h3 : Spec.d o' a = Spec.d o' b) (h4 : Spec.d o' b = Spec.d o' c) : o = o' := by
  refine pt_eq_of_dots (u := b - a) (v := c - a) ?_ ?_ ?_
  · exact h
  · rw [equidistant_dot h1, equidistant_dot h3]
  · rw [equidistant_dot (h1.trans h2), equidistant_dot (h3.trans h4)]

theorem VNear.symm {a b : Vec ℝ} (h : VNear a b) : VNear b a := by
  unfold VNear at h ⊢
  rw [abs_sub_comm a.x, abs_sub_comm a.y]; exact h

/-- **C112**, circumcenter: for every triangle without two vertices within EPSILON, the six vertex orders give the same
validity and the same point (generators of the permutations: rotation and exchange of two). -/
theorem C112_circumcenter (a b c : Vec ℝ) (hab : ¬ VNear a b) (hbc : ¬ VNear b c) (hca : ¬ VNear c a) :
    let o := (Tri.ofPoints a b c).circumcenter
    let o1 := (Tri.ofPoints b c a).circumcenter
    let o2 := (Tri.ofPoints b a c).circumcenter
    o1.isValid = o.isValid ∧ o2.isValid = o.isValid ∧ (o.isValid = true → o1.pt = o.pt ∧ o2.pt = o.pt) := by
  have A := C42_circumcenter_partial a b c hab hbc hca
  have B := C42_circumcenter_partial b c a hbc hca hab
  have C := C42_circumcenter_partial b a c (fun h => hab h.symm) (fun h => hca h.symm) (fun h => hbc h.symm)
  have r1 : area2 b.pt c.pt a.pt = area2 a.pt b.pt c.pt := by unfold area2; ring
  have r2 : |area2 b.pt a.pt c.pt| = |area2 a.pt b.pt c.pt| := by
    rw [← abs_neg]; congr 1; unfold area2; ring
  intro o o1 o2
  change _ ∧ (o.isValid = true ↔ _) ∧ _ at A
  change (o1.isValid = true → _) ∧ (o1.isValid = true ↔ _) ∧ _ at B
  change (o2.isValid = true → _) ∧ (o2.isValid = true ↔ _) ∧ _ at C
  have v1 : o1.isValid = o.isValid := by rw [Bool.eq_iff_iff, B.2.1, A.2.1, r1]
  have v2 : o2.isValid = o.isValid := by rw [Bool.eq_iff_iff, C.2.1, A.2.1, r2]
  refine ⟨v1, v2, fun hv => ?_⟩
  have hA := A.1 hv
  have hB := B.1 (v1.trans hv)
  have hC := C.1 (v2.trans hv)
  have hne : area2 a.pt b.pt c.pt ≠ 0 := by
    have := A.2.1.mp hv
    intro h0
    rw [h0] at this
    norm_num at this
  constructor
  · exact equidistant_unique hne (hB.1.trans hB.2).symm hB.1 hA.1 hA.2
  · exact equidistant_unique hne hC.1.symm (hC.1.trans hC.2) hA.1 hA.2

/-- **C112**, orthocenter: for *every* triple the vertex orders give the same validity and the same point. -/
theorem C112_orthocenter (a b c : Vec ℝ) :
    let o := (Tri.ofPoints a b c).orthocenter
    let o1 := (Tri.ofPoints b c a).orthocenter
    let o2 := (Tri.ofPoints b a c).orthocenter
    o1.isValid = o.isValid ∧ o2.isValid = o.isValid ∧ (o.isValid = true → o1.pt = o.pt ∧ o2.pt = o.pt) := by
  have A := C43_orthocenter a b c
  have B := C43_orthocenter b c a
  have C := C43_orthocenter b a c
  have r1 : area2 b.pt c.pt a.pt = area2 a.pt b.pt c.pt := by unfold area2; ring
  have r2 : |area2 b.pt a.pt c.pt| = |area2 a.pt b.pt c.pt| := by
    rw [← abs_neg]; congr 1; unfold area2; ring
  intro o o1 o2
  change (o.isValid = true ↔ _) ∧ (o.isValid = true → _) at A
  change (o1.isValid = true ↔ _) ∧ (o1.isValid = true → _) at B
  change (o2.isValid = true ↔ _) ∧ (o2.isValid = true → _) at C
  have v1 : o1.isValid = o.isValid := by rw [Bool.eq_iff_iff, B.1, A.1, r1]
  have v2 : o2.isValid = o.isValid := by rw [Bool.eq_iff_iff, C.1, A.1, r2]
  refine ⟨v1, v2, fun hv => ?_⟩
  have hne : cross (c.pt - b.pt) (a.pt - c.pt) ≠ 0 := by
    have h0 := A.1.mp hv
    have e : cross (c.pt - b.pt) (a.pt - c.pt) = area2 a.pt b.pt c.pt := by
      simp only [cross, area2, Prod.fst_sub, Prod.snd_sub]; ring
    rw [e]
    intro hz
    rw [hz, abs_zero] at h0
    exact absurd EPSILON_pos (not_lt.mpr h0)
  have hA := A.2 hv
  have hB := B.2 (v1.trans hv)
  have hC := C.2 (v2.trans hv)
  constructor
  · refine pt_eq_of_dots hne ?_ ?_
    · have h1 := hB.2.2; have h2 := hA.1
      change dot (o1.pt - a.pt) _ = 0 at h1
      change dot (o.pt - a.pt) _ = 0 at h2
      simp only [dot, Prod.fst_sub, Prod.snd_sub] at h1 h2 ⊢; linarith
    · have h1 := hB.1; have h2 := hA.2.1
      change dot (o1.pt - b.pt) _ = 0 at h1
      change dot (o.pt - b.pt) _ = 0 at h2
      simp only [dot, Prod.fst_sub, Prod.snd_sub] at h1 h2 ⊢; linarith
  · refine pt_eq_of_dots hne ?_ ?_
    · have h1 := hC.2.1; have h2 := hA.1
      change dot (o2.pt - a.pt) _ = 0 at h1
      change dot (o.pt - a.pt) _ = 0 at h2
      simp only [dot, Prod.fst_sub, Prod.snd_sub] at h1 h2 ⊢; linarith
    · have h1 := hC.1; have h2 := hA.2.1
      change dot (o2.pt - b.pt) _ = 0 at h1
      change dot (o.pt - b.pt) _ = 0 at h2
      simp only [dot, Prod.fst_sub, Prod.snd_sub] at h1 h2 ⊢; linarith

/-- **C112**, incenter: whenever two vertex orders give a valid result, it is the same point. -/
theorem C112_incenter (a b c : Vec ℝ) (hab : ¬ (b.sub a).Tiny) (hac : ¬ (c.sub a).Tiny) (hbc : ¬ (c.sub b).Tiny)
    (h : (Tri.ofPoints a b c).incenter.isValid = true) :
    ((Tri.ofPoints b c a).incenter.isValid = true →
      (Tri.ofPoints b c a).incenter.pt = (Tri.ofPoints a b c).incenter.pt) ∧
    ((Tri.ofPoints b a c).incenter.isValid = true →
      (Tri.ofPoints b a c).incenter.pt = (Tri.ofPoints a b c).incenter.pt) := by
  have flip : ∀ {u v : Vec ℝ}, ¬ (v.sub u).Tiny → ¬ (u.sub v).Tiny := by
    intro u v hn hc; apply hn
    unfold Vec.Tiny at hc ⊢
    simp only [Vec.sub_x, Vec.sub_y] at hc ⊢
    rw [abs_sub_comm v.x, abs_sub_comm v.y]; exact hc
  have e0 : (Tri.ofPoints a b c).incenter.pt = incenterPt a.pt b.pt c.pt := incenter_val hab hac hbc h
  constructor
  · intro h1
    have e1 : (Tri.ofPoints b c a).incenter.pt = incenterPt b.pt c.pt a.pt := incenter_val hbc (flip hab) (flip hac) h1
    rw [e1, e0]
    unfold incenterPt
    rw [show Spec.d c.pt a.pt + Spec.d a.pt b.pt + Spec.d b.pt c.pt =
      Spec.d b.pt c.pt + Spec.d c.pt a.pt + Spec.d a.pt b.pt by ring]
    congr 1; abel
  · intro h1
    have e1 : (Tri.ofPoints b a c).incenter.pt = incenterPt b.pt a.pt c.pt := incenter_val (flip hab) hbc hac h1
    rw [e1, e0]
    unfold incenterPt
    rw [Spec.d_comm b.pt a.pt, Spec.d_comm a.pt c.pt, Spec.d_comm c.pt b.pt]
    rw [show Spec.d c.pt a.pt + Spec.d b.pt c.pt + Spec.d a.pt b.pt =
      Spec.d b.pt c.pt + Spec.d c.pt a.pt + Spec.d a.pt b.pt by ring]
    congr 1; abel

/-- **C112**, Euler line: circumcenter `O` and orthocenter `H` satisfy `H + 2 O = a + b + c` whenever both are valid. -/
theorem C112_euler (a b c : Vec ℝ) (hab : ¬ VNear a b) (hbc : ¬ VNear b c) (hca : ¬ VNear c a)
    (hO : (Tri.ofPoints a b c).circumcenter.isValid = true) (hH : (Tri.ofPoints a b c).orthocenter.isValid = true) :
    (Tri.ofPoints a b c).orthocenter.pt + (2 : ℝ) • (Tri.ofPoints a b c).circumcenter.pt = a.pt + b.pt + c.pt := by
  have A := (C42_circumcenter_partial a b c hab hbc hca).1 hO
  have B := C43_orthocenter a b c
  have hB := B.2 hH
  change Spec.d (Tri.ofPoints a b c).circumcenter.pt a.pt = Spec.d (Tri.ofPoints a b c).circumcenter.pt b.pt ∧
    Spec.d (Tri.ofPoints a b c).circumcenter.pt b.pt = Spec.d (Tri.ofPoints a b c).circumcenter.pt c.pt at A
  change dot ((Tri.ofPoints a b c).orthocenter.pt - a.pt) _ = 0 ∧ dot ((Tri.ofPoints a b c).orthocenter.pt - b.pt) _ = 0 ∧
    _ at hB
  have hne : cross (c.pt - b.pt) (a.pt - c.pt) ≠ 0 := by
    have h0 : EPSILON ≤ |area2 a.pt b.pt c.pt| := B.1.mp hH
    have e : cross (c.pt - b.pt) (a.pt - c.pt) = area2 a.pt b.pt c.pt := by
      simp only [cross, area2, Prod.fst_sub, Prod.snd_sub]; ring
    rw [e]
    intro hz
    rw [hz, abs_zero] at h0
    exact absurd EPSILON_pos (not_lt.mpr h0)
  generalize (Tri.ofPoints a b c).circumcenter.pt = O at *
  generalize (Tri.ofPoints a b c).orthocenter.pt = H at *
  have d1 := equidistant_dot A.2
  have d2 := equidistant_dot (A.1.trans A.2)
  obtain ⟨h1, h2, -⟩ := hB
  refine pt_eq_of_dots hne ?_ ?_
  · simp only [dot, Prod.fst_sub, Prod.snd_sub, Prod.fst_add, Prod.snd_add, Prod.smul_fst, Prod.smul_snd,
      smul_eq_mul] at *
    linarith
  · simp only [dot, Prod.fst_sub, Prod.snd_sub, Prod.fst_add, Prod.snd_add, Prod.smul_fst, Prod.smul_snd,
      smul_eq_mul] at *
    linarith

/-- **C112**, the circumscribed circle of the triangle has the circumcenter as center and its distance to each vertex as
radius. -/
theorem C112_circle (a b c : Vec ℝ) (hab : ¬ VNear a b) (hbc : ¬ VNear b c) (hca : ¬ VNear c a)
    (h : (Tri.ofPoints a b c).circumcenter.isValid = true) :
    (Circle.circumCircle a b c).center.pt = (Tri.ofPoints a b c).circumcenter.pt ∧
    (Circle.circumCircle a b c).radius = Spec.d (Tri.ofPoints a b c).circumcenter.pt a.pt ∧
    (Circle.circumCircle a b c).radius = Spec.d (Tri.ofPoints a b c).circumcenter.pt b.pt ∧
    (Circle.circumCircle a b c).radius = Spec.d (Tri.ofPoints a b c).circumcenter.pt c.pt := by
  have A := (C42_circumcenter_partial a b c hab hbc hca).1 h
  change Spec.d (Tri.ofPoints a b c).circumcenter.pt a.pt = Spec.d (Tri.ofPoints a b c).circumcenter.pt b.pt ∧
    Spec.d (Tri.ofPoints a b c).circumcenter.pt b.pt = Spec.d (Tri.ofPoints a b c).circumcenter.pt c.pt at A
  have hv : (Tri.triCircumcenter a b c).valid = true := h
  have e : Circle.circumCircle a b c = Circle.ofCR (Tri.triCircumcenter a b c)
      ((Tri.triCircumcenter a b c).dist a) := by
    unfold Circle.circumCircle
    simp [hv]
  have hr : (Circle.circumCircle a b c).radius = Spec.d (Tri.ofPoints a b c).circumcenter.pt a.pt := by
    rw [e]
    simp only [Circle.ofCR]
    rw [Vec.dist_real, num_real, Nat.cast_zero, if_neg (not_lt.mpr (Spec.d_nonneg _ _))]
    rfl
  refine ⟨?_, hr, hr.trans A.1, hr.trans (A.1.trans A.2)⟩
  rw [e]; rfl

/-- Non-vacuity of C112: the right triangle (0,0), (4,0), (0,3) has both centers. -/
example : (Tri.ofPoints (Vec.ofXY (0:ℝ) 0) (Vec.ofXY 4 0) (Vec.ofXY 0 3)).circumcenter.isValid = true ∧
    (Tri.ofPoints (Vec.ofXY (0:ℝ) 0) (Vec.ofXY 4 0) (Vec.ofXY 0 3)).orthocenter.isValid = true := by
  constructor
  · refine (C42_circumcenter_partial _ _ _ ?_ ?_ ?_).2.1.mpr ?_
    · unfold VNear; norm_num [EPSILON_real, abs_of_pos, Vec.ofVec, Tri.ofPoints, Vec.ofXY]
    · unfold VNear; norm_num [EPSILON_real, abs_of_pos, Vec.ofVec, Tri.ofPoints, Vec.ofXY]
    · unfold VNear; norm_num [EPSILON_real, abs_of_neg, Vec.ofVec, Tri.ofPoints, Vec.ofXY]
    · norm_num [area2, abs_of_pos, Tri.ofPoints]
  · refine (C43_orthocenter _ _ _).1.mpr ?_
    norm_num [area2, abs_of_pos, EPSILON_real, Tri.ofPoints]

end PyrusGeom
