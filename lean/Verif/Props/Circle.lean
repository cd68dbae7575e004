import Verif.Props.Triangle
import Verif.Model.Circle

/-! # Properties C48 – C53: `Circle2D` -/

namespace PyrusGeom
open Spec

/-- The points at distance `r` from `o`. -/
def Spec.circleSet (o : Pt) (r : ℝ) : Set Pt := {z | Spec.d o z = r}

/-- The points of the boundary of a `Circle2D`. -/
def Circle.pts (c : Circle ℝ) : Set Pt := circleSet c.center.pt c.radius

theorem mem_circleSet {o z : Pt} {r : ℝ} (hr : 0 ≤ r) :
    z ∈ circleSet o r ↔ (o.1 - z.1) ^ 2 + (o.2 - z.2) ^ 2 = r ^ 2 := by
  change Spec.d o z = r ↔ _
  constructor
  · intro h; rw [← h, Spec.d_sq]
  · intro h; exact Spec.d_eq_of_sq hr h

/-! ## C48 -/

/-- `Circle2D(center, radius)` followed by a list of `assign` calls. -/
noncomputable def Circle.run (init : Vec ℝ × ℝ) (ops : List (Vec ℝ × ℝ)) : Circle ℝ :=
  ops.foldl (fun _ op => Circle.ofCR op.1 op.2) (Circle.ofCR init.1 init.2)

/-- **C48.** -/
theorem C48_radius (init : Vec ℝ × ℝ) (ops : List (Vec ℝ × ℝ)) (p : Vec ℝ) :
    let c := Circle.run init ops
    let last := (init :: ops).getLast (List.cons_ne_nil _ _)
    0 ≤ c.radius ∧ c.radius = max 0 last.2 ∧ c.center.pt = last.1.pt ∧
    (c.contains p = true ↔ Spec.d c.center.pt p.pt < c.radius) ∧ c.area = Real.pi * c.radius ^ 2 := by
  intro c last
  have key : c = Circle.ofCR last.1 last.2 := by
    simp only [c, last, Circle.run]
    induction ops using List.reverseRecOn with
    | nil => rfl
    | append_singleton l a _ => simp
  have hr : c.radius = max 0 last.2 := by
    rw [key]; simp only [Circle.ofCR, Nat.cast_zero]
    split
    · rw [max_eq_left (le_of_lt ‹_›)]
    · rw [max_eq_right (not_lt.mp ‹_›)]
  have hn : 0 ≤ c.radius := by rw [hr]; exact le_max_left _ _
  refine ⟨hn, hr, by rw [key]; rfl, ?_, ?_⟩
  · simp only [Circle.contains, Vec.dist2_real, decide_eq_true_eq]
    have h2 := Spec.d_sq c.center.pt p.pt
    simp only [Vec.pt_fst, Vec.pt_snd] at h2
    rw [← h2, ← pow_two]
    exact sq_lt_sq₀ (Spec.d_nonneg _ _) hn
  · simp only [Circle.area, PyMath.pi]; ring

/-- Non-vacuity of C48: a negative radius, replaced by a positive one. -/
example : (Circle.run (Vec.ofXY 0 0, -1) [(Vec.ofXY 1 1, 2)]).radius = 2 ∧
    (Circle.run (Vec.ofXY 0 0, -1) []).radius = 0 := by
  constructor
  · rw [(C48_radius _ _ (Vec.ofXY 0 0)).2.1]; norm_num
  · rw [(C48_radius _ _ (Vec.ofXY 0 0)).2.1]; norm_num

/-! ## C49 -/

theorem quadraticF_real (a b c : ℝ) : quadraticF a b c =
    if a = 0 then .error .exception
    else if |b ^ 2 - 4 * a * c| < EPSILON then .ok [-b / (2 * a), -b / (2 * a)]
    else if b ^ 2 - 4 * a * c < 0 then .ok []
    else .ok [(-b + √(b ^ 2 - 4 * a * c)) / (2 * a), (-b - √(b ^ 2 - 4 * a * c)) / (2 * a)] := by
  simp only [quadraticF, fabs_real, Nat.cast_ofNat, Nat.cast_zero, PyMath.sqrt, ← pow_two]
  by_cases h : a = 0
  · simp [h]
  · simp [h]

theorem quad_complete {a b c x : ℝ} (ha : a ≠ 0) :
    a * x ^ 2 + b * x + c = 0 ↔ (2 * a * x + b) ^ 2 = b ^ 2 - 4 * a * c := by
  constructor
  · intro h; linear_combination 4 * a * h
  · intro h
    have : 4 * a * (a * x ^ 2 + b * x + c) = 0 := by linear_combination h
    exact (mul_eq_zero.mp this).resolve_left (by simpa using ha)

theorem quad_roots {a b c x : ℝ} (ha : a ≠ 0) (hD : 0 ≤ b ^ 2 - 4 * a * c) :
    a * x ^ 2 + b * x + c = 0 ↔
      x = (-b + √(b ^ 2 - 4 * a * c)) / (2 * a) ∨ x = (-b - √(b ^ 2 - 4 * a * c)) / (2 * a) := by
  rw [quad_complete ha]
  have hs : √(b ^ 2 - 4 * a * c) ^ 2 = b ^ 2 - 4 * a * c := Real.sq_sqrt hD
  have h2 : 2 * a ≠ 0 := by simpa using ha
  rw [eq_div_iff h2, eq_div_iff h2]
  constructor
  · intro h
    have : (2 * a * x + b - √(b ^ 2 - 4 * a * c)) * (2 * a * x + b + √(b ^ 2 - 4 * a * c)) = 0 := by
      linear_combination h - hs
    rcases mul_eq_zero.mp this with h | h
    · left; linarith
    · right; linarith
  · rintro (h | h)
    · have : 2 * a * x + b = √(b ^ 2 - 4 * a * c) := by linarith
      rw [this, hs]
    · have : 2 * a * x + b = -√(b ^ 2 - 4 * a * c) := by linarith
      rw [this, neg_sq, hs]

/-- **C49.** -/
theorem C49_quadratic (a b c : ℝ) :
    (a = 0 → quadraticF a b c = .error .exception) ∧
    (a ≠ 0 → EPSILON ≤ b ^ 2 - 4 * a * c → ∃ x1 x2, quadraticF a b c = .ok [x1, x2] ∧ x1 ≠ x2 ∧
      (∀ x, a * x ^ 2 + b * x + c = 0 ↔ x = x1 ∨ x = x2) ∧ (0 < a → x2 < x1) ∧ (a < 0 → x1 < x2)) ∧
    (a ≠ 0 → b ^ 2 - 4 * a * c ≤ -EPSILON → quadraticF a b c = .ok [] ∧ ∀ x, a * x ^ 2 + b * x + c ≠ 0) ∧
    (a ≠ 0 → |b ^ 2 - 4 * a * c| < EPSILON → ∃ x0, quadraticF a b c = .ok [x0, x0] ∧ 2 * a * x0 + b = 0 ∧
      (∀ x, a * x ^ 2 + b * x + c = 0 → (2 * a) ^ 2 * (x - x0) ^ 2 < EPSILON)) := by
  have e0 := EPSILON_pos
  refine ⟨fun h => by rw [quadraticF_real, if_pos h], fun h hD => ?_, fun h hD => ?_, fun h hD => ?_⟩
  · have hD0 : 0 < b ^ 2 - 4 * a * c := by linarith
    have hs : 0 < √(b ^ 2 - 4 * a * c) := Real.sqrt_pos.mpr hD0
    refine ⟨_, _, ?_, ?_, fun x => quad_roots h hD0.le, ?_, ?_⟩
    · rw [quadraticF_real, if_neg h, if_neg (by rw [abs_of_pos hD0]; linarith), if_neg (by linarith)]
    · intro he
      have h2 : 2 * a ≠ 0 := by simpa using h
      rw [div_left_inj' h2] at he
      linarith
    · intro ha
      apply div_lt_div_of_pos_right _ (by linarith); linarith
    · intro ha
      apply div_lt_div_of_neg_of_lt (by linarith); linarith
  · constructor
    · rw [quadraticF_real, if_neg h, if_neg (by rw [abs_of_neg (by linarith)]; linarith), if_pos (by linarith)]
    · intro x hx
      rw [quad_complete h] at hx
      nlinarith [sq_nonneg (2 * a * x + b)]
  · have h2 : 2 * a ≠ 0 := by simpa using h
    refine ⟨-b / (2 * a), ?_, by field_simp; ring, ?_⟩
    · rw [quadraticF_real, if_neg h, if_pos hD]
    · intro x hx
      rw [quad_complete h] at hx
      have : (2 * a) ^ 2 * (x - -b / (2 * a)) ^ 2 = (2 * a * x + b) ^ 2 := by field_simp; ring
      rw [this, hx]
      exact (abs_lt.mp hD).2

/-- Non-vacuity of C49: x² - 3x + 2 has the two roots 2, 1 in this order. -/
example : ∃ x1 x2, quadraticF (1:ℝ) (-3) 2 = .ok [x1, x2] ∧ x2 < x1 := by
  obtain ⟨x1, x2, h, _, _, h1, _⟩ := (C49_quadratic 1 (-3) 2).2.1 one_ne_zero (by rw [EPSILON_real]; norm_num)
  exact ⟨x1, x2, h, h1 one_pos⟩

/-! ## C50 -/

/-- Both coordinates differ by less than EPSILON. -/
def Spec.BoxNear (z w : Pt) : Prop := |z.1 - w.1| < EPSILON ∧ |z.2 - w.2| < EPSILON

theorem Circle.equalsWeakly_pt (v w : Vec ℝ) : v.equalsWeakly w = true ↔ BoxNear v.pt w.pt :=
  Vec.equalsWeakly_iff v w

/-- The result of `solPoints` on two roots. -/
theorem Circle.solPoints_two (mk : ℝ → Vec ℝ) (s1 s2 : ℝ) : Circle.solPoints mk [s1, s2] =
    if (mk s1).equalsWeakly (mk s2) = true then [mk s1] else [mk s1, mk s2] := rfl

/-- The discriminant the code computes, for a line at distance `m` from the center.  `k` is the coefficient it divides
by. -/
noncomputable def Circle.discr (c : Circle ℝ) (l : Line ℝ) (m : ℝ) : ℝ :=
  4 * ((l.a ^ 2 + l.b ^ 2) / (if |l.a| < EPSILON then l.b else l.a) ^ 2) * (c.radius ^ 2 - m ^ 2)

theorem minDist_lineSet {a b c m : ℝ} {z : Pt} (h : a ^ 2 + b ^ 2 ≠ 0) (hm : IsMinDist (lineSet a b c) z m) :
    (a * z.1 + b * z.2 + c) ^ 2 = (a ^ 2 + b ^ 2) * m ^ 2 := by
  have hf := lineSet_foot (c := c) h z
  simp only at hf
  obtain ⟨f1, f2, f3⟩ := hf
  have hm' : IsMinDist (lineSet a b c) z |(a * z.1 + b * z.2 + c) / √(a ^ 2 + b ^ 2)| := by
    refine ⟨⟨_, f1, f2⟩, fun q hq => ?_⟩
    rw [← f2]
    by_cases he : q = (z.1 - (a * z.1 + b * z.2 + c) / (a ^ 2 + b ^ 2) * a,
      z.2 - (a * z.1 + b * z.2 + c) / (a ^ 2 + b ^ 2) * b)
    · rw [he]
    · exact (f3 q hq he).le
  rw [IsMinDist.unique hm hm', sq_abs, div_pow, Real.sq_sqrt (by positivity)]
  field_simp

theorem Circle.intersectionLine_real (c : Circle ℝ) (l : Line ℝ) : c.intersectionLine l =
    if |l.a| < EPSILON then
      if |l.b| < EPSILON then .ok []
      else (quadraticF 1 (-2 * c.center.x) (c.center.x ^ 2 + (l.c / l.b + c.center.y) ^ 2 - c.radius ^ 2)).map
        (Circle.solPoints (fun s => Vec.ofXY s (-l.c / l.b)))
    else (quadraticF (1 + (l.b / l.a) ^ 2) (2 * (-c.center.y + (l.c / l.a + c.center.x) * (l.b / l.a)))
        ((l.c / l.a + c.center.x) ^ 2 + c.center.y ^ 2 - c.radius ^ 2)).map
        (Circle.solPoints (fun s => Vec.ofXY (l.getX s) s)) := by
  simp only [Circle.intersectionLine, fabs_real, sq_real, Nat.cast_one, Nat.cast_ofNat, ← pow_two]
  rfl

/-- How the code solves: roots of a quadratic whose zeros parametrise the common points. -/
theorem Circle.param (c : Circle ℝ) (l : Line ℝ) (m : ℝ) (hr : 0 ≤ c.radius)
    (hl : EPSILON ≤ |l.a| ∨ (l.a = 0 ∧ EPSILON ≤ |l.b|)) (hm : IsMinDist l.pts c.center.pt m) :
    ∃ (A B C : ℝ) (mk : ℝ → Vec ℝ), 1 ≤ A ∧ c.intersectionLine l = (quadraticF A B C).map (Circle.solPoints mk) ∧
      B ^ 2 - 4 * A * C = c.discr l m ∧ (∀ s, (mk s).valid = true ∧ (mk s).pt ∈ l.pts) ∧
      (∀ z ∈ l.pts, ∃ s, z = (mk s).pt) ∧
      (∀ s, Spec.d c.center.pt (mk s).pt ^ 2 - c.radius ^ 2 = A * s ^ 2 + B * s + C) ∧
      (∀ s t, (mk s).pt = (mk t).pt → s = t) ∧
      (∀ s t, |(mk s).x - (mk t).x| ≤ A * |s - t| ∧ |(mk s).y - (mk t).y| ≤ A * |s - t|) := by
  have e0 := EPSILON_pos
  rcases hl with ha | ⟨ha, hb⟩
  · have ha0 : l.a ≠ 0 := ne_zero_of_eps ha
    have hgx : ∀ s, l.getX s = -(l.b * s + l.c) / l.a := by
      intro s; rw [Line.getX_real, if_neg (not_lt.mpr ha)]
    have hm2 := minDist_lineSet (a := l.a) (b := l.b) (by positivity) hm
    refine ⟨1 + (l.b / l.a) ^ 2, 2 * (-c.center.y + (l.c / l.a + c.center.x) * (l.b / l.a)),
      (l.c / l.a + c.center.x) ^ 2 + c.center.y ^ 2 - c.radius ^ 2, fun s => Vec.ofXY (l.getX s) s,
      by nlinarith [sq_nonneg (l.b / l.a)], ?_, ?_, ?_, ?_, ?_, ?_, ?_⟩
    · rw [Circle.intersectionLine_real, if_neg (not_lt.mpr ha)]
    · unfold Circle.discr
      rw [if_neg (not_lt.mpr ha)]
      have hm3 : m ^ 2 = (l.a * c.center.x + l.b * c.center.y + l.c) ^ 2 / (l.a ^ 2 + l.b ^ 2) := by
        rw [eq_div_iff (by positivity)]
        simp only [Vec.pt_fst, Vec.pt_snd] at hm2
        linarith
      rw [hm3]
      have : l.a ^ 2 + l.b ^ 2 ≠ 0 := by positivity
      field_simp; ring
    · intro s
      refine ⟨rfl, ?_⟩
      rw [Line.mem_pts]; simp only [Vec.pt_fst, Vec.pt_snd, Vec.ofXY_x, Vec.ofXY_y, hgx]; field_simp; ring
    · intro z hz
      rw [Line.mem_pts] at hz
      refine ⟨z.2, Prod.ext ?_ rfl⟩
      simp only [Vec.pt_fst, Vec.ofXY_x, hgx]
      field_simp; linarith
    · intro s
      rw [Spec.d_sq]
      simp only [Vec.pt_fst, Vec.pt_snd, Vec.ofXY_x, Vec.ofXY_y, hgx]; field_simp; ring
    · intro s t h; exact congrArg Prod.snd h
    · intro s t
      simp only [Vec.ofXY_x, Vec.ofXY_y, hgx]
      have : -(l.b * s + l.c) / l.a - -(l.b * t + l.c) / l.a = -(l.b / l.a) * (s - t) := by field_simp; ring
      rw [this, abs_mul, abs_neg]
      constructor
      · apply mul_le_mul_of_nonneg_right _ (abs_nonneg _)
        rw [← sq_abs (l.b / l.a)]; nlinarith [sq_nonneg (|l.b / l.a| - 1), abs_nonneg (l.b / l.a)]
      · nlinarith [sq_nonneg (l.b / l.a), abs_nonneg (s - t)]
  · have hb0 : l.b ≠ 0 := ne_zero_of_eps hb
    have hlt : |l.a| < EPSILON := by rw [ha, abs_zero]; exact e0
    have hm2 := minDist_lineSet (a := l.a) (b := l.b) (by positivity) hm
    refine ⟨1, -2 * c.center.x, c.center.x ^ 2 + (l.c / l.b + c.center.y) ^ 2 - c.radius ^ 2,
      fun s => Vec.ofXY s (-l.c / l.b), le_rfl, ?_, ?_, ?_, ?_, ?_, ?_, ?_⟩
    · rw [Circle.intersectionLine_real, if_pos hlt, if_neg (not_lt.mpr hb)]
    · unfold Circle.discr
      rw [if_pos hlt, ha]
      rw [ha] at hm2
      have hm3 : m ^ 2 = (l.b * c.center.y + l.c) ^ 2 / l.b ^ 2 := by
        rw [eq_div_iff (by positivity)]
        simp only [Vec.pt_fst, Vec.pt_snd] at hm2
        linarith
      rw [hm3]
      field_simp; ring
    · intro s
      refine ⟨rfl, ?_⟩
      rw [Line.mem_pts, ha]; simp only [Vec.pt_snd, Vec.ofXY_y]; field_simp; ring
    · intro z hz
      rw [Line.mem_pts, ha] at hz
      refine ⟨z.1, Prod.ext rfl ?_⟩
      simp only [Vec.pt_snd, Vec.ofXY_y]
      field_simp; linarith
    · intro s
      rw [Spec.d_sq]
      simp only [Vec.pt_fst, Vec.pt_snd, Vec.ofXY_x, Vec.ofXY_y]; field_simp; ring
    · intro s t h; exact congrArg Prod.fst h
    · intro s t
      simp only [Vec.ofXY_x, Vec.ofXY_y, sub_self, abs_zero, one_mul]
      exact ⟨le_rfl, abs_nonneg _⟩

/-- **C50**, secant lines: exactly the two common points, the second one dropped only when it is in the EPSILON box of
the first. Guard: the line is exactly horizontal or its `a` is at least EPSILON. -/
theorem C50_secant_partial (c : Circle ℝ) (l : Line ℝ) (m : ℝ) (hr : 0 ≤ c.radius)
    (hl : EPSILON ≤ |l.a| ∨ (l.a = 0 ∧ EPSILON ≤ |l.b|)) (hm : IsMinDist l.pts c.center.pt m)
    (hD : EPSILON ≤ c.discr l m) :
    ∃ v w : Vec ℝ, v.valid = true ∧ w.valid = true ∧ v.pt ≠ w.pt ∧ c.pts ∩ l.pts = {v.pt, w.pt} ∧
      (¬ BoxNear v.pt w.pt → c.intersectionLine l = .ok [v, w]) ∧
      (BoxNear v.pt w.pt → c.intersectionLine l = .ok [v]) := by
  obtain ⟨A, B, C, mk, hA, hrun, hdis, hmk, hpar, hquad, hinj, _⟩ := c.param l m hr hl hm
  have hA0 : A ≠ 0 := by linarith
  rw [← hdis] at hD
  obtain ⟨x1, x2, hq, hne, hroots, _, _⟩ := (C49_quadratic A B C).2.1 hA0 hD
  rw [hq] at hrun
  have hmem : ∀ s, (mk s).pt ∈ c.pts ↔ A * s ^ 2 + B * s + C = 0 := by
    intro s
    rw [← hquad s]
    change Spec.d _ _ = _ ↔ _
    rw [sub_eq_zero, sq_eq_sq₀ (Spec.d_nonneg _ _) hr]
  refine ⟨mk x1, mk x2, (hmk x1).1, (hmk x2).1, fun h => hne (hinj _ _ h), ?_, fun h => ?_, fun h => ?_⟩
  · ext z
    simp only [Set.mem_inter_iff, Set.mem_insert_iff, Set.mem_singleton_iff]
    constructor
    · rintro ⟨hz, hzl⟩
      obtain ⟨s, rfl⟩ := hpar z hzl
      rcases (hroots s).mp ((hmem s).mp hz) with rfl | rfl
      · left; rfl
      · right; rfl
    · rintro (rfl | rfl)
      · exact ⟨(hmem x1).mpr ((hroots x1).mpr (Or.inl rfl)), (hmk x1).2⟩
      · exact ⟨(hmem x2).mpr ((hroots x2).mpr (Or.inr rfl)), (hmk x2).2⟩
  · rw [hrun]
    change Except.ok (Circle.solPoints mk [x1, x2]) = _
    rw [Circle.solPoints_two, if_neg (by rw [Circle.equalsWeakly_pt]; exact h)]
  · rw [hrun]
    change Except.ok (Circle.solPoints mk [x1, x2]) = _
    rw [Circle.solPoints_two, if_pos (by rw [Circle.equalsWeakly_pt]; exact h)]

/-- **C50**, lines missing the circle: empty list, and there is no common point. -/
theorem C50_miss_partial (c : Circle ℝ) (l : Line ℝ) (m : ℝ) (hr : 0 ≤ c.radius)
    (hl : EPSILON ≤ |l.a| ∨ (l.a = 0 ∧ EPSILON ≤ |l.b|)) (hm : IsMinDist l.pts c.center.pt m)
    (hD : c.discr l m ≤ -EPSILON) :
    c.intersectionLine l = .ok [] ∧ c.pts ∩ l.pts = ∅ := by
  obtain ⟨A, B, C, mk, hA, hrun, hdis, hmk, hpar, hquad, hinj, _⟩ := c.param l m hr hl hm
  have hA0 : A ≠ 0 := by linarith
  rw [← hdis] at hD
  obtain ⟨hq, hno⟩ := (C49_quadratic A B C).2.2.1 hA0 hD
  rw [hq] at hrun
  refine ⟨hrun, ?_⟩
  ext z
  simp only [Set.mem_inter_iff, Set.mem_empty_iff_false, iff_false, not_and]
  intro hz hzl
  obtain ⟨s, rfl⟩ := hpar z hzl
  apply hno s
  rw [← hquad s]
  have : Spec.d c.center.pt (mk s).pt = c.radius := hz
  rw [this, sub_self]

/-- **C50**, the tolerance band around tangency: one point, the foot of the perpendicular from the center; it is within
the tolerance of the circle, and every common point is near it. -/
theorem C50_band_partial (c : Circle ℝ) (l : Line ℝ) (m : ℝ) (hr : 0 ≤ c.radius)
    (hl : EPSILON ≤ |l.a| ∨ (l.a = 0 ∧ EPSILON ≤ |l.b|)) (hm : IsMinDist l.pts c.center.pt m)
    (hD : |c.discr l m| < EPSILON) :
    ∃ v : Vec ℝ, c.intersectionLine l = .ok [v] ∧ v.valid = true ∧ v.pt ∈ l.pts ∧ Spec.d c.center.pt v.pt = m ∧
      |m ^ 2 - c.radius ^ 2| < EPSILON / 4 ∧
      ∀ z ∈ c.pts ∩ l.pts, |z.1 - v.x| ≤ 1 / 2000 ∧ |z.2 - v.y| ≤ 1 / 2000 := by
  obtain ⟨A, B, C, mk, hA, hrun, hdis, hmk, hpar, hquad, hinj, hlip⟩ := c.param l m hr hl hm
  have hA0 : A ≠ 0 := by linarith
  have e0 := EPSILON_pos
  rw [← hdis] at hD
  obtain ⟨x0, hq, hv, hnear⟩ := (C49_quadratic A B C).2.2.2 hA0 hD
  rw [hq] at hrun
  have hdm : Spec.d c.center.pt (mk x0).pt = m := by
    apply le_antisymm
    · obtain ⟨q, hq, hqd⟩ := hm.1
      obtain ⟨s, rfl⟩ := hpar q hq
      rw [← hqd]
      rw [← sq_le_sq₀ (Spec.d_nonneg _ _) (Spec.d_nonneg _ _)]
      have h1 := hquad s
      have h2 := hquad x0
      have : A * s ^ 2 + B * s - (A * x0 ^ 2 + B * x0) = A * (s - x0) ^ 2 := by
        linear_combination (x0 - s) * (-hv)
      nlinarith [sq_nonneg (s - x0)]
    · exact hm.2 _ (hmk x0).2
  refine ⟨mk x0, ?_, (hmk x0).1, (hmk x0).2, hdm, ?_, ?_⟩
  · rw [hrun]
    change Except.ok (Circle.solPoints mk [x0, x0]) = _
    rw [Circle.solPoints_two, if_pos (by
      rw [Circle.equalsWeakly_pt]
      unfold BoxNear
      rw [sub_self, sub_self, abs_zero]; exact ⟨e0, e0⟩)]
  · rw [← hdm, hquad x0]
    have hB : B = -(2 * A * x0) := by linarith
    have h4 : 4 * A * (A * x0 ^ 2 + B * x0 + C) = -(B ^ 2 - 4 * A * C) := by rw [hB]; ring
    have h5 : 4 * A * |A * x0 ^ 2 + B * x0 + C| = |B ^ 2 - 4 * A * C| := by
      rw [← abs_neg (B ^ 2 - 4 * A * C), ← h4, abs_mul, abs_of_pos (by linarith : 0 < 4 * A)]
    nlinarith [abs_nonneg (A * x0 ^ 2 + B * x0 + C)]
  · rintro z ⟨hz, hzl⟩
    obtain ⟨s, rfl⟩ := hpar z hzl
    have hs : A * s ^ 2 + B * s + C = 0 := by
      rw [← hquad s]
      have : Spec.d c.center.pt (mk s).pt = c.radius := hz
      rw [this, sub_self]
    have h1 := hnear s hs
    have h2 : A * |s - x0| ≤ 1 / 2000 := by
      by_contra hc
      push Not at hc
      have : (1 / 2000) ^ 2 < (A * |s - x0|) ^ 2 := by
        apply sq_lt_sq' _ hc; linarith
      rw [mul_pow, sq_abs] at this
      rw [EPSILON_real] at h1
      nlinarith
    exact ⟨(hlip s x0).1.trans h2, (hlip s x0).2.trans h2⟩

/-- **C50**: at most two points are returned, and no exception is raised, for every circle and line. -/
theorem C50_at_most_two (c : Circle ℝ) (l : Line ℝ) : ∃ L, c.intersectionLine l = .ok L ∧ L.length ≤ 2 := by
  have key : ∀ (mk : ℝ → Vec ℝ) (A B C : ℝ), A ≠ 0 →
      ∃ L, (quadraticF A B C).map (Circle.solPoints mk) = .ok L ∧ L.length ≤ 2 := by
    intro mk A B C hA
    rw [quadraticF_real, if_neg hA]
    have two : ∀ a b, (Circle.solPoints mk [a, b]).length ≤ 2 := by
      intro a b; rw [Circle.solPoints_two]; split <;> simp
    split
    · exact ⟨_, rfl, two _ _⟩
    · split
      · exact ⟨[], rfl, by simp⟩
      · exact ⟨_, rfl, two _ _⟩
  rw [Circle.intersectionLine_real]
  split
  · split
    · exact ⟨[], rfl, by simp⟩
    · exact key _ _ _ _ one_ne_zero
  · exact key _ _ _ _ (by positivity)

/-- **C50** is false for lines with `0 < |a| < EPSILON`: they are treated as horizontal. The line
`9e-7 x + 1e-6 y = 0` and the unit circle give the point (1, 0), which is not on the line. -/
theorem C50_refuted : ∃ (c : Circle ℝ) (l : Line ℝ) (L : List (Vec ℝ)), 0 ≤ c.radius ∧ c.intersectionLine l = .ok L ∧
    ∃ v ∈ L, v.pt = (1, 0) ∧ v.pt ∉ l.pts := by
  refine ⟨⟨Vec.ofXY 0 0, 1⟩, ⟨9 / 10000000, 1 / 1000000, 0⟩, [Vec.ofXY 1 0, Vec.ofXY (-1) 0], by norm_num, ?_,
    Vec.ofXY 1 0, by simp, rfl, ?_⟩
  · rw [Circle.intersectionLine_real, if_pos (by norm_num [EPSILON_real, abs_of_pos]),
      if_neg (by norm_num [EPSILON_real, abs_of_pos]), quadraticF_real, if_neg one_ne_zero,
      if_neg (by norm_num [EPSILON_real, abs_of_pos]), if_neg (by norm_num)]
    have h4 : √((-2 * (Vec.ofXY (0:ℝ) 0).x) ^ 2 - 4 * 1 * ((Vec.ofXY (0:ℝ) 0).x ^ 2 +
        (0 / (1 / 1000000) + (Vec.ofXY (0:ℝ) 0).y) ^ 2 - 1 ^ 2)) = 2 := by
      rw [show (-2 * (Vec.ofXY (0:ℝ) 0).x) ^ 2 - 4 * 1 * ((Vec.ofXY (0:ℝ) 0).x ^ 2 +
        (0 / (1 / 1000000) + (Vec.ofXY (0:ℝ) 0).y) ^ 2 - 1 ^ 2) = 2 ^ 2 by norm_num]
      exact Real.sqrt_sq (by norm_num)
    rw [h4]
    change Except.ok (Circle.solPoints _ [_, _]) = _
    rw [Circle.solPoints_two, if_neg (by
      rw [Circle.equalsWeakly_pt]; unfold BoxNear; norm_num [EPSILON_real])]
    norm_num
  · rw [Line.mem_pts]; norm_num

/-- **C50** is false for lines with small coefficients: `5e-7 x = 0` is the y-axis, but gives the empty list. -/
theorem C50_refuted_small : ∃ (c : Circle ℝ) (l : Line ℝ), 0 ≤ c.radius ∧ c.intersectionLine l = .ok [] ∧
    ((0, 1) : Pt) ∈ c.pts ∩ l.pts := by
  refine ⟨⟨Vec.ofXY 0 0, 1⟩, ⟨5 / 10000000, 0, 0⟩, by norm_num, ?_, ?_, ?_⟩
  · rw [Circle.intersectionLine_real, if_pos (by norm_num [EPSILON_real, abs_of_pos]),
      if_pos (by norm_num [EPSILON_real])]
  · exact (mem_circleSet (by norm_num)).mpr (by norm_num)
  · rw [Line.mem_pts]; norm_num

/-- Non-vacuity of C50: the unit circle and the line x = 1/2 (a secant), x = 2 (a miss). -/
example : EPSILON ≤ (Circle.mk (Vec.ofXY (0:ℝ) 0) 1).discr ⟨1, 0, -(1/2)⟩ (1/2) ∧
    IsMinDist (Line.mk (1:ℝ) 0 (-(1/2))).pts (0, 0) (1/2) ∧
    (Circle.mk (Vec.ofXY (0:ℝ) 0) 1).discr ⟨1, 0, -2⟩ 2 ≤ -EPSILON := by
  refine ⟨?_, ⟨⟨(1/2, 0), ?_, ?_⟩, ?_⟩, ?_⟩
  · unfold Circle.discr
    rw [if_neg (by norm_num [EPSILON_real]), EPSILON_real]; norm_num
  · rw [Line.mem_pts]; norm_num
  · exact Spec.d_eq_of_sq (by norm_num) (by norm_num)
  · intro q hq
    rw [Line.mem_pts] at hq
    unfold Spec.d
    apply Real.le_sqrt_of_sq_le
    have : q.1 = 1/2 := by norm_num at hq; linarith
    rw [this]; nlinarith [sq_nonneg (0 - q.2)]
  · unfold Circle.discr
    rw [if_neg (by norm_num [EPSILON_real]), EPSILON_real]; norm_num

/-! ## C51 -/

/-- The line the code builds for two circles. -/
noncomputable def Circle.radical (c o : Circle ℝ) : Line ℝ :=
  ⟨-2 * (o.center.x - c.center.x), -2 * (o.center.y - c.center.y),
    o.center.x ^ 2 + o.center.y ^ 2 - o.radius ^ 2 - (c.center.x ^ 2 + c.center.y ^ 2) + c.radius ^ 2⟩

theorem Circle.intersectionCircle_real (c o : Circle ℝ) : c.intersectionCircle o =
    if Spec.d c.center.pt o.center.pt < |c.radius - o.radius| ∨
      c.radius + o.radius < Spec.d c.center.pt o.center.pt then .ok []
    else c.intersectionLine (c.radical o) := by
  have h : √((o.center.x - c.center.x) ^ 2 + (o.center.y - c.center.y) ^ 2) = Spec.d c.center.pt o.center.pt := by
    rw [Spec.d_comm]; rfl
  simp only [Circle.intersectionCircle, fabs_real, Vec.r2_real, PyMath.sqrt, Nat.cast_ofNat, ← pow_two, h,
    Circle.radical]

/-- On the first circle, the radical line is exactly the second circle. -/
theorem Circle.radical_inter (c o : Circle ℝ) (hc : 0 ≤ c.radius) (ho : 0 ≤ o.radius) :
    c.pts ∩ (c.radical o).pts = c.pts ∩ o.pts := by
  ext z
  simp only [Set.mem_inter_iff]
  refine and_congr_right (fun hz => ?_)
  have h1 := (mem_circleSet hc).mp hz
  change _ ↔ z ∈ circleSet _ _
  rw [Line.mem_pts, mem_circleSet ho]
  simp only [Circle.radical, Vec.pt_fst, Vec.pt_snd] at h1 ⊢
  constructor <;> intro h <;> linarith

/-- **C51**, disjoint or nested circles: empty list, and no common point. -/
theorem C51_apart (c o : Circle ℝ) (h : Spec.d c.center.pt o.center.pt < |c.radius - o.radius| ∨
      c.radius + o.radius < Spec.d c.center.pt o.center.pt) :
    c.intersectionCircle o = .ok [] ∧ c.pts ∩ o.pts = ∅ := by
  refine ⟨by rw [Circle.intersectionCircle_real, if_pos h], ?_⟩
  ext z
  simp only [Set.mem_inter_iff, Set.mem_empty_iff_false, iff_false, not_and]
  intro h1 h2
  have e1 : Spec.d c.center.pt z = c.radius := h1
  have e2 : Spec.d o.center.pt z = o.radius := h2
  have t1 := Spec.d_triangle c.center.pt z o.center.pt
  have t2 := Spec.d_triangle c.center.pt o.center.pt z
  have t3 := Spec.d_triangle o.center.pt c.center.pt z
  rw [Spec.d_comm z, e1, e2] at t1
  rw [e1, e2] at t2
  rw [Spec.d_comm o.center.pt c.center.pt, e1, e2] at t3
  rcases h with h | h
  · rcases lt_abs.mp h with h | h <;> linarith
  · linarith

/-- **C51**, all other pairs whose radical line is not nearly horizontal: exactly the common points. -/
theorem C51_secant_partial (c o : Circle ℝ) (m : ℝ) (hc : 0 ≤ c.radius) (ho : 0 ≤ o.radius)
    (h1 : |c.radius - o.radius| ≤ Spec.d c.center.pt o.center.pt)
    (h2 : Spec.d c.center.pt o.center.pt ≤ c.radius + o.radius)
    (hl : EPSILON ≤ 2 * |o.center.x - c.center.x| ∨
      (o.center.x = c.center.x ∧ EPSILON ≤ 2 * |o.center.y - c.center.y|))
    (hm : IsMinDist (c.radical o).pts c.center.pt m) (hD : EPSILON ≤ c.discr (c.radical o) m) :
    ∃ v w : Vec ℝ, v.pt ≠ w.pt ∧ c.pts ∩ o.pts = {v.pt, w.pt} ∧
      (¬ BoxNear v.pt w.pt → c.intersectionCircle o = .ok [v, w]) ∧
      (BoxNear v.pt w.pt → c.intersectionCircle o = .ok [v]) := by
  have hl' : EPSILON ≤ |(c.radical o).a| ∨ ((c.radical o).a = 0 ∧ EPSILON ≤ |(c.radical o).b|) := by
    simp only [Circle.radical, abs_mul, abs_neg, Nat.abs_ofNat]
    rcases hl with hl | ⟨hl, hl2⟩
    · left; exact hl
    · right; exact ⟨by rw [hl]; ring, hl2⟩
  obtain ⟨v, w, _, _, hne, hset, r1, r2⟩ := C50_secant_partial c _ m hc hl' hm hD
  rw [Circle.radical_inter c o hc ho] at hset
  have hr : c.intersectionCircle o = c.intersectionLine (c.radical o) := by
    rw [Circle.intersectionCircle_real, if_neg]
    push Not; exact ⟨h1, h2⟩
  rw [hr]
  exact ⟨v, w, hne, hset, r1, r2⟩

/-- **C51**, near tangency: one point, close to the common points. -/
theorem C51_band_partial (c o : Circle ℝ) (m : ℝ) (hc : 0 ≤ c.radius) (ho : 0 ≤ o.radius)
    (h1 : |c.radius - o.radius| ≤ Spec.d c.center.pt o.center.pt)
    (h2 : Spec.d c.center.pt o.center.pt ≤ c.radius + o.radius)
    (hl : EPSILON ≤ 2 * |o.center.x - c.center.x| ∨
      (o.center.x = c.center.x ∧ EPSILON ≤ 2 * |o.center.y - c.center.y|))
    (hm : IsMinDist (c.radical o).pts c.center.pt m) (hD : |c.discr (c.radical o) m| < EPSILON) :
    ∃ v : Vec ℝ, c.intersectionCircle o = .ok [v] ∧ |Spec.d c.center.pt v.pt ^ 2 - c.radius ^ 2| < EPSILON / 4 ∧
      |Spec.d o.center.pt v.pt ^ 2 - o.radius ^ 2| < EPSILON / 4 ∧
      ∀ z ∈ c.pts ∩ o.pts, |z.1 - v.x| ≤ 1 / 2000 ∧ |z.2 - v.y| ≤ 1 / 2000 := by
  have hl' : EPSILON ≤ |(c.radical o).a| ∨ ((c.radical o).a = 0 ∧ EPSILON ≤ |(c.radical o).b|) := by
    simp only [Circle.radical, abs_mul, abs_neg, Nat.abs_ofNat]
    rcases hl with hl | ⟨hl, hl2⟩
    · left; exact hl
    · right; exact ⟨by rw [hl]; ring, hl2⟩
  obtain ⟨v, hv, _, hvl, hvm, hb, hz⟩ := C50_band_partial c _ m hc hl' hm hD
  rw [Circle.radical_inter c o hc ho] at hz
  have hr : c.intersectionCircle o = c.intersectionLine (c.radical o) := by
    rw [Circle.intersectionCircle_real, if_neg]
    push Not; exact ⟨h1, h2⟩
  refine ⟨v, by rw [hr, hv], by rw [hvm]; exact hb, ?_, hz⟩
  have : Spec.d o.center.pt v.pt ^ 2 - o.radius ^ 2 = m ^ 2 - c.radius ^ 2 := by
    rw [← hvm, Spec.d_sq, Spec.d_sq]
    rw [Line.mem_pts] at hvl
    simp only [Circle.radical, Vec.pt_fst, Vec.pt_snd] at hvl ⊢
    linarith
  rw [this]; exact hb

/-- Intersecting circles always fall in one of the two cases above: the discriminant is not below the band. -/
theorem C51_cases_partial (c o : Circle ℝ) (m : ℝ) (hc : 0 ≤ c.radius) (ho : 0 ≤ o.radius)
    (h1 : |c.radius - o.radius| ≤ Spec.d c.center.pt o.center.pt)
    (h2 : Spec.d c.center.pt o.center.pt ≤ c.radius + o.radius)
    (hne : c.center.pt ≠ o.center.pt) (hm : IsMinDist (c.radical o).pts c.center.pt m) :
    0 ≤ c.discr (c.radical o) m := by
  have hD := dir_pos hne
  set D := Spec.d c.center.pt o.center.pt with hDd
  have hDsq : D ^ 2 = (o.center.x - c.center.x) ^ 2 + (o.center.y - c.center.y) ^ 2 := by
    rw [hDd, Spec.d_sq]; simp only [Vec.pt_fst, Vec.pt_snd]; ring
  simp only [Vec.pt_fst, Vec.pt_snd] at hD
  rw [← hDsq] at hD
  have hab : (c.radical o).a ^ 2 + (c.radical o).b ^ 2 = 4 * D ^ 2 := by
    simp only [Circle.radical]; rw [hDsq]; ring
  have hm2 := minDist_lineSet (a := (c.radical o).a) (b := (c.radical o).b) (by rw [hab]; positivity) hm
  rw [hab] at hm2
  have hval : (c.radical o).a * c.center.pt.1 + (c.radical o).b * c.center.pt.2 + (c.radical o).c =
      D ^ 2 - o.radius ^ 2 + c.radius ^ 2 := by
    simp only [Circle.radical, Vec.pt_fst, Vec.pt_snd]; rw [hDsq]; ring
  rw [hval] at hm2
  have h3 : (c.radius - o.radius) ^ 2 ≤ D ^ 2 := by
    rw [← sq_abs (c.radius - o.radius)]
    exact pow_le_pow_left₀ (abs_nonneg _) h1 2
  have h4 : D ^ 2 ≤ (c.radius + o.radius) ^ 2 := pow_le_pow_left₀ (Spec.d_nonneg _ _) h2 2
  have h5 : 0 ≤ 4 * D ^ 2 * (c.radius ^ 2 - m ^ 2) := by
    have : 4 * D ^ 2 * (c.radius ^ 2 - m ^ 2) =
        (D ^ 2 - (c.radius - o.radius) ^ 2) * ((c.radius + o.radius) ^ 2 - D ^ 2) := by
      linear_combination hm2
    rw [this]
    exact mul_nonneg (by linarith) (by linarith)
  have h6 : 0 ≤ c.radius ^ 2 - m ^ 2 := by
    by_contra hcon; push Not at hcon
    have : 4 * D ^ 2 * (c.radius ^ 2 - m ^ 2) < 0 := mul_neg_of_pos_of_neg (by linarith) hcon
    linarith
  unfold Circle.discr
  exact mul_nonneg (mul_nonneg (by norm_num) (div_nonneg (by positivity) (sq_nonneg _))) h6

/-- **C51** is false for circles whose centers are within EPSILON/2 of each other in both coordinates: the two unit
circles at (0,0) and (4e-7, 0) meet, but the list is empty. -/
theorem C51_refuted : ∃ c o : Circle ℝ, 0 ≤ c.radius ∧ 0 ≤ o.radius ∧ c.center.pt ≠ o.center.pt ∧
    c.intersectionCircle o = .ok [] ∧ (c.pts ∩ o.pts).Nonempty := by
  have hd : Spec.d (Vec.ofXY (0:ℝ) 0).pt (Vec.ofXY (4 / 10000000) 0).pt = 4 / 10000000 :=
    Spec.d_eq_of_sq (by norm_num) (by norm_num)
  refine ⟨⟨Vec.ofXY 0 0, 1⟩, ⟨Vec.ofXY (4 / 10000000) 0, 1⟩, by norm_num, by norm_num, ?_, ?_, ?_⟩
  · rw [Ne, Vec.pt_eq_iff]; norm_num
  · rw [Circle.intersectionCircle_real, if_neg (by simp only [hd]; norm_num), Circle.intersectionLine_real,
      if_pos (by simp only [Circle.radical]; norm_num [EPSILON_real]),
      if_pos (by simp only [Circle.radical]; norm_num [EPSILON_real])]
  · refine ⟨(2 / 10000000, √(1 - (2 / 10000000) ^ 2)), ?_, ?_⟩
    · refine (mem_circleSet (by norm_num)).mpr ?_
      simp only [Vec.pt_ofXY, zero_sub, neg_sq]
      rw [Real.sq_sqrt (by norm_num)]; norm_num
    · refine (mem_circleSet (by norm_num)).mpr ?_
      simp only [Vec.pt_ofXY, zero_sub, neg_sq]
      rw [Real.sq_sqrt (by norm_num)]; norm_num

/-- Non-vacuity of C51: the circles of radius 5 around (0,0) and (8,0) meet in two points (x = 4). -/
example : |(5:ℝ) - 5| ≤ Spec.d ((0, 0) : Pt) (8, 0) ∧ Spec.d ((0, 0) : Pt) (8, 0) ≤ 5 + 5 ∧
    (EPSILON : ℝ) ≤ 2 * |(8:ℝ) - 0| ∧
    IsMinDist ((Circle.mk (Vec.ofXY 0 0) 5).radical (Circle.mk (Vec.ofXY 8 0) 5)).pts (0, 0) 4 ∧
    EPSILON ≤ (Circle.mk (Vec.ofXY 0 0) 5).discr ((Circle.mk (Vec.ofXY 0 0) 5).radical (Circle.mk (Vec.ofXY 8 0) 5)) 4 := by
  have hd : Spec.d ((0, 0) : Pt) (8, 0) = 8 := Spec.d_eq_of_sq (by norm_num) (by norm_num)
  rw [hd]
  refine ⟨by norm_num, by norm_num, by norm_num [EPSILON_real], ⟨⟨(4, 0), ?_, ?_⟩, ?_⟩, ?_⟩
  · rw [Line.mem_pts]; norm_num [Circle.radical]
  · exact Spec.d_eq_of_sq (by norm_num) (by norm_num)
  · intro q hq
    rw [Line.mem_pts] at hq
    norm_num [Circle.radical] at hq
    unfold Spec.d
    apply Real.le_sqrt_of_sq_le
    have : q.1 = 4 := by linarith
    rw [this]; nlinarith [sq_nonneg (0 - q.2)]
  · unfold Circle.discr
    rw [if_neg (by norm_num [EPSILON_real, Circle.radical]), EPSILON_real]; norm_num [Circle.radical]

/-! ## C52 -/

theorem Circle.dropRejected_filter (ok : Vec ℝ → Bool) (L : List (Vec ℝ)) (h : L.length ≤ 2) :
    Circle.dropRejected ok L = L.filter ok := by
  match L, h with
  | [], _ => rfl
  | [a], _ => cases ha : ok a <;> simp [Circle.dropRejected, ha]
  | [a, b], _ => cases ha : ok a <;> cases hb : ok b <;> simp [Circle.dropRejected, ha, hb]

/-- **C52**, segments. -/
theorem C52_segment (c : Circle ℝ) (s : Seg ℝ) : ∃ L, c.intersectionLine s.line = .ok L ∧
    c.intersectionSeg s = .ok (L.filter s.contains) := by
  obtain ⟨L, hL, h2⟩ := C50_at_most_two c s.line
  refine ⟨L, hL, ?_⟩
  simp only [Circle.intersectionSeg, hL, bind, Except.bind, pure, Except.pure,
    Circle.dropRejected_filter _ _ h2]

/-- **C52**, rays whose direction is a normalised angle (every reachable one, C01). -/
theorem C52_ray (c : Circle ℝ) (r : Ray ℝ) (h : AngleDeg.Normal r.dir) :
    ∃ L, c.intersectionLine r.line = .ok L ∧ c.intersectionRay r = .ok (L.filter (fun p => r.inRightDir p 1)) := by
  obtain ⟨L, hL, h2⟩ := C50_at_most_two c r.line
  refine ⟨L, hL, ?_⟩
  have hline : Line.ofAngle (Vec.ofVec r.origin) (AngleDeg.ofAngle r.dir) = r.line := by
    rw [AngleDeg.ofAngle_of_normal h]; rfl
  simp only [Circle.intersectionRay, hline, hL, bind, Except.bind, pure, Except.pure, Nat.cast_one,
    Circle.dropRejected_filter _ _ h2]

/-- The unit circle and the x-axis, as a line with coefficients (0, 2, 0). -/
theorem Circle.unit_xaxis : (Circle.mk (Vec.ofXY (0:ℝ) 0) 1).intersectionLine ⟨0, 2, 0⟩ =
    .ok [Vec.ofXY 1 0, Vec.ofXY (-1) 0] := by
  rw [Circle.intersectionLine_real, if_pos (by norm_num [EPSILON_real]),
    if_neg (by norm_num [EPSILON_real]), quadraticF_real, if_neg one_ne_zero,
    if_neg (by norm_num [EPSILON_real]), if_neg (by norm_num)]
  have h4 : √((-2 * (Vec.ofXY (0:ℝ) 0).x) ^ 2 - 4 * 1 * ((Vec.ofXY (0:ℝ) 0).x ^ 2 +
      (0 / 2 + (Vec.ofXY (0:ℝ) 0).y) ^ 2 - 1 ^ 2)) = 2 := by
    rw [show (-2 * (Vec.ofXY (0:ℝ) 0).x) ^ 2 - 4 * 1 * ((Vec.ofXY (0:ℝ) 0).x ^ 2 +
      (0 / 2 + (Vec.ofXY (0:ℝ) 0).y) ^ 2 - 1 ^ 2) = 2 ^ 2 by norm_num]
    exact Real.sqrt_sq (by norm_num)
  rw [h4]
  change Except.ok (Circle.solPoints _ [_, _]) = _
  rw [Circle.solPoints_two, if_neg (by
    rw [Circle.equalsWeakly_pt]; unfold BoxNear; norm_num [EPSILON_real])]
  norm_num

/-- Non-vacuity of C52: of the two crossing points of the unit circle with the carrier line of the segment from (0,0)
to (2,0) only (1, 0) is kept. -/
example : (Circle.mk (Vec.ofXY (0:ℝ) 0) 1).intersectionSeg (Seg.ofPoints (Vec.ofXY 0 0) (Vec.ofXY 2 0)) =
    .ok [Vec.ofXY 1 0] := by
  obtain ⟨L, h1, h2⟩ := C52_segment (Circle.mk (Vec.ofXY (0:ℝ) 0) 1) (Seg.ofPoints (Vec.ofXY 0 0) (Vec.ofXY 2 0))
  have hl : (Seg.ofPoints (Vec.ofXY (0:ℝ) 0) (Vec.ofXY 2 0)).line = ⟨0, 2, 0⟩ := by
    simp [Seg.line, Seg.ofPoints, Line.ofPoints, Vec.ofVec, Vec.ofXY]
  rw [hl, Circle.unit_xaxis] at h1
  obtain rfl := Except.ok.inj h1
  rw [h2]
  have k1 : (Seg.ofPoints (Vec.ofXY (0:ℝ) 0) (Vec.ofXY 2 0)).contains (Vec.ofXY 1 0) = true := by
    apply Seg.contains_of_mem
    exact mem_seg.mpr ⟨1 / 2, by norm_num, by norm_num, by norm_num [Seg.ofPoints], by norm_num [Seg.ofPoints]⟩
  have k2 : (Seg.ofPoints (Vec.ofXY (0:ℝ) 0) (Vec.ofXY 2 0)).contains (Vec.ofXY (-1) 0) = false := by
    rw [← Bool.not_eq_true, Seg.contains_iff]
    norm_num [Seg.ofPoints, CALC_ERROR_real]
  simp [List.filter, k1, k2]

/-! ## C53 -/

/-- **C53**, the circle itself: passes through the three points when its center is valid, no two points being within
EPSILON of each other. -/
theorem C53_circum_circle_partial (a b c : Vec ℝ) (hab : ¬ VNear a b) (hbc : ¬ VNear b c) (hca : ¬ VNear c a)
    (hv : (Tri.triCircumcenter a b c).isValid = true) :
    a.pt ∈ (Circle.circumCircle a b c).pts ∧ b.pt ∈ (Circle.circumCircle a b c).pts ∧
    c.pt ∈ (Circle.circumCircle a b c).pts := by
  obtain ⟨h1, h2⟩ := (C42_circumcenter_partial a b c hab hbc hca).1 hv
  have hcc : Circle.circumCircle a b c =
      Circle.ofCR (Tri.triCircumcenter a b c) ((Tri.triCircumcenter a b c).dist a) := by
    have : (Tri.triCircumcenter a b c).valid = true := hv
    simp [Circle.circumCircle, this]
  have hr : (Circle.circumCircle a b c).radius = Spec.d (Tri.triCircumcenter a b c).pt a.pt := by
    rw [hcc]; simp only [Circle.ofCR, Nat.cast_zero, Vec.dist_real]
    rw [if_neg (not_lt.mpr (Spec.d_nonneg _ _))]
  have hcen : (Circle.circumCircle a b c).center.pt = (Tri.triCircumcenter a b c).pt := by rw [hcc]; rfl
  unfold Circle.pts
  rw [hr, hcen]
  exact ⟨rfl, h1.symm, (h1.trans h2).symm⟩

/-- **C53**, invalid circumcenter: the default circle. -/
theorem C53_circum_circle_invalid (a b c : Vec ℝ) (hv : (Tri.triCircumcenter a b c).isValid = false) :
    (Circle.circumCircle a b c).center.pt = (0, 0) ∧ (Circle.circumCircle a b c).radius = 0 := by
  have : (Tri.triCircumcenter a b c).valid = false := hv
  constructor
  · simp [Circle.circumCircle, this, Circle.default, Circle.ofCR, Vec.zero, Vec.pt, Vec.ofVec, Vec.ofXY]
  · simp [Circle.circumCircle, this, Circle.default, Circle.ofCR]

theorem Circle.circumCircleContains_iff (q p0 p1 p2 : Vec ℝ) (O : Pt) (R : ℝ) (hR : 0 ≤ R)
    (h : 1 / 20000000000 ≤ |area2 p0.pt p1.pt p2.pt|)
    (h0 : Spec.d O p0.pt = R) (h1 : Spec.d O p1.pt = R) (h2 : Spec.d O p2.pt = R) :
    Circle.circumCircleContains q p0 p1 p2 = true ↔ Spec.d O q.pt ^ 2 < R ^ 2 - EPSILON ^ 2 := by
  have hA : (2:ℝ) * ((p1.x - p0.x) * (p2.y - p1.y) - (p1.y - p0.y) * (p2.x - p1.x)) = 2 * area2 p0.pt p1.pt p2.pt := by
    simp only [area2, Vec.pt_fst, Vec.pt_snd]; ring
  have hne : area2 p0.pt p1.pt p2.pt ≠ 0 := by
    intro h0; rw [h0, abs_zero] at h; norm_num at h
  have e0 : (O.1 - p0.x) ^ 2 + (O.2 - p0.y) ^ 2 = R ^ 2 := by rw [← h0, Spec.d_sq]; rfl
  have e1 : (O.1 - p1.x) ^ 2 + (O.2 - p1.y) ^ 2 = R ^ 2 := by rw [← h1, Spec.d_sq]; rfl
  have e2 : (O.1 - p2.x) ^ 2 + (O.2 - p2.y) ^ 2 = R ^ 2 := by rw [← h2, Spec.d_sq]; rfl
  have k1 : (p1.x - p0.x) * (p0.x + p1.x) + (p1.y - p0.y) * (p0.y + p1.y) =
      2 * ((p1.x - p0.x) * O.1 + (p1.y - p0.y) * O.2) := by linarith
  have k2 : (p2.x - p0.x) * (p0.x + p2.x) + (p2.y - p0.y) * (p0.y + p2.y) =
      2 * ((p2.x - p0.x) * O.1 + (p2.y - p0.y) * O.2) := by linarith
  have hD : (p1.x - p0.x) * (p2.y - p0.y) - (p1.y - p0.y) * (p2.x - p0.x) ≠ 0 := hne
  simp only [Circle.circumCircleContains, fabs_real, Nat.cast_ofNat, Nat.cast_one, Vec.dist2_real, hA, k1, k2,
    Vec.ofXY_x, Vec.ofXY_y]
  rw [if_neg (by rw [abs_mul, Nat.abs_ofNat]; push Not; linarith)]
  have c1 : ((p2.y - p0.y) * (2 * ((p1.x - p0.x) * O.1 + (p1.y - p0.y) * O.2)) -
      (p1.y - p0.y) * (2 * ((p2.x - p0.x) * O.1 + (p2.y - p0.y) * O.2))) / (2 * area2 p0.pt p1.pt p2.pt) = O.1 := by
    rw [div_eq_iff (by simpa using hne)]
    simp only [area2, Vec.pt_fst, Vec.pt_snd]; ring
  have c2 : ((p1.x - p0.x) * (2 * ((p2.x - p0.x) * O.1 + (p2.y - p0.y) * O.2)) -
      (p2.x - p0.x) * (2 * ((p1.x - p0.x) * O.1 + (p1.y - p0.y) * O.2))) / (2 * area2 p0.pt p1.pt p2.pt) = O.2 := by
    rw [div_eq_iff (by simpa using hne)]
    simp only [area2, Vec.pt_fst, Vec.pt_snd]; ring
  rw [c1, c2, decide_eq_true_eq, e0, Spec.d_sq, ← pow_two]
  rfl

/-- Three points with non-zero doubled area have a circumcenter. -/
theorem circumcenter_exists {a b c : Pt} (h : area2 a b c ≠ 0) :
    ∃ O : Pt, ∃ R : ℝ, 0 ≤ R ∧ Spec.d O a = R ∧ Spec.d O b = R ∧ Spec.d O c = R := by
  refine ⟨(a.1 + 1 / 2 / area2 a b c * (((b.1 - a.1) ^ 2 + (b.2 - a.2) ^ 2) * (c.2 - a.2) -
      ((c.1 - a.1) ^ 2 + (c.2 - a.2) ^ 2) * (b.2 - a.2)),
    a.2 + 1 / 2 / area2 a b c * ((b.1 - a.1) * ((c.1 - a.1) ^ 2 + (c.2 - a.2) ^ 2) -
      (c.1 - a.1) * ((b.1 - a.1) ^ 2 + (b.2 - a.2) ^ 2))), _, Spec.d_nonneg _ a, rfl, ?_, ?_⟩
  · rw [Spec.d_eq_d_iff]
    have hD : (b.1 - a.1) * (c.2 - a.2) - (b.2 - a.2) * (c.1 - a.1) ≠ 0 := h
    unfold area2; field_simp; ring
  · rw [Spec.d_eq_d_iff]
    have hD : (b.1 - a.1) * (c.2 - a.2) - (b.2 - a.2) * (c.1 - a.1) ≠ 0 := h
    unfold area2; field_simp; ring

/-- **C53**, containment: for points whose doubled area is at least 5e-11 (there is then exactly one circle through
them), the answer is membership in the open disc shrunk by the tolerance. -/
theorem C53_contains_partial (q p0 p1 p2 : Vec ℝ) (h : 1 / 20000000000 ≤ |area2 p0.pt p1.pt p2.pt|) :
    ∃ (O : Pt) (R : ℝ), 0 ≤ R ∧ p0.pt ∈ circleSet O R ∧ p1.pt ∈ circleSet O R ∧ p2.pt ∈ circleSet O R ∧
      (Circle.circumCircleContains q p0 p1 p2 = true ↔ Spec.d O q.pt ^ 2 < R ^ 2 - EPSILON ^ 2) := by
  have hne : area2 p0.pt p1.pt p2.pt ≠ 0 := by
    intro h0; rw [h0, abs_zero] at h; norm_num at h
  obtain ⟨O, R, hR, h0, h1, h2⟩ := circumcenter_exists hne
  exact ⟨O, R, hR, h0, h1, h2, Circle.circumCircleContains_iff q p0 p1 p2 O R hR h h0 h1 h2⟩

/-- **C53**, points with a smaller doubled area: always False. -/
theorem C53_contains_flat (q p0 p1 p2 : Vec ℝ) (h : |area2 p0.pt p1.pt p2.pt| < 1 / 20000000000) :
    Circle.circumCircleContains q p0 p1 p2 = false := by
  have hA : (2:ℝ) * ((p1.x - p0.x) * (p2.y - p1.y) - (p1.y - p0.y) * (p2.x - p1.x)) = 2 * area2 p0.pt p1.pt p2.pt := by
    simp only [area2, Vec.pt_fst, Vec.pt_snd]; ring
  simp only [Circle.circumCircleContains, fabs_real, Nat.cast_ofNat, Nat.cast_one, hA]
  rw [if_pos (by rw [abs_mul, Nat.abs_ofNat]; linarith)]

/-- **C53**: the answer does not depend on the order of the three points. -/
theorem C53_order (q a b c : Vec ℝ) :
    Circle.circumCircleContains q b a c = Circle.circumCircleContains q a b c ∧
    Circle.circumCircleContains q b c a = Circle.circumCircleContains q a b c := by
  have s1 : area2 b.pt a.pt c.pt = -area2 a.pt b.pt c.pt := by unfold area2; ring
  have s2 : area2 b.pt c.pt a.pt = area2 a.pt b.pt c.pt := by unfold area2; ring
  by_cases h : 1 / 20000000000 ≤ |area2 a.pt b.pt c.pt|
  · have hne : area2 a.pt b.pt c.pt ≠ 0 := by
      intro h0; rw [h0, abs_zero] at h; norm_num at h
    obtain ⟨O, R, hR, h0, h1, h2⟩ := circumcenter_exists hne
    have k := Circle.circumCircleContains_iff q a b c O R hR h h0 h1 h2
    constructor
    · rw [Bool.eq_iff_iff, k]
      exact Circle.circumCircleContains_iff q b a c O R hR (by rw [s1, abs_neg]; exact h) h1 h0 h2
    · rw [Bool.eq_iff_iff, k]
      exact Circle.circumCircleContains_iff q b c a O R hR (by rw [s2]; exact h) h1 h2 h0
  · push Not at h
    rw [C53_contains_flat q a b c h, C53_contains_flat q b a c (by rw [s1, abs_neg]; exact h),
      C53_contains_flat q b c a (by rw [s2]; exact h)]
    simp

/-- **C53** is false for nearly collinear points: the circle through (0,0), (2,0), (1, 1e-11) contains the point
(1, -1), which is more than the tolerance inside it, but the answer is False. -/
theorem C53_refuted_contains : ∃ (q p0 p1 p2 : Vec ℝ) (O : Pt) (R : ℝ), area2 p0.pt p1.pt p2.pt ≠ 0 ∧ 0 ≤ R ∧
    p0.pt ∈ circleSet O R ∧ p1.pt ∈ circleSet O R ∧ p2.pt ∈ circleSet O R ∧ Spec.d O q.pt ^ 2 < R ^ 2 - EPSILON ^ 2 ∧
    Circle.circumCircleContains q p0 p1 p2 = false := by
  have hne : area2 (Vec.ofXY (0:ℝ) 0).pt (Vec.ofXY 2 0).pt (Vec.ofXY 1 (1 / 100000000000)).pt ≠ 0 := by
    norm_num [area2]
  have hOx : ((1 - (100000000000 : ℝ) ^ 2) / (2 * 100000000000)) < 0 := by norm_num
  refine ⟨Vec.ofXY 1 (-1), Vec.ofXY 0 0, Vec.ofXY 2 0, Vec.ofXY 1 (1 / 100000000000),
    (1, (1 / 100000000000 - 100000000000) / 2), (1 / 100000000000 + 100000000000) / 2, hne, by norm_num, ?_, ?_, ?_, ?_, ?_⟩
  · exact (mem_circleSet (by norm_num)).mpr (by norm_num)
  · exact (mem_circleSet (by norm_num)).mpr (by norm_num)
  · exact (mem_circleSet (by norm_num)).mpr (by norm_num)
  · rw [Spec.d_sq, EPSILON_real]; norm_num
  · exact C53_contains_flat _ _ _ _ (by norm_num [area2, abs_of_pos])

/-- **C53** is false for `circum_circle` when two points are within EPSILON: the witness of `C42_refuted`. -/
theorem C53_refuted_circle : ∃ a b c : Vec ℝ, (Tri.triCircumcenter a b c).isValid = true ∧
    b.pt ∉ (Circle.circumCircle a b c).pts := by
  obtain ⟨a, b, c, _, hv, hd⟩ := C42_refuted
  refine ⟨a, b, c, hv, ?_⟩
  have hcc : Circle.circumCircle a b c =
      Circle.ofCR (Tri.triCircumcenter a b c) ((Tri.triCircumcenter a b c).dist a) := by
    have : (Tri.triCircumcenter a b c).valid = true := hv
    simp [Circle.circumCircle, this]
  have hr : (Circle.circumCircle a b c).radius = Spec.d (Tri.triCircumcenter a b c).pt a.pt := by
    rw [hcc]; simp only [Circle.ofCR, Nat.cast_zero, Vec.dist_real]
    rw [if_neg (not_lt.mpr (Spec.d_nonneg _ _))]
  have hcen : (Circle.circumCircle a b c).center.pt = (Tri.triCircumcenter a b c).pt := by rw [hcc]; rfl
  intro h
  have : Spec.d (Circle.circumCircle a b c).center.pt b.pt = (Circle.circumCircle a b c).radius := h
  rw [hr, hcen] at this
  exact hd this.symm

/-- Non-vacuity of C53. -/
example : (1:ℝ) / 20000000000 ≤ |area2 (Vec.ofXY (0:ℝ) 0).pt (Vec.ofXY 4 0).pt (Vec.ofXY 0 3).pt| := by
  norm_num [area2, abs_of_pos]

end PyrusGeom
