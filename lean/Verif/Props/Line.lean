import Verif.Lemmas.Vector
import Verif.Model.Ray

/-! # Properties C20 – C28: `Line2D`, `Ray2D` -/

namespace PyrusGeom
open Spec

/-- The points of a `Line2D`. -/
def Line.pts (l : Line ℝ) : Set Pt := lineSet l.a l.b l.c

theorem Line.mem_pts {l : Line ℝ} {z : Pt} : z ∈ l.pts ↔ l.a * z.1 + l.b * z.2 + l.c = 0 := Iff.rfl

/-- The points of a `Ray2D`: half line from the origin in direction `dir`. -/
noncomputable def Ray.pts (r : Ray ℝ) : Set Pt := rayFrom r.origin.pt (unit r.dir.degree)

/-! ## C20 -/

theorem lineSet_dir {a b : ℝ} {p : Pt} (h : a ^ 2 + b ^ 2 ≠ 0) (z : Pt) :
    a * (z.1 - p.1) + b * (z.2 - p.2) = 0 ↔ ∃ t : ℝ, z = p + t • (b, -a) := by
  constructor
  · intro hz
    refine ⟨(b * (z.1 - p.1) - a * (z.2 - p.2)) / (a ^ 2 + b ^ 2), Prod.ext ?_ ?_⟩
    · simp only [Prod.fst_add, Prod.smul_fst, smul_eq_mul]
      field_simp
      linear_combination a * hz
    · simp only [Prod.snd_add, Prod.smul_snd, smul_eq_mul]
      field_simp
      linear_combination b * hz
  · rintro ⟨t, rfl⟩
    simp only [Prod.fst_add, Prod.smul_fst, smul_eq_mul, Prod.snd_add, Prod.smul_snd]
    ring

/-- **C20**, two points. -/
theorem C20_two_points (p q : Vec ℝ) (h : p.pt ≠ q.pt) :
    (Line.ofPoints p q).pts = lineThrough p.pt (q.pt - p.pt) := by
  have hne : (p.y - q.y) ^ 2 + (q.x - p.x) ^ 2 ≠ 0 := by
    intro h0
    apply h
    rw [Vec.pt_eq_iff]
    constructor <;> nlinarith [sq_nonneg (p.y - q.y), sq_nonneg (q.x - p.x)]
  ext z
  have := lineSet_dir (p := p.pt) hne z
  rw [Line.mem_pts]
  have e : (Line.ofPoints p q).a * z.1 + (Line.ofPoints p q).b * z.2 + (Line.ofPoints p q).c =
      (p.y - q.y) * (z.1 - p.pt.1) + (q.x - p.x) * (z.2 - p.pt.2) := by
    simp only [Line.ofPoints, Vec.pt_fst, Vec.pt_snd]; ring
  rw [e, this]
  have e2 : ((q.x - p.x, -(p.y - q.y)) : Pt) = q.pt - p.pt := Prod.ext rfl (by simp)
  rw [e2]; rfl

/-- **C20**, two equal points: the equation is `0 = 0`. -/
theorem C20_equal_points (p q : Vec ℝ) (h : p.pt = q.pt) :
    (Line.ofPoints p q).a = 0 ∧ (Line.ofPoints p q).b = 0 ∧ (Line.ofPoints p q).c = 0 ∧
    (Line.ofPoints p q).pts = Set.univ := by
  rw [Vec.pt_eq_iff] at h
  have ha : (Line.ofPoints p q).a = 0 := by simp [Line.ofPoints, h.2]
  have hb : (Line.ofPoints p q).b = 0 := by simp [Line.ofPoints, h.1]
  have hc : (Line.ofPoints p q).c = 0 := by simp [Line.ofPoints, h.1, h.2]
  refine ⟨ha, hb, hc, ?_⟩
  ext z
  rw [Line.mem_pts, ha, hb, hc]; simp

/-- **C20**, point and direction. -/
theorem C20_point_angle (p : Vec ℝ) (a : AngleDeg ℝ) :
    (Line.ofAngle p a).pts = lineThrough p.pt (unit a.degree) := by
  rw [unit_congr (AngleDeg.degree_angleEq a)]
  have u := unit_sq a.deg
  have hne : (-(unit a.deg).2) ^ 2 + (unit a.deg).1 ^ 2 ≠ 0 := by
    rw [neg_sq, add_comm, u]; norm_num
  ext z
  have := lineSet_dir (p := p.pt) hne z
  rw [Line.mem_pts]
  have e : (Line.ofAngle p a).a * z.1 + (Line.ofAngle p a).b * z.2 + (Line.ofAngle p a).c =
      (-(unit a.deg).2) * (z.1 - p.pt.1) + (unit a.deg).1 * (z.2 - p.pt.2) := by
    simp only [Line.ofAngle, Vec.pt_fst, Vec.pt_snd, cosA_real, sinA_real]; ring
  rw [e, this, neg_neg]; rfl

example : (Vec.ofXY (0 : ℝ) 0).pt ≠ (Vec.ofXY 1 2).pt := by
  rw [Ne, Vec.pt_eq_iff]; norm_num

/-! ## C21 -/

theorem Line.isParallel_iff (l o : Line ℝ) : l.isParallel o = true ↔ |l.a * o.b - o.a * l.b| < EPSILON := by
  simp [Line.isParallel, fabs_real]

theorem Line.intersection_real (l o : Line ℝ) : l.intersection o =
    if |l.a * o.b - l.b * o.a| < EPSILON then Vec.invalid else
      Vec.ofXY ((l.b * o.c - o.b * l.c) / (l.a * o.b - l.b * o.a))
        ((o.a * l.c - l.a * o.c) / (l.a * o.b - l.b * o.a)) := by
  simp only [Line.intersection, fabs_real]

/-- **C21.** -/
theorem C21_intersection (l o : Line ℝ) :
    ((l.intersection o).isValid = true ↔ l.isParallel o = false) ∧
    ((l.intersection o).isValid = true → l.pts ∩ o.pts = {(l.intersection o).pt}) ∧
    l.intersection o = o.intersection l := by
  have e0 := EPSILON_pos
  refine ⟨?_, ?_, ?_⟩
  · rw [← Bool.not_eq_true, Line.isParallel_iff, Line.intersection_real, mul_comm o.a l.b]
    split_ifs with h
    · exact ⟨fun g => by simp [Vec.isValid] at g, fun g => absurd h g⟩
    · exact ⟨fun _ => h, fun _ => rfl⟩
  · rw [Line.intersection_real]
    split_ifs with h
    · intro h'; simp [Vec.isValid] at h'
    · intro _
      have hd : l.a * o.b - l.b * o.a ≠ 0 := by
        intro h0; rw [h0, abs_zero] at h; exact h e0
      ext z
      simp only [Set.mem_inter_iff, Line.mem_pts, Vec.pt_ofXY, Set.mem_singleton_iff]
      constructor
      · rintro ⟨h1, h2⟩
        refine Prod.ext ?_ ?_
        · simp only
          rw [eq_div_iff hd]; linear_combination o.b * h1 - l.b * h2
        · simp only
          rw [eq_div_iff hd]; linear_combination l.a * h2 - o.a * h1
      · rintro rfl
        constructor
        · simp only; field_simp; ring
        · simp only
          generalize hD : l.a * o.b - l.b * o.a = D at *
          field_simp
          linear_combination -o.c * hD
  · rw [Line.intersection_real, Line.intersection_real]
    have e : o.a * l.b - o.b * l.a = -(l.a * o.b - l.b * o.a) := by ring
    rw [e, abs_neg]
    split_ifs with h
    · rfl
    · congr 1
      · rw [div_neg, ← neg_div]; congr 1; ring
      · rw [div_neg, ← neg_div]; congr 1; ring

example : (Line.ofABC (1 : ℝ) 0 (-2)).isParallel (Line.ofABC 0 1 (-3)) = false ∧
    ((Line.ofABC (1 : ℝ) 0 (-2)).intersection (Line.ofABC 0 1 (-3))).pt = (2, 3) := by
  constructor
  · rw [← Bool.not_eq_true, Line.isParallel_iff, EPSILON_real]; norm_num [Line.ofABC]
  · rw [Line.intersection_real, EPSILON_real]; norm_num [Line.ofABC]

/-! ## C22 -/

/-- The foot of the perpendicular is in the set and nearest. -/
theorem lineSet_foot {a b c : ℝ} (h : a ^ 2 + b ^ 2 ≠ 0) (p : Pt) :
    let s := (a * p.1 + b * p.2 + c) / (a ^ 2 + b ^ 2)
    let f : Pt := (p.1 - s * a, p.2 - s * b)
    f ∈ lineSet a b c ∧ Spec.d p f = |(a * p.1 + b * p.2 + c) / √(a ^ 2 + b ^ 2)| ∧
    ∀ q ∈ lineSet a b c, q ≠ f → Spec.d p f < Spec.d p q := by
  intro s f
  have hpos : 0 < a ^ 2 + b ^ 2 := lt_of_le_of_ne (by positivity) (Ne.symm h)
  have hs : s * (a ^ 2 + b ^ 2) = a * p.1 + b * p.2 + c := div_mul_cancel₀ _ h
  have hf : a * f.1 + b * f.2 + c = 0 := by simp only [f]; linear_combination -hs
  refine ⟨hf, ?_, ?_⟩
  · refine d_eq_of_sq (abs_nonneg _) ?_
    rw [sq_abs, div_pow, Real.sq_sqrt hpos.le]
    simp only [f, s]
    field_simp
    ring
  · intro q hq hne
    have hq' : a * q.1 + b * q.2 + c = 0 := hq
    apply d_lt_d
    have h1 : (p.1 - q.1) ^ 2 + (p.2 - q.2) ^ 2 =
        (p.1 - f.1) ^ 2 + (p.2 - f.2) ^ 2 + ((f.1 - q.1) ^ 2 + (f.2 - q.2) ^ 2) := by
      have : a * (f.1 - q.1) + b * (f.2 - q.2) = 0 := by linear_combination hf - hq'
      have e1 : p.1 - f.1 = s * a := by simp only [f]; ring
      have e2 : p.2 - f.2 = s * b := by simp only [f]; ring
      have e3 : p.1 - q.1 = s * a + (f.1 - q.1) := by rw [← e1]; ring
      have e4 : p.2 - q.2 = s * b + (f.2 - q.2) := by rw [← e2]; ring
      rw [e1, e2, e3, e4]
      linear_combination 2 * s * this
    have h2 : 0 < (f.1 - q.1) ^ 2 + (f.2 - q.2) ^ 2 := by
      rcases (show 0 ≤ (f.1 - q.1) ^ 2 + (f.2 - q.2) ^ 2 by positivity).lt_or_eq with g | g
      · exact g
      · exfalso; apply hne
        refine Prod.ext ?_ ?_ <;> nlinarith [sq_nonneg (f.1 - q.1), sq_nonneg (f.2 - q.2)]
    linarith

theorem Line.dist_ok {l : Line ℝ} (h : l.a ^ 2 + l.b ^ 2 ≠ 0) (p : Vec ℝ) :
    l.dist p = .ok |(l.a * p.x + l.b * p.y + l.c) / √(l.a ^ 2 + l.b ^ 2)| ∧
    l.dist2 p = .ok ((l.a * p.x + l.b * p.y + l.c) ^ 2 / (l.a ^ 2 + l.b ^ 2)) := by
  have hpos : 0 < l.a ^ 2 + l.b ^ 2 := lt_of_le_of_ne (by positivity) (Ne.symm h)
  have hs : PyMath.sqrt (l.a * l.a + l.b * l.b) = √(l.a ^ 2 + l.b ^ 2) := by
    rw [← pow_two, ← pow_two]; rfl
  constructor
  · unfold Line.dist
    rw [hs, pyDiv_real, if_neg (Real.sqrt_pos.mpr hpos).ne']
    simp only [fabs_real]; rfl
  · unfold Line.dist2
    simp only
    rw [pyDiv_real, ← pow_two, ← pow_two, ← pow_two, if_neg h]

/-- **C22.** -/
theorem C22_line_dist (l : Line ℝ) (p : Vec ℝ) (h : ¬ (l.a = 0 ∧ l.b = 0)) :
    ∃ m, l.dist p = .ok m ∧ l.dist2 p = .ok (m ^ 2) ∧ IsMinDist l.pts p.pt m := by
  have hne : l.a ^ 2 + l.b ^ 2 ≠ 0 := by
    intro h0; exact h ⟨by nlinarith [sq_nonneg l.a, sq_nonneg l.b], by nlinarith [sq_nonneg l.a, sq_nonneg l.b]⟩
  have hpos : 0 < l.a ^ 2 + l.b ^ 2 := lt_of_le_of_ne (by positivity) (Ne.symm hne)
  have h1 := Line.dist_ok hne p
  obtain ⟨f, hf⟩ : ∃ f : Pt, f ∈ lineSet l.a l.b l.c ∧
      Spec.d p.pt f = |(l.a * p.pt.1 + l.b * p.pt.2 + l.c) / √(l.a ^ 2 + l.b ^ 2)| ∧
      ∀ q ∈ lineSet l.a l.b l.c, q ≠ f → Spec.d p.pt f < Spec.d p.pt q := ⟨_, lineSet_foot (c := l.c) hne p.pt⟩
  refine ⟨_, h1.1, ?_, ⟨f, hf.1, hf.2.1⟩, fun q hq => ?_⟩
  · rw [h1.2, sq_abs, div_pow, Real.sq_sqrt hpos.le]
  · rw [show |(l.a * p.x + l.b * p.y + l.c) / √(l.a ^ 2 + l.b ^ 2)| = _ from hf.2.1.symm]
    by_cases hq' : q = f
    · rw [hq']
    · exact (hf.2.2 q hq hq').le

/-- **C22**, the degenerate line raises, and only it. -/
theorem C22_line_dist_raises (l : Line ℝ) (p : Vec ℝ) (h : l.a = 0 ∧ l.b = 0) :
    l.dist p = .error .zeroDivision ∧ l.dist2 p = .error .zeroDivision := by
  have hs : PyMath.sqrt (l.a * l.a + l.b * l.b) = (0 : ℝ) := by
    rw [h.1, h.2]; show √(0 * 0 + 0 * 0) = 0; simp
  constructor
  · unfold Line.dist; rw [hs, pyDiv_real, if_pos rfl]; rfl
  · unfold Line.dist2; simp only; rw [pyDiv_real, if_pos (by rw [h.1, h.2]; ring)]

example : ¬ ((Line.ofABC (3 : ℝ) 4 (-5)).a = 0 ∧ (Line.ofABC (3 : ℝ) 4 (-5)).b = 0) := by
  norm_num [Line.ofABC]

/-! ## C23 -/

/-- **C23.** -/
theorem C23_projection (l : Line ℝ) (p : Vec ℝ) (h : EPSILON ≤ l.a ^ 2 + l.b ^ 2) :
    (l.projection p).isValid = true ∧ (l.projection p).pt ∈ l.pts ∧
    l.dist p = .ok (Spec.d p.pt (l.projection p).pt) ∧
    (∀ q ∈ l.pts, q ≠ (l.projection p).pt → Spec.d p.pt (l.projection p).pt < Spec.d p.pt q) ∧
    p.pt ∈ (l.perpendicular p).pts ∧ l.a * (l.perpendicular p).a + l.b * (l.perpendicular p).b = 0 := by
  have e0 := EPSILON_pos
  have hne : l.a ^ 2 + l.b ^ 2 ≠ 0 := by linarith
  have hproj : l.projection p = Vec.ofXY
      (p.x - (l.a * p.x + l.b * p.y + l.c) / (l.a ^ 2 + l.b ^ 2) * l.a)
      (p.y - (l.a * p.x + l.b * p.y + l.c) / (l.a ^ 2 + l.b ^ 2) * l.b) := by
    unfold Line.projection
    have e : l.a * (l.perpendicular p).b - l.b * (l.perpendicular p).a = -(l.a ^ 2 + l.b ^ 2) := by
      simp only [Line.perpendicular]; ring
    rw [Line.intersection_real, e, abs_neg, abs_of_pos (by linarith), if_neg (by linarith)]
    simp only [Line.perpendicular]
    congr 1 <;> field_simp <;> ring
  have h2 := lineSet_foot (c := l.c) hne p.pt
  have h1 := Line.dist_ok hne p
  rw [hproj]
  refine ⟨rfl, h2.1, ?_, h2.2.2, ?_, ?_⟩
  · rw [h1.1]; exact congrArg _ h2.2.1.symm
  · rw [Line.mem_pts]; simp only [Line.perpendicular, Vec.pt_fst, Vec.pt_snd]; ring
  · simp only [Line.perpendicular]; ring

/-- The tolerance guard is exact: below it the projection is the invalid vector. -/
theorem C23_guard_exact (l : Line ℝ) (p : Vec ℝ) (h : l.a ^ 2 + l.b ^ 2 < EPSILON) :
    (l.projection p).isValid = false := by
  unfold Line.projection
  have e : l.a * (l.perpendicular p).b - l.b * (l.perpendicular p).a = -(l.a ^ 2 + l.b ^ 2) := by
    simp only [Line.perpendicular]; ring
  rw [Line.intersection_real, e, abs_neg, abs_of_nonneg (by positivity), if_pos h]; rfl

example : EPSILON ≤ (Line.ofABC (1 : ℝ) 1 0).a ^ 2 + (Line.ofABC (1 : ℝ) 1 0).b ^ 2 := by
  rw [EPSILON_real]; norm_num [Line.ofABC]

/-! ## C24 -/

/-- **C24** fails for distinct points closer than EPSILON in both coordinates. -/
theorem C24_refuted : ¬ ∀ p q : Vec ℝ, p.pt ≠ q.pt → ∀ z : Pt,
    (z ∈ (Line.perpendicularBisector p q).pts ↔ Spec.d z p.pt = Spec.d z q.pt) := by
  intro h
  have h0 := h (Vec.ofXY 0 0) (Vec.ofXY (1/2000000) 0) (by rw [Ne, Vec.pt_eq_iff]; norm_num) (0, 0)
  have hm : ((0, 0) : Pt) ∈ (Line.perpendicularBisector (Vec.ofXY (0 : ℝ) 0) (Vec.ofXY (1/2000000) 0)).pts := by
    rw [Line.mem_pts]
    unfold Line.perpendicularBisector
    simp only [fabs_real, Vec.ofXY_x, Vec.ofXY_y, EPSILON_real]
    rw [if_pos (by norm_num [abs_of_pos])]
    simp [Line.ofPoints]
  have := h0.mp hm
  rw [d_eq_d_iff] at this
  norm_num at this

/-- **C24** (partial: the points differ by at least EPSILON in some coordinate). -/
theorem C24_bisector_partial (p q : Vec ℝ) (h : ¬ (|q.x - p.x| < EPSILON ∧ |q.y - p.y| < EPSILON)) (z : Pt) :
    z ∈ (Line.perpendicularBisector p q).pts ↔ Spec.d z p.pt = Spec.d z q.pt := by
  rw [Line.mem_pts, d_eq_d_iff]
  unfold Line.perpendicularBisector
  simp only [fabs_real]
  rw [if_neg h]
  simp only [Vec.pt_fst, Vec.pt_snd, Nat.cast_one, Nat.cast_ofNat]
  constructor
  · intro g; linear_combination 2 * g
  · intro g; linear_combination (1/2) * g

/-- Inside the tolerance the result is always the horizontal-ish line from `p` to `(p.x + 1, q.y)`. -/
theorem C24_degenerate (p q : Vec ℝ) (h : |q.x - p.x| < EPSILON ∧ |q.y - p.y| < EPSILON) :
    (Line.perpendicularBisector p q).pts = lineThrough p.pt ((1 : ℝ), q.y - p.y) := by
  unfold Line.perpendicularBisector
  simp only [fabs_real]
  rw [if_pos h, C20_two_points]
  · congr 1
    refine Prod.ext ?_ ?_ <;> simp
  · rw [Ne, Vec.pt_eq_iff]; simp

example : ¬ (|(Vec.ofXY (2 : ℝ) 0).x - (Vec.ofXY (0 : ℝ) 0).x| < EPSILON ∧
    |(Vec.ofXY (2 : ℝ) 0).y - (Vec.ofXY (0 : ℝ) 0).y| < EPSILON) := by
  rw [EPSILON_real]; norm_num

/-! ## C25 -/

theorem Line.eq_iff (l o : Line ℝ) : l.eq o = true ↔ |l.a * o.b - o.a * l.b| < EPSILON ∧ l.c = o.c := by
  simp [Line.eq, fabs_real]

/-- **C25** fails: `Y = 1` and `2Y = 1` are "equal". -/
theorem C25_refuted_sound : ¬ ∀ l o : Line ℝ, l.a ^ 2 + l.b ^ 2 ≠ 0 → o.a ^ 2 + o.b ^ 2 ≠ 0 →
    (l.eq o = true → l.pts = o.pts) := by
  intro h
  have := h ⟨0, 1, -1⟩ ⟨0, 2, -1⟩ (by norm_num) (by norm_num) (by
    rw [Line.eq_iff, EPSILON_real]; norm_num)
  have h2 : ((0, 1) : Pt) ∈ (⟨0, 2, -1⟩ : Line ℝ).pts := by
    rw [← this, Line.mem_pts]; norm_num
  rw [Line.mem_pts] at h2
  norm_num at h2

/-- **C25** fails: `X = 1` and `2X = 2` are not "equal". -/
theorem C25_refuted_complete : ¬ ∀ l o : Line ℝ, l.a ^ 2 + l.b ^ 2 ≠ 0 → o.a ^ 2 + o.b ^ 2 ≠ 0 →
    (l.pts = o.pts → l.eq o = true) := by
  intro h
  have := h ⟨1, 0, -1⟩ ⟨2, 0, -2⟩ (by norm_num) (by norm_num) (by
    ext z; rw [Line.mem_pts, Line.mem_pts]; simp only
    constructor <;> intro g <;> linarith)
  rw [Line.eq_iff] at this
  norm_num at this

/-- **C25** (partial): reflexive and symmetric; complete for lines not through the origin with equal constant terms;
sound for lines whose coefficients have exactly parallel normals of the same length and orientation.
Missing: lines written at different scales, and the EPSILON tolerance on the slope. -/
theorem C25_eq_partial (l o : Line ℝ) :
    l.eq l = true ∧ l.eq o = o.eq l ∧
    (l.a ^ 2 + l.b ^ 2 ≠ 0 → o.a ^ 2 + o.b ^ 2 ≠ 0 → l.pts = o.pts → (l.eq o = true ↔ l.c = o.c)) ∧
    (l.a * o.b - o.a * l.b = 0 → l.a ^ 2 + l.b ^ 2 = o.a ^ 2 + o.b ^ 2 → 0 < l.a * o.a + l.b * o.b →
      l.eq o = true → l.pts = o.pts) := by
  refine ⟨?_, ?_, ?_, ?_⟩
  · rw [Line.eq_iff]; simpa using EPSILON_pos
  · rw [Bool.eq_iff_iff, Line.eq_iff, Line.eq_iff]
    have : o.a * l.b - l.a * o.b = -(l.a * o.b - o.a * l.b) := by ring
    rw [this, abs_neg, eq_comm (a := l.c)]
  · intro hl ho hpts
    rw [Line.eq_iff, and_iff_right_iff_imp]
    intro _
    have hf := lineSet_foot (c := l.c) hl ((0, 0) : Pt)
    simp only at hf
    set f : Pt := (0 - (l.a * 0 + l.b * 0 + l.c) / (l.a ^ 2 + l.b ^ 2) * l.a,
      0 - (l.a * 0 + l.b * 0 + l.c) / (l.a ^ 2 + l.b ^ 2) * l.b) with hfdef
    have h1 : f ∈ l.pts := hf.1
    have h2 : (f.1 + l.b, f.2 - l.a) ∈ l.pts := by
      rw [Line.mem_pts] at h1 ⊢; simp only; linear_combination h1
    rw [hpts, Line.mem_pts] at h1 h2
    have : l.a * o.b - o.a * l.b = 0 := by simp only at h2; linear_combination h1 - h2
    rw [this, abs_zero]; exact EPSILON_pos
  · intro hpar hlen hdot heq
    rw [Line.eq_iff] at heq
    have hab : o.a = l.a ∧ o.b = l.b := by
      have hd : (o.a - l.a) ^ 2 + (o.b - l.b) ^ 2 = 0 := by
        have h1 : (l.a * o.a + l.b * o.b) ^ 2 = (l.a ^ 2 + l.b ^ 2) ^ 2 := by
          have : (l.a * o.a + l.b * o.b) ^ 2 + (l.a * o.b - o.a * l.b) ^ 2 =
            (l.a ^ 2 + l.b ^ 2) * (o.a ^ 2 + o.b ^ 2) := by ring
          rw [hpar, ← hlen] at this; linear_combination this
        have h2 : l.a * o.a + l.b * o.b = l.a ^ 2 + l.b ^ 2 := by
          rcases sq_eq_sq_iff_eq_or_eq_neg.mp h1 with g | g
          · exact g
          · nlinarith [sq_nonneg l.a, sq_nonneg l.b]
        linear_combination -2 * h2 - hlen
      constructor <;> nlinarith [sq_nonneg (o.a - l.a), sq_nonneg (o.b - l.b)]
    unfold Line.pts
    rw [hab.1, hab.2, heq.2]

example : (⟨1, 2, 3⟩ : Line ℝ).a * (⟨1, 2, 3⟩ : Line ℝ).b - (⟨1, 2, 3⟩ : Line ℝ).a * (⟨1, 2, 3⟩ : Line ℝ).b = 0 ∧
    0 < (1 : ℝ) * 1 + 2 * 2 := by norm_num

/-! ## C26 -/

theorem Line.getX_real (l : Line ℝ) (y : ℝ) : l.getX y =
    if |l.a| < EPSILON then 100000000000000000000 else -(l.b * y + l.c) / l.a := by
  simp only [Line.getX, fabs_real, ERROR_VALUE, Nat.cast_ofNat]

theorem Line.getY_real (l : Line ℝ) (x : ℝ) : l.getY x =
    if |l.b| < EPSILON then 100000000000000000000 else -(l.a * x + l.c) / l.b := by
  simp only [Line.getY, fabs_real, ERROR_VALUE, Nat.cast_ofNat]

theorem ne_zero_of_eps {x : ℝ} (h : EPSILON ≤ |x|) : x ≠ 0 := by
  rintro rfl; rw [abs_zero] at h; linarith [EPSILON_pos]

/-- **C26**, `get_x`. The divisor is non-zero whenever the division is reached. -/
theorem C26_get_x (l : Line ℝ) (y : ℝ) :
    (EPSILON ≤ |l.a| → l.a ≠ 0 ∧ ∀ x, (x, y) ∈ l.pts ↔ x = l.getX y) ∧
    (|l.a| < EPSILON → l.getX y = 10 ^ 20) := by
  rw [Line.getX_real]
  refine ⟨fun h => ⟨ne_zero_of_eps h, fun x => ?_⟩, fun h => by rw [if_pos h]; norm_num⟩
  have h0 := ne_zero_of_eps h
  rw [if_neg (not_lt.mpr h), Line.mem_pts, eq_div_iff h0]
  constructor <;> intro g <;> linarith

/-- **C26**, `get_y`. -/
theorem C26_get_y (l : Line ℝ) (x : ℝ) :
    (EPSILON ≤ |l.b| → l.b ≠ 0 ∧ ∀ y, (x, y) ∈ l.pts ↔ y = l.getY x) ∧
    (|l.b| < EPSILON → l.getY x = 10 ^ 20) := by
  rw [Line.getY_real]
  refine ⟨fun h => ⟨ne_zero_of_eps h, fun y => ?_⟩, fun h => by rw [if_pos h]; norm_num⟩
  have h0 := ne_zero_of_eps h
  rw [if_neg (not_lt.mpr h), Line.mem_pts, eq_div_iff h0]
  constructor <;> intro g <;> linarith

example : EPSILON ≤ |(⟨2, 1, -4⟩ : Line ℝ).a| ∧ (⟨2, 1, -4⟩ : Line ℝ).getX 0 = 2 := by
  rw [Line.getX_real, EPSILON_real]; norm_num

/-! ## C27 -/

/-- The carrier line of a ray. -/
noncomputable def Ray.carrier (r : Ray ℝ) : Set Pt := lineThrough r.origin.pt (unit r.dir.degree)

/-- Both coordinates of `z` are within EPSILON of `o`'s. -/
def Near (o z : Pt) : Prop := |z.1 - o.1| < EPSILON ∧ |z.2 - o.2| < EPSILON

theorem Ray.inRightDir_iff (r : Ray ℝ) (p : Vec ℝ) (thr : ℝ) :
    r.inRightDir p thr = true ↔ |(AngleDeg.ofNum ((p.sub r.origin).th.deg - r.dir.deg)).deg| < thr := by
  unfold Ray.inRightDir AngleDeg.abs AngleDeg.sub
  rw [decide_eq_true_iff, fabs_real, AngleDeg.degree_ofNum]

theorem abs_normal_of_congr_180 {x : ℝ} (h : AngleEq x 180) : |(AngleDeg.ofNum x).deg| = 180 := by
  have hn := AngleDeg.ofNum_normal x
  obtain ⟨k, hk⟩ := (AngleDeg.ofNum_angleEq x).trans h
  have := int_bounds (k := k) (lo := -2) (hi := 1) (by push_cast; linarith [hn.1]) (by push_cast; linarith [hn.2])
  obtain rfl | rfl : k = -1 ∨ k = 0 := by omega
  · have : (AngleDeg.ofNum x).deg = -180 := by push_cast at hk; linarith
    rw [this]; norm_num
  · have : (AngleDeg.ofNum x).deg = 180 := by simp at hk; linarith
    rw [this]; norm_num

theorem abs_normal_of_congr_0 {x : ℝ} (h : AngleEq x 0) : |(AngleDeg.ofNum x).deg| = 0 := by
  have hn := AngleDeg.ofNum_normal x
  have := ((AngleDeg.ofNum_angleEq x).trans h).eq_of_abs_lt (by linarith [hn.1]) (by linarith [hn.2])
  rw [this, abs_zero]

/-- **C27** fails at the origin itself: the ray from (0,0) at 90 degrees, point (0,0). -/
theorem C27_refuted : ¬ ∀ (r : Ray ℝ) (p : Vec ℝ) (thr : ℝ), 0 < thr → thr ≤ 90 → p.pt ∈ r.carrier →
    (r.inRightDir p thr = true ↔ p.pt ∈ r.pts) := by
  intro h
  have h90 : (AngleDeg.ofNum (90 : ℝ)).deg = 90 := AngleDeg.ofNum_of_mem (by norm_num) (by norm_num)
  have := (h ⟨Vec.ofXY 0 0, AngleDeg.ofNum 90⟩ (Vec.ofXY 0 0) 10 (by norm_num) (by norm_num)
    ⟨0, by simp⟩).mpr ⟨0, le_rfl, by simp⟩
  have ht : ((Vec.ofXY (0 : ℝ) 0).sub (Vec.ofXY 0 0)).Tiny := by
    constructor <;> simpa using EPSILON_pos
  rw [Ray.inRightDir_iff, Vec.th_tiny ht, h90, AngleDeg.ofNum_of_mem (by norm_num) (by norm_num)] at this
  norm_num at this

/-- **C27** (partial: the point is not within EPSILON of the origin in both coordinates). -/
theorem C27_in_right_dir_partial (r : Ray ℝ) (p : Vec ℝ) (thr : ℝ) (h1 : 0 < thr) (h2 : thr ≤ 90)
    (hc : p.pt ∈ r.carrier) (hn : ¬ Near r.origin.pt p.pt) :
    r.inRightDir p thr = true ↔ p.pt ∈ r.pts := by
  have hn' : ¬ (p.sub r.origin).Tiny := hn
  have hpol := Vec.th_polar hn'
  have hpos := Vec.len_pos_of_not_tiny hn'
  obtain ⟨t, ht⟩ := hc
  have hsub : (p.sub r.origin).pt = t • unit r.dir.deg := by
    rw [Vec.pt_sub, ht, unit_congr (AngleDeg.degree_angleEq r.dir)]; simp
  rw [Ray.inRightDir_iff]
  rw [hsub] at hpol
  have hl : len (t • unit r.dir.deg) = |t| := by rw [len_smul, unit_len, mul_one]
  rw [hl] at hpol
  have ht0 : t ≠ 0 := by
    rintro rfl
    rw [hsub, hl, abs_zero] at hpos; exact lt_irrefl _ hpos
  constructor
  · intro h
    by_cases htp : 0 ≤ t
    · exact ⟨t, htp, ht⟩
    · exfalso
      push Not at htp
      rw [abs_of_neg htp] at hpol
      have : (-t) • unit (p.sub r.origin).th.deg = (-t) • unit (r.dir.deg + 180) := by
        rw [← hpol, unit_add_180, smul_neg, neg_smul, neg_neg]
      have hc := (smul_unit_inj (by linarith) (by linarith) this).2
      have hc' : AngleEq ((p.sub r.origin).th.deg - r.dir.deg) 180 := by
        obtain ⟨k, hk⟩ := hc; exact ⟨k, by linarith⟩
      rw [abs_normal_of_congr_180 hc'] at h; linarith
  · rintro ⟨s, hs, hs'⟩
    have hst : s = t := by
      have : s • unit r.dir.degree = t • unit r.dir.degree := by
        rw [hs'] at ht; exact add_left_cancel ht
      by_contra hne
      have h0 : (s - t) • unit r.dir.degree = 0 := by rw [sub_smul, this, sub_self]
      have := congrArg len h0
      rw [len_smul, unit_len, mul_one, len_eq_zero.mpr rfl, abs_eq_zero] at this
      exact hne (by linarith)
    subst hst
    rw [abs_of_nonneg hs] at hpol
    have hc := (smul_unit_inj (lt_of_le_of_ne hs (Ne.symm ht0)) hs hpol).2
    have hc' : AngleEq ((p.sub r.origin).th.deg - r.dir.deg) 0 := by
      obtain ⟨k, hk⟩ := hc; exact ⟨-k, by push_cast; linarith⟩
    rw [abs_normal_of_congr_0 hc']; exact h1

/-- Inside the EPSILON box around the origin the answer only depends on the direction of the ray. -/
theorem C27_near_origin (r : Ray ℝ) (p : Vec ℝ) (thr : ℝ) (hn : Near r.origin.pt p.pt) :
    r.inRightDir p thr = true ↔ |r.dir.degree| < thr := by
  have hn' : (p.sub r.origin).Tiny := hn
  rw [Ray.inRightDir_iff, Vec.th_tiny hn', zero_sub]
  have h1 := AngleDeg.ofNum_normal (-r.dir.deg)
  have h2 := AngleDeg.degree_mem r.dir
  have hc : AngleEq (AngleDeg.ofNum (-r.dir.deg)).deg (-r.dir.degree) :=
    (AngleDeg.ofNum_angleEq _).trans (AngleDeg.degree_angleEq r.dir).symm.neg
  have : |(AngleDeg.ofNum (-r.dir.deg)).deg| = |r.dir.degree| := by
    obtain ⟨k, hk⟩ := hc
    have hb := int_bounds (k := k) (lo := -2) (hi := 2) (by push_cast; linarith [h1.1]) (by push_cast; linarith [h1.2])
    obtain rfl | rfl | rfl : k = -1 ∨ k = 0 ∨ k = 1 := by omega
    · push_cast at hk
      obtain ⟨g1, g2⟩ := h1
      obtain ⟨g3, g4⟩ := h2
      have e1 : (AngleDeg.ofNum (-r.dir.deg)).deg = -180 := by linarith
      have e2 : r.dir.degree = -180 := by linarith
      rw [e1, e2]
    · simp at hk
      have e1 : (AngleDeg.ofNum (-r.dir.deg)).deg = -r.dir.degree := by linarith
      rw [e1, abs_neg]
    · push_cast at hk
      obtain ⟨g1, g2⟩ := h1
      obtain ⟨g3, g4⟩ := h2
      have e1 : (AngleDeg.ofNum (-r.dir.deg)).deg = 180 := by linarith
      have e2 : r.dir.degree = 180 := by linarith
      rw [e1, e2]
  rw [this]

example : let r : Ray ℝ := ⟨Vec.ofXY 0 0, AngleDeg.ofNum 0⟩
    (Vec.ofXY 5 0).pt ∈ r.carrier ∧ ¬ Near r.origin.pt (Vec.ofXY 5 0).pt := by
  have h0 : (AngleDeg.ofNum (0 : ℝ)).degree = 0 := C02_exact 0 (by norm_num) (by norm_num)
  refine ⟨⟨5, ?_⟩, ?_⟩
  · show _ = _ + 5 • unit (AngleDeg.ofNum (0 : ℝ)).degree
    rw [h0]; simp [unit]
  · rintro ⟨h, _⟩
    rw [EPSILON_real] at h; norm_num at h

/-! ## C28 -/

/-- **C28** fails: the ray from (0,0) at 90 degrees and the X axis meet at (0,0), the result is invalid. -/
theorem C28_refuted : ¬ ∀ (r : Ray ℝ) (l : Line ℝ), r.line.isParallel l = false →
    ((r.intersectionLine l).isValid = true ↔ (r.pts ∩ l.pts).Nonempty) := by
  intro h
  have h90 : (AngleDeg.ofNum (90 : ℝ)).deg = 90 := AngleDeg.ofNum_of_mem (by norm_num) (by norm_num)
  have hpi : (90 : ℝ) * (Real.pi / 180) = Real.pi / 2 := by ring
  have hline : (⟨Vec.ofXY 0 0, AngleDeg.ofNum 90⟩ : Ray ℝ).line = ⟨-1, 0, 0⟩ := by
    unfold Ray.line Line.ofAngle
    simp only [cos_real, sin_real, h90, hpi, Real.cos_pi_div_two, Real.sin_pi_div_two, Vec.ofXY_x, Vec.ofXY_y]
    norm_num
  have hi : (⟨-1, 0, 0⟩ : Line ℝ).intersection ⟨0, 1, 0⟩ = Vec.ofXY 0 0 := by
    rw [Line.intersection_real, EPSILON_real]; norm_num
  have := (h ⟨Vec.ofXY 0 0, AngleDeg.ofNum 90⟩ ⟨0, 1, 0⟩ (by
    rw [hline, ← Bool.not_eq_true, Line.isParallel_iff, EPSILON_real]; norm_num)).mpr
    ⟨(0, 0), ⟨0, le_rfl, by simp⟩, by rw [Line.mem_pts]; norm_num⟩
  unfold Ray.intersectionLine at this
  rw [hline, hi] at this
  have hd : (⟨Vec.ofXY 0 0, AngleDeg.ofNum 90⟩ : Ray ℝ).inRightDir (Vec.ofXY 0 0) 10 = false := by
    rw [← Bool.not_eq_true, C27_near_origin _ _ _ ⟨by simpa using EPSILON_pos, by simpa using EPSILON_pos⟩]
    simp only
    rw [C02_exact 90 (by norm_num) (by norm_num)]; norm_num
  simp [hd, Vec.isValid] at this

theorem Ray.intersectionLine_real (r : Ray ℝ) (l : Line ℝ) : r.intersectionLine l =
    if (r.line.intersection l).isValid = true ∧ r.inRightDir (r.line.intersection l) 10 = true
    then r.line.intersection l else Vec.invalid := by
  by_cases h1 : (r.line.intersection l).valid = true <;>
    by_cases h2 : r.inRightDir (r.line.intersection l) 10 = true <;>
    simp [Ray.intersectionLine, Vec.isValid, h1, h2]

theorem Ray.intersectionRay_real (r o : Ray ℝ) : r.intersectionRay o =
    if (r.line.intersection o.line).isValid = true ∧ r.inRightDir (r.line.intersection o.line) 10 = true ∧
      o.inRightDir (r.line.intersection o.line) 10 = true
    then r.line.intersection o.line else Vec.invalid := by
  by_cases h1 : (r.line.intersection o.line).valid = true <;>
    by_cases h2 : r.inRightDir (r.line.intersection o.line) 10 = true <;>
    by_cases h3 : o.inRightDir (r.line.intersection o.line) 10 = true <;>
    simp [Ray.intersectionRay, Vec.isValid, h1, h2, h3]

theorem Ray.line_pts (r : Ray ℝ) : r.line.pts = r.carrier := C20_point_angle r.origin r.dir

theorem Ray.pts_subset_carrier (r : Ray ℝ) : r.pts ⊆ r.carrier := by
  rintro z ⟨t, _, ht⟩; exact ⟨t, ht⟩

/-- **C28** (partial: the meeting point is not within EPSILON of the origin in both coordinates), ray and line. -/
theorem C28_ray_line_partial (r : Ray ℝ) (l : Line ℝ) (hn : ∀ z ∈ r.carrier ∩ l.pts, ¬ Near r.origin.pt z) :
    ((r.intersectionLine l).isValid = true ↔ r.line.isParallel l = false ∧ (r.pts ∩ l.pts).Nonempty) ∧
    ((r.intersectionLine l).isValid = true → r.pts ∩ l.pts = {(r.intersectionLine l).pt}) := by
  obtain ⟨c1, c2, _⟩ := C21_intersection r.line l
  rw [Ray.line_pts] at c2
  rw [Ray.intersectionLine_real]
  by_cases hv : (r.line.intersection l).isValid = true
  · have hset := c2 hv
    have hz : (r.line.intersection l).pt ∈ r.carrier ∩ l.pts := by rw [hset]; rfl
    have hd := C27_in_right_dir_partial r (r.line.intersection l) 10 (by norm_num) (by norm_num) hz.1 (hn _ hz)
    have hsub : r.pts ∩ l.pts ⊆ {(r.line.intersection l).pt} := by
      rw [← hset]; exact Set.inter_subset_inter_left _ r.pts_subset_carrier
    split_ifs with hr
    · have hmem := hd.mp hr.2
      refine ⟨⟨fun _ => ⟨c1.mp hv, _, hmem, hz.2⟩, fun _ => hv⟩, fun _ => ?_⟩
      refine Set.Subset.antisymm hsub ?_
      rintro z rfl
      exact ⟨hmem, hz.2⟩
    · refine ⟨⟨fun h => by simp [Vec.isValid] at h, ?_⟩, fun h => by simp [Vec.isValid] at h⟩
      rintro ⟨_, z, hz1, hz2⟩
      have : z = _ := hsub ⟨hz1, hz2⟩
      rw [this, ← hd] at hz1
      exact absurd ⟨hv, hz1⟩ hr
  · rw [if_neg (fun h => hv h.1)]
    refine ⟨⟨fun h => by simp [Vec.isValid] at h, fun h => ?_⟩, fun h => by simp [Vec.isValid] at h⟩
    exact absurd (c1.mpr h.1) hv

/-- **C28** (partial: the meeting point is not within EPSILON of either origin), two rays. -/
theorem C28_ray_ray_partial (r s : Ray ℝ) (hn : ∀ z ∈ r.carrier ∩ s.carrier, ¬ Near r.origin.pt z ∧ ¬ Near s.origin.pt z) :
    ((r.intersectionRay s).isValid = true ↔ r.line.isParallel s.line = false ∧ (r.pts ∩ s.pts).Nonempty) ∧
    ((r.intersectionRay s).isValid = true → r.pts ∩ s.pts = {(r.intersectionRay s).pt}) := by
  obtain ⟨c1, c2, _⟩ := C21_intersection r.line s.line
  rw [Ray.line_pts, Ray.line_pts] at c2
  rw [Ray.intersectionRay_real]
  by_cases hv : (r.line.intersection s.line).isValid = true
  · have hset := c2 hv
    have hz : (r.line.intersection s.line).pt ∈ r.carrier ∩ s.carrier := by rw [hset]; rfl
    have hd1 := C27_in_right_dir_partial r (r.line.intersection s.line) 10 (by norm_num) (by norm_num) hz.1 (hn _ hz).1
    have hd2 := C27_in_right_dir_partial s (r.line.intersection s.line) 10 (by norm_num) (by norm_num) hz.2 (hn _ hz).2
    have hsub : r.pts ∩ s.pts ⊆ {(r.line.intersection s.line).pt} := by
      rw [← hset]; exact Set.inter_subset_inter r.pts_subset_carrier s.pts_subset_carrier
    split_ifs with hr
    · have hmem := hd1.mp hr.2.1
      have hmem2 := hd2.mp hr.2.2
      refine ⟨⟨fun _ => ⟨c1.mp hv, _, hmem, hmem2⟩, fun _ => hv⟩, fun _ => ?_⟩
      refine Set.Subset.antisymm hsub ?_
      rintro z rfl
      exact ⟨hmem, hmem2⟩
    · refine ⟨⟨fun h => by simp [Vec.isValid] at h, ?_⟩, fun h => by simp [Vec.isValid] at h⟩
      rintro ⟨_, z, hz1, hz2⟩
      have : z = _ := hsub ⟨hz1, hz2⟩
      rw [this] at hz1 hz2
      exact absurd ⟨hv, hd1.mpr hz1, hd2.mpr hz2⟩ hr
  · rw [if_neg (fun h => hv h.1)]
    refine ⟨⟨fun h => by simp [Vec.isValid] at h, fun h => ?_⟩, fun h => by simp [Vec.isValid] at h⟩
    exact absurd (c1.mpr h.1) hv

/-- The guard of `C28_ray_line_partial` holds for the ray along X from (0,0) and the line X = 3. -/
example : let r : Ray ℝ := ⟨Vec.ofXY 0 0, AngleDeg.ofNum 0⟩
    ∀ z ∈ r.carrier ∩ (⟨1, 0, -3⟩ : Line ℝ).pts, ¬ Near r.origin.pt z := by
  rintro r z ⟨_, h2⟩ ⟨h3, _⟩
  rw [Line.mem_pts] at h2
  have : z.1 = 3 := by simp only at h2; linarith
  rw [this, EPSILON_real] at h3
  norm_num [r] at h3

end PyrusGeom
