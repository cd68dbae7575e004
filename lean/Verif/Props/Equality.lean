import Verif.Props.Line
import Verif.Props.Angle
import Verif.Model.Segment
import Verif.Model.Wrappers

/-! # C142 – C144: equality of rays and segments, small vector methods, angle bisector lines -/

namespace PyrusGeom
open Spec

/-! ## C142 -/

theorem Vec.eq_pt_iff (v w : Vec ℝ) : v.eq w = true ↔ v.pt = w.pt := by
  simp [Vec.eq, Vec.pt_eq_iff]

theorem Vec.equalsWeakly_num_iff (v w : Vec ℝ) : v.equalsWeakly w = true ↔
    |v.x - w.x| < 1 / 10 ^ 6 ∧ |v.y - w.y| < 1 / 10 ^ 6 := by
  have : (EPSILON : ℝ) = 1 / 10 ^ 6 := by rw [EPSILON_real]; norm_num
  simp only [Vec.equalsWeakly, Bool.and_eq_true, decide_eq_true_eq, fabs_real, this]

/-- **C142** Two rays compare equal exactly if they start at the same point and their directions differ by less than
`1e-6` degrees, whole turns apart. -/
theorem C142_ray (r o : Ray ℝ) : r.eq o = true ↔
    r.origin.pt = o.origin.pt ∧ ∃ k : ℤ, |r.dir.degree - o.dir.degree - 360 * k| < 1 / 10 ^ 6 := by
  have he : (EPSILON : ℝ) = 1 / 10 ^ 6 := by rw [EPSILON_real]; norm_num
  have hx : AngleEq (r.dir.sub o.dir).degree (r.dir.degree - o.dir.degree) :=
    (AngleDeg.degree_angleEq _).trans ((AngleDeg.ofNum_angleEq _).trans
      ((AngleDeg.degree_angleEq r.dir).symm.sub (AngleDeg.degree_angleEq o.dir).symm))
  have hm := AngleDeg.degree_mem (r.dir.sub o.dir)
  simp only [Ray.eq, Bool.and_eq_true, decide_eq_true_eq, fabs_real, Vec.eq_pt_iff, he]
  rw [and_comm]
  refine and_congr_right fun _ => ⟨fun h => ?_, fun ⟨k, hk⟩ => ?_⟩
  · obtain ⟨k, hk⟩ := hx
    refine ⟨-k, ?_⟩
    rwa [show r.dir.degree - o.dir.degree - 360 * ((-k : ℤ) : ℝ) = (r.dir.sub o.dir).degree by
      push_cast; linarith]
  · have h2 : AngleEq (r.dir.sub o.dir).degree (r.dir.degree - o.dir.degree - 360 * k) :=
      hx.trans ⟨k, by ring⟩
    rw [abs_lt] at hk
    have h3 := h2.eq_of_abs_lt (by linarith [hm.1, hk.2]) (by linarith [hm.2, hk.1])
    rw [h3, abs_lt]
    exact hk

/-- **C142** Equality of rays is reflexive and symmetric, and rays that consist of the same points are equal. -/
theorem C142_ray_laws (r o : Ray ℝ) : r.eq r = true ∧ (r.eq o = o.eq r) ∧ (r.pts = o.pts → r.eq o = true) := by
  refine ⟨(C142_ray r r).mpr ⟨rfl, 0, by norm_num⟩, ?_, fun h => ?_⟩
  · rw [Bool.eq_iff_iff, C142_ray, C142_ray]
    constructor
    · rintro ⟨h, k, hk⟩
      exact ⟨h.symm, -k, by rw [← abs_neg]; push_cast; convert hk using 2; ring⟩
    · rintro ⟨h, k, hk⟩
      exact ⟨h.symm, -k, by rw [← abs_neg]; push_cast; convert hk using 2; ring⟩
  · -- the origin and the direction are determined by the points
    have hu := unit_len r.dir.degree
    have hu' := unit_len o.dir.degree
    have m1 : r.origin.pt ∈ o.pts := h ▸ ⟨0, le_rfl, by simp⟩
    have m2 : o.origin.pt ∈ r.pts := h ▸ ⟨0, le_rfl, by simp⟩
    have m3 : r.origin.pt + unit r.dir.degree ∈ o.pts := h ▸ ⟨1, by norm_num, by simp⟩
    obtain ⟨s, hs, e1⟩ := m1
    obtain ⟨t, ht, e2⟩ := m2
    obtain ⟨w, hw, e3⟩ := m3
    have e4 : t • unit r.dir.degree = -(s • unit o.dir.degree) := by
      rw [e1] at e2
      have := add_left_cancel (a := o.origin.pt) (b := 0) (c := s • unit o.dir.degree + t • unit r.dir.degree)
        (by rw [add_zero, ← add_assoc]; exact e2)
      exact (neg_eq_of_add_eq_zero_right this.symm).symm
    -- the unit vector of `r` is a multiple of the unit vector of `o`
    have e5 : unit r.dir.degree = (w - s) • unit o.dir.degree := by
      rw [e1, add_assoc] at e3
      have := add_left_cancel e3
      rw [sub_smul]
      exact eq_sub_of_add_eq' this
    have hab : |w - s| = 1 := by
      have := congrArg len e5
      rw [hu, Spec.len_smul, hu', mul_one] at this
      exact this.symm
    rcases abs_cases (w - s) with ⟨h1, -⟩ | ⟨h1, -⟩
    · have e6 : unit r.dir.degree = unit o.dir.degree := by rw [e5, ← h1, hab, one_smul]
      have e7 : (s + t) • unit o.dir.degree = 0 := by
        rw [add_smul, ← e6, e4, e6, add_neg_cancel]
      have hne : unit o.dir.degree ≠ 0 := by
        intro h0; rw [h0] at hu'; rw [Spec.len_eq_zero.mpr rfl] at hu'; norm_num at hu'
      have hst : s + t = 0 := (smul_eq_zero.mp e7).resolve_right hne
      have hs0 : s = 0 := by linarith
      refine (C142_ray r o).mpr ⟨by rw [e1, hs0]; simp, ?_⟩
      obtain ⟨k, hk⟩ := unit_inj e6
      exact ⟨k, by rw [hk]; norm_num⟩
    · -- opposite directions: the ray of `r` ends where that of `o` begins, and neither contains the other
      exfalso
      have hws : w - s = -1 := by linarith
      have m4 : o.origin.pt + (t + 1 + s) • unit o.dir.degree ∈ r.pts := h ▸ ⟨t + 1 + s, by linarith, rfl⟩
      obtain ⟨x, hx, e8⟩ := m4
      rw [e1, e5, hws, smul_smul, add_assoc o.origin.pt, ← add_smul] at e8
      have e9 := add_left_cancel e8
      have hne : unit o.dir.degree ≠ 0 := by
        intro h0; rw [h0] at hu'; rw [Spec.len_eq_zero.mpr rfl] at hu'; norm_num at hu'
      have := smul_left_injective ℝ hne e9
      simp at this
      linarith

/-- **C142** It is not transitive. -/
theorem C142_ray_not_transitive : ∃ a b c : Ray ℝ, a.eq b = true ∧ b.eq c = true ∧ a.eq c = false := by
  have key : ∀ x y : ℝ, 0 ≤ x → x ≤ 1 → 0 ≤ y → y ≤ 1 →
      ((⟨Vec.zero, ⟨x⟩⟩ : Ray ℝ).eq ⟨Vec.zero, ⟨y⟩⟩ = true ↔ |x - y| < 1 / 10 ^ 6) := by
    intro x y h1 h2 h3 h4
    have hx : (⟨x⟩ : AngleDeg ℝ).degree = x := AngleDeg.degree_of_normal ⟨by linarith, by linarith⟩
    have hy : (⟨y⟩ : AngleDeg ℝ).degree = y := AngleDeg.degree_of_normal ⟨by linarith, by linarith⟩
    rw [C142_ray]
    simp only [hx, hy, true_and]
    refine ⟨fun ⟨k, hk⟩ => ?_, fun h => ⟨0, by simpa using h⟩⟩
    rw [abs_lt] at hk
    have := int_bounds (lo := -1) (hi := 1) (k := k) (by push_cast; linarith [hk.1, hk.2])
      (by push_cast; linarith [hk.1, hk.2])
    have hk0 : k = 0 := by omega
    subst hk0
    rw [abs_lt]; constructor <;> [simpa using hk.1; simpa using hk.2]
  refine ⟨⟨Vec.zero, ⟨0⟩⟩, ⟨Vec.zero, ⟨8 / 10 ^ 7⟩⟩, ⟨Vec.zero, ⟨16 / 10 ^ 7⟩⟩, ?_, ?_, ?_⟩
  · rw [key] <;> norm_num [abs_lt]
  · rw [key] <;> norm_num [abs_lt]
  · rw [← Bool.not_eq_true, key] <;> norm_num [abs_lt]

/-- **C142** Two segments compare equal exactly if origin and terminal coincide, in this order; they are equal in the
weak sense exactly if no coordinate differs by `1e-6` or more. -/
theorem C142_segment (s o : Seg ℝ) :
    (s.eq o = true ↔ s.origin.pt = o.origin.pt ∧ s.terminal.pt = o.terminal.pt) ∧
    (s.equalsWeakly o = true ↔ (|s.origin.x - o.origin.x| < 1 / 10 ^ 6 ∧ |s.origin.y - o.origin.y| < 1 / 10 ^ 6) ∧
      |s.terminal.x - o.terminal.x| < 1 / 10 ^ 6 ∧ |s.terminal.y - o.terminal.y| < 1 / 10 ^ 6) := by
  constructor
  · rw [Seg.eq, Bool.and_eq_true, Vec.eq_pt_iff, Vec.eq_pt_iff]
  · rw [Seg.equalsWeakly, Bool.and_eq_true, Vec.equalsWeakly_num_iff, Vec.equalsWeakly_num_iff]

/-- **C142** Both are reflexive and symmetric, `==` is transitive and implies weak equality; a segment equals its
reverse only if it is a point. -/
theorem C142_segment_laws (s o u : Seg ℝ) :
    s.eq s = true ∧ s.equalsWeakly s = true ∧ s.eq o = o.eq s ∧ s.equalsWeakly o = o.equalsWeakly s ∧
    (s.eq o = true → o.eq u = true → s.eq u = true) ∧ (s.eq o = true → s.equalsWeakly o = true) ∧
    (s.eq s.swap = true ↔ s.origin.pt = s.terminal.pt) := by
  have refl : s.eq s = true := (C142_segment s s).1.mpr ⟨rfl, rfl⟩
  have weak : s.eq o = true → s.equalsWeakly o = true := by
    intro h
    obtain ⟨h1, h2⟩ := (C142_segment s o).1.mp h
    rw [Vec.pt_eq_iff] at h1 h2
    exact (C142_segment s o).2.mpr (by rw [h1.1, h1.2, h2.1, h2.2]; norm_num)
  refine ⟨refl, ?_, ?_, ?_, ?_, weak, ?_⟩
  · exact (C142_segment s s).2.mpr (by norm_num)
  · rw [Bool.eq_iff_iff, (C142_segment s o).1, (C142_segment o s).1, eq_comm, eq_comm (a := s.terminal.pt)]
  · rw [Bool.eq_iff_iff, (C142_segment s o).2, (C142_segment o s).2]
    simp only [abs_sub_comm]
  · intro h1 h2
    rw [(C142_segment _ _).1] at *
    exact ⟨h1.1.trans h2.1, h1.2.trans h2.2⟩
  · rw [(C142_segment _ _).1]
    exact ⟨fun h => h.1, fun h => ⟨h, h.symm⟩⟩

example : (⟨Vec.ofXY 1 2, ⟨180⟩⟩ : Ray ℝ).eq ⟨Vec.ofXY 1 2, ⟨-180⟩⟩ = true ∧
    (⟨Vec.ofXY 1 2, ⟨180⟩⟩ : Ray ℝ).eq ⟨Vec.ofXY 1 3, ⟨180⟩⟩ = false := by
  constructor
  · rw [C142_ray]
    refine ⟨rfl, 1, ?_⟩
    rw [AngleDeg.degree_of_normal ⟨by norm_num, by norm_num⟩, AngleDeg.degree_of_normal ⟨by norm_num, by norm_num⟩]
    norm_num
  · rw [← Bool.not_eq_true, C142_ray, Vec.pt_eq_iff]
    norm_num

/-! ## C143 -/

/-- **C143** `abs`, `abs_x`, `abs_y` are the absolute values of the coordinates. -/
theorem C143_abs (v : Vec ℝ) : v.absX = |v.x| ∧ v.absY = |v.y| ∧ v.abs.pt = (|v.x|, |v.y|) ∧ v.abs.valid = true := by
  simp [Vec.absX, Vec.absY, Vec.abs, fabs_real]

/-- **C143** `reverse` and `reverse_vector` negate the vector, the former in place, the latter as a valid copy; reversing
twice changes nothing. -/
theorem C143_reverse (v : Vec ℝ) : v.reverse.pt = -v.pt ∧ v.reverse.valid = v.valid ∧ v.reverseVector.pt = -v.pt ∧
    v.reverseVector.valid = true ∧ v.reverse.reverse = v := by
  refine ⟨?_, rfl, ?_, rfl, ?_⟩
  · exact Prod.ext (by simp [Vec.reverse]) (by simp [Vec.reverse])
  · exact Prod.ext (by simp [Vec.reverseVector, Vec.reverse]) (by simp [Vec.reverseVector, Vec.reverse])
  · ext <;> simp [Vec.reverse]

/-- **C143** `set_dir(a)` keeps the length and turns the vector into direction `a`. -/
theorem C143_set_dir (v : Vec ℝ) (a : AngleDeg ℝ) :
    (v.setDir a).pt = len v.pt • unit a.degree ∧ (v.setDir a).r = v.r ∧ (v.setDir a).valid = v.valid ∧
    (¬ (|(v.setDir a).x| < EPSILON ∧ |(v.setDir a).y| < EPSILON) → AngleEq (v.setDir a).th.degree a.degree) := by
  have hp : (v.setDir a).pt = len v.pt • unit a.degree := by
    rw [unit_congr (AngleDeg.degree_angleEq a), ← Vec.r_real]
    exact Prod.ext (by simp [Vec.setDir, cosA_real]) (by simp [Vec.setDir, sinA_real])
  have hl : len (v.setDir a).pt = len v.pt := by
    rw [hp, Spec.len_smul, unit_len, mul_one, abs_of_nonneg (Spec.len_nonneg _)]
  refine ⟨hp, by rw [Vec.r_real, Vec.r_real, hl], rfl, fun hn => ?_⟩
  have ht := Vec.th_polar (v := v.setDir a) hn
  have hpos := Vec.len_pos_of_not_tiny (v := v.setDir a) hn
  rw [AngleDeg.degree_of_normal (Vec.th_normal _)]
  have h3 : len (v.setDir a).pt • unit (v.setDir a).th.deg = len v.pt • unit a.degree := by rw [← ht, hp]
  exact (smul_unit_inj hpos (Spec.len_nonneg _) h3).2

/-- **C143** The setters: `set_x_y`, `set_x`, `set_y` change coordinates only, `validate`/`invalidate` the flag only,
`set_vector` takes over both. -/
theorem C143_setters (v o : Vec ℝ) (x y : ℝ) :
    v.setXY x y = ⟨x, y, v.valid⟩ ∧ v.setX x = ⟨x, v.y, v.valid⟩ ∧ v.setY y = ⟨v.x, y, v.valid⟩ ∧
    v.validate = ⟨v.x, v.y, true⟩ ∧ v.invalidate = ⟨v.x, v.y, false⟩ ∧ v.setVector o = o := ⟨rfl, rfl, rfl, rfl, rfl, rfl⟩

/-- **C143** The static products are the scalar product and the determinant. -/
theorem C143_static (v w : Vec ℝ) : Vec.innerProductStatic v w = dot v.pt w.pt ∧
    Vec.outerProductStatic v w = cross v.pt w.pt := ⟨rfl, rfl⟩

/-- **C143** `radian()` is the angle in `[-π, π]`, and the trigonometric methods are those of this angle. -/
theorem C143_radian (a : AngleDeg ℝ) : -Real.pi ≤ a.radian ∧ a.radian ≤ Real.pi ∧ a.radian = a.degree * (Real.pi / 180) ∧
    a.cos = Real.cos a.radian ∧ a.sin = Real.sin a.radian := by
  have hr : a.radian = a.degree * (Real.pi / 180) := by
    unfold AngleDeg.radian
    congr 1
  obtain ⟨h1, h2⟩ := AngleDeg.degree_mem a
  have hpi := Real.pi_pos
  have hu := unit_congr (AngleDeg.degree_angleEq a)
  refine ⟨by rw [hr]; nlinarith, by rw [hr]; nlinarith, hr, ?_, ?_⟩
  · rw [cosA_real, ← hu, hr]; rfl
  · rw [sinA_real, ← hu, hr]; rfl

example : ((Vec.ofXY (3 : ℝ) 4).setDir ⟨0⟩).pt = (5, 0) := by
  rw [(C143_set_dir _ _).1, AngleDeg.degree_of_normal ⟨by norm_num, by norm_num⟩]
  have h : (3 : ℝ) ^ 2 + 4 ^ 2 = 5 ^ 2 := by norm_num
  simp [len, unit, h]

/-! ## C144 -/

/-- **C144** `angle_bisector(p, left, right)` is the line through `p` in direction `(left + right) / 2`. -/
theorem C144_line (p : Vec ℝ) (l r : AngleDeg ℝ) :
    (Line.angleBisector p l r).pts = lineThrough p.pt (unit ((l.degree + r.degree) / 2)) := by
  unfold Line.angleBisector
  rw [C20_point_angle]
  obtain ⟨k, hk⟩ := C06_double_partial l.degree r.degree
  set b := (AngleDeg.bisect l.degree r.degree).degree with hb
  have hb2 : b = (l.degree + r.degree) / 2 + 180 * k := by linarith
  rcases Int.even_or_odd' k with ⟨m, hm | hm⟩
  · have : unit b = unit ((l.degree + r.degree) / 2) := unit_congr ⟨m, by rw [hb2, hm]; push_cast; ring⟩
    rw [this]
  · have : unit b = -unit ((l.degree + r.degree) / 2) := by
      rw [← unit_add_180]
      exact unit_congr ⟨m, by rw [hb2, hm]; push_cast; ring⟩
    rw [this]
    ext z
    constructor
    · rintro ⟨t, rfl⟩; exact ⟨-t, by simp⟩
    · rintro ⟨t, rfl⟩; exact ⟨-t, by simp⟩

/-- **C144** If the two directions differ, its points are those that are equally far from the points one unit away from
`p` in the two directions: the mirror image of one direction is the other. -/
theorem C144_equidistant (p : Vec ℝ) (l r : AngleDeg ℝ) (h : ¬ AngleEq l.degree r.degree) (z : Pt) :
    z ∈ (Line.angleBisector p l r).pts ↔ d z (p.pt + unit l.degree) = d z (p.pt + unit r.degree) := by
  rw [C144_line, Spec.d_eq_d_iff]
  set m := (l.degree + r.degree) / 2 with hm
  set e := (l.degree - r.degree) / 2 with he
  have hl : l.degree = m + e := by rw [hm, he]; ring
  have hr : r.degree = m - e := by rw [hm, he]; ring
  have hul : unit l.degree = ((unit m).1 * (unit e).1 - (unit m).2 * (unit e).2,
      (unit m).2 * (unit e).1 + (unit m).1 * (unit e).2) := by
    rw [hl]; simp only [unit, add_mul, Real.cos_add, Real.sin_add]
  have hur : unit r.degree = ((unit m).1 * (unit e).1 + (unit m).2 * (unit e).2,
      (unit m).2 * (unit e).1 - (unit m).1 * (unit e).2) := by
    rw [hr]; simp only [unit, sub_mul, Real.cos_sub, Real.sin_sub]
  have hne : (unit e).2 ≠ 0 := by
    intro h0
    apply h
    apply unit_inj
    rw [hul, hur, h0]
    simp
  have hum := unit_sq m
  have hL := lineSet_dir (a := -(unit m).2) (b := (unit m).1) (p := p.pt) (by nlinarith) z
  rw [neg_neg] at hL
  change (∃ t : ℝ, z = p.pt + t • unit m) ↔ _
  rw [show unit m = ((unit m).1, (unit m).2) from rfl, ← hL, hul, hur]
  simp only [Prod.fst_add, Prod.snd_add]
  constructor
  · intro h0
    linear_combination (-4) * (unit e).2 * h0
  · intro h0
    have : (unit e).2 * (-(unit m).2 * (z.1 - p.pt.1) + (unit m).1 * (z.2 - p.pt.2)) = 0 := by
      linear_combination (-1 / 4) * h0
    exact (mul_eq_zero.mp this).resolve_left hne

example : ((1, 1) : Pt) ∈ (Line.angleBisector Vec.zero (⟨0⟩ : AngleDeg ℝ) ⟨90⟩).pts := by
  rw [C144_equidistant, AngleDeg.degree_of_normal ⟨by norm_num, by norm_num⟩,
    AngleDeg.degree_of_normal ⟨by norm_num, by norm_num⟩]
  · have e : (90 : ℝ) * (Real.pi / 180) = Real.pi / 2 := by ring
    simp [Spec.d, unit, e, Vec.zero, Vec.pt]
  · rw [AngleDeg.degree_of_normal ⟨by norm_num, by norm_num⟩, AngleDeg.degree_of_normal ⟨by norm_num, by norm_num⟩]
    intro h
    have := h.eq_of_abs_lt (by norm_num) (by norm_num)
    norm_num at this

end PyrusGeom
