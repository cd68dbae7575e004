import Verif.Props.FloatCircleSeg
import Verif.Props.FloatIncenter

/-! # C199: the intersections of a circle with a ray in double precision -/

namespace PyrusGeom
open Spec

/-- Only the square root of the library takes part. -/
theorem intersectionLine_math (m m' : PyMath (FP double)) (h : ∀ x, m.sqrt x = m'.sqrt x) (c : Circle (FP double)) (l : Line (FP double)) :
    (letI := m; c.intersectionLine l) = (letI := m'; c.intersectionLine l) := by
  have e : @PyMath.sqrt (FP double) m = @PyMath.sqrt (FP double) m' := funext h
  simp only [Circle.intersectionLine, quadraticF, e]

section
variable [m : PyMath (FP double)]

/-- The coordinates of the computed intersections are doubles. -/
theorem intersectionLine_double {c : Circle (FP double)} {l : Line (FP double)} (hl : ¬ (fabs l.a < (EPSILON : FP double) ∧ fabs l.b < (EPSILON : FP double)))
    {ps : List (Vec (FP double))} (h : c.intersectionLine l = .ok ps) : ∀ p ∈ ps, p.FOk := by
  have quad : ∀ {a b d : FP double} {q : List (FP double)}, quadraticF a b d = .ok q → ∀ s ∈ q, IsDouble s.val := by
    intro a b d q hq s hs
    unfold quadraticF at hq
    simp only [] at hq
    split at hq
    · cases hq
    · split at hq
      · cases hq
        simp only [List.mem_cons, List.not_mem_nil, or_false, or_self] at hs
        rw [hs]; exact isDouble_rne _
      · split at hq
        · cases hq; simp at hs
        · cases hq
          simp only [List.mem_cons, List.not_mem_nil, or_false] at hs
          rcases hs with rfl | rfl <;> exact isDouble_rne _
  have pts : ∀ {mk : FP double → Vec (FP double)} {q : List (FP double)}, (∀ s, IsDouble s.val → (mk s).FOk) → (∀ s ∈ q, IsDouble s.val) →
      ∀ p ∈ Circle.solPoints mk q, p.FOk := by
    intro mk q hmk hq p hp
    unfold Circle.solPoints at hp
    split at hp
    · split at hp
      · rw [List.mem_singleton] at hp
        rw [hp]; exact hmk _ (hq _ (by simp))
      · simp only [List.mem_cons, List.not_mem_nil, or_false] at hp
        rcases hp with rfl | rfl
        · exact hmk _ (hq _ (by simp))
        · exact hmk _ (hq _ (by simp))
    · simp at hp
  unfold Circle.intersectionLine at h
  split at h
  · rename_i ha
    rw [if_neg (fun hb => hl ⟨ha, hb⟩)] at h
    generalize hq : quadraticF (_ : FP double) _ _ = q at h
    cases q with
    | error x => simp [bind, Except.bind] at h
    | ok x =>
      simp only [bind, Except.bind, pure, Except.pure, Except.ok.injEq] at h
      rw [← h]
      exact pts (fun s hs => ⟨hs, isDouble_rne _⟩) (quad hq)
  · rename_i ha
    simp only [] at h
    generalize hq : quadraticF (_ : FP double) _ _ = q at h
    cases q with
    | error x => simp [bind, Except.bind] at h
    | ok x =>
      simp only [bind, Except.bind, pure, Except.pure, Except.ok.injEq] at h
      rw [← h]
      refine pts (fun s hs => ⟨?_, hs⟩) (quad hq)
      change IsDouble (l.getX s).val
      unfold Line.getX
      rw [if_neg ha]
      exact isDouble_rne _

/-- The threshold. -/
theorem fp_one : (num 1 : FP double).val = 1 := (double.int 1 (by norm_num)).trans (by norm_num)

/-- A point that passes the test of the direction is within a degree of it. -/
theorem ray_angle (h : Accurate m) (r : Ray (FP double)) (p : Vec (FP double)) (hp : p.FOk) (ho : r.origin.FOk) (hr : r.dir.FOk)
    (hd : 2 * (EPSILON : FP double).val ≤ d r.origin.fpt p.fpt) (hk : r.inRightDir p (num 1) = true) :
    ∃ k : ℤ, |direction (p.x.val - r.origin.x.val) (p.y.val - r.origin.y.val) - r.dir.deg.val - 360 * k| < 1 + (2 : ℝ) ^ (-42 : ℤ) := by
  obtain ⟨x, hx⟩ : ∃ x, x = direction (p.x.val - r.origin.x.val) (p.y.val - r.origin.y.val) - r.dir.deg.val := ⟨_, rfl⟩
  refine ⟨round (x / 360), ?_⟩
  rw [← hx]
  have h180 : |x - 360 * (round (x / 360) : ℝ)| ≤ 180 := by
    have := abs_sub_round (x / 360)
    rw [show x - 360 * (round (x / 360) : ℝ) = 360 * (x / 360 - round (x / 360)) by ring, abs_mul, abs_of_pos (by norm_num)]
    linarith
  by_contra hc
  push Not at hc
  have := (C180_ray h r p (num 1) hp ho hr hd (G := |x - 360 * (round (x / 360) : ℝ)|) (abs_nonneg _) h180 (by
    rcases abs_choice (x - 360 * (round (x / 360) : ℝ)) with e | e
    · left; exact ⟨round (x / 360), by rw [e]; linarith⟩
    · right; exact ⟨round (x / 360), by rw [e]; linarith⟩)).2 (by rw [fp_one]; exact hc)
  rw [hk] at this
  cases this

/-- A point near a point of the ray passes. -/
theorem ray_kept (h : Accurate m) (r : Ray (FP double)) (p : Vec (FP double)) (hp : p.FOk) (ho : r.origin.FOk) (hr : r.dir.FOk)
    {t τ : ℝ} (hτ : (EPSILON : FP double).val ≤ τ) (ht : 100 * τ ≤ t)
    (hn : (p.x.val - (r.origin.x.val + t * (unit r.dir.deg.val).1)) ^ 2 + (p.y.val - (r.origin.y.val + t * (unit r.dir.deg.val).2)) ^ 2 ≤ τ ^ 2) :
    r.inRightDir p (num 1) = true := by
  have hE := fp_EPSILON.1
  have t0 : 0 < t := by linarith
  have τ0 : 0 ≤ τ := by linarith
  obtain ⟨w, hw⟩ : ∃ w : ℂ, w = ⟨p.x.val - r.origin.x.val, p.y.val - r.origin.y.val⟩ := ⟨_, rfl⟩
  obtain ⟨z, hz⟩ : ∃ z : ℂ, z = ⟨t * Real.cos (r.dir.deg.val * (Real.pi / 180)), t * Real.sin (r.dir.deg.val * (Real.pi / 180))⟩ := ⟨_, rfl⟩
  have nz : ‖z‖ = t := by
    rw [Complex.norm_def, Complex.normSq_apply, hz]
    change √(t * Real.cos _ * (t * Real.cos _) + t * Real.sin _ * (t * Real.sin _)) = t
    rw [show ∀ a b : ℝ, t * a * (t * a) + t * b * (t * b) = t ^ 2 * (b ^ 2 + a ^ 2) by intros; ring, Real.sin_sq_add_cos_sq, mul_one,
      Real.sqrt_sq t0.le]
  have nwz : ‖w - z‖ ≤ τ := by
    rw [Complex.norm_def, Complex.normSq_apply]
    refine Real.sqrt_le_iff.mpr ⟨τ0, le_trans (le_of_eq ?_) hn⟩
    rw [hw, hz]
    simp only [Complex.sub_re, Complex.sub_im, unit]
    ring
  have nwz2 : ‖w - z‖ ≤ 1 / 100 * ‖z‖ := by rw [nz]; linarith
  have z0 : z ≠ 0 := by rw [← norm_pos_iff, nz]; exact t0
  obtain ⟨k, hk⟩ := direction_near z0 nwz2 (by norm_num)
  obtain ⟨j, hj⟩ := direction_polar t0 r.dir.deg.val
  have ez : direction z.re z.im = r.dir.deg.val + 360 * j := by rw [hz]; linarith
  have ew : direction w.re w.im = direction (p.x.val - r.origin.x.val) (p.y.val - r.origin.y.val) := by rw [hw]
  rw [ez, ew] at hk
  obtain ⟨x, hx⟩ : ∃ x, x = direction (p.x.val - r.origin.x.val) (p.y.val - r.origin.y.val) - (r.dir.deg.val + 360 * j) - 360 * k := ⟨_, rfl⟩
  rw [← hx] at hk
  have hd : 2 * (EPSILON : FP double).val ≤ d r.origin.fpt p.fpt := by
    rw [← norm_sub_d, ← hw]
    have := norm_sub_norm_le z w
    rw [norm_sub_rev, nz] at this
    linarith
  refine (C180_ray h r p (num 1) hp ho hr hd (G := |x|) (abs_nonneg _) (by linarith) ?_).1 ?_
  · rcases abs_choice x with e | e
    · left; exact ⟨j + k, by rw [e]; push_cast; linarith⟩
    · right; exact ⟨j + k, by rw [e]; push_cast; linarith⟩
  · rw [fp_one, show (2 : ℝ) ^ (-42 : ℤ) = 1 / 4398046511104 by norm_num]
    linarith

/-- The line of a ray. -/
theorem ray_line (h : Accurate m) (r : Ray (FP double)) (hr : r.dir.FOk) {B : ℝ} (hB1 : 1 ≤ B) (ho : |r.origin.x.val| ≤ B ∧ |r.origin.y.val| ≤ B)
    {l : Line (FP double)} (hl : l = Line.ofAngle (Vec.ofVec r.origin) (AngleDeg.ofAngle r.dir)) :
    |l.a.val + (unit r.dir.deg.val).2| ≤ 1 / 562949953421312 ∧ |l.b.val - (unit r.dir.deg.val).1| ≤ 1 / 562949953421312 ∧
    ∀ X Y : ℝ, |(l.a.val * X + l.b.val * Y + l.c.val) - ((unit r.dir.deg.val).1 * (Y - r.origin.y.val) - (unit r.dir.deg.val).2 * (X - r.origin.x.val))| ≤
      1 / 562949953421312 * (|X - r.origin.x.val| + |Y - r.origin.y.val| + B) := by
  obtain ⟨t, ht⟩ : ∃ t, t = AngleDeg.ofAngle r.dir := ⟨_, rfl⟩
  have h180 : |r.dir.deg.val| ≤ 180 := abs_le.mpr hr.2
  have e1 : r.dir.degree.val = r.dir.deg.val := h.degree hr
  have dd : r.dir.degree = r.dir.deg := FP.ext e1
  have td : t.deg = r.dir.deg := by
    rw [ht]
    change AngleDeg.normalDeg r.dir.degree = _
    rw [dd, fp_normalDeg_small _ h180]
  obtain ⟨hs, hc⟩ := C179_sin_deg h t.deg
  rw [← ht] at hl
  have la : l.a.val = -(AngleDeg.sinDeg t.deg).val := by rw [hl]; rfl
  have lb : l.b.val = (AngleDeg.cosDeg t.deg).val := by rw [hl]; rfl
  have k0 : (2 : ℝ) ^ (-58 : ℤ) * |t.deg.val| + (2 : ℝ) ^ (-51 : ℤ) ≤ 1 / 562949953421312 := by
    rw [td, show (2 : ℝ) ^ (-58 : ℤ) = 1 / 288230376151711744 by norm_num, show (2 : ℝ) ^ (-51 : ℤ) = 1 / 2251799813685248 by norm_num]
    linarith
  obtain ⟨_, _, _, _, k3⟩ := h.line_near (Vec.ofVec r.origin) t (by rw [td]; exact h180) (x := t.deg.val) (k := 0) (by
    rw [sub_self, Int.cast_zero, mul_zero, sub_zero, abs_zero]; positivity) hB1 ho.1 ho.2
  rw [← hl, show (2 : ℝ) ^ (-49 : ℤ) = 1 / 562949953421312 by norm_num] at k3
  have k3' : |l.c.val + l.a.val * r.origin.x.val + l.b.val * r.origin.y.val| ≤ 1 / 562949953421312 * B := k3
  have k1 : |l.a.val + (unit r.dir.deg.val).2| ≤ 1 / 562949953421312 := by
    rw [la, ← abs_neg, show -(-(AngleDeg.sinDeg t.deg).val + (unit r.dir.deg.val).2) = (AngleDeg.sinDeg t.deg).val - (unit r.dir.deg.val).2 by ring, ← td]
    exact hs.trans k0
  have k2 : |l.b.val - (unit r.dir.deg.val).1| ≤ 1 / 562949953421312 := by
    rw [lb, ← td]
    exact hc.trans k0
  refine ⟨k1, k2, fun X Y => ?_⟩
  rw [show (l.a.val * X + l.b.val * Y + l.c.val) - ((unit r.dir.deg.val).1 * (Y - r.origin.y.val) - (unit r.dir.deg.val).2 * (X - r.origin.x.val)) =
    (l.a.val + (unit r.dir.deg.val).2) * (X - r.origin.x.val) + (l.b.val - (unit r.dir.deg.val).1) * (Y - r.origin.y.val) +
      (l.c.val + l.a.val * r.origin.x.val + l.b.val * r.origin.y.val) by ring]
  refine (abs_add_three _ _ _).trans ?_
  rw [abs_mul, abs_mul]
  have m1 := mul_le_mul_of_nonneg_right k1 (abs_nonneg (X - r.origin.x.val))
  have m2 := mul_le_mul_of_nonneg_right k2 (abs_nonneg (Y - r.origin.y.val))
  linarith

/-- The ray is the filtered line, for any library. -/
theorem ray_filter (h : Accurate m) (c : Circle (FP double)) (r : Ray (FP double)) {l : Line (FP double)}
    (hl : l = Line.ofAngle (Vec.ofVec r.origin) (AngleDeg.ofAngle r.dir)) (hl2 : ¬ (fabs l.a < (EPSILON : FP double) ∧ fabs l.b < (EPSILON : FP double)))
    {qs : List (Vec (FP double))} (e : (letI : PyMath (FP double) := FP.instPyMath; c.intersectionLine l) = .ok qs) :
    ∃ ps, c.intersectionRay r = .ok ps ∧ ∀ p, p ∈ ps ↔ p ∈ qs ∧ p.FOk ∧ r.inRightDir p (num 1) = true := by
  have e' : c.intersectionLine l = .ok qs := by
    rw [← e]
    exact intersectionLine_math m FP.instPyMath (fun x => FP.ext (h.sqrt x)) c l
  refine ⟨Circle.dropRejected (fun p => r.inRightDir p (num 1)) qs, ?_, fun p => ?_⟩
  · simp only [Circle.intersectionRay, ← hl, e', bind, Except.bind, pure, Except.pure]
  · rw [mem_dropRejected _ qs (intersectionLine_le_two e')]
    exact ⟨fun ⟨h1, h2⟩ => ⟨h1, intersectionLine_double hl2 e' p h1, h2⟩, fun ⟨h1, _, h2⟩ => ⟨h1, h2⟩⟩

/-- **C199** A ray that is not nearly horizontal: every returned point is near the circle, near the line of the ray, and within about a degree of
its direction; a line that is clearly apart gives none; near every exact intersection away from the origin there is a returned point. -/
theorem C199_ray (h : Accurate m) (c : Circle (FP double)) (r : Ray (FP double)) (hr : r.dir.FOk) (hor : r.origin.FOk) {B : ℝ} (hB1 : 1 ≤ B)
    (ho : |r.origin.x.val| ≤ B ∧ |r.origin.y.val| ≤ B) {l : Line (FP double)}
    (hl : l = Line.ofAngle (Vec.ofVec r.origin) (AngleDeg.ofAngle r.dir)) (h1 : (EPSILON : FP double).val ≤ |l.a.val|) :
    ∃ ps, c.intersectionRay r = .ok ps ∧
      (∀ p ∈ ps,
        |(p.x.val - c.center.x.val) ^ 2 + (p.y.val - c.center.y.val) ^ 2 - c.radius.val ^ 2| ≤
          (EPSILON : FP double).val / 4 + (2 : ℝ) ^ (-39 : ℤ) * reach c (l.c.val / l.a.val) ^ 2 ∧
        |(unit r.dir.deg.val).1 * (p.y.val - r.origin.y.val) - (unit r.dir.deg.val).2 * (p.x.val - r.origin.x.val)| ≤
          (2 : ℝ) ^ (-45 : ℤ) * (|l.a.val| * reach c (l.c.val / l.a.val)) +
            1 / 562949953421312 * (|p.x.val - r.origin.x.val| + |p.y.val - r.origin.y.val| + B) ∧
        (2 * (EPSILON : FP double).val ≤ d r.origin.fpt p.fpt →
          ∃ k : ℤ, |direction (p.x.val - r.origin.x.val) (p.y.val - r.origin.y.val) - r.dir.deg.val - 360 * k| < 1 + (2 : ℝ) ^ (-42 : ℤ))) ∧
      ((c.radius.val ^ 2 + (EPSILON : FP double).val + (2 : ℝ) ^ (-43 : ℤ) * reach c (l.c.val / l.a.val) ^ 2) * (l.a.val ^ 2 + l.b.val ^ 2) ≤
          (l.a.val * c.center.x.val + l.b.val * c.center.y.val + l.c.val) ^ 2 → ps = []) ∧
      (∀ x y t D τ : ℝ, D = 1 / 562949953421312 * (2 * t + B) / |l.a.val| → 0 ≤ τ → 100 * τ ≤ t →
        1500 * (2 : ℝ) ^ (-53 : ℤ) * (reach c (l.c.val / l.a.val) * (1 + |l.b.val / l.a.val|)) ^ 2 +
          4 * (1 + |l.b.val / l.a.val|) ^ 2 * (2 * |c.radius.val| * D + D ^ 2) < (EPSILON : FP double).val →
        6 * (EPSILON : FP double).val + (2 : ℝ) ^ (-39 : ℤ) * reach c (l.c.val / l.a.val) ^ 2 + (32 * |c.radius.val| * D + 18 * D ^ 2) ≤ τ ^ 2 →
        (x - c.center.x.val) ^ 2 + (y - c.center.y.val) ^ 2 = c.radius.val ^ 2 →
        x = r.origin.x.val + t * (unit r.dir.deg.val).1 → y = r.origin.y.val + t * (unit r.dir.deg.val).2 →
        ∃ p ∈ ps, (p.x.val - x) ^ 2 + (p.y.val - y) ^ 2 ≤ τ ^ 2) := by
  obtain ⟨k1, k2, k3⟩ := ray_line h r hr hB1 ho hl
  have s1 : |(unit r.dir.deg.val).2| ≤ 1 := Real.abs_sin_le_one _
  have s2 : |(unit r.dir.deg.val).1| ≤ 1 := Real.abs_cos_le_one _
  have hA : |l.a.val| ≤ 3 * 1 := by
    have h1 := abs_sub_abs_le_abs_sub l.a.val (-(unit r.dir.deg.val).2)
    rw [sub_neg_eq_add, abs_neg] at h1
    linarith
  have hD : |l.b.val| ≤ 3 * 1 := by
    have h1 := abs_sub_abs_le_abs_sub l.b.val (unit r.dir.deg.val).1
    linarith
  obtain ⟨z1, z2⟩ := line_size le_rfl (by
    rw [show (1 : ℝ) = (2 : ℝ) ^ (0 : ℤ) by norm_num]; exact zpow_le_zpow_right₀ one_le_two (by norm_num)) hA hD h1
  have hl2 : ¬ (fabs l.a < (EPSILON : FP double) ∧ fabs l.b < (EPSILON : FP double)) := by
    rintro ⟨h2, _⟩
    rw [FP.lt_def, fp_fabs_val] at h2
    linarith
  obtain ⟨qs, e, g1, g2, _, g4⟩ := C184_line c l h1 z1 z2
  obtain ⟨ps, e2, hmem⟩ := ray_filter h c r hl hl2 e
  have hE := fp_EPSILON.1
  refine ⟨ps, e2, ?_, ?_, ?_⟩
  · intro p hp
    obtain ⟨hq, hok, hk⟩ := (hmem p).mp hp
    obtain ⟨f1, f2⟩ := g1 p hq
    refine ⟨f2, ?_, fun hd => ray_angle h r p hok hor hr hd hk⟩
    have k := k3 p.x.val p.y.val
    rw [abs_sub_comm] at k
    have := abs_sub_abs_le_abs_sub ((unit r.dir.deg.val).1 * (p.y.val - r.origin.y.val) - (unit r.dir.deg.val).2 * (p.x.val - r.origin.x.val))
      (l.a.val * p.x.val + l.b.val * p.y.val + l.c.val)
    exact (sub_le_iff_le_add.mp (this.trans k)).trans (by rw [add_comm]; gcongr)
  · intro hm
    rw [List.eq_nil_iff_forall_not_mem]
    intro p hp
    have := ((hmem p).mp hp).1
    rw [g2 hm] at this
    simp at this
  · intro x y t D τ hDd hτ ht hc1 hc2 hxy hx hy
    have ha0 : 0 < |l.a.val| := lt_of_lt_of_le (by positivity) (fp_EPSILON_ge.trans h1)
    have han : l.a.val ≠ 0 := abs_pos.mp ha0
    have t0 : 0 ≤ t := by linarith
    obtain ⟨δ, hδ⟩ : ∃ δ, δ = (l.a.val * x + l.b.val * y + l.c.val) / l.a.val := ⟨_, rfl⟩
    have eδ : δ * l.a.val = l.a.val * x + l.b.val * y + l.c.val := by rw [hδ]; field_simp
    have k := k3 x y
    have ex : x - r.origin.x.val = t * (unit r.dir.deg.val).1 := by rw [hx]; ring
    have ey : y - r.origin.y.val = t * (unit r.dir.deg.val).2 := by rw [hy]; ring
    rw [ex, ey, show (unit r.dir.deg.val).1 * (t * (unit r.dir.deg.val).2) - (unit r.dir.deg.val).2 * (t * (unit r.dir.deg.val).1) = 0 by ring,
      sub_zero, ← eδ, abs_mul, abs_mul, abs_mul, abs_of_nonneg t0] at k
    have m1 := mul_le_mul_of_nonneg_left s2 t0
    have m2 := mul_le_mul_of_nonneg_left s1 t0
    have hδD : |δ| ≤ D := by
      rw [hDd, le_div_iff₀ ha0]
      linarith
    have hR : |x - c.center.x.val| ≤ |c.radius.val| := by
      apply sq_le_sq.mp
      have := sq_nonneg (y - c.center.y.val)
      linarith
    have hD0 : 0 ≤ D := (abs_nonneg _).trans hδD
    have hδ2 : δ ^ 2 ≤ D ^ 2 := by rw [← sq_abs δ]; exact pow_le_pow_left₀ (abs_nonneg _) hδD 2
    have hm : |x - c.center.x.val| * |δ| ≤ |c.radius.val| * D := mul_le_mul hR hδD (abs_nonneg _) (abs_nonneg _)
    obtain ⟨p, hp, hn⟩ := g4 x y δ eδ hxy (lt_of_le_of_lt (by
      have : 2 * |x - c.center.x.val| * |δ| + δ ^ 2 ≤ 2 * |c.radius.val| * D + D ^ 2 := by linarith
      gcongr) hc1)
    have hn2 : (p.x.val - x) ^ 2 + (p.y.val - y) ^ 2 ≤ τ ^ 2 := by
      refine hn.trans (le_trans ?_ hc2)
      have : 32 * |x - c.center.x.val| * |δ| + 18 * δ ^ 2 ≤ 32 * |c.radius.val| * D + 18 * D ^ 2 := by linarith
      gcongr
    have hEτ : (EPSILON : FP double).val ≤ τ := by
      refine le_of_abs_le (abs_le_of_sq_le_sq ?_ hτ)
      refine le_trans ?_ hc2
      have h3 := fp_EPSILON_sq
      have h4 : 0 ≤ (2 : ℝ) ^ (-39 : ℤ) * reach c (l.c.val / l.a.val) ^ 2 := by positivity
      have h5 : 0 ≤ 32 * |c.radius.val| * D + 18 * D ^ 2 := by positivity
      have h6 := sq_nonneg (EPSILON : FP double).val
      linarith
    have hok := intersectionLine_double hl2 ((intersectionLine_math m FP.instPyMath (fun x => FP.ext (h.sqrt x)) c l).trans e) p hp
    refine ⟨p, (hmem p).mpr ⟨hp, hok, ray_kept h r p hok hor hr hEτ ht ?_⟩, hn2⟩
    rw [← hx, ← hy]
    exact hn2

/-- **C199** A ray whose line the code takes for horizontal. -/
theorem C199_horizontal (h : Accurate m) (c : Circle (FP double)) (r : Ray (FP double)) (hr : r.dir.FOk) (hor : r.origin.FOk) {B : ℝ} (hB1 : 1 ≤ B)
    (ho : |r.origin.x.val| ≤ B ∧ |r.origin.y.val| ≤ B) {l : Line (FP double)}
    (hl : l = Line.ofAngle (Vec.ofVec r.origin) (AngleDeg.ofAngle r.dir)) (h0 : |l.a.val| < (EPSILON : FP double).val) :
    ∃ ps, c.intersectionRay r = .ok ps ∧
      (∀ p ∈ ps,
        |(p.x.val - c.center.x.val) ^ 2 + (p.y.val - c.center.y.val) ^ 2 - c.radius.val ^ 2| ≤
          (EPSILON : FP double).val / 4 + (2 : ℝ) ^ (-39 : ℤ) * reach c (l.c.val / l.b.val) ^ 2 ∧
        |(unit r.dir.deg.val).1 * (p.y.val - r.origin.y.val) - (unit r.dir.deg.val).2 * (p.x.val - r.origin.x.val)| ≤
          (2 : ℝ) ^ (-45 : ℤ) * (|l.b.val| * reach c (l.c.val / l.b.val)) + |l.a.val * p.x.val| +
            1 / 562949953421312 * (|p.x.val - r.origin.x.val| + |p.y.val - r.origin.y.val| + B) ∧
        (2 * (EPSILON : FP double).val ≤ d r.origin.fpt p.fpt →
          ∃ k : ℤ, |direction (p.x.val - r.origin.x.val) (p.y.val - r.origin.y.val) - r.dir.deg.val - 360 * k| < 1 + (2 : ℝ) ^ (-42 : ℤ))) ∧
      ((c.radius.val ^ 2 + (EPSILON : FP double).val + (2 : ℝ) ^ (-43 : ℤ) * reach c (l.c.val / l.b.val) ^ 2) * l.b.val ^ 2 ≤
          (l.b.val * c.center.y.val + l.c.val) ^ 2 → ps = []) ∧
      (∀ x y t D τ : ℝ, D = (|l.a.val * x| + 1 / 562949953421312 * (2 * t + B)) / |l.b.val| → 0 ≤ τ → 100 * τ ≤ t →
        1500 * (2 : ℝ) ^ (-53 : ℤ) * reach c (l.c.val / l.b.val) ^ 2 + 4 * (2 * |c.radius.val| * D + D ^ 2) < (EPSILON : FP double).val →
        6 * (EPSILON : FP double).val + (2 : ℝ) ^ (-39 : ℤ) * reach c (l.c.val / l.b.val) ^ 2 + (32 * |c.radius.val| * D + 18 * D ^ 2) ≤ τ ^ 2 →
        (x - c.center.x.val) ^ 2 + (y - c.center.y.val) ^ 2 = c.radius.val ^ 2 →
        x = r.origin.x.val + t * (unit r.dir.deg.val).1 → y = r.origin.y.val + t * (unit r.dir.deg.val).2 →
        ∃ p ∈ ps, (p.x.val - x) ^ 2 + (p.y.val - y) ^ 2 ≤ τ ^ 2) := by
  obtain ⟨k1, k2, k3⟩ := ray_line h r hr hB1 ho hl
  have s1 : |(unit r.dir.deg.val).2| ≤ 1 := Real.abs_sin_le_one _
  have s2 : |(unit r.dir.deg.val).1| ≤ 1 := Real.abs_cos_le_one _
  have hE := fp_EPSILON.1
  have hE2 := fp_EPSILON_le
  have hD : |l.b.val| ≤ 3 * 1 := by
    have h1 := abs_sub_abs_le_abs_sub l.b.val (unit r.dir.deg.val).1
    linarith
  have h1 : (EPSILON : FP double).val ≤ |l.b.val| := by
    have hs : |(unit r.dir.deg.val).2| ≤ 1 / 1000 := by
      have := abs_sub_abs_le_abs_sub (unit r.dir.deg.val).2 (-l.a.val)
      rw [sub_neg_eq_add, add_comm (unit r.dir.deg.val).2, abs_neg] at this
      linarith
    have e : (unit r.dir.deg.val).2 ^ 2 + (unit r.dir.deg.val).1 ^ 2 = 1 := Real.sin_sq_add_cos_sq _
    have hs2 := pow_le_pow_left₀ (abs_nonneg _) hs 2
    rw [sq_abs] at hs2
    have hc : 1 / 2 ≤ |(unit r.dir.deg.val).1| := by
      by_contra hc
      push Not at hc
      have := pow_le_pow_left₀ (abs_nonneg _) hc.le 2
      rw [sq_abs] at this
      norm_num at this hs2
      linarith
    have := abs_sub_abs_le_abs_sub (unit r.dir.deg.val).1 l.b.val
    rw [abs_sub_comm] at this
    linarith
  have z1 := (line_size le_rfl (by
    rw [show (1 : ℝ) = (2 : ℝ) ^ (0 : ℤ) by norm_num]; exact zpow_le_zpow_right₀ one_le_two (by norm_num)) hD hD h1).1
  have hl2 : ¬ (fabs l.a < (EPSILON : FP double) ∧ fabs l.b < (EPSILON : FP double)) := by
    rintro ⟨_, h2⟩
    rw [FP.lt_def, fp_fabs_val] at h2
    linarith
  obtain ⟨qs, e, g1, g2, _, g4⟩ := C184_horizontal c l h0 h1 z1
  obtain ⟨ps, e2, hmem⟩ := ray_filter h c r hl hl2 e
  refine ⟨ps, e2, ?_, ?_, ?_⟩
  · intro p hp
    obtain ⟨hq, hok, hk⟩ := (hmem p).mp hp
    obtain ⟨f1, f2⟩ := g1 p hq
    refine ⟨f2, ?_, fun hd => ray_angle h r p hok hor hr hd hk⟩
    have k := k3 p.x.val p.y.val
    rw [show (unit r.dir.deg.val).1 * (p.y.val - r.origin.y.val) - (unit r.dir.deg.val).2 * (p.x.val - r.origin.x.val) =
      (l.b.val * p.y.val + l.c.val) + l.a.val * p.x.val + -((l.a.val * p.x.val + l.b.val * p.y.val + l.c.val) -
        ((unit r.dir.deg.val).1 * (p.y.val - r.origin.y.val) - (unit r.dir.deg.val).2 * (p.x.val - r.origin.x.val))) by ring]
    refine (abs_add_three _ _ _).trans ?_
    rw [abs_neg]
    gcongr
  · intro hm
    rw [List.eq_nil_iff_forall_not_mem]
    intro p hp
    have := ((hmem p).mp hp).1
    rw [g2 hm] at this
    simp at this
  · intro x y t D τ hDd hτ ht hc1 hc2 hxy hx hy
    have hb0 : 0 < |l.b.val| := lt_of_lt_of_le (by positivity) (fp_EPSILON_ge.trans h1)
    have hbn : l.b.val ≠ 0 := abs_pos.mp hb0
    have t0 : 0 ≤ t := by linarith
    obtain ⟨δ, hδ⟩ : ∃ δ, δ = (l.b.val * y + l.c.val) / l.b.val := ⟨_, rfl⟩
    have eδ : δ * l.b.val = l.b.val * y + l.c.val := by rw [hδ]; field_simp
    have k := k3 x y
    have ex : x - r.origin.x.val = t * (unit r.dir.deg.val).1 := by rw [hx]; ring
    have ey : y - r.origin.y.val = t * (unit r.dir.deg.val).2 := by rw [hy]; ring
    rw [ex, ey, show (unit r.dir.deg.val).1 * (t * (unit r.dir.deg.val).2) - (unit r.dir.deg.val).2 * (t * (unit r.dir.deg.val).1) = 0 by ring,
      sub_zero, abs_mul, abs_mul, abs_of_nonneg t0] at k
    have m1 := mul_le_mul_of_nonneg_left s2 t0
    have m2 := mul_le_mul_of_nonneg_left s1 t0
    have hδD : |δ| ≤ D := by
      rw [hDd, le_div_iff₀ hb0, ← abs_mul, eδ]
      have := abs_sub (l.a.val * x + l.b.val * y + l.c.val) (l.a.val * x)
      rw [show l.a.val * x + l.b.val * y + l.c.val - l.a.val * x = l.b.val * y + l.c.val by ring] at this
      linarith
    have hR : |y - c.center.y.val| ≤ |c.radius.val| := by
      apply sq_le_sq.mp
      have := sq_nonneg (x - c.center.x.val)
      linarith
    have hD0 : 0 ≤ D := (abs_nonneg _).trans hδD
    have hδ2 : δ ^ 2 ≤ D ^ 2 := by rw [← sq_abs δ]; exact pow_le_pow_left₀ (abs_nonneg _) hδD 2
    have hm : |y - c.center.y.val| * |δ| ≤ |c.radius.val| * D := mul_le_mul hR hδD (abs_nonneg _) (abs_nonneg _)
    obtain ⟨p, hp, hn⟩ := g4 x y δ eδ hxy (lt_of_le_of_lt (by
      have : 2 * |y - c.center.y.val| * |δ| + δ ^ 2 ≤ 2 * |c.radius.val| * D + D ^ 2 := by linarith
      gcongr) hc1)
    have hn2 : (p.x.val - x) ^ 2 + (p.y.val - y) ^ 2 ≤ τ ^ 2 := by
      refine hn.trans (le_trans ?_ hc2)
      have : 32 * |y - c.center.y.val| * |δ| + 18 * δ ^ 2 ≤ 32 * |c.radius.val| * D + 18 * D ^ 2 := by linarith
      gcongr
    have hEτ : (EPSILON : FP double).val ≤ τ := by
      refine le_of_abs_le (abs_le_of_sq_le_sq ?_ hτ)
      refine le_trans ?_ hc2
      have h3 := fp_EPSILON_sq
      have h4 : 0 ≤ (2 : ℝ) ^ (-39 : ℤ) * reach c (l.c.val / l.b.val) ^ 2 := by positivity
      have h5 : 0 ≤ 32 * |c.radius.val| * D + 18 * D ^ 2 := by positivity
      have h6 := sq_nonneg (EPSILON : FP double).val
      linarith
    have hok := intersectionLine_double hl2 ((intersectionLine_math m FP.instPyMath (fun x => FP.ext (h.sqrt x)) c l).trans e) p hp
    refine ⟨p, (hmem p).mpr ⟨hp, hok, ray_kept h r p hok hor hr hEτ ht ?_⟩, hn2⟩
    rw [← hx, ← hy]
    exact hn2

/-- The unit circle and the ray from its center upwards: a point near (0, 1) is returned, and every returned point is within two degrees of
upwards, so none is near (0, -1). -/
example (h : Accurate m) : ∃ ps, (⟨Vec.ofXY ⟨0⟩ ⟨0⟩, ⟨1⟩⟩ : Circle (FP double)).intersectionRay ⟨Vec.ofXY ⟨0⟩ ⟨0⟩, ⟨⟨90⟩⟩⟩ = .ok ps ∧
    (∃ p ∈ ps, (p.x.val - 0) ^ 2 + (p.y.val - 1) ^ 2 ≤ (1 / 100) ^ 2) ∧
    ∀ p ∈ ps, 2 * (EPSILON : FP double).val ≤ d ((0, 0) : Pt) p.fpt →
      ∃ k : ℤ, |direction (p.x.val - 0) (p.y.val - 0) - 90 - 360 * k| < 2 := by
  have hE := fp_EPSILON_le
  have hE0 := fp_EPSILON.1
  have d90 : IsDouble (90 : ℝ) := by exact_mod_cast isDouble_nat (n := 90) (by norm_num)
  obtain ⟨r, hrd⟩ : ∃ r : Ray (FP double), r = ⟨Vec.ofXY ⟨0⟩ ⟨0⟩, ⟨⟨90⟩⟩⟩ := ⟨_, rfl⟩
  have hr : r.dir.FOk := by rw [hrd]; exact ⟨d90, by unfold FNormal; norm_num⟩
  have hor : r.origin.FOk := by rw [hrd]; exact ⟨isDouble_zero, isDouble_zero⟩
  have ho : |r.origin.x.val| ≤ 1 ∧ |r.origin.y.val| ≤ 1 := by rw [hrd]; change |(0 : ℝ)| ≤ 1 ∧ |(0 : ℝ)| ≤ 1; norm_num
  obtain ⟨l, hl⟩ : ∃ l, l = Line.ofAngle (Vec.ofVec r.origin) (AngleDeg.ofAngle r.dir) := ⟨_, rfl⟩
  have u1 : (unit r.dir.deg.val).1 = 0 := by
    rw [hrd]; change Real.cos (90 * (Real.pi / 180)) = 0
    rw [show (90 : ℝ) * (Real.pi / 180) = Real.pi / 2 by ring, Real.cos_pi_div_two]
  have u2 : (unit r.dir.deg.val).2 = 1 := by
    rw [hrd]; change Real.sin (90 * (Real.pi / 180)) = 1
    rw [show (90 : ℝ) * (Real.pi / 180) = Real.pi / 2 by ring, Real.sin_pi_div_two]
  have ox : r.origin.x.val = 0 := by rw [hrd]; rfl
  have oy : r.origin.y.val = 0 := by rw [hrd]; rfl
  obtain ⟨k1, k2, k3⟩ := ray_line h r hr le_rfl ho hl
  have kc := k3 0 0
  rw [u2] at k1
  rw [u1, sub_zero] at k2
  simp only [ox, oy, sub_zero, abs_zero, mul_zero, zero_add, mul_one] at kc
  obtain ⟨q1, q2⟩ := abs_le.mp k1
  have la : 99 / 100 ≤ |l.a.val| := by rw [abs_of_neg (by linarith)]; linarith
  have hca : |l.c.val / l.a.val| ≤ 1 / 100 := by
    rw [abs_div, div_le_iff₀ (by linarith)]; linarith
  have hba : |l.b.val / l.a.val| ≤ 1 / 100 := by
    rw [abs_div, div_le_iff₀ (by linarith)]; linarith
  obtain ⟨ps, e, g1, _, g3⟩ := C199_ray h ⟨Vec.ofXY ⟨0⟩ ⟨0⟩, ⟨1⟩⟩ r hr hor le_rfl ho hl (by linarith)
  have T : (2 : ℝ) ^ (-200 : ℤ) ≤ 1 / 2 := (zpow_le_zpow_right₀ one_le_two (show (-200 : ℤ) ≤ -1 by norm_num)).trans (by norm_num)
  obtain ⟨R, hR⟩ : ∃ R, R = reach (⟨Vec.ofXY ⟨0⟩ ⟨0⟩, ⟨1⟩⟩ : Circle (FP double)) (l.c.val / l.a.val) := ⟨_, rfl⟩
  have R1 : R ≤ 2 := by
    rw [hR]
    unfold reach
    change _ + |(0 : ℝ)| + |(0 : ℝ)| + |(1 : ℝ)| + _ ≤ 2
    rw [abs_zero, abs_one]
    generalize (2 : ℝ) ^ (-200 : ℤ) = w at T ⊢
    linarith
  have R0 : 0 ≤ R := by rw [hR]; unfold reach; positivity
  have R2 := pow_le_pow_left₀ R0 R1 2
  obtain ⟨D, hDd⟩ : ∃ D, D = 1 / 562949953421312 * (2 * 1 + 1) / |l.a.val| := ⟨_, rfl⟩
  have D0 : 0 ≤ D := by rw [hDd]; positivity
  have D1 : D ≤ 1 / 140000000000000 := by
    rw [hDd, div_le_iff₀ (by linarith)]; norm_num; linarith
  have D2 := pow_le_pow_left₀ D0 D1 2
  rw [← hR] at g3
  refine ⟨ps, by rw [← hrd]; exact e, ?_, ?_⟩
  · refine g3 0 1 1 D (1 / 100) hDd (by norm_num) (by norm_num) ?_ ?_ (by change ((0 : ℝ) - 0) ^ 2 + ((1 : ℝ) - 0) ^ 2 = 1 ^ 2; norm_num)
      (by rw [u1, ox]; norm_num) (by rw [u2, oy]; norm_num)
    · rw [show (2 : ℝ) ^ (-53 : ℤ) = 1 / 9007199254740992 by norm_num]
      change 1500 * (1 / 9007199254740992) * _ + 4 * _ * (2 * |(1 : ℝ)| * D + D ^ 2) < _
      rw [abs_one]
      obtain ⟨q, hq⟩ : ∃ q, q = |l.b.val / l.a.val| := ⟨_, rfl⟩
      rw [← hq] at hba ⊢
      have q0 : 0 ≤ q := by rw [hq]; exact abs_nonneg _
      have v1 : (R * (1 + q)) ^ 2 ≤ (2 * (1 + 1 / 100)) ^ 2 := by gcongr
      have v2 : 4 * (1 + q) ^ 2 * (2 * 1 * D + D ^ 2) ≤ 4 * (1 + 1 / 100) ^ 2 * (2 * 1 * (1 / 140000000000000) + (1 / 140000000000000) ^ 2) := by gcongr
      have := fp_EPSILON_ge
      rw [show (2 : ℝ) ^ (-20 : ℤ) = 1 / 1048576 by norm_num] at this
      norm_num at this v1 v2 ⊢
      linarith
    · rw [show (2 : ℝ) ^ (-39 : ℤ) = 1 / 549755813888 by norm_num]
      change _ + _ + (32 * |(1 : ℝ)| * D + 18 * D ^ 2) ≤ _
      rw [abs_one]
      norm_num at R2 hE D1 D2 ⊢
      linarith
  · intro p hp hd
    have hd' : 2 * (EPSILON : FP double).val ≤ d r.origin.fpt p.fpt := by rw [hrd]; exact hd
    obtain ⟨k, hk⟩ := (g1 p hp).2.2 hd'
    refine ⟨k, ?_⟩
    rw [ox, oy, show r.dir.deg.val = 90 by rw [hrd]] at hk
    refine hk.trans ?_
    norm_num

end

end PyrusGeom
