import Verif.Props.Rect
import Verif.Model.Sector

/-! # Properties C64, C65: `Sector2D` -/

namespace PyrusGeom
open Spec

/-- The annular sector: points at distance between `r0` and `r1` from `c` in a direction on the clockwise arc from `s`
to `e`. -/
def Spec.sectorSet (c : Pt) (r0 r1 s e : ℝ) : Set Pt :=
  {z | ∃ ρ φ : ℝ, r0 ≤ ρ ∧ ρ ≤ r1 ∧ InArc s e φ ∧ z = c + ρ • unit φ}

theorem InArc.congr {l r x y : ℝ} (h : InArc l r x) (hxy : AngleEq x y) : InArc l r y := by
  obtain ⟨t, u, h1, h2, h3⟩ := h
  exact ⟨t, u, h1.congr (AngleEq.refl l) hxy, h2, h3⟩

/-- Polar coordinates determine membership away from the center. -/
theorem mem_sectorSet_polar {c z : Pt} {r0 r1 s e ρ φ : ℝ} (h0 : 0 ≤ r0) (hρ : 0 < ρ) (hz : z = c + ρ • unit φ) :
    z ∈ sectorSet c r0 r1 s e ↔ r0 ≤ ρ ∧ ρ ≤ r1 ∧ InArc s e φ := by
  constructor
  · rintro ⟨σ, ψ, h1, h2, h3, h4⟩
    have he : ρ • unit φ = σ • unit ψ := add_left_cancel (hz.symm.trans h4)
    obtain ⟨e1, e2⟩ := smul_unit_inj hρ (h0.trans h1) he
    rw [e1]
    exact ⟨h1, h2, InArc.congr h3 e2.symm⟩
  · rintro ⟨h1, h2, h3⟩
    exact ⟨ρ, φ, h1, h2, h3, hz⟩

theorem ofAngle_range {a : AngleDeg ℝ} (h : -180 < a.deg ∧ a.deg ≤ 180) :
    -180 < (AngleDeg.ofAngle a).deg ∧ (AngleDeg.ofAngle a).deg ≤ 180 := by
  rw [AngleDeg.ofAngle_of_normal ⟨h.1.le, h.2⟩]; exact h

/-- **C64**, the method `contains` itself is right for whatever radii are stored: for every sector object with a
non-negative inner radius it decides the annular sector given by the stored fields. Points within the EPSILON box of the
center and angles stored as -180 are excluded (see C05). What breaks the claim is the constructor, see
`C64_contains_partial`. -/
theorem C64_stored_partial (s : Sector ℝ) (p : Vec ℝ) (h0 : 0 ≤ s.minR) (h1 : 0 ≤ s.maxR)
    (hs : -180 < s.start.deg ∧ s.start.deg ≤ 180) (he : -180 < s.stop.deg ∧ s.stop.deg ≤ 180)
    (hp : ¬ (p.sub s.center).Tiny) :
    s.contains p = true ↔ p.pt ∈ sectorSet s.center.pt s.minR s.maxR s.start.degree s.stop.degree := by
  obtain ⟨c, r0, r1, s, e⟩ := s
  simp only at *
  have hz : p.pt = c.pt + len (p.sub c).pt • unit (p.sub c).th.degree := by
    rw [← th_degree_unit hp, Vec.pt_sub]; abel
  have hpos : 0 < len (p.sub c).pt := by
    rcases (Real.sqrt_nonneg ((p.sub c).pt.1 ^ 2 + (p.sub c).pt.2 ^ 2)).lt_or_eq with h | h
    · exact h
    · exfalso; apply hp
      have h2 := (Real.sqrt_eq_zero (by positivity)).mp h.symm
      have hx : (p.sub c).x = 0 := by
        have := sq_nonneg (p.sub c).pt.1; have := sq_nonneg (p.sub c).pt.2
        exact pow_eq_zero_iff (two_ne_zero) |>.mp (by simp only [Vec.pt_fst, Vec.pt_snd] at *; linarith)
      have hy : (p.sub c).y = 0 := by
        have := sq_nonneg (p.sub c).pt.1; have := sq_nonneg (p.sub c).pt.2
        exact pow_eq_zero_iff (two_ne_zero) |>.mp (by simp only [Vec.pt_fst, Vec.pt_snd] at *; linarith)
      have := EPSILON_pos
      exact ⟨by rw [hx, abs_zero]; exact this, by rw [hy, abs_zero]; exact this⟩
  rw [mem_sectorSet_polar h0 hpos hz]
  simp only [Sector.contains, Bool.and_eq_true, decide_eq_true_eq]
  rw [C05_within_partial _ _ _ (p.sub c).th_range hs he]
  have hr2 : (p.sub c).r2 = len (p.sub c).pt ^ 2 := by
    rw [Vec.r2_real, len, Real.sq_sqrt (by positivity)]; rfl
  rw [hr2, and_assoc]
  constructor
  · rintro ⟨a1, a2, a3⟩
    exact ⟨le_of_sq_le_sq (by nlinarith) hpos.le, le_of_sq_le_sq (by nlinarith) h1, a3⟩
  · rintro ⟨a1, a2, a3⟩
    exact ⟨by nlinarith, by nlinarith, a3⟩

/-- **C64**, what `contains` decides for non-negative radii: the inner radius is lost, it is always 0. Points within
the EPSILON box of the center and angles stored as -180 are excluded (see C05). -/
theorem C64_contains_partial (c : Vec ℝ) (r0 r1 : ℝ) (s e : AngleDeg ℝ) (p : Vec ℝ) (h0 : 0 ≤ r0) (h1 : r0 ≤ r1)
    (hs : -180 < s.deg ∧ s.deg ≤ 180) (he : -180 < e.deg ∧ e.deg ≤ 180) (hp : ¬ (p.sub c).Tiny) :
    (Sector.ofArgs c r0 r1 s e).contains p = true ↔ p.pt ∈ sectorSet c.pt 0 r1 s.degree e.degree := by
  have hmin : pyMin (0:ℝ) r0 = 0 := by rw [pyMin_real]; exact min_eq_left h0
  have hmax : pyMax r0 r1 = r1 := by rw [pyMax_real]; exact max_eq_right h1
  have hsub : p.sub (Vec.ofVec c) = p.sub c := rfl
  have := C64_stored_partial (Sector.ofArgs c r0 r1 s e) p
    (by simp [Sector.ofArgs, hmin]) (by simp [Sector.ofArgs, hmax, h0.trans h1]) (ofAngle_range hs) (ofAngle_range he)
    (by simpa [Sector.ofArgs, hsub] using hp)
  rw [this]
  simp only [Sector.ofArgs, Nat.cast_zero, hmin, hmax, AngleDeg.ofAngle_of_normal ⟨hs.1.le, hs.2⟩,
    AngleDeg.ofAngle_of_normal ⟨he.1.le, he.2⟩]
  rfl

/-- **C64**, points within the EPSILON box of the center: decided as if their direction were 0 degrees. -/
theorem C64_center (c : Vec ℝ) (r0 r1 : ℝ) (s e : AngleDeg ℝ) (p : Vec ℝ) (h0 : 0 ≤ r0)
    (hs : -180 < s.deg ∧ s.deg ≤ 180) (he : -180 < e.deg ∧ e.deg ≤ 180) (hp : (p.sub c).Tiny) :
    (Sector.ofArgs c r0 r1 s e).contains p = true ↔
      (p.sub c).r2 ≤ max r0 r1 * max r0 r1 ∧ InArc s.degree e.degree 0 := by
  have hsub : p.sub (Vec.ofVec c) = p.sub c := rfl
  have hmin : pyMin (0:ℝ) r0 = 0 := by rw [pyMin_real]; exact min_eq_left h0
  simp only [Sector.contains, Sector.ofArgs, hsub, Bool.and_eq_true, decide_eq_true_eq, Nat.cast_zero, hmin, pyMax_real]
  rw [C05_within_partial _ _ _ (p.sub c).th_range (ofAngle_range hs) (ofAngle_range he),
    AngleDeg.ofAngle_of_normal ⟨hs.1.le, hs.2⟩, AngleDeg.ofAngle_of_normal ⟨he.1.le, he.2⟩,
    AngleDeg.degree_of_normal (p.sub c).th_normal, Vec.th_tiny hp, and_assoc]
  have : (0:ℝ) * 0 ≤ (p.sub c).r2 := by rw [Vec.r2_real, zero_mul]; positivity
  constructor
  · rintro ⟨_, h⟩; exact h
  · intro h; exact ⟨this, h⟩

/-- **C64** is false: the point at distance 1/2 is accepted by the sector with radii 1 and 2. -/
theorem C64_refuted : ∃ (c : Vec ℝ) (r0 r1 : ℝ) (s e : AngleDeg ℝ) (p : Vec ℝ), 0 ≤ r0 ∧ r0 ≤ r1 ∧
    (Sector.ofArgs c r0 r1 s e).contains p = true ∧ p.pt ∉ sectorSet c.pt r0 r1 s.degree e.degree := by
  have dg : ∀ x : ℝ, -180 ≤ x → x ≤ 180 → (AngleDeg.mk x).degree = x := fun x h1 h2 =>
    AngleDeg.degree_of_normal (a := ⟨x⟩) ⟨h1, h2⟩
  have hpt : (Vec.ofXY (1/2 : ℝ) 0).pt = (Vec.ofXY (0:ℝ) 0).pt + (1/2 : ℝ) • unit 0 := by
    refine Prod.ext ?_ ?_ <;> simp [unit, Vec.pt]
  have arc : InArc (-90) 90 0 := ⟨90, 180, ⟨by norm_num, by norm_num, 0, by norm_num⟩,
    ⟨by norm_num, by norm_num, 0, by norm_num⟩, by norm_num⟩
  refine ⟨Vec.ofXY 0 0, 1, 2, ⟨-90⟩, ⟨90⟩, Vec.ofXY (1/2) 0, by norm_num, by norm_num, ?_, ?_⟩
  · rw [C64_contains_partial _ _ _ _ _ _ (by norm_num) (by norm_num) (by norm_num) (by norm_num),
      dg _ (by norm_num) (by norm_num), dg _ (by norm_num) (by norm_num)]
    · exact ⟨1/2, 0, by norm_num, by norm_num, arc, hpt⟩
    · intro h
      have := h.1
      rw [EPSILON_real] at this
      norm_num [abs_of_pos] at this
  · rw [mem_sectorSet_polar (by norm_num) (by norm_num : (0:ℝ) < 1/2) hpt]
    norm_num

/-- **C64**, `radius_max` is false: it reports the minimal radius, which is 0 for all non-negative radii. -/
theorem C64_refuted_radius (c : Vec ℝ) (r0 r1 : ℝ) (s e : AngleDeg ℝ) (h0 : 0 ≤ r0) :
    (Sector.ofArgs c r0 r1 s e).radiusMax = 0 ∧ (Sector.ofArgs c r0 r1 s e).radiusMin = 0 := by
  have hmin : pyMin (0:ℝ) r0 = 0 := by rw [pyMin_real]; exact min_eq_left h0
  simp [Sector.radiusMax, Sector.radiusMin, Sector.ofArgs, hmin]

/-- The arc of a sector in degrees is the clockwise turn from start to end. -/
theorem Sector.arcDeg_turn (c : Vec ℝ) (r0 r1 : ℝ) (s e : AngleDeg ℝ) :
    CwTurn s.degree e.degree (Sector.ofArgs c r0 r1 s e).arcDeg := by
  have hn := AngleDeg.ofNum_normal ((AngleDeg.ofAngle e).deg - (AngleDeg.ofAngle s).deg)
  have hc := AngleDeg.ofNum_angleEq ((AngleDeg.ofAngle e).deg - (AngleDeg.ofAngle s).deg)
  have he : AngleEq (AngleDeg.ofAngle e).deg e.degree := AngleDeg.ofNum_angleEq _
  have hs : AngleEq (AngleDeg.ofAngle s).deg s.degree := AngleDeg.ofNum_angleEq _
  have key : AngleEq (s.degree + (AngleDeg.ofNum ((AngleDeg.ofAngle e).deg - (AngleDeg.ofAngle s).deg)).deg) e.degree := by
    obtain ⟨k, hk⟩ := hc; obtain ⟨l, hl⟩ := he; obtain ⟨m, hm⟩ := hs
    exact ⟨k + l - m, by push_cast; linarith⟩
  simp only [Sector.arcDeg, Sector.ofArgs, AngleDeg.sub, AngleDeg.degree_, Nat.cast_zero, Nat.cast_ofNat]
  split
  · refine ⟨by linarith [hn.1], by linarith, ?_⟩
    obtain ⟨k, hk⟩ := key
    exact ⟨k + 1, by push_cast; linarith⟩
  · exact ⟨by linarith, by linarith [hn.2], key⟩

/-- **C64**, area and arc lengths for all arguments, in terms of the radii the constructor keeps, `min 0 r0` and
`max r0 r1`: the fraction of the ring (and of its two circles) swept by the clockwise turn from start to end. -/
theorem C64_area_kept (c : Vec ℝ) (r0 r1 : ℝ) (s e : AngleDeg ℝ) (t : ℝ) (ht : CwTurn s.degree e.degree t) :
    (Sector.ofArgs c r0 r1 s e).area = Real.pi * (max r0 r1 ^ 2 - min 0 r0 ^ 2) * (t / 360) ∧
    (Sector.ofArgs c r0 r1 s e).circumferenceMax = 2 * Real.pi * max r0 r1 * (t / 360) ∧
    (Sector.ofArgs c r0 r1 s e).circumferenceMin = 2 * Real.pi * min 0 r0 * (t / 360) := by
  have e1 : (Sector.ofArgs c r0 r1 s e).arcDeg = t := (Sector.arcDeg_turn c r0 r1 s e).unique ht
  have e2 : (Sector.ofArgs c r0 r1 s e).minR = min 0 r0 := by simp [Sector.ofArgs, pyMin_real]
  have e3 : (Sector.ofArgs c r0 r1 s e).maxR = max r0 r1 := by simp [Sector.ofArgs, pyMax_real]
  have hpi : (PyMath.pi : ℝ) = Real.pi := rfl
  simp only [Sector.area, Sector.circumferenceMax, Sector.circumferenceMin, e1, e2, e3, hpi, Nat.cast_ofNat]
  refine ⟨by ring, by ring, by ring⟩

/-- The kept inner radius matters for a negative argument. -/
example : (Sector.ofArgs (Vec.ofXY (0:ℝ) 0) (-1) 2 ⟨0⟩ ⟨90⟩).area = 3 * Real.pi / 4 ∧
    (Sector.ofArgs (Vec.ofXY (0:ℝ) 0) (-1) 2 ⟨0⟩ ⟨90⟩).circumferenceMin = -(Real.pi / 2) := by
  have dg : ∀ x : ℝ, -180 ≤ x → x ≤ 180 → (AngleDeg.mk x).degree = x := fun x h1 h2 =>
    AngleDeg.degree_of_normal (a := ⟨x⟩) ⟨h1, h2⟩
  obtain ⟨h1, -, h3⟩ := C64_area_kept (Vec.ofXY (0:ℝ) 0) (-1) 2 ⟨0⟩ ⟨90⟩ 90 (by
    rw [dg _ (by norm_num) (by norm_num), dg _ (by norm_num) (by norm_num)]
    exact ⟨by norm_num, by norm_num, 0, by norm_num⟩)
  rw [h1, h3]
  norm_num
  constructor <;> ring

/-- **C64**, area and arc lengths for non-negative radii: the stated fraction of the disc of radius `r1`, the inner
radius being lost. -/
theorem C64_area_partial (c : Vec ℝ) (r0 r1 : ℝ) (s e : AngleDeg ℝ) (h0 : 0 ≤ r0) (h1 : r0 ≤ r1) (t : ℝ)
    (ht : CwTurn s.degree e.degree t) :
    (Sector.ofArgs c r0 r1 s e).area = Real.pi * r1 ^ 2 * (t / 360) ∧
    (Sector.ofArgs c r0 r1 s e).circumferenceMax = 2 * Real.pi * r1 * (t / 360) ∧
    (Sector.ofArgs c r0 r1 s e).circumferenceMin = 0 := by
  have := C64_area_kept c r0 r1 s e t ht
  rw [min_eq_left h0, max_eq_right h1] at this
  refine ⟨by rw [this.1]; ring, this.2.1, by rw [this.2.2]; ring⟩

/-- **C64**, the area is false for a positive inner radius: the hole is not subtracted. -/
theorem C64_refuted_area (c : Vec ℝ) (r0 r1 : ℝ) (s e : AngleDeg ℝ) (h0 : 0 < r0) (h1 : r0 ≤ r1) (t : ℝ)
    (ht : CwTurn s.degree e.degree t) (h : t ≠ 0) :
    (Sector.ofArgs c r0 r1 s e).area ≠ Real.pi * (r1 ^ 2 - r0 ^ 2) * (t / 360) := by
  rw [(C64_area_partial c r0 r1 s e h0.le h1 t ht).1]
  intro h2
  have : Real.pi * r0 ^ 2 * (t / 360) = 0 := by linear_combination h2
  have := Real.pi_pos
  have : Real.pi * r0 ^ 2 * (t / 360) ≠ 0 := by positivity
  contradiction

/-- Non-vacuity of C64: a quarter of the unit disc has area π/4. -/
example : (Sector.ofArgs (Vec.ofXY (0:ℝ) 0) 0 1 ⟨0⟩ ⟨90⟩).area = Real.pi / 4 := by
  have dg : ∀ x : ℝ, -180 ≤ x → x ≤ 180 → (AngleDeg.mk x).degree = x := fun x h1 h2 =>
    AngleDeg.degree_of_normal (a := ⟨x⟩) ⟨h1, h2⟩
  rw [(C64_area_partial _ 0 1 ⟨0⟩ ⟨90⟩ le_rfl (by norm_num) 90 (by
    rw [dg _ (by norm_num) (by norm_num), dg _ (by norm_num) (by norm_num)]
    exact ⟨by norm_num, by norm_num, 0, by norm_num⟩)).1]
  ring

/-! ## C65 -/

/-- **C65**, exactly when a sector equals itself: the stored radii differ by less than EPSILON. -/
theorem C65_refl_partial (c : Vec ℝ) (r0 r1 : ℝ) (s e : AngleDeg ℝ) :
    (Sector.ofArgs c r0 r1 s e).eq (Sector.ofArgs c r0 r1 s e) = true ↔ max r0 r1 - min 0 r0 < EPSILON := by
  have e0 := EPSILON_pos
  have hnn : ∀ a : AngleDeg ℝ, (AngleDeg.ofAngle a).eq (AngleDeg.ofAngle a) = true := by
    intro a
    have h := AngleDeg.ofNum_normal a.degree
    have : (AngleDeg.ofAngle a).degree = (AngleDeg.ofAngle a).deg := AngleDeg.degree_of_normal h
    simp [AngleDeg.eq, AngleDeg.eqNum, this, fabs_real, e0]
  have hge : 0 ≤ max r0 r1 - min 0 r0 := by
    have := le_max_left r0 r1; have := min_le_right 0 r0; linarith
  simp only [Sector.eq, Sector.ofArgs, Sector.radiusMin, Sector.radiusMax, hnn, fabs_real, pyMin_real, pyMax_real,
    Bool.and_eq_true, decide_eq_true_eq, Nat.cast_zero, sub_self, abs_zero, Vec.equalsWeakly, and_true, e0, true_and]
  rw [abs_of_nonneg hge]

/-- **C65**, what `==` compares for any two sectors: the kept minimal radii, and the maximal radius of the left one with
the *minimal* radius of the right one. -/
theorem C65_eq_iff (c c' : Vec ℝ) (r0 r1 r0' r1' : ℝ) (s e s' e' : AngleDeg ℝ) :
    (Sector.ofArgs c r0 r1 s e).eq (Sector.ofArgs c' r0' r1' s' e') = true ↔
      (|c.x - c'.x| < EPSILON ∧ |c.y - c'.y| < EPSILON) ∧
      (AngleDeg.ofAngle s).eq (AngleDeg.ofAngle s') = true ∧ (AngleDeg.ofAngle e).eq (AngleDeg.ofAngle e') = true ∧
      |min 0 r0 - min 0 r0'| < EPSILON ∧ |max r0 r1 - min 0 r0'| < EPSILON := by
  simp only [Sector.eq, Sector.ofArgs, Sector.radiusMin, Sector.radiusMax, fabs_real, pyMin_real, pyMax_real,
    Bool.and_eq_true, decide_eq_true_eq, Nat.cast_zero, Vec.equalsWeakly, Vec.ofVec, and_assoc]

/-- `C65_eq_iff` separates a sector from one with a larger inner radius, in both orders. -/
example : (Sector.ofArgs (Vec.ofXY (0:ℝ) 0) (-1) (-1) ⟨0⟩ ⟨90⟩).eq
      (Sector.ofArgs (Vec.ofXY (0:ℝ) 0) 0 0 ⟨0⟩ ⟨90⟩) = false ∧
    (Sector.ofArgs (Vec.ofXY (0:ℝ) 0) 0 0 ⟨0⟩ ⟨90⟩).eq
      (Sector.ofArgs (Vec.ofXY (0:ℝ) 0) (-1) (-1) ⟨0⟩ ⟨90⟩) = false := by
  constructor <;> rw [← Bool.not_eq_true, C65_eq_iff, EPSILON_real] <;> norm_num

/-- **C65** is false: no sector with a maximal radius of at least EPSILON equals itself. -/
theorem C65_refuted (c : Vec ℝ) (r0 r1 : ℝ) (s e : AngleDeg ℝ) (h0 : 0 ≤ r0) (h : EPSILON ≤ r1) :
    (Sector.ofArgs c r0 r1 s e).eq (Sector.ofArgs c r0 r1 s e) = false := by
  rw [← Bool.not_eq_true, C65_refl_partial, min_eq_left h0, not_lt]
  have := le_max_right r0 r1
  linarith

/-- Both sides of C65 occur. -/
example : (Sector.ofArgs (Vec.ofXY (0:ℝ) 0) 0 0 ⟨0⟩ ⟨90⟩).eq (Sector.ofArgs (Vec.ofXY (0:ℝ) 0) 0 0 ⟨0⟩ ⟨90⟩) = true ∧
    (Sector.ofArgs (Vec.ofXY (0:ℝ) 0) 1 2 ⟨0⟩ ⟨90⟩).eq (Sector.ofArgs (Vec.ofXY (0:ℝ) 0) 1 2 ⟨0⟩ ⟨90⟩) = false := by
  constructor
  · rw [C65_refl_partial]; simp [EPSILON_pos]
  · exact C65_refuted _ _ _ _ _ (by norm_num) (by rw [EPSILON_real]; norm_num)

end PyrusGeom
