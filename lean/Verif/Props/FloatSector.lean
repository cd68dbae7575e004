import Verif.Props.FloatTrig
import Verif.Props.Sector

/-!
# C180: rays and sectors in double precision

As in C179, for every mathematical library with errors of at most one unit in the last place.
-/

namespace PyrusGeom
open Spec AngleDeg

/-- Two directions differ, on the circle, by more than `e` degrees. -/
def Spec.Apart (a b e : ℝ) : Prop := ∀ k : ℤ, e < |a - b - 360 * k|

section
variable [m : PyMath (FP double)]

theorem Spec.Accurate.degree (h : Accurate m) {a : AngleDeg (FP double)} (ha : a.FOk) : a.degree.val = a.deg.val := by
  unfold AngleDeg.degree
  change (AngleDeg.normalDeg a.deg).val = _
  rw [(h.normalDeg ha.1).1, normalDeg_of_mem ha.2.1 ha.2.2]

omit m in
theorem fp_180 : (num 180 : FP double).val = 180 := (double.int 180 (by norm_num)).trans (by norm_num)

/-- `is_left_equal_of` is right unless the angles are within `2 ** -45` degrees of a half turn, or stored as -180 and 180. -/
theorem Spec.Accurate.leftEq (h : Accurate m) {a b : AngleDeg (FP double)} (ha : a.FOk) (hb : b.FOk) {t : ℝ}
    (ht : CwTurn a.deg.val b.deg.val t) (h360 : b.deg.val - a.deg.val ≠ 360) :
    (t < 180 - (2 : ℝ) ^ (-45 : ℤ) → a.isLeftEqualOf b = true) ∧ (180 ≤ t → a.isLeftEqualOf b = false) := by
  obtain ⟨ha1, ha2, ha3⟩ := ha
  have hb0 := hb
  obtain ⟨hb1, hb2, hb3⟩ := hb
  have ev : a.isLeftEqualOf b = true ↔
      (0 ≤ rne (b.deg.val - a.deg.val) ∧ rne (b.deg.val - a.deg.val) < 180) ∨ rne (b.deg.val - a.deg.val) < -180 := by
    unfold isLeftEqualOf
    simp only [Bool.or_eq_true, Bool.and_eq_true, decide_eq_true_eq, FP.le_def, FP.lt_def, FP.sub_val, FP.neg_val, fp_180, fp_zero,
      h.degree hb0]
    rfl
  rw [← Bool.not_eq_true, ev]
  have hpos := rne_pos_iff ha1 hb1
  rw [← neg_sub, rne_neg, neg_pos, neg_pos] at hpos
  have herr := fp_sum_grid hb1 ha1.neg
  rw [← sub_eq_add_neg] at herr
  have hmono : ∀ n : ℕ, n ≤ 360 → (n : ℝ) ≤ b.deg.val - a.deg.val → (n : ℝ) ≤ rne (b.deg.val - a.deg.val) := fun n hn hx => by
    have := rne_mono hx
    rwa [rne_of_isDouble (isDouble_nat (hn.trans (by norm_num)))] at this
  obtain ⟨t0, t1, k, hk⟩ := ht
  have hd : |b.deg.val - a.deg.val| ≤ 360 := by rw [abs_le]; constructor <;> linarith
  have hm180 : -180 ≤ b.deg.val - a.deg.val → -180 ≤ rne (b.deg.val - a.deg.val) := fun hx => by
    have := rne_mono hx
    rwa [rne_neg, show (180 : ℝ) = ((180 : ℕ) : ℝ) by norm_num, rne_of_isDouble (isDouble_nat (by norm_num))] at this
  have h0 := hmono 0 (by norm_num)
  have h180 := hmono 180 (by norm_num)
  push_cast at h0 h180
  have hlow : b.deg.val - a.deg.val < -(180 + (2 : ℝ) ^ (-45 : ℤ)) → rne (b.deg.val - a.deg.val) < -180 := fun hx => by
    have h1 := rne_mono hx.le
    have h2 : IsDouble (180 + (2 : ℝ) ^ (-45 : ℤ)) := ⟨180 * 2 ^ 45 + 1, -45, by norm_num, by norm_num, by norm_num⟩
    rw [rne_neg, rne_of_isDouble h2] at h1
    have : (0 : ℝ) < (2 : ℝ) ^ (-45 : ℤ) := by positivity
    linarith
  have hx1 := abs_le.mp hd
  generalize rne (b.deg.val - a.deg.val) = R at *
  have hx : b.deg.val - a.deg.val = t - 360 * k := by linarith
  generalize b.deg.val - a.deg.val = x at *
  have hk1 : k < 2 := by
    have : (360 : ℝ) * k < 360 * 2 := by linarith
    exact_mod_cast lt_of_mul_lt_mul_left this (by norm_num)
  have hk2 : -1 < k := by
    rcases lt_or_ge (-1) k with h | h
    · exact h
    · exfalso
      have h : (k : ℝ) ≤ -1 := by exact_mod_cast h
      refine h360 (le_antisymm hx1.2 ?_)
      linarith
  rcases (show k = 0 ∨ k = 1 by omega) with rfl | rfl
  · push_cast at hx
    have hxt : x = t := by linarith
    subst hxt
    refine ⟨fun hlt => Or.inl ⟨h0 t0, ?_⟩, fun hge hc => ?_⟩
    · rw [abs_of_nonneg t0] at herr
      have := (abs_le.mp herr).2
      norm_num at this hlt
      linarith
    · have := h180 hge
      rcases hc with hc | hc <;> linarith
  · push_cast at hx
    have hneg : R < 0 := hpos.mpr (by linarith)
    refine ⟨fun hlt => Or.inr ?_, fun hge hc => ?_⟩
    · exact hlow (by linarith)
    · have := hm180 (by linarith)
      rcases hc with hc | hc <;> linarith

omit m in
theorem CwTurn.third {l r a t u : ℝ} (h1 : CwTurn l a t) (h2 : CwTurn l r u) : CwTurn a r (if t ≤ u then u - t else u - t + 360) := by
  obtain ⟨a0, a1, k, hk⟩ := h1
  obtain ⟨b0, b1, j, hj⟩ := h2
  split_ifs with h
  · exact ⟨by linarith, by linarith, j - k, by push_cast; linarith⟩
  · exact ⟨by linarith, by linarith, j - k + 1, by push_cast; linarith⟩

/-- `is_within` in double precision, for an angle more than `2 ** -45` degrees from both ends of an arc that is not within `2 ** -44` degrees of
the full circle. -/
theorem Spec.Accurate.isWithin (h : Accurate m) {a l r : AngleDeg (FP double)} (ha : a.FOk) (hl : l.FOk) (hr : r.FOk) {t u : ℝ}
    (ht : CwTurn l.deg.val a.deg.val t) (hu : CwTurn l.deg.val r.deg.val u) (h1 : (2 : ℝ) ^ (-45 : ℤ) < t)
    (h2 : t < 360 - (2 : ℝ) ^ (-45 : ℤ)) (h3 : (2 : ℝ) ^ (-45 : ℤ) < |t - u|) (h4 : |t - u| < 360 - (2 : ℝ) ^ (-45 : ℤ))
    (h5 : u < 360 - (2 : ℝ) ^ (-44 : ℤ)) (h6 : r.deg.val - l.deg.val ≠ 360) : a.isWithin l r = true ↔ t ≤ u := by
  have hw := CwTurn.third ht hu
  have e0 : (0 : ℝ) < (2 : ℝ) ^ (-45 : ℤ) := by positivity
  have e44 : (2 : ℝ) ^ (-44 : ℤ) = 2 * (2 : ℝ) ^ (-45 : ℤ) := by norm_num
  rw [e44] at h5
  have n1 : a.deg.val - l.deg.val ≠ 360 := fun hc => by
    have : CwTurn l.deg.val a.deg.val 0 := ⟨le_rfl, by norm_num, -1, by push_cast; linarith⟩
    have := ht.unique this
    linarith
  have n2 : r.deg.val - a.deg.val ≠ 360 := fun hc => by
    have : CwTurn a.deg.val r.deg.val 0 := ⟨le_rfl, by norm_num, -1, by push_cast; linarith⟩
    have := hw.unique this
    split_ifs at this with hc
    · rw [show t - u = 0 by linarith, abs_zero] at h3; linarith
    · rw [show t - u = 360 by linarith, abs_of_pos (by norm_num)] at h4; linarith
  have ⟨l1, l1'⟩ := h.leftEq hl hr hu h6
  have ⟨l2, l2'⟩ := h.leftEq hl ha ht n1
  have ⟨l3, l3'⟩ := h.leftEq ha hr hw n2
  unfold AngleDeg.isWithin
  generalize (2 : ℝ) ^ (-45 : ℤ) = e at *
  by_cases hb : l.isLeftEqualOf r = true
  · rw [if_pos hb]
    have hu1 : u < 180 := by
      by_contra hc
      rw [l1' (not_lt.mp hc)] at hb
      exact absurd hb (by simp)
    by_cases hc : t ≤ u
    · rw [abs_of_nonpos (by linarith)] at h3
      rw [if_pos hc] at l3
      simp only [hc, iff_true, Bool.and_eq_true]
      exact ⟨l2 (by linarith), l3 (by linarith)⟩
    · rw [if_neg hc] at l3'
      simp only [hc, iff_false, Bool.and_eq_true, not_and, Bool.not_eq_true]
      intro h7
      have : t < 180 := by
        by_contra hc
        rw [l2' (not_lt.mp hc)] at h7
        exact absurd h7 (by simp)
      exact l3' (by linarith [hu.1])
  · rw [if_neg hb]
    have hu1 : 180 - e ≤ u := by
      by_contra hc
      exact hb (l1 (not_le.mp hc))
    by_cases hc : t ≤ u
    · rw [if_pos hc] at l3
      simp only [hc, iff_true, Bool.or_eq_true]
      rcases lt_or_ge t (180 - e) with h7 | h7
      · exact Or.inr (l2 h7)
      · exact Or.inl (l3 (by linarith))
    · rw [if_neg hc] at l3'
      push Not at hc
      rw [abs_of_pos (by linarith)] at h3
      rw [l2' (by linarith), l3' (by linarith)]
      simp [hc]

omit m in
/-- The turn to a direction that is not close to the start. -/
theorem Spec.Apart.turn {l x s e : ℝ} (hs : CwTurn l x s) (h : Apart x l e) : e < s ∧ s < 360 - e := by
  obtain ⟨s0, s1, k, hk⟩ := hs
  have h1 := h (-k)
  have h2 := h (-k + 1)
  push_cast at h1 h2
  rw [show x - l - 360 * -(k : ℝ) = s by linarith, abs_of_nonneg s0] at h1
  rw [show x - l - 360 * (-(k : ℝ) + 1) = -(360 - s) by linarith, abs_neg, abs_of_pos (by linarith)] at h2
  exact ⟨h1, by linarith⟩

omit m in
theorem Spec.Apart.turn2 {l r x s u e : ℝ} (hs : CwTurn l x s) (hu : CwTurn l r u) (h : Apart x r e) : e < |s - u| ∧ |s - u| < 360 - e := by
  obtain ⟨s0, s1, k, hk⟩ := hs
  obtain ⟨u0, u1, j, hj⟩ := hu
  have h1 := h (j - k)
  have h2 := h (j - k + 1)
  have h3 := h (j - k - 1)
  push_cast at h1 h2 h3
  rw [show x - r - 360 * ((j : ℝ) - k) = s - u by linarith] at h1
  rw [show x - r - 360 * ((j : ℝ) - k + 1) = s - u - 360 by linarith, abs_of_neg (by linarith)] at h2
  rw [show x - r - 360 * ((j : ℝ) - k - 1) = s - u + 360 by linarith, abs_of_pos (by linarith)] at h3
  exact ⟨h1, abs_lt.mpr ⟨by linarith, by linarith⟩⟩

/-- **C180** `is_within` for a computed angle: if the exact angle `x` is more than `2 ** -42` degrees from both ends, and the computed one wrong by
at most `2 ** -43` degrees modulo 360, the answer is right. -/
theorem C180_within (h : Accurate m) {a l r : AngleDeg (FP double)} (ha : a.FOk) (hl : l.FOk) (hr : r.FOk) {x : ℝ}
    (hx : ∃ k : ℤ, |a.deg.val - x - 360 * k| ≤ (2 : ℝ) ^ (-43 : ℤ)) (h1 : Apart x l.deg.val ((2 : ℝ) ^ (-42 : ℤ)))
    (h2 : Apart x r.deg.val ((2 : ℝ) ^ (-42 : ℤ))) (h3 : ∀ u, CwTurn l.deg.val r.deg.val u → u < 360 - (2 : ℝ) ^ (-44 : ℤ))
    (h4 : r.deg.val - l.deg.val ≠ 360) : a.isWithin l r = true ↔ InArc l.deg.val r.deg.val x := by
  obtain ⟨s, hs⟩ := CwTurn.exists l.deg.val x
  obtain ⟨u, hu⟩ := CwTurn.exists l.deg.val r.deg.val
  obtain ⟨k, hk⟩ := hx
  have ⟨i1, i2⟩ := h1.turn hs
  have ⟨i3, i4⟩ := h2.turn2 hs hu
  have e1 : InArc l.deg.val r.deg.val x ↔ s ≤ u := by
    constructor
    · rintro ⟨s', u', hs', hu', hle⟩
      rwa [hs.unique hs', hu.unique hu']
    · intro hle
      exact ⟨s, u, hs, hu, hle⟩
  have e2 : (2 : ℝ) ^ (-42 : ℤ) = 8 * (2 : ℝ) ^ (-45 : ℤ) := by norm_num
  have e3 : (2 : ℝ) ^ (-43 : ℤ) = 4 * (2 : ℝ) ^ (-45 : ℤ) := by norm_num
  rw [e2] at i1 i2 i3 i4
  rw [e3] at hk
  have p : (0 : ℝ) < (2 : ℝ) ^ (-45 : ℤ) := by positivity
  set δ := a.deg.val - x - 360 * k with hδ
  have ⟨d1, d2⟩ := abs_le.mp hk
  obtain ⟨s0, s1, j, hj⟩ := hs
  have ht : CwTurn l.deg.val a.deg.val (s + δ) := ⟨by linarith, by linarith, j - k, by push_cast; linarith⟩
  have i5 : (2 : ℝ) ^ (-45 : ℤ) < |s + δ - u| := by
    have := abs_add_le (s + δ - u) (-δ)
    rw [show s + δ - u + -δ = s - u by ring, abs_neg] at this
    linarith
  have i6 : |s + δ - u| < 360 - (2 : ℝ) ^ (-45 : ℤ) := by
    have := abs_add_le (s - u) δ
    rw [show s - u + δ = s + δ - u by ring] at this
    linarith
  rw [h.isWithin ha hl hr ht hu (by linarith) (by linarith) i5 i6 (h3 u hu) h4, e1]
  constructor
  · intro hle
    by_contra hc
    rw [abs_of_pos (by linarith)] at i3
    linarith
  · intro hle
    rw [abs_of_nonpos (by linarith)] at i3
    linarith

/-! ## Differences of points -/

omit m in
/-- The exact difference as a complex number. -/
theorem fp_sub_near {p c : Vec (FP double)} (hp : p.FOk) (hc : c.FOk) :
    ‖(⟨(p.sub c).x.val, (p.sub c).y.val⟩ : ℂ) - ⟨p.x.val - c.x.val, p.y.val - c.y.val⟩‖ ≤
      (2 : ℝ) ^ (-52 : ℤ) * ‖(⟨p.x.val - c.x.val, p.y.val - c.y.val⟩ : ℂ)‖ := by
  have h1 := fp_sum_grid hp.1 hc.1.neg
  have h2 := fp_sum_grid hp.2 hc.2.neg
  rw [← sub_eq_add_neg] at h1 h2
  have k1 := Complex.abs_re_le_norm (⟨p.x.val - c.x.val, p.y.val - c.y.val⟩ : ℂ)
  have k2 := Complex.abs_im_le_norm (⟨p.x.val - c.x.val, p.y.val - c.y.val⟩ : ℂ)
  set z : ℂ := ⟨p.x.val - c.x.val, p.y.val - c.y.val⟩
  have e : (⟨(p.sub c).x.val, (p.sub c).y.val⟩ : ℂ) - z =
      ⟨rne (p.x.val - c.x.val) - (p.x.val - c.x.val), rne (p.y.val - c.y.val) - (p.y.val - c.y.val)⟩ := rfl
  rw [e]
  have h3 : |rne (p.x.val - c.x.val) - (p.x.val - c.x.val)| ≤ (2 : ℝ) ^ (-53 : ℤ) * ‖z‖ := h1.trans (mul_le_mul_of_nonneg_left k1 (by positivity))
  have h4 : |rne (p.y.val - c.y.val) - (p.y.val - c.y.val)| ≤ (2 : ℝ) ^ (-53 : ℤ) * ‖z‖ := h2.trans (mul_le_mul_of_nonneg_left k2 (by positivity))
  refine (norm_le_of_coords h3 h4).trans ?_
  have := norm_nonneg z
  norm_num
  linarith

omit m in
theorem norm_sub_d (p c : Vec (FP double)) : ‖(⟨p.x.val - c.x.val, p.y.val - c.y.val⟩ : ℂ)‖ = d c.fpt p.fpt := by
  rw [Complex.norm_def, Complex.normSq_mk]
  unfold d Vec.fpt
  congr 1
  ring

/-- **C180** The computed direction from one point to another, at a distance of at least twice `EPSILON`. -/
theorem C180_direction (h : Accurate m) {p c : Vec (FP double)} (hp : p.FOk) (hc : c.FOk) (hd : 2 * (EPSILON : FP double).val ≤ d c.fpt p.fpt) :
    (p.sub c).th.FOk ∧
    ∃ k : ℤ, |(p.sub c).th.deg.val - direction (p.x.val - c.x.val) (p.y.val - c.y.val) - 360 * k| ≤ (2 : ℝ) ^ (-43 : ℤ) := by
  constructor
  · have d0 : IsDouble (atan2Deg (p.sub c).y (p.sub c).x).val := by
      unfold atan2Deg
      split_ifs
      · exact fp_num0
      · exact fp_mul_double _ _
    refine ⟨?_, (C179_th h (p.sub c)).2.2⟩
    change IsDouble (AngleDeg.normalDeg (atan2Deg (p.sub c).y (p.sub c).x)).val
    rw [(h.normalDeg d0).1]
    exact (h.normalDeg d0).2
  · obtain ⟨k, hk⟩ := h.th_near (p.sub c) (fp_sub_near hp hc) (by norm_num) (by rw [norm_sub_d]; exact hd)
    refine ⟨k, hk.trans ?_⟩
    norm_num

omit m in
/-- The exact point in polar coordinates. -/
theorem fpt_polar (p c : Vec (FP double)) :
    p.fpt = c.fpt + d c.fpt p.fpt • unit (direction (p.x.val - c.x.val) (p.y.val - c.y.val)) := by
  rw [← norm_sub_d]
  have hp := Real.pi_pos
  have h1 := Complex.norm_mul_cos_arg ⟨p.x.val - c.x.val, p.y.val - c.y.val⟩
  have h2 := Complex.norm_mul_sin_arg ⟨p.x.val - c.x.val, p.y.val - c.y.val⟩
  have e : direction (p.x.val - c.x.val) (p.y.val - c.y.val) * (Real.pi / 180) = Complex.arg ⟨p.x.val - c.x.val, p.y.val - c.y.val⟩ := by
    unfold direction; field_simp
  have e' : direction (p.x.val - c.x.val) (p.y.val - c.y.val) * Real.pi / 180 = Complex.arg ⟨p.x.val - c.x.val, p.y.val - c.y.val⟩ := by
    rw [← e]; ring
  refine Prod.ext ?_ ?_
  · simp only [unit, Vec.fpt, Prod.fst_add, Prod.smul_fst, smul_eq_mul, e, e', h1]; ring
  · simp only [unit, Vec.fpt, Prod.snd_add, Prod.smul_snd, smul_eq_mul, e, e', h2]; ring

omit m in
/-- The comparison of a squared distance with a squared radius. -/
theorem fp_radius {p c : Vec (FP double)} (hp : p.FOk) (hc : c.FOk) {r : ℝ} (hr : (2 : ℝ) ^ (-500 : ℤ) ≤ r) :
    (d c.fpt p.fpt * (1 + (2 : ℝ) ^ (-49 : ℤ)) ≤ r → (p.sub c).r2.val < rne (r * r)) ∧
    (r * (1 + (2 : ℝ) ^ (-49 : ℤ)) ≤ d c.fpt p.fpt → rne (r * r) < (p.sub c).r2.val) := by
  have h := fp_dist2_error hp hc
  rw [show d p.fpt c.fpt = d c.fpt p.fpt by unfold d; congr 1; ring] at h
  have e0 : (p.dist2 c).val = (p.sub c).r2.val := by rw [fp_dist2]; rfl
  rw [e0] at h
  generalize (p.sub c).r2.val = s at *
  have hD := d_nonneg c.fpt p.fpt
  generalize d c.fpt p.fpt = D at *
  have hpos : (0 : ℝ) < (2 : ℝ) ^ (-500 : ℤ) := by positivity
  have hr0 : 0 < r := lt_of_lt_of_le hpos hr
  have hsq : (2 : ℝ) ^ (-1000 : ℤ) ≤ r * r := by
    rw [show (2 : ℝ) ^ (-1000 : ℤ) = (2 : ℝ) ^ (-500 : ℤ) * (2 : ℝ) ^ (-500 : ℤ) by rw [← zpow_add₀ two_ne_zero]; norm_num]
    exact mul_le_mul hr hr hpos.le hr0.le
  have h2 := rne_rel_error (x := r * r) (by
    rw [abs_of_pos (by positivity)]
    exact (zpow_le_zpow_right₀ one_le_two (by norm_num)).trans hsq)
  rw [abs_of_pos (show 0 < r * r by positivity)] at h2
  have hη : (2 : ℝ) ^ (-1073 : ℤ) = (2 : ℝ) ^ (-73 : ℤ) * (2 : ℝ) ^ (-1000 : ℤ) := by
    rw [← zpow_add₀ two_ne_zero]; norm_num
  rw [hη] at h
  have h' : |s - D ^ 2| ≤ (2 : ℝ) ^ (-50 : ℤ) * D ^ 2 + (2 : ℝ) ^ (-73 : ℤ) * (r * r) :=
    h.trans (add_le_add le_rfl (mul_le_mul_of_nonneg_left hsq (by positivity)))
  obtain ⟨hl, hu⟩ := abs_le.mp h'
  obtain ⟨kl, ku⟩ := abs_le.mp h2
  have hrr : 0 < r * r := by positivity
  clear h h' hη hsq hr hpos h2
  generalize rne (r * r) = R at *
  constructor
  · intro hc
    have e : (D * (1 + (2 : ℝ) ^ (-49 : ℤ))) ^ 2 ≤ r * r := by
      rw [← pow_two r]; exact pow_le_pow_left₀ (by positivity) hc 2
    rw [mul_pow] at e
    have hD2 : 0 ≤ D ^ 2 := by positivity
    generalize D ^ 2 = E at *
    generalize r * r = Q at *
    norm_num only at *
    linarith
  · intro hc
    have e : (r * (1 + (2 : ℝ) ^ (-49 : ℤ))) ^ 2 ≤ D ^ 2 := pow_le_pow_left₀ (by positivity) hc 2
    rw [mul_pow, pow_two r] at e
    have hD2 : 0 ≤ D ^ 2 := by positivity
    generalize D ^ 2 = E at *
    generalize r * r = Q at *
    norm_num only at *
    linarith

/-- A distance clearly different from a radius. -/
def Spec.Off (D r : ℝ) : Prop :=
  (2 : ℝ) ^ (-500 : ℤ) ≤ r ∧ (D * (1 + (2 : ℝ) ^ (-49 : ℤ)) ≤ r ∨ r * (1 + (2 : ℝ) ^ (-49 : ℤ)) ≤ D)

/-- **C180** Containment in a sector is decided correctly for every point that is at least twice `EPSILON` from the center, not within a relative
distance of `2 ** -49` of either arc and not within `2 ** -42` degrees of either side. The sector must not be within `2 ** -44` degrees of the full
circle, nor have its ends stored as -180 and 180. -/
theorem C180_sector (h : Accurate m) (s : Sector (FP double)) (p : Vec (FP double)) (hp : p.FOk) (hc : s.center.FOk) (hs : s.start.FOk)
    (ht : s.stop.FOk) (hd : 2 * (EPSILON : FP double).val ≤ d s.center.fpt p.fpt) (h0 : s.minR.val = 0 ∨ Off (d s.center.fpt p.fpt) s.minR.val)
    (h1 : Off (d s.center.fpt p.fpt) s.maxR.val)
    (h2 : Apart (direction (p.x.val - s.center.x.val) (p.y.val - s.center.y.val)) s.start.deg.val ((2 : ℝ) ^ (-42 : ℤ)))
    (h3 : Apart (direction (p.x.val - s.center.x.val) (p.y.val - s.center.y.val)) s.stop.deg.val ((2 : ℝ) ^ (-42 : ℤ)))
    (h4 : ∀ u, CwTurn s.start.deg.val s.stop.deg.val u → u < 360 - (2 : ℝ) ^ (-44 : ℤ)) (h5 : s.stop.deg.val - s.start.deg.val ≠ 360) :
    s.contains p = true ↔ p.fpt ∈ sectorSet s.center.fpt s.minR.val s.maxR.val s.start.deg.val s.stop.deg.val := by
  have hE := fp_EPSILON.1
  have D0 : 0 < d s.center.fpt p.fpt := by linarith
  have hpos : (0 : ℝ) < (2 : ℝ) ^ (-500 : ℤ) := by positivity
  have r0 : 0 ≤ s.minR.val := by
    rcases h0 with h0 | h0
    · exact h0.ge
    · exact hpos.le.trans h0.1
  rw [mem_sectorSet_polar r0 D0 (fpt_polar p s.center)]
  have ⟨hok, hdir⟩ := C180_direction h hp hc hd
  rw [← C180_within h hok hs ht hdir h2 h3 h4 h5]
  have p49 : (0 : ℝ) < (2 : ℝ) ^ (-49 : ℤ) := by positivity
  have k1 : s.minR * s.minR ≤ (p.sub s.center).r2 ↔ s.minR.val ≤ d s.center.fpt p.fpt := by
    rw [FP.le_def, FP.mul_val]
    change rne _ ≤ _ ↔ _
    rcases h0 with h0 | ⟨hr, h0⟩
    · rw [h0, mul_zero, rne_zero]
      exact iff_of_true (by have := fp_dist2_nonneg p s.center; rw [fp_dist2] at this; exact this) D0.le
    · have ⟨i1, i2⟩ := fp_radius hp hc hr
      rcases h0 with h0 | h0
      · refine iff_of_false (not_le.mpr (i1 h0)) (not_le.mpr (lt_of_lt_of_le ?_ h0))
        nlinarith
      · refine iff_of_true (i2 h0).le (le_trans ?_ h0)
        nlinarith
  have k2 : (p.sub s.center).r2 ≤ s.maxR * s.maxR ↔ d s.center.fpt p.fpt ≤ s.maxR.val := by
    rw [FP.le_def, FP.mul_val]
    change _ ≤ rne _ ↔ _
    obtain ⟨hr, h1⟩ := h1
    have hr0 := hpos.trans_le hr
    have ⟨i1, i2⟩ := fp_radius hp hc hr
    rcases h1 with h1 | h1
    · refine iff_of_true (i1 h1).le (le_trans ?_ h1)
      nlinarith
    · refine iff_of_false (not_le.mpr (i2 h1)) (not_le.mpr (lt_of_lt_of_le ?_ h1))
      nlinarith
  unfold Sector.contains
  simp only [Bool.and_eq_true, decide_eq_true_eq, k1, k2, and_assoc]

/-! ## Rays -/

omit m in
/-- Angular differences in [0, 180] change by no more than the angle. -/
theorem fold_near {g G δ x : ℝ} (g0 : 0 ≤ g) (g1 : g ≤ 180) (G0 : 0 ≤ G) (G1 : G ≤ 180) (hg : g = x ∨ g = -x)
    (h : ∃ k : ℤ, x = G + δ + 360 * k ∨ x = -G + δ + 360 * k) : |g - G| ≤ |δ| := by
  obtain ⟨k, hk⟩ := h
  wlog hgx : g = x generalizing x δ k
  · have hgx' : g = -x := hg.resolve_left hgx
    have := this (x := -x) (δ := -δ) (Or.inl hgx') (-k) (by
      push_cast
      rcases hk with hk | hk
      · right; linarith
      · left; linarith) hgx'
    rwa [abs_neg] at this
  subst hgx
  have hδ := abs_nonneg δ
  have hl := le_abs_self δ
  have hn := neg_abs_le δ
  rw [abs_le]
  rcases hk with hk | hk
  · rcases lt_trichotomy k 0 with h | rfl | h
    · have : (k : ℝ) ≤ -1 := by exact_mod_cast (by omega : k ≤ -1)
      constructor <;> linarith
    · push_cast at hk; constructor <;> linarith
    · have : (1 : ℝ) ≤ k := by exact_mod_cast h
      constructor <;> linarith
  · rcases lt_trichotomy k 0 with h | rfl | h
    · have : (k : ℝ) ≤ -1 := by exact_mod_cast (by omega : k ≤ -1)
      constructor <;> linarith
    · push_cast at hk; constructor <;> linarith
    · have : (1 : ℝ) ≤ k := by exact_mod_cast h
      constructor <;> linarith

/-- **C180** `in_right_dir(p, thr)` compares the exact angle `G` between the ray and the direction to the point with the threshold, up to `2 ** -42`
degrees. -/
theorem C180_ray (h : Accurate m) (r : Ray (FP double)) (p : Vec (FP double)) (thr : FP double) (hp : p.FOk) (ho : r.origin.FOk) (hr : r.dir.FOk)
    (hd : 2 * (EPSILON : FP double).val ≤ d r.origin.fpt p.fpt) {G : ℝ} (G0 : 0 ≤ G) (G1 : G ≤ 180)
    (hG : AngleEq (direction (p.x.val - r.origin.x.val) (p.y.val - r.origin.y.val)) (r.dir.deg.val + G) ∨
      AngleEq (direction (p.x.val - r.origin.x.val) (p.y.val - r.origin.y.val)) (r.dir.deg.val - G)) :
    (G < thr.val - (2 : ℝ) ^ (-42 : ℤ) → r.inRightDir p thr = true) ∧ (thr.val + (2 : ℝ) ^ (-42 : ℤ) ≤ G → r.inRightDir p thr = false) := by
  have ⟨hok, k, hk⟩ := C180_direction h hp ho hd
  set a := (p.sub r.origin).th with ha
  set dir := direction (p.x.val - r.origin.x.val) (p.y.val - r.origin.y.val) with hdir
  have db : IsDouble (a.deg - r.dir.deg).val := isDouble_rne _
  have hn := h.normalDeg db
  have okd : (a.sub r.dir).FOk := by
    refine ⟨?_, ?_⟩
    · change IsDouble (AngleDeg.normalDeg (a.deg - r.dir.deg)).val
      rw [hn.1]; exact hn.2
    · change -180 ≤ (AngleDeg.normalDeg (a.deg - r.dir.deg)).val ∧ (AngleDeg.normalDeg (a.deg - r.dir.deg)).val ≤ 180
      rw [hn.1]
      have := C96_normal double (⟨(a.deg - r.dir.deg).val⟩ : FP double)
      rwa [(C96_double_exact db).1] at this
  have hv : (a.sub r.dir).abs.val = |(a.sub r.dir).deg.val| := by
    unfold AngleDeg.abs
    rw [fp_fabs_val, h.degree okd]
  have hval : (a.sub r.dir).deg.val = AngleDeg.normalDeg (a.deg - r.dir.deg).val := hn.1
  obtain ⟨j, hj⟩ := normalDeg_period (a.deg - r.dir.deg).val
  have herr := fp_sum_grid hok.1 hr.1.neg
  rw [← sub_eq_add_neg] at herr
  have hrng : |a.deg.val - r.dir.deg.val| ≤ 360 := by
    rw [abs_le]; constructor <;> linarith [hok.2.1, hok.2.2, hr.2.1, hr.2.2]
  have herr' : |rne (a.deg.val - r.dir.deg.val) - (a.deg.val - r.dir.deg.val)| ≤ (2 : ℝ) ^ (-44 : ℤ) := by
    refine herr.trans ((mul_le_mul_of_nonneg_left hrng (by positivity)).trans ?_)
    norm_num
  have key : |(a.sub r.dir).abs.val - G| ≤ |rne (a.deg.val - r.dir.deg.val) - (a.deg.val - r.dir.deg.val) + (a.deg.val - dir - 360 * k)| := by
    rw [hv]
    refine fold_near (x := (a.sub r.dir).deg.val) (abs_nonneg _) (abs_le.mpr okd.2) G0 G1 (abs_choice _) ?_
    rw [hval]
    rcases hG with ⟨i, hi⟩ | ⟨i, hi⟩
    · refine ⟨i + j + k, Or.inl ?_⟩
      have : (a.deg - r.dir.deg).val = rne (a.deg.val - r.dir.deg.val) := rfl
      push_cast; linarith
    · refine ⟨i + j + k, Or.inr ?_⟩
      have : (a.deg - r.dir.deg).val = rne (a.deg.val - r.dir.deg.val) := rfl
      push_cast; linarith
  have key2 : |(a.sub r.dir).abs.val - G| < (2 : ℝ) ^ (-42 : ℤ) := by
    refine key.trans_lt ((abs_add_le _ _).trans_lt ((add_le_add herr' hk).trans_lt ?_))
    norm_num
  have ⟨q1, q2⟩ := abs_lt.mp key2
  unfold Ray.inRightDir
  rw [← ha, decide_eq_true_eq, decide_eq_false_iff_not, FP.lt_def]
  constructor
  · intro hlt; linarith
  · intro hge; linarith

end

/-! ## Example -/

theorem direction_up : direction (0 - 0) (1 - 0) = 90 := by
  unfold direction
  rw [sub_zero, sub_zero]
  change Complex.I.arg * _ = _
  rw [Complex.arg_I]
  have := Real.pi_pos
  field_simp; norm_num

/-- The point (0, 1) in the sector of radius 10 around the origin from 45 to 135 degrees. -/
example : (⟨Vec.ofXY ⟨0⟩ ⟨0⟩, ⟨0⟩, ⟨10⟩, ⟨⟨45⟩⟩, ⟨⟨135⟩⟩⟩ : Sector (FP double)).contains (Vec.ofXY ⟨0⟩ ⟨1⟩) = true := by
  have hd : d (Vec.ofXY ⟨0⟩ ⟨0⟩ : Vec (FP double)).fpt (Vec.ofXY ⟨0⟩ ⟨1⟩ : Vec (FP double)).fpt = 1 := by
    simp [d, Vec.fpt, Vec.ofXY]
  have n : ∀ n : ℕ, n ≤ 180 → IsDouble (n : ℝ) := fun n h => isDouble_nat (h.trans (by norm_num))
  have ap : ∀ x : ℤ, |90 - x| = 45 → Apart 90 (x : ℝ) ((2 : ℝ) ^ (-42 : ℤ)) := by
    intro x hx k
    have h1 : 45 ≤ |90 - x - 360 * k| := by
      have := abs_eq (show (0 : ℤ) ≤ 45 by norm_num) |>.mp hx
      rw [le_abs]; omega
    have h2 : (45 : ℝ) ≤ |90 - (x : ℝ) - 360 * k| := by exact_mod_cast h1
    refine lt_of_lt_of_le ?_ h2
    norm_num
  rw [C180_sector accurate_double]
  · refine ⟨1, 90, by norm_num, by norm_num, ⟨45, 90, ⟨by norm_num, by norm_num, 0, by norm_num⟩, ⟨by norm_num, by norm_num, 0, by norm_num⟩,
      by norm_num⟩, ?_⟩
    have e : (90 : ℝ) * (Real.pi / 180) = Real.pi / 2 := by ring
    refine Prod.ext ?_ ?_ <;> simp [unit, Vec.fpt, Vec.ofXY, e]
  · exact ⟨isDouble_zero, isDouble_one⟩
  · exact ⟨isDouble_zero, isDouble_zero⟩
  · exact ⟨by simpa using n 45 (by norm_num), by norm_num [FNormal]⟩
  · exact ⟨by simpa using n 135 (by norm_num), by norm_num [FNormal]⟩
  · rw [hd]
    have := fp_EPSILON.2.trans (show (2 : ℝ) ^ (-18 : ℤ) ≤ 1 / 2 by norm_num)
    linarith
  · exact Or.inl rfl
  · rw [hd]
    have e : (2 : ℝ) ^ (-500 : ℤ) ≤ (2 : ℝ) ^ (-1 : ℤ) := zpow_le_zpow_right₀ one_le_two (by norm_num)
    exact ⟨e.trans (by norm_num), Or.inl (by norm_num)⟩
  · have := ap 45 (by norm_num)
    push_cast at this
    simpa only [Vec.ofXY, direction_up] using this
  · have := ap 135 (by norm_num)
    push_cast at this
    simpa only [Vec.ofXY, direction_up] using this
  · intro u hu
    rw [hu.unique (show CwTurn 45 135 90 from ⟨by norm_num, by norm_num, 0, by norm_num⟩)]
    norm_num
  · norm_num

end PyrusGeom
