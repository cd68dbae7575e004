import Verif.Props.FloatClip
import Verif.Props.FloatCircle

/-! # C189: the centers of a triangle in double precision -/

namespace PyrusGeom
open Spec

/-- A difference of two given numbers. -/
theorem rounded_diff {p q L : ℝ} (h : |q - p| ≤ L) (hL : (2 : ℝ) ^ (-10 : ℤ) ≤ L) : Rounded 2 (rne (q - p)) (q - p) L := by
  have := rounded_round (e := 0) (z := q - p) (x := q - p) (M := L) (by rw [sub_self, abs_zero, zero_mul, zero_mul]) h
    (two_1000_le (n := -10) (by norm_num) hL) (by norm_num)
  rwa [zero_add] at this

/-- A product of two numbers, each known up to a few units. -/
theorem rounded_pair {e f a b x y L M : ℝ} (h : Rounded e a x L) (g : Rounded f b y M) (he : 0 ≤ e) (hf : 0 ≤ f) (hef : e + f ≤ 900)
    (hL : (2 : ℝ) ^ (-100 : ℤ) ≤ L) (hM : (2 : ℝ) ^ (-100 : ℤ) ≤ M) : Rounded (e + f + 3) (rne (a * b)) (x * y) (L * M) := by
  refine h.mul g he hf hef (two_1000_le (n := -200) (by norm_num) ?_)
  rw [show (-200 : ℤ) = -100 + -100 by norm_num, zpow_add₀ two_ne_zero]
  exact mul_le_mul hL hM (by positivity) h.pos.le

/-- The computed determinant of two differences. -/
theorem rounded_cross {a b c e x y z w L M : ℝ} (h1 : Rounded 2 a x L) (h2 : Rounded 2 b y M) (h3 : Rounded 2 c z L) (h4 : Rounded 2 e w M)
    (hL : (2 : ℝ) ^ (-10 : ℤ) ≤ L) (hM : (2 : ℝ) ^ (-10 : ℤ) ≤ M) :
    Rounded 9 (rne (rne (a * b) - rne (c * e))) (x * y - z * w) (2 * (L * M)) := by
  have k : (2 : ℝ) ^ (-100 : ℤ) ≤ (2 : ℝ) ^ (-10 : ℤ) := zpow_le_zpow_right₀ one_le_two (by norm_num)
  have q1 := rounded_pair h1 h2 (by norm_num) (by norm_num) (by norm_num) (k.trans hL) (k.trans hM)
  have q2 := rounded_pair h3 h4 (by norm_num) (by norm_num) (by norm_num) (k.trans hL) (k.trans hM)
  exact (q1.sub q2 (by norm_num) (by norm_num) (by norm_num)).mono (by norm_num) (by norm_num) (by linarith)

/-- Replacing the determinant by one that is nearly the same. -/
theorem quot_shift {N T D A δ : ℝ} (hT : |T - D| ≤ δ) (hN : |N| ≤ A) (hD : D ≠ 0) (h2 : |D| ≤ 2 * |T|) :
    |N / T - N / D| ≤ 2 * A * δ / D ^ 2 := by
  have d0 : 0 < |D| := abs_pos.mpr hD
  have t0 : 0 < |T| := by linarith
  have hTn : T ≠ 0 := abs_pos.mp t0
  have e : N / T - N / D = N * (D - T) / (T * D) := by field_simp
  have A0 : 0 ≤ A := (abs_nonneg _).trans hN
  have δ0 : 0 ≤ δ := (abs_nonneg _).trans hT
  rw [e, abs_div, abs_mul, abs_mul, abs_sub_comm D T, ← sq_abs D, div_le_div_iff₀ (by positivity) (by positivity)]
  have h3 : |N| * |T - D| ≤ A * δ := mul_le_mul hN hT (abs_nonneg _) A0
  have h4 : |D| ^ 2 ≤ 2 * (|T| * |D|) := by nlinarith
  calc |N| * |T - D| * |D| ^ 2 ≤ A * δ * (2 * (|T| * |D|)) := mul_le_mul h3 h4 (by positivity) (by positivity)
    _ = _ := by ring

/-- The bounds on the determinant that are used below. -/
theorem det_facts {D T L : ℝ} (hD : (2 : ℝ) ^ (-18 : ℤ) ≤ |D|) (hK : (2 : ℝ) ^ (-44 : ℤ) * L ^ 2 ≤ |D|)
    (hT : |T - D| ≤ 36 * (2 : ℝ) ^ (-53 : ℤ) * L ^ 2) : D ≠ 0 ∧ |D| ≤ 2 * |T| ∧ |T| ≤ 2 * |D| ∧ (2 : ℝ) ^ (-19 : ℤ) ≤ |T| := by
  have e : (36 : ℝ) * (2 : ℝ) ^ (-53 : ℤ) * L ^ 2 = 36 / 512 * ((2 : ℝ) ^ (-44 : ℤ) * L ^ 2) := by norm_num; ring
  rw [e] at hT
  have p : (0 : ℝ) < (2 : ℝ) ^ (-18 : ℤ) := by positivity
  have h1 := abs_sub_abs_le_abs_sub D T
  have h2 := abs_sub_abs_le_abs_sub T D
  rw [abs_sub_comm] at h1
  have : (2 : ℝ) ^ (-19 : ℤ) = (2 : ℝ) ^ (-18 : ℤ) / 2 := by norm_num
  rw [this]
  clear e this
  have w0 : 0 ≤ (2 : ℝ) ^ (-44 : ℤ) * L ^ 2 := by positivity
  generalize (2 : ℝ) ^ (-44 : ℤ) * L ^ 2 = w at *
  generalize (2 : ℝ) ^ (-18 : ℤ) = v at *
  exact ⟨abs_pos.mp (by linarith), by linarith, by linarith, by linarith⟩

namespace Spec

/-- The two conditions of the circumcenter, and the three of the orthocenter. -/
def IsCircumcenter (a b c z : Pt) : Prop := d z a = d z b ∧ d z b = d z c
def IsOrthocenter (a b c z : Pt) : Prop :=
  (c.1 - b.1) * (z.1 - a.1) + (c.2 - b.2) * (z.2 - a.2) = 0 ∧ (a.1 - c.1) * (z.1 - b.1) + (a.2 - c.2) * (z.2 - b.2) = 0 ∧
  (b.1 - a.1) * (z.1 - c.1) + (b.2 - a.2) * (z.2 - c.2) = 0

/-- All differences of coordinates of the three points are at most `L`. -/
structure Extent (a b c : Pt) (L : ℝ) : Prop where
  abx : |b.1 - a.1| ≤ L
  aby : |b.2 - a.2| ≤ L
  acx : |c.1 - a.1| ≤ L
  acy : |c.2 - a.2| ≤ L
  bcx : |c.1 - b.1| ≤ L
  bcy : |c.2 - b.2| ≤ L

end Spec

theorem Spec.Extent.area {a b c : Pt} {L : ℝ} (h : Extent a b c L) : |area2 a b c| ≤ 2 * L ^ 2 := by
  have L0 := (abs_nonneg _).trans h.abx
  have h1 := mul_le_mul h.abx h.acy (abs_nonneg _) L0
  have h2 := mul_le_mul h.aby h.acx (abs_nonneg _) L0
  rw [← abs_mul] at h1 h2
  have := abs_sub ((b.1 - a.1) * (c.2 - a.2)) ((b.2 - a.2) * (c.1 - a.1))
  unfold area2
  linarith

theorem Spec.Extent.big {a b c : Pt} {L : ℝ} (h : Extent a b c L) (hD : (2 : ℝ) ^ (-18 : ℤ) ≤ |area2 a b c|) : (2 : ℝ) ^ (-10 : ℤ) ≤ L := by
  have L0 := (abs_nonneg _).trans h.abx
  by_contra hc
  have h1 := h.area
  have h2 : L ^ 2 ≤ ((2 : ℝ) ^ (-10 : ℤ)) ^ 2 := pow_le_pow_left₀ L0 (not_le.mp hc).le 2
  have h3 := hD.trans h1
  norm_num at h2 h3
  linarith

/-! ## The circumcenter -/

/-- The equations of the circumcenter. -/
theorem circumcenter_iff {a b c : Pt} (h : area2 a b c ≠ 0) (z : Pt) : IsCircumcenter a b c z ↔
    z = (a.1 + 1 / 2 * ((((b.1 - a.1) ^ 2 + (b.2 - a.2) ^ 2) * (c.2 - a.2) - ((c.1 - a.1) ^ 2 + (c.2 - a.2) ^ 2) * (b.2 - a.2)) / area2 a b c),
      a.2 + 1 / 2 * (((b.1 - a.1) * ((c.1 - a.1) ^ 2 + (c.2 - a.2) ^ 2) - (c.1 - a.1) * ((b.1 - a.1) ^ 2 + (b.2 - a.2) ^ 2)) / area2 a b c)) := by
  have hD : (b.1 - a.1) * (c.2 - a.2) - (b.2 - a.2) * (c.1 - a.1) ≠ 0 := h
  unfold IsCircumcenter
  rw [d_eq_d_iff, d_eq_d_iff]
  constructor
  · rintro ⟨h1, h2⟩
    ext
    · simp only
      unfold area2
      field_simp
      linear_combination (c.2 - a.2 - (b.2 - a.2)) * h1 - (b.2 - a.2) * h2
    · simp only
      unfold area2
      rw [← sub_eq_iff_eq_add', ← mul_div_assoc, eq_div_iff hD]
      linear_combination (b.1 - c.1) / 2 * h1 + (b.1 - a.1) / 2 * h2
  · rintro rfl
    simp only
    unfold area2
    constructor
    · field_simp; ring
    · field_simp; ring

theorem fp_perpendicularBisector (p q : Vec (FP double))
    (h : (EPSILON : FP double).val ≤ max |q.x.val - p.x.val| |q.y.val - p.y.val|) :
    (Line.perpendicularBisector p q).a = q.x - p.x ∧ (Line.perpendicularBisector p q).b = q.y - p.y := by
  have key : ∀ x y : ℝ, (EPSILON : FP double).val ≤ |x - y| → (EPSILON : FP double).val ≤ |rne (x - y)| := by
    intro x y hxy
    rw [rne_abs, ← rne_of_isDouble fp_EPSILON_double]
    exact rne_mono hxy
  unfold Line.perpendicularBisector
  rw [if_neg]
  · exact ⟨rfl, rfl⟩
  · rw [FP.lt_def, FP.lt_def, fp_fabs_val, fp_fabs_val]
    rintro ⟨h1, h2⟩
    rcases le_max_iff.mp h with h | h
    · exact absurd h1 (not_lt.mpr (key _ _ h))
    · exact absurd h2 (not_lt.mpr (key _ _ h))

/-- The computed formula, with the computed determinant `T`. -/
theorem circum_rounded {x1 y1 x2 y2 X1 Y1 X2 Y2 u v U V T ax L : ℝ} (h1 : Rounded 2 X1 x1 L) (h2 : Rounded 2 Y1 y1 L) (h3 : Rounded 2 X2 x2 L)
    (h4 : Rounded 2 Y2 y2 L) (h5 : Rounded 2 U u L) (h6 : Rounded 2 V v L) (hL : (2 : ℝ) ^ (-10 : ℤ) ≤ L) (hT : T ≠ 0)
    (hT2 : |T| ≤ (2 : ℝ) ^ (210 : ℤ)) :
    Rounded 24 (rne (ax + rne (rne (1 / 2 / T) * rne (rne (rne (rne (X1 * X1) + rne (Y1 * Y1)) * U) - rne (rne (rne (X2 * X2) + rne (Y2 * Y2)) * V)))))
      (ax + 1 / 2 / T * ((x1 ^ 2 + y1 ^ 2) * u - (x2 ^ 2 + y2 ^ 2) * v)) (mag ax + 2 * (L ^ 3 / |T|)) ∧
    |(x1 ^ 2 + y1 ^ 2) * u - (x2 ^ 2 + y2 ^ 2) * v| ≤ 4 * L ^ 3 := by
  have k : (2 : ℝ) ^ (-100 : ℤ) ≤ (2 : ℝ) ^ (-10 : ℤ) := zpow_le_zpow_right₀ one_le_two (by norm_num)
  have L1 := k.trans hL
  have L0 : 0 < L := lt_of_lt_of_le (by positivity) hL
  have l2 : (2 : ℝ) ^ (-100 : ℤ) ≤ 2 * L ^ 2 := by
    have : ((2 : ℝ) ^ (-10 : ℤ)) ^ 2 ≤ L ^ 2 := pow_le_pow_left₀ (by positivity) hL 2
    norm_num at this ⊢
    linarith
  have l3 : (2 : ℝ) ^ (-100 : ℤ) ≤ 4 * L ^ 3 := by
    have : ((2 : ℝ) ^ (-10 : ℤ)) ^ 3 ≤ L ^ 3 := pow_le_pow_left₀ (by positivity) hL 3
    norm_num at this ⊢
    linarith
  have sq : ∀ {X Y x y : ℝ}, Rounded 2 X x L → Rounded 2 Y y L → Rounded 9 (rne (rne (X * X) + rne (Y * Y))) (x ^ 2 + y ^ 2) (2 * L ^ 2) := by
    intro X Y x y hx hy
    have q1 := rounded_pair hx hx (by norm_num) (by norm_num) (by norm_num) L1 L1
    have q2 := rounded_pair hy hy (by norm_num) (by norm_num) (by norm_num) L1 L1
    rw [show x ^ 2 + y ^ 2 = x * x + y * y by ring]
    exact (q1.add q2 (by norm_num) (by norm_num) (by norm_num)).mono (by norm_num) (by norm_num) (by nlinarith)
  have n1 := rounded_pair (sq h1 h2) h5 (by norm_num) (by norm_num) (by norm_num) l2 L1
  have n2 := rounded_pair (sq h3 h4) h6 (by norm_num) (by norm_num) (by norm_num) l2 L1
  have n3 := (n1.sub n2 (by norm_num) (by norm_num) (by norm_num)).mono (f := 16) (N := 4 * L ^ 3) (by norm_num) (by norm_num) (by nlinarith)
  have half : Rounded 0 (1 / 2) (1 / 2) (1 / 2) := rounded_exact (by rw [abs_of_pos] <;> norm_num) (two_1000_le (n := -1) (by norm_num) (by norm_num))
  have T0 : 0 < |T| := abs_pos.mpr hT
  have i1 := rounded_divd half le_rfl (by norm_num)
    ((zpow_le_zpow_right₀ one_le_two (by norm_num : (-600 : ℤ) ≤ -1)).trans (by norm_num)) hT (hT2.trans (zpow_le_zpow_right₀ one_le_two (by norm_num)))
  have hi : (2 : ℝ) ^ (-300 : ℤ) ≤ 1 / 2 / |T| := by
    rw [le_div_iff₀ T0]
    refine (mul_le_mul_of_nonneg_left hT2 (by positivity)).trans ?_
    rw [← zpow_add₀ two_ne_zero]; norm_num
  have p1 := i1.mul n3 (by norm_num) (by norm_num) (by norm_num) (two_1000_le (n := -400) (by norm_num) (by
    rw [show (-400 : ℤ) = -300 + -100 by norm_num, zpow_add₀ two_ne_zero]
    exact mul_le_mul hi l3 (by positivity) (by positivity)))
  have := (rounded_mag ax).add p1 (by norm_num) (by norm_num) (by norm_num)
  refine ⟨this.mono (by norm_num) (by norm_num) (le_of_eq ?_), n3.le⟩
  rw [show (1 : ℝ) / 2 / |T| * (4 * L ^ 3) = 2 * (L ^ 3 / |T|) by ring]

/-- The final estimate for one coordinate. -/
theorem circum_final {X ax N D T L : ℝ} (hX : |X - (ax + 1 / 2 / T * N)| ≤ 24 * (2 : ℝ) ^ (-53 : ℤ) * (mag ax + 2 * (L ^ 3 / |T|)))
    (hT : |T - D| ≤ 18 * (2 : ℝ) ^ (-53 : ℤ) * L ^ 2) (hN : |N| ≤ 4 * L ^ 3) (hD0 : D ≠ 0) (h2 : |D| ≤ 2 * |T|) (hDL : |D| ≤ 2 * L ^ 2)
    (hL : (2 : ℝ) ^ (-10 : ℤ) ≤ L) :
    |X - (ax + 1 / 2 * (N / D))| ≤ (2 : ℝ) ^ (-44 : ℤ) * (L ^ 5 / D ^ 2) + (2 : ℝ) ^ (-48 : ℤ) * |ax| := by
  have L0 : 0 < L := lt_of_lt_of_le (by positivity) hL
  have d0 : 0 < |D| := abs_pos.mpr hD0
  have t0 : 0 < |T| := by linarith
  have s := quot_shift hT hN hD0 h2
  have e1 : X - (ax + 1 / 2 * (N / D)) = (X - (ax + 1 / 2 / T * N)) + 1 / 2 * (N / T - N / D) := by ring
  rw [e1]
  refine (abs_add_le _ _).trans ?_
  rw [abs_mul, abs_of_pos (show (0 : ℝ) < 1 / 2 by norm_num)]
  have e2 : 2 * (4 * L ^ 3) * (18 * (2 : ℝ) ^ (-53 : ℤ) * L ^ 2) / D ^ 2 = 144 * (2 : ℝ) ^ (-53 : ℤ) * (L ^ 5 / D ^ 2) := by ring
  rw [e2] at s
  have e3 : L ^ 3 / |T| ≤ 4 * (L ^ 5 / D ^ 2) := by
    rw [← sq_abs D, mul_div_assoc', div_le_div_iff₀ t0 (by positivity)]
    have : |D| ^ 2 ≤ 4 * L ^ 2 * |T| := by nlinarith
    nlinarith [pow_pos L0 3, mul_le_mul_of_nonneg_left this (pow_pos L0 3).le]
  have e4 : L ≤ 4 * (L ^ 5 / D ^ 2) := by
    rw [← sq_abs D, mul_div_assoc', le_div_iff₀ (by positivity)]
    have : |D| ^ 2 ≤ (2 * L ^ 2) ^ 2 := pow_le_pow_left₀ d0.le hDL 2
    nlinarith [mul_le_mul_of_nonneg_left this L0.le]
  have hm : mag ax ≤ |ax| + (2 : ℝ) ^ (-100 : ℤ) := by
    unfold mag
    have : (2 : ℝ) ^ (-200 : ℤ) ≤ (2 : ℝ) ^ (-100 : ℤ) := zpow_le_zpow_right₀ one_le_two (by norm_num)
    linarith
  have q0 : 0 < L ^ 5 / D ^ 2 := by positivity
  generalize L ^ 5 / D ^ 2 = Q at *
  generalize mag ax = μ at *
  generalize L ^ 3 / |T| = R at *
  have := abs_nonneg ax
  norm_num at hX s hm hL ⊢
  linarith

/-- **C189** The circumcenter. -/
theorem C189_circumcenter (a b c : Vec (FP double)) (L : ℝ) (hE : Extent a.fpt b.fpt c.fpt L) (hL : L ≤ (2 : ℝ) ^ (100 : ℤ))
    (hD : (2 : ℝ) ^ (-18 : ℤ) ≤ |area2 a.fpt b.fpt c.fpt|) (hK : (2 : ℝ) ^ (-44 : ℤ) * L ^ 2 ≤ |area2 a.fpt b.fpt c.fpt|)
    (hab : (EPSILON : FP double).val ≤ max |b.x.val - a.x.val| |b.y.val - a.y.val|)
    (hbc : (EPSILON : FP double).val ≤ max |c.x.val - b.x.val| |c.y.val - b.y.val|) :
    (Tri.triCircumcenter a b c).valid = true ∧ ∃ O : Pt, (∀ z, IsCircumcenter a.fpt b.fpt c.fpt z ↔ z = O) ∧
      |(Tri.triCircumcenter a b c).x.val - O.1| ≤ (2 : ℝ) ^ (-44 : ℤ) * (L ^ 5 / area2 a.fpt b.fpt c.fpt ^ 2) + (2 : ℝ) ^ (-48 : ℤ) * |a.x.val| ∧
      |(Tri.triCircumcenter a b c).y.val - O.2| ≤ (2 : ℝ) ^ (-44 : ℤ) * (L ^ 5 / area2 a.fpt b.fpt c.fpt ^ 2) + (2 : ℝ) ^ (-48 : ℤ) * |a.y.val| := by
  have hL10 := hE.big hD
  have hDL := hE.area
  have L0 : 0 < L := lt_of_lt_of_le (by positivity) hL10
  have r1 : Rounded 2 (b.sub a).x.val _ L := rounded_diff hE.abx hL10
  have r2 : Rounded 2 (b.sub a).y.val _ L := rounded_diff hE.aby hL10
  have r3 : Rounded 2 (c.sub a).x.val _ L := rounded_diff hE.acx hL10
  have r4 : Rounded 2 (c.sub a).y.val _ L := rounded_diff hE.acy hL10
  have r5 : Rounded 2 (c.x - b.x).val _ L := rounded_diff hE.bcx hL10
  have r6 : Rounded 2 (c.y - b.y).val _ L := rounded_diff hE.bcy hL10
  -- the first intersection is valid
  have hv : ((Line.perpendicularBisector a b).intersection (Line.perpendicularBisector b c)).valid = true := by
    rw [fp_intersection_valid]
    unfold Line.cdet
    rw [(fp_perpendicularBisector a b hab).1, (fp_perpendicularBisector a b hab).2, (fp_perpendicularBisector b c hbc).1,
      (fp_perpendicularBisector b c hbc).2]
    have q := rounded_cross r1 r6 r2 r5 hL10 hL10
    have e : (b.x.val - a.x.val) * (c.y.val - b.y.val) - (b.y.val - a.y.val) * (c.x.val - b.x.val) = area2 a.fpt b.fpt c.fpt := by
      unfold area2 Vec.fpt; ring
    rw [e] at q
    have f := det_facts hD hK (q.err.trans (show 9 * (2 : ℝ) ^ (-53 : ℤ) * (2 * (L * L)) ≤ 36 * (2 : ℝ) ^ (-53 : ℤ) * L ^ 2 by
      nlinarith [show (0:ℝ) < (2 : ℝ) ^ (-53 : ℤ) * L ^ 2 by positivity]))
    exact fp_EPSILON_le19.trans f.2.2.2
  -- the formula
  have q := rounded_cross r1 r4 r2 r3 hL10 hL10
  have eT : Rounded 9 ((b.sub a).outerProduct (c.sub a)).val (area2 a.fpt b.fpt c.fpt) (2 * (L * L)) := q
  set T := ((b.sub a).outerProduct (c.sub a)).val with hTd
  set D := area2 a.fpt b.fpt c.fpt with hDd
  have hT : |T - D| ≤ 18 * (2 : ℝ) ^ (-53 : ℤ) * L ^ 2 := eT.err.trans (le_of_eq (by ring))
  have ⟨d0, f1, f2, f3⟩ := det_facts hD hK (hT.trans (by nlinarith [show (0:ℝ) < (2 : ℝ) ^ (-53 : ℤ) * L ^ 2 by positivity]))
  have t0 : T ≠ 0 := abs_pos.mp (lt_of_lt_of_le (by positivity) f3)
  have hT2 : |T| ≤ (2 : ℝ) ^ (210 : ℤ) := by
    refine f2.trans ?_
    have : L ^ 2 ≤ ((2 : ℝ) ^ (100 : ℤ)) ^ 2 := pow_le_pow_left₀ L0.le hL 2
    norm_num at this ⊢
    linarith
  have e1 : (num 1 : FP double).val = 1 := (double.int 1 (by norm_num)).trans (by norm_num)
  have e2 : (num 2 : FP double).val = 2 := (double.int 2 (by norm_num)).trans (by norm_num)
  have eh : ((num 1 : FP double) / num 2).val = 1 / 2 := by
    rw [FP.div_val, e1, e2]
    exact rne_of_isDouble (by simpa using isDouble_pow (-1) (by norm_num))
  have small : ¬ (fabs ((b.sub a).outerProduct (c.sub a)) < num 1 / num 10000000000) := by
    rw [FP.lt_def, fp_fabs_val, not_lt]
    refine le_trans ?_ f3
    rw [FP.div_val, e1]
    have e3 : (num 10000000000 : FP double).val = 10000000000 := by
      rw [FP.cast_val]
      exact (rne_of_isDouble (isDouble_nat (n := 10000000000) (by norm_num))).trans (by norm_num)
    rw [e3]
    change rne _ ≤ _
    have i19 : IsDouble ((2 : ℝ) ^ (-19 : ℤ)) := isDouble_pow (-19) (by norm_num)
    rw [← rne_of_isDouble i19]
    exact rne_mono (by norm_num)
  have hval : Tri.triCircumcenter a b c = Vec.ofXY
      (a.x + (num 1 / num 2) / ((b.sub a).outerProduct (c.sub a)) * ((b.sub a).r2 * (c.sub a).y - (c.sub a).r2 * (b.sub a).y))
      (a.y + (num 1 / num 2) / ((b.sub a).outerProduct (c.sub a)) * ((b.sub a).x * (c.sub a).r2 - (c.sub a).x * (b.sub a).r2)) := by
    unfold Tri.triCircumcenter
    simp only [hv, Bool.not_true, Bool.false_eq_true, if_false]
    rw [if_neg small]
  obtain ⟨cx, nx⟩ := circum_rounded (ax := a.x.val) r1 r2 r3 r4 r4 r2 hL10 t0 hT2
  obtain ⟨cy, ny⟩ := circum_rounded (ax := a.y.val) r3 r4 r1 r2 r1 r3 hL10 t0 hT2
  refine ⟨by rw [hval]; rfl, _, circumcenter_iff d0, ?_, ?_⟩
  · have := circum_final cx.err hT nx d0 f1 hDL hL10
    rw [hval]
    change |rne (a.x.val + rne (rne (((num 1 : FP double) / num 2).val / T) * _)) - _| ≤ _
    rw [eh]
    exact this
  · have := circum_final cy.err hT ny d0 f1 hDL hL10
    rw [hval]
    change |rne (a.y.val + rne (rne (((num 1 : FP double) / num 2).val / T) * rne (rne ((b.sub a).x.val * (c.sub a).r2.val) -
      rne ((c.sub a).x.val * (b.sub a).r2.val)))) - _| ≤ _
    rw [eh, mul_comm (b.sub a).x.val, mul_comm (c.sub a).x.val]
    rw [mul_comm (((c.x.val - a.x.val) ^ 2 + (c.y.val - a.y.val) ^ 2)), mul_comm (((b.x.val - a.x.val) ^ 2 + (b.y.val - a.y.val) ^ 2))] at this
    exact this

/-- **C189** The computed circumcenter has nearly the same distance from the three vertices. -/
theorem C189_equidistant (a b c : Vec (FP double)) (L W : ℝ) (hE : Extent a.fpt b.fpt c.fpt L) (hL : L ≤ (2 : ℝ) ^ (100 : ℤ))
    (hD : (2 : ℝ) ^ (-18 : ℤ) ≤ |area2 a.fpt b.fpt c.fpt|) (hK : (2 : ℝ) ^ (-44 : ℤ) * L ^ 2 ≤ |area2 a.fpt b.fpt c.fpt|)
    (hab : (EPSILON : FP double).val ≤ max |b.x.val - a.x.val| |b.y.val - a.y.val|)
    (hbc : (EPSILON : FP double).val ≤ max |c.x.val - b.x.val| |c.y.val - b.y.val|) (hx : |a.x.val| ≤ W) (hy : |a.y.val| ≤ W) :
    ∃ R : ℝ, ∀ p ∈ [a, b, c], |d (Tri.triCircumcenter a b c).fpt p.fpt - R| ≤
      (2 : ℝ) ^ (-43 : ℤ) * (L ^ 5 / area2 a.fpt b.fpt c.fpt ^ 2) + (2 : ℝ) ^ (-47 : ℤ) * W := by
  obtain ⟨-, O, hO, h1, h2⟩ := C189_circumcenter a b c L hE hL hD hK hab hbc
  have ⟨e1, e2⟩ := (hO O).mpr rfl
  have hd : d (Tri.triCircumcenter a b c).fpt O ≤ (2 : ℝ) ^ (-43 : ℤ) * (L ^ 5 / area2 a.fpt b.fpt c.fpt ^ 2) + (2 : ℝ) ^ (-47 : ℤ) * W := by
    have h3 : d (Tri.triCircumcenter a b c).fpt O ≤ |(Tri.triCircumcenter a b c).x.val - O.1| + |(Tri.triCircumcenter a b c).y.val - O.2| := by
      unfold d
      refine Real.sqrt_le_iff.mpr ⟨by positivity, ?_⟩
      change ((Tri.triCircumcenter a b c).x.val - O.1) ^ 2 + ((Tri.triCircumcenter a b c).y.val - O.2) ^ 2 ≤ _
      rw [← sq_abs ((Tri.triCircumcenter a b c).x.val - O.1), ← sq_abs ((Tri.triCircumcenter a b c).y.val - O.2)]
      nlinarith [abs_nonneg ((Tri.triCircumcenter a b c).x.val - O.1), abs_nonneg ((Tri.triCircumcenter a b c).y.val - O.2)]
    refine h3.trans ((add_le_add h1 h2).trans ?_)
    have i1 := mul_le_mul_of_nonneg_left hx (show (0 : ℝ) ≤ (2 : ℝ) ^ (-48 : ℤ) by positivity)
    have i2 := mul_le_mul_of_nonneg_left hy (show (0 : ℝ) ≤ (2 : ℝ) ^ (-48 : ℤ) by positivity)
    generalize L ^ 5 / area2 a.fpt b.fpt c.fpt ^ 2 = Q at *
    norm_num at i1 i2 ⊢
    linarith
  have tri : ∀ p : Pt, |d (Tri.triCircumcenter a b c).fpt p - d O p| ≤ d (Tri.triCircumcenter a b c).fpt O := by
    intro p
    have t1 := d_triangle (Tri.triCircumcenter a b c).fpt O p
    have t2 := d_triangle O (Tri.triCircumcenter a b c).fpt p
    rw [d_comm O (Tri.triCircumcenter a b c).fpt] at t2
    rw [abs_le]; constructor <;> linarith
  refine ⟨d O a.fpt, fun p hp => ?_⟩
  simp only [List.mem_cons, List.not_mem_nil, or_false] at hp
  rcases hp with rfl | rfl | rfl
  · exact (tri _).trans hd
  · rw [e1]; exact (tri _).trans hd
  · rw [e1, e2]; exact (tri _).trans hd

/-- **C189** is false without the bound on `L ^ 2 / area`: for `(0, 0)`, `(262144 + 1 / 512, 262144)`, `(262144, 262144 - 1 / 512)`, not on a
line and not near each other, the perpendicular bisectors meet, in exact arithmetic and in doubles, and yet no circumcenter is returned. -/
theorem C189_bound_needed : ∃ a b c : Vec (FP double), a.FOk ∧ b.FOk ∧ c.FOk ∧ (EPSILON : FP double).val ≤ |area2 a.fpt b.fpt c.fpt| ∧
    (∃ O, IsCircumcenter a.fpt b.fpt c.fpt O) ∧
    ((Line.perpendicularBisector a b).intersection (Line.perpendicularBisector b c)).valid = true ∧
    (Tri.triCircumcenter a b c).valid = false := by
  have g1 : IsDouble (134217729 / 512 : ℝ) := ⟨134217729, -9, by norm_num, by norm_num, by norm_num⟩
  have g2 : IsDouble (134217728 / 512 : ℝ) := ⟨134217728, -9, by norm_num, by norm_num, by norm_num⟩
  have g3 : IsDouble (134217727 / 512 : ℝ) := ⟨134217727, -9, by norm_num, by norm_num, by norm_num⟩
  have s0 : ∀ {x : ℝ}, IsDouble x → rne (x - 0) = x := fun h => by rw [sub_zero]; exact rne_of_isDouble h
  set a : Vec (FP double) := Vec.ofXY ⟨0⟩ ⟨0⟩ with ha
  set b : Vec (FP double) := Vec.ofXY ⟨134217729 / 512⟩ ⟨134217728 / 512⟩ with hb
  set c : Vec (FP double) := Vec.ofXY ⟨134217728 / 512⟩ ⟨134217727 / 512⟩ with hc
  have harea : area2 a.fpt b.fpt c.fpt = -(1 / 262144) := by
    change ((134217729 / 512 : ℝ) - 0) * (134217727 / 512 - 0) - (134217728 / 512 - 0) * (134217728 / 512 - 0) = _
    norm_num
  have hab : (EPSILON : FP double).val ≤ max |b.x.val - a.x.val| |b.y.val - a.y.val| := by
    refine le_max_of_le_left (fp_EPSILON_le19.trans ?_)
    change _ ≤ |(134217729 / 512 : ℝ) - 0|
    norm_num [abs_of_pos]
  have hbc : (EPSILON : FP double).val ≤ max |c.x.val - b.x.val| |c.y.val - b.y.val| := by
    refine le_max_of_le_left (fp_EPSILON_le19.trans ?_)
    change _ ≤ |(134217728 / 512 : ℝ) - 134217729 / 512|
    rw [abs_of_neg] <;> norm_num
  have hv : ((Line.perpendicularBisector a b).intersection (Line.perpendicularBisector b c)).valid = true := by
    rw [fp_intersection_valid]
    unfold Line.cdet
    rw [(fp_perpendicularBisector a b hab).1, (fp_perpendicularBisector a b hab).2, (fp_perpendicularBisector b c hbc).1,
      (fp_perpendicularBisector b c hbc).2]
    change _ ≤ |rne (rne (rne (134217729 / 512 - 0) * rne (134217727 / 512 - 134217728 / 512)) - rne (rne (134217728 / 512 - 0) * rne (134217728 / 512 - 134217729 / 512)))|
    rw [s0 g1, s0 g2, show (134217727 / 512 - 134217728 / 512 : ℝ) = -(1 / 512) by norm_num,
      show (134217728 / 512 - 134217729 / 512 : ℝ) = -(1 / 512) by norm_num,
      rne_of_isDouble (x := -(1 / 512)) ⟨-1, -9, by norm_num, by norm_num, by norm_num⟩,
      show (134217729 / 512 * -(1 / 512) : ℝ) = -134217729 / 262144 by norm_num,
      show (134217728 / 512 * -(1 / 512) : ℝ) = -134217728 / 262144 by norm_num,
      rne_of_isDouble (x := -134217729 / 262144) ⟨-134217729, -18, by norm_num, by norm_num, by norm_num⟩,
      rne_of_isDouble (x := -134217728 / 262144) ⟨-134217728, -18, by norm_num, by norm_num, by norm_num⟩,
      show (-134217729 / 262144 - -134217728 / 262144 : ℝ) = -1 / 262144 by norm_num,
      rne_of_isDouble (x := -1 / 262144) ⟨-1, -18, by norm_num, by norm_num, by norm_num⟩]
    refine fp_EPSILON_le19.trans ?_
    rw [abs_of_neg] <;> norm_num
  have hz : ((b.sub a).outerProduct (c.sub a)).val = 0 := by
    change rne (rne (rne (134217729 / 512 - 0) * rne (134217727 / 512 - 0)) - rne (rne (134217728 / 512 - 0) * rne (134217728 / 512 - 0))) = 0
    rw [s0 g1, s0 g2, s0 g3, show (134217729 / 512 * (134217727 / 512) : ℝ) = 18014398509481983 / 262144 by norm_num,
      show (134217728 / 512 * (134217728 / 512) : ℝ) = 68719476736 by norm_num,
      rne_eq_even (x := 18014398509481983 / 262144) 35 9007199254740992 (by norm_num) (by norm_num [abs_of_pos]) (by norm_num [abs_of_pos]) (by norm_num [abs_le]) (by decide),
      rne_of_isDouble (x := 68719476736) ⟨1, 36, by norm_num, by norm_num, by norm_num⟩]
    norm_num
    exact rne_of_isDouble isDouble_zero
  refine ⟨a, b, c, ⟨isDouble_zero, isDouble_zero⟩, ⟨g1, g2⟩, ⟨g2, g3⟩, ?_, ?_, hv, ?_⟩
  · rw [harea]
    refine fp_EPSILON_le19.trans ?_
    rw [abs_of_neg] <;> norm_num
  · exact ⟨_, (circumcenter_iff (by rw [harea]; norm_num) _).mpr rfl⟩
  · unfold Tri.triCircumcenter
    simp only [hv, Bool.not_true, Bool.false_eq_true, if_false]
    rw [if_pos]
    · rfl
    · rw [FP.lt_def, fp_fabs_val, hz, abs_zero, FP.div_val]
      have e1 : (num 1 : FP double).val = 1 := (double.int 1 (by norm_num)).trans (by norm_num)
      have e3 : (num 10000000000 : FP double).val = 10000000000 := by
        rw [FP.cast_val]
        exact (rne_of_isDouble (isDouble_nat (n := 10000000000) (by norm_num))).trans (by norm_num)
      rw [e1, e3]
      change 0 < rne _
      refine lt_of_lt_of_le (show (0 : ℝ) < (2 : ℝ) ^ (-40 : ℤ) by positivity) ?_
      rw [← rne_of_isDouble (isDouble_pow (-40) (by norm_num))]
      exact rne_mono (by norm_num)

/-- The triangle `(0, 0)`, `(4, 0)`, `(0, 2)`. -/
example : |(Tri.triCircumcenter (Vec.ofXY (⟨0⟩ : FP double) ⟨0⟩) (Vec.ofXY ⟨4⟩ ⟨0⟩) (Vec.ofXY ⟨0⟩ ⟨2⟩)).x.val - 2| ≤ (2 : ℝ) ^ (-40 : ℤ) := by
  have hA : area2 (Vec.ofXY (⟨0⟩ : FP double) ⟨0⟩).fpt (Vec.ofXY (⟨4⟩ : FP double) ⟨0⟩).fpt (Vec.ofXY (⟨0⟩ : FP double) ⟨2⟩).fpt = 8 := by
    change ((4 : ℝ) - 0) * (2 - 0) - (0 - 0) * (0 - 0) = 8
    norm_num
  obtain ⟨-, O, hO, h1, -⟩ := C189_circumcenter (Vec.ofXY (⟨0⟩ : FP double) ⟨0⟩) (Vec.ofXY ⟨4⟩ ⟨0⟩) (Vec.ofXY ⟨0⟩ ⟨2⟩) 4
    (by constructor <;> norm_num [Vec.fpt, Vec.ofXY]) (by norm_num) (by rw [hA]; norm_num [abs_of_pos]) (by rw [hA]; norm_num [abs_of_pos])
    (le_max_of_le_left (fp_EPSILON_le19.trans (by norm_num [Vec.ofXY]))) (le_max_of_le_left (fp_EPSILON_le19.trans (by norm_num [Vec.ofXY])))
  have : O = (2, 1) := ((hO (2, 1)).mp ⟨by rw [d_eq_d_iff]; norm_num [Vec.fpt, Vec.ofXY], by rw [d_eq_d_iff]; norm_num [Vec.fpt, Vec.ofXY]⟩).symm
  rw [hA, this] at h1
  refine h1.trans ?_
  norm_num [Vec.ofXY]

/-! ## The orthocenter -/

theorem orthocenter_iff {a b c : Pt} (h : area2 a b c ≠ 0) (z : Pt) : IsOrthocenter a b c z ↔
    z = (((c.2 - b.2) * -((a.1 - c.1) * b.1 + (a.2 - c.2) * b.2) - (a.2 - c.2) * -((c.1 - b.1) * a.1 + (c.2 - b.2) * a.2)) / area2 a b c,
      ((a.1 - c.1) * -((c.1 - b.1) * a.1 + (c.2 - b.2) * a.2) - (c.1 - b.1) * -((a.1 - c.1) * b.1 + (a.2 - c.2) * b.2)) / area2 a b c) := by
  have hD : (b.1 - a.1) * (c.2 - a.2) - (b.2 - a.2) * (c.1 - a.1) ≠ 0 := h
  unfold IsOrthocenter
  constructor
  · rintro ⟨h1, h2, -⟩
    ext
    · simp only
      unfold area2
      rw [eq_div_iff hD]
      linear_combination (a.2 - c.2) * h1 - (c.2 - b.2) * h2
    · simp only
      unfold area2
      rw [eq_div_iff hD]
      linear_combination (c.1 - a.1) * h1 + (c.1 - b.1) * h2
  · rintro rfl
    simp only
    unfold area2
    refine ⟨?_, ?_, ?_⟩
    · field_simp; ring
    · field_simp; ring
    · field_simp; ring

/-- The constant term of an altitude. -/
theorem altitude_rounded {x y X Y px py L W : ℝ} (h1 : Rounded 2 X x L) (h2 : Rounded 2 Y y L) (hx : |px| ≤ W) (hy : |py| ≤ W)
    (hL : (2 : ℝ) ^ (-10 : ℤ) ≤ L) (hW : (2 : ℝ) ^ (-100 : ℤ) ≤ W) :
    Rounded 7 (rne (rne (-Y * py) - rne (X * px))) (-(x * px + y * py)) (2 * (L * W)) := by
  have k : (2 : ℝ) ^ (-100 : ℤ) ≤ (2 : ℝ) ^ (-10 : ℤ) := zpow_le_zpow_right₀ one_le_two (by norm_num)
  have ex : ∀ {p : ℝ}, |p| ≤ W → Rounded 0 p p W := fun h => rounded_exact h (two_1000_le (n := -100) (by norm_num) hW)
  have q1 := rounded_pair h2.neg (ex hy) (by norm_num) (by norm_num) (by norm_num) (k.trans hL) hW
  have q2 := rounded_pair h1 (ex hx) (by norm_num) (by norm_num) (by norm_num) (k.trans hL) hW
  have := (q1.sub q2 (by norm_num) (by norm_num) (by norm_num)).mono (f := 7) (N := 2 * (L * W)) (by norm_num) (by norm_num) (by linarith)
  rwa [show -y * py - x * px = -(x * px + y * py) by ring] at this

/-- One coordinate of the intersection of two altitudes. -/
theorem ortho_coord {p q r s P Q R S T D L W : ℝ} (h1 : Rounded 2 P p L) (h2 : Rounded 7 Q q (2 * (L * W))) (h3 : Rounded 2 R r L)
    (h4 : Rounded 7 S s (2 * (L * W))) (hL : (2 : ℝ) ^ (-10 : ℤ) ≤ L) (hW : (2 : ℝ) ^ (-50 : ℤ) ≤ W) (d0 : D ≠ 0)
    (hT : |T - D| ≤ 18 * (2 : ℝ) ^ (-53 : ℤ) * L ^ 2) (f1 : |D| ≤ 2 * |T|) (hT2 : |T| ≤ (2 : ℝ) ^ (210 : ℤ)) (hDL : |D| ≤ 2 * L ^ 2) :
    |rne (rne (rne (P * Q) - rne (R * S)) / T) - (p * q - r * s) / D| ≤ (2 : ℝ) ^ (-44 : ℤ) * (L ^ 4 * W / D ^ 2) := by
  have k : (2 : ℝ) ^ (-100 : ℤ) ≤ (2 : ℝ) ^ (-10 : ℤ) := zpow_le_zpow_right₀ one_le_two (by norm_num)
  have L0 : 0 < L := lt_of_lt_of_le (by positivity) hL
  have W0 : 0 < W := lt_of_lt_of_le (by positivity) hW
  have dd : 0 < |D| := abs_pos.mpr d0
  have T0 : 0 < |T| := by linarith
  have lw : (2 : ℝ) ^ (-60 : ℤ) ≤ L * W := by
    rw [show (-60 : ℤ) = -10 + -50 by norm_num, zpow_add₀ two_ne_zero]
    exact mul_le_mul hL hW (by positivity) L0.le
  have lw2 : (2 : ℝ) ^ (-100 : ℤ) ≤ 2 * (L * W) := by
    have : (2 : ℝ) ^ (-100 : ℤ) ≤ (2 : ℝ) ^ (-60 : ℤ) := zpow_le_zpow_right₀ one_le_two (by norm_num)
    linarith [mul_pos L0 W0]
  have q1 := rounded_pair h1 h2 (by norm_num) (by norm_num) (by norm_num) (k.trans hL) lw2
  have q2 := rounded_pair h3 h4 (by norm_num) (by norm_num) (by norm_num) (k.trans hL) lw2
  have n := (q1.sub q2 (by norm_num) (by norm_num) (by norm_num)).mono (f := 14) (N := 4 * (L ^ 2 * W)) (by norm_num) (by norm_num) (by nlinarith)
  have big : (2 : ℝ) ^ (-600 : ℤ) ≤ 4 * (L ^ 2 * W) := by
    have h5 : (2 : ℝ) ^ (-10 : ℤ) * (2 : ℝ) ^ (-60 : ℤ) ≤ L * (L * W) := mul_le_mul hL lw (by positivity) L0.le
    rw [← zpow_add₀ two_ne_zero] at h5
    have h6 : (2 : ℝ) ^ (-600 : ℤ) ≤ (2 : ℝ) ^ (-10 + -60 : ℤ) := zpow_le_zpow_right₀ one_le_two (by norm_num)
    have : 0 < L * (L * W) := by positivity
    linarith
  have v := rounded_divd n (by norm_num) (by norm_num) big (abs_pos.mp T0) (hT2.trans (zpow_le_zpow_right₀ one_le_two (by norm_num)))
  have sh := quot_shift hT n.le d0 f1
  refine (abs_sub_le _ ((p * q - r * s) / T) _).trans ((add_le_add v.err sh).trans ?_)
  have e2 : 2 * (4 * (L ^ 2 * W)) * (18 * (2 : ℝ) ^ (-53 : ℤ) * L ^ 2) / D ^ 2 = 144 * (2 : ℝ) ^ (-53 : ℤ) * (L ^ 4 * W / D ^ 2) := by ring
  rw [e2]
  have e3 : 4 * (L ^ 2 * W) / |T| ≤ 16 * (L ^ 4 * W / D ^ 2) := by
    rw [← sq_abs D, mul_div_assoc', div_le_div_iff₀ T0 (by positivity)]
    have : |D| ^ 2 ≤ 4 * L ^ 2 * |T| := by nlinarith
    nlinarith [mul_le_mul_of_nonneg_left this (show 0 ≤ L ^ 2 * W by positivity)]
  have q0 : 0 < L ^ 4 * W / D ^ 2 := by positivity
  generalize L ^ 4 * W / D ^ 2 = Q at *
  norm_num
  linarith

/-- **C189** The orthocenter. -/
theorem C189_orthocenter (a b c : Vec (FP double)) (L W : ℝ) (hE : Extent a.fpt b.fpt c.fpt L) (hL : L ≤ (2 : ℝ) ^ (100 : ℤ))
    (hD : (2 : ℝ) ^ (-18 : ℤ) ≤ |area2 a.fpt b.fpt c.fpt|) (hK : (2 : ℝ) ^ (-44 : ℤ) * L ^ 2 ≤ |area2 a.fpt b.fpt c.fpt|)
    (hW : ∀ p ∈ [a, b], |p.x.val| ≤ W ∧ |p.y.val| ≤ W) (hW0 : (2 : ℝ) ^ (-50 : ℤ) ≤ W) :
    (Tri.triOrthocenter a b c).valid = true ∧ ∃ H : Pt, (∀ z, IsOrthocenter a.fpt b.fpt c.fpt z ↔ z = H) ∧
      |(Tri.triOrthocenter a b c).x.val - H.1| ≤ (2 : ℝ) ^ (-44 : ℤ) * (L ^ 4 * W / area2 a.fpt b.fpt c.fpt ^ 2) ∧
      |(Tri.triOrthocenter a b c).y.val - H.2| ≤ (2 : ℝ) ^ (-44 : ℤ) * (L ^ 4 * W / area2 a.fpt b.fpt c.fpt ^ 2) := by
  have hL10 := hE.big hD
  have hDL := hE.area
  have L0 : 0 < L := lt_of_lt_of_le (by positivity) hL10
  have hW1 : (2 : ℝ) ^ (-100 : ℤ) ≤ W := le_trans (zpow_le_zpow_right₀ one_le_two (by norm_num)) hW0
  have ha := hW a (by simp)
  have hb := hW b (by simp)
  have r1 : Rounded 2 (c.x - b.x).val (c.x.val - b.x.val) L := rounded_diff hE.bcx hL10
  have r2 : Rounded 2 (c.y - b.y).val (c.y.val - b.y.val) L := rounded_diff hE.bcy hL10
  have r3 : Rounded 2 (a.x - c.x).val (a.x.val - c.x.val) L := rounded_diff (by rw [abs_sub_comm]; exact hE.acx) hL10
  have r4 : Rounded 2 (a.y - c.y).val (a.y.val - c.y.val) L := rounded_diff (by rw [abs_sub_comm]; exact hE.acy) hL10
  have s1 := altitude_rounded r1 r2 ha.1 ha.2 hL10 hW1
  have s2 := altitude_rounded r3 r4 hb.1 hb.2 hL10 hW1
  set l := (Line.ofPoints b c).perpendicular a with hl
  set o := (Line.ofPoints c a).perpendicular b with ho
  have la : l.a.val = (c.x - b.x).val := rfl
  have lb : l.b.val = (c.y - b.y).val := by
    change - -(c.y - b.y).val = _
    rw [neg_neg]
  have oa : o.a.val = (a.x - c.x).val := rfl
  have ob : o.b.val = (a.y - c.y).val := by
    change - -(a.y - c.y).val = _
    rw [neg_neg]
  have lc : Rounded 7 l.c.val _ (2 * (L * W)) := s1
  have oc : Rounded 7 o.c.val _ (2 * (L * W)) := s2
  have q := rounded_cross r1 r4 r2 r3 hL10 hL10
  have e : (c.x.val - b.x.val) * (a.y.val - c.y.val) - (c.y.val - b.y.val) * (a.x.val - c.x.val) = area2 a.fpt b.fpt c.fpt := by
    unfold area2 Vec.fpt; ring
  rw [e, ← la, ← ob, ← lb, ← oa] at q
  have hT : |l.cdet o - area2 a.fpt b.fpt c.fpt| ≤ 18 * (2 : ℝ) ^ (-53 : ℤ) * L ^ 2 := q.err.trans (le_of_eq (by ring))
  have ⟨d0, f1, f2, f3⟩ := det_facts hD hK (hT.trans (by nlinarith [show (0:ℝ) < (2 : ℝ) ^ (-53 : ℤ) * L ^ 2 by positivity]))
  have hT2 : |l.cdet o| ≤ (2 : ℝ) ^ (210 : ℤ) := by
    refine f2.trans ?_
    have : L ^ 2 ≤ ((2 : ℝ) ^ (100 : ℤ)) ^ 2 := pow_le_pow_left₀ L0.le hL 2
    norm_num at this ⊢
    linarith
  have hv : (EPSILON : FP double).val ≤ |l.cdet o| := fp_EPSILON_le19.trans f3
  have hval : Tri.triOrthocenter a b c = l.intersection o := rfl
  rw [hval]
  rw [← la] at r1
  rw [← lb] at r2
  rw [← oa] at r3
  rw [← ob] at r4
  refine ⟨(fp_intersection_valid l o).mpr hv, _, orthocenter_iff d0, ?_, ?_⟩
  · rw [fp_line_intersection l o hv]
    exact ortho_coord r2 oc r4 lc hL10 hW0 d0 hT f1 hT2 hDL
  · rw [fp_line_intersection l o hv]
    exact ortho_coord r3 lc r1 oc hL10 hW0 d0 hT f1 hT2 hDL

end PyrusGeom
