import Verif.Props.FloatRectLine

/-! # C201: the intersections of a segment and of a triangle with a line in double precision -/

namespace PyrusGeom
open Spec

theorem mag_bound {x M N : ℝ} (h : |x| ≤ M) (hN : M + 1 / 1000 ≤ N) : mag x ≤ N := by
  unfold mag
  have : (2 : ℝ) ^ (-200 : ℤ) ≤ (2 : ℝ) ^ (-10 : ℤ) := zpow_le_zpow_right₀ one_le_two (by norm_num)
  rw [show (2 : ℝ) ^ (-10 : ℤ) = 1 / 1024 by norm_num] at this
  generalize (2 : ℝ) ^ (-200 : ℤ) = w at *
  linarith

/-- The sizes of the coefficients of the line of a segment and of the products in the intersection. -/
theorem seg_mags {s : Seg (FP double)} {l : Line (FP double)} {B Λ : ℝ} (hB1 : 1 ≤ B) (hΛ1 : 1 ≤ Λ)
    (ho : |s.origin.x.val| ≤ B ∧ |s.origin.y.val| ≤ B) (ht : |s.terminal.x.val| ≤ B ∧ |s.terminal.y.val| ≤ B)
    (ha : |l.a.val| ≤ Λ) (hb : |l.b.val| ≤ Λ) (hc : |l.c.val| ≤ Λ * B) :
    (|s.line.a.val + (s.terminal.y.val - s.origin.y.val)| ≤ 1 / 2251799813685248 * B ∧
      |s.line.b.val - (s.terminal.x.val - s.origin.x.val)| ≤ 1 / 2251799813685248 * B) ∧
    (|s.line.a.val| ≤ 201 / 100 * B ∧ |s.line.b.val| ≤ 201 / 100 * B) ∧
    s.line.magT l ≤ 5 * (Λ * B) ∧ s.line.magU l ≤ 8 * (Λ * B ^ 2) ∧ s.line.magV l ≤ 8 * (Λ * B ^ 2) ∧
    mag l.a.val ≤ 2 * Λ ∧ mag l.b.val ≤ 2 * Λ ∧ mag l.c.val ≤ 2 * (Λ * B) ∧
    mag s.line.a.val ≤ 3 * B ∧ mag s.line.b.val ≤ 3 * B ∧ mag s.line.c.val ≤ 5 * B ^ 2 := by
  obtain ⟨hox, hoy⟩ := ho
  obtain ⟨htx, hty⟩ := ht
  obtain ⟨k1, k2, k3⟩ := edge_line (A := s.line.a.val) (D := s.line.b.val) (C := s.line.c.val) hB1 hox hoy htx hty rfl rfl rfl
  have BB : 1 ≤ B ^ 2 := one_le_pow₀ hB1
  have ΛB : 1 ≤ Λ * B := one_le_mul_of_one_le_of_one_le hΛ1 hB1
  have hA : |s.line.a.val| ≤ 201 / 100 * B := by
    have h1 := abs_sub_abs_le_abs_sub s.line.a.val (-(s.terminal.y.val - s.origin.y.val))
    rw [sub_neg_eq_add, abs_neg] at h1
    have := abs_sub s.terminal.y.val s.origin.y.val
    linarith
  have hD : |s.line.b.val| ≤ 201 / 100 * B := by
    have h1 := abs_sub_abs_le_abs_sub s.line.b.val (s.terminal.x.val - s.origin.x.val)
    have := abs_sub s.terminal.x.val s.origin.x.val
    linarith
  have hC : |s.line.c.val| ≤ 403 / 100 * B ^ 2 := by
    have h1 := abs_sub_abs_le_abs_sub s.line.c.val (-(s.line.a.val * s.origin.x.val + s.line.b.val * s.origin.y.val))
    rw [sub_neg_eq_add, ← add_assoc, abs_neg] at h1
    have h2 := abs_add_le (s.line.a.val * s.origin.x.val) (s.line.b.val * s.origin.y.val)
    rw [abs_mul, abs_mul] at h2
    have h3 := mul_le_mul hA hox (abs_nonneg _) (by linarith)
    have h4 := mul_le_mul hD hoy (abs_nonneg _) (by linarith)
    nlinarith
  have B0 : 0 ≤ B := by linarith
  have Λ0 : 0 ≤ Λ := by linarith
  have mA := mag_bound hA (show _ ≤ 202 / 100 * B by linarith)
  have mD := mag_bound hD (show _ ≤ 202 / 100 * B by linarith)
  have mC := mag_bound hC (show _ ≤ 404 / 100 * B ^ 2 by linarith)
  have ma := mag_bound ha (show _ ≤ 101 / 100 * Λ by linarith)
  have mb := mag_bound hb (show _ ≤ 101 / 100 * Λ by linarith)
  have mc := mag_bound hc (show _ ≤ 101 / 100 * (Λ * B) by linarith)
  have p := fun z => (mag_pos z).le
  refine ⟨⟨k1, k2⟩, ⟨hA, hD⟩, ?_, ?_, ?_, by linarith, by linarith, by linarith, by linarith, by linarith, by linarith⟩
  · unfold Line.magT
    have h1 := mul_le_mul mA mb (p _) (by positivity)
    have h2 := mul_le_mul mD ma (p _) (by positivity)
    nlinarith
  · unfold Line.magU
    have h1 := mul_le_mul mD mc (p _) (by positivity)
    have h2 := mul_le_mul mb mC (p _) (by positivity)
    have e : 202 / 100 * B * (101 / 100 * (Λ * B)) = 202 / 100 * (101 / 100) * (Λ * B ^ 2) := by ring
    have e2 : 101 / 100 * Λ * (404 / 100 * B ^ 2) = 101 / 100 * (404 / 100) * (Λ * B ^ 2) := by ring
    have : 0 ≤ Λ * B ^ 2 := by positivity
    linarith
  · unfold Line.magV
    have h1 := mul_le_mul ma mC (p _) (by positivity)
    have h2 := mul_le_mul mA mc (p _) (by positivity)
    have e : 202 / 100 * B * (101 / 100 * (Λ * B)) = 202 / 100 * (101 / 100) * (Λ * B ^ 2) := by ring
    have e2 : 101 / 100 * Λ * (404 / 100 * B ^ 2) = 101 / 100 * (404 / 100) * (Λ * B ^ 2) := by ring
    have : 0 ≤ Λ * B ^ 2 := by positivity
    linarith

/-- The computed determinant against the exact one. -/
theorem seg_det {s : Seg (FP double)} {l : Line (FP double)} {B Λ : ℝ} (hB1 : 1 ≤ B) (hΛ1 : 1 ≤ Λ) (hΛB : Λ * B ≤ 2 ^ 22)
    (ho : |s.origin.x.val| ≤ B ∧ |s.origin.y.val| ≤ B) (ht : |s.terminal.x.val| ≤ B ∧ |s.terminal.y.val| ≤ B)
    (ha : |l.a.val| ≤ Λ) (hb : |l.b.val| ≤ Λ) (hc : |l.c.val| ≤ Λ * B) {δ : ℝ}
    (hδ : δ = l.a.val * (s.terminal.x.val - s.origin.x.val) + l.b.val * (s.terminal.y.val - s.origin.y.val)) :
    |s.line.cdet l + δ| ≤ 1 / 60000000 ∧ |s.line.fdet l + δ| ≤ 1 / 60000000 ∧ |s.line.cdet l| ≤ (2 : ℝ) ^ (400 : ℤ) := by
  obtain ⟨⟨k1, k2⟩, ⟨a1, a2⟩, m1, -⟩ := seg_mags hB1 hΛ1 ho ht ha hb hc
  have r : Rounded 5 (s.line.cdet l) (s.line.fdet l) (s.line.magT l) :=
    ((rounded_prod _ _).sub (rounded_prod _ _) (by norm_num) (by norm_num) (by norm_num)).mono (by norm_num) (by norm_num) le_rfl
  have h1 := r.err
  rw [show (2 : ℝ) ^ (-53 : ℤ) = 1 / 9007199254740992 by norm_num] at h1
  norm_num at hΛB
  have B0 : 0 ≤ B := by linarith
  have Λ0 : 0 ≤ Λ := by linarith
  have h2 : |s.line.fdet l + δ| ≤ 1 / 1125899906842624 * (Λ * B) := by
    have e : s.line.fdet l + δ = (s.line.a.val + (s.terminal.y.val - s.origin.y.val)) * l.b.val -
        (s.line.b.val - (s.terminal.x.val - s.origin.x.val)) * l.a.val := by
      rw [hδ]; unfold Line.fdet; ring
    rw [e]
    refine (abs_sub _ _).trans ?_
    rw [abs_mul, abs_mul]
    have p1 := mul_le_mul k1 hb (abs_nonneg _) (by positivity)
    have p2 := mul_le_mul k2 ha (abs_nonneg _) (by positivity)
    nlinarith
  have h3 : |s.line.cdet l + δ| ≤ 1 / 60000000 := by
    rw [show s.line.cdet l + δ = (s.line.cdet l - s.line.fdet l) + (s.line.fdet l + δ) by ring]
    refine (abs_add_le _ _).trans ?_
    linarith
  refine ⟨h3, by linarith, ?_⟩
  have h4 : |δ| ≤ 16777216 := by
    rw [hδ]
    refine (abs_add_le _ _).trans ?_
    rw [abs_mul, abs_mul]
    have p1 := mul_le_mul ha ((abs_sub s.terminal.x.val s.origin.x.val).trans (add_le_add ht.1 ho.1)) (abs_nonneg _) Λ0
    have p2 := mul_le_mul hb ((abs_sub s.terminal.y.val s.origin.y.val).trans (add_le_add ht.2 ho.2)) (abs_nonneg _) Λ0
    nlinarith
  have h5 := abs_sub_abs_le_abs_sub (s.line.cdet l) (-δ)
  rw [sub_neg_eq_add, abs_neg] at h5
  have h6 : (2 : ℝ) ^ (30 : ℤ) ≤ (2 : ℝ) ^ (400 : ℤ) := zpow_le_zpow_right₀ one_le_two (by norm_num)
  refine le_trans ?_ h6
  norm_num
  linarith

/-- The residuals of the computed intersection of the line of a segment with a line. -/
theorem seg_residual {s : Seg (FP double)} {l : Line (FP double)} {B Λ : ℝ} (hB1 : 1 ≤ B) (hΛ1 : 1 ≤ Λ) (hΛB : Λ * B ≤ 2 ^ 22)
    (ho : |s.origin.x.val| ≤ B ∧ |s.origin.y.val| ≤ B) (ht : |s.terminal.x.val| ≤ B ∧ |s.terminal.y.val| ≤ B)
    (ha : |l.a.val| ≤ Λ) (hb : |l.b.val| ≤ Λ) (hc : |l.c.val| ≤ Λ * B) {δ : ℝ}
    (hδ : δ = l.a.val * (s.terminal.x.val - s.origin.x.val) + l.b.val * (s.terminal.y.val - s.origin.y.val))
    {P : Vec (FP double)} (hP : P = s.line.intersection l) (hv : P.valid = true) :
    |l.a.val * P.x.val + l.b.val * P.y.val + l.c.val| * |δ| ≤ 1 / 17592186044416 * (Λ ^ 2 * B ^ 2) ∧
    |s.line.a.val * P.x.val + s.line.b.val * P.y.val + s.line.c.val| * |δ| ≤ 1 / 8796093022208 * (Λ * B ^ 3) := by
  obtain ⟨-, -, m1, m2, m3, m4, m5, m6, m7, m8, m9⟩ := seg_mags hB1 hΛ1 ho ht ha hb hc
  obtain ⟨d1, -, d3⟩ := seg_det hB1 hΛ1 hΛB ho ht ha hb hc hδ
  rw [hP] at hv
  obtain ⟨r1, r2⟩ := C186_residual s.line l hv d3
  have hT := fp_EPSILON_ge.trans ((fp_intersection_valid s.line l).mp hv)
  rw [show (2 : ℝ) ^ (-20 : ℤ) = 1 / 1048576 by norm_num] at hT
  have T0 : 0 < |s.line.cdet l| := by linarith
  have hδT : |δ| ≤ 11 / 10 * |s.line.cdet l| := by
    have h5 := abs_sub_abs_le_abs_sub (-δ) (s.line.cdet l)
    rw [abs_neg, show -δ - s.line.cdet l = -(s.line.cdet l + δ) by ring, abs_neg] at h5
    linarith
  have B0 : 0 ≤ B := by linarith
  have Λ0 : 0 ≤ Λ := by linarith
  have p := fun z => (mag_pos z).le
  have e50 : (2 : ℝ) ^ (-50 : ℤ) = 1 / 1125899906842624 := by norm_num
  have fin : ∀ {ρ S K : ℝ}, |ρ| ≤ (2 : ℝ) ^ (-50 : ℤ) * (S / |s.line.cdet l|) → S ≤ K → |ρ| * |δ| ≤ 1 / 1125899906842624 * (11 / 10) * K := by
    intro ρ S K h1 h2
    have h3 : |ρ| * |s.line.cdet l| ≤ 1 / 1125899906842624 * S := by
      have := mul_le_mul_of_nonneg_right h1 T0.le
      rw [e50, mul_assoc, div_mul_cancel₀ _ T0.ne'] at this
      exact this
    have h4 := mul_le_mul_of_nonneg_left hδT (abs_nonneg ρ)
    linarith
  have T1 : 0 ≤ s.line.magT l := add_nonneg (mul_nonneg (p _) (p _)) (mul_nonneg (p _) (p _))
  have U1 : 0 ≤ s.line.magU l := add_nonneg (mul_nonneg (p _) (p _)) (mul_nonneg (p _) (p _))
  have V1 : 0 ≤ s.line.magV l := add_nonneg (mul_nonneg (p _) (p _)) (mul_nonneg (p _) (p _))
  rw [hP]
  constructor
  · have q1 := mul_le_mul m4 m2 U1 (by positivity)
    have q2 := mul_le_mul m5 m3 V1 (by positivity)
    have q3 := mul_le_mul m6 m1 T1 (by positivity)
    refine (fin r2 (add_le_add (add_le_add q1 q2) q3)).trans ?_
    have : 0 ≤ Λ ^ 2 * B ^ 2 := by positivity
    nlinarith
  · have q1 := mul_le_mul m7 m2 U1 (by positivity)
    have q2 := mul_le_mul m8 m3 V1 (by positivity)
    have q3 := mul_le_mul m9 m1 T1 (by positivity)
    refine (fin r1 (add_le_add (add_le_add q1 q2) q3)).trans ?_
    have : 0 ≤ Λ * B ^ 3 := by positivity
    nlinarith

theorem seg_intersection_valid {s : Seg (FP double)} {l : Line (FP double)} : (s.intersectionLine l).valid = true ↔
    (s.line.intersection l).valid = true ∧ s.contains (s.line.intersection l) = true := by
  unfold Seg.intersectionLine
  simp only []
  cases h1 : (s.line.intersection l).valid <;> cases h2 : s.contains (s.line.intersection l) <;> simp [h1, Vec.invalid, Vec.invalidate]

theorem seg_intersection_eq {s : Seg (FP double)} {l : Line (FP double)} (h : (s.intersectionLine l).valid = true) :
    s.intersectionLine l = s.line.intersection l := by
  obtain ⟨h1, h2⟩ := seg_intersection_valid.mp h
  unfold Seg.intersectionLine
  simp [h1, h2]

/-- A point nearly between the ends is not far from the first. -/
theorem seg_near_end {p q x B : ℝ} (hB1 : 1 ≤ B) (hp : |p| ≤ B) (hq : |q| ≤ B) (h : (x - p) * (x - q) ≤ 1 / 500000000) : |x - p| ≤ 3 * B := by
  rw [abs_le] at *
  constructor <;> by_contra hn <;> push Not at hn <;> nlinarith

/-- The reported point `P` of the segment from `o` to `t` and the line `l`: near the line, near the line of the segment, and nearly in the box of
its ends. The errors grow as the angle between the lines gets small. -/
def Spec.NearMeet (o t : Vec (FP double)) (l : Line (FP double)) (B Λ : ℝ) (P : Vec (FP double)) : Prop :=
  |l.a.val * P.x.val + l.b.val * P.y.val + l.c.val| * |l.a.val * (t.x.val - o.x.val) + l.b.val * (t.y.val - o.y.val)| ≤
    (2 : ℝ) ^ (-44 : ℤ) * (Λ ^ 2 * B ^ 2) ∧
  |(t.x.val - o.x.val) * (P.y.val - o.y.val) - (t.y.val - o.y.val) * (P.x.val - o.x.val)| *
    |l.a.val * (t.x.val - o.x.val) + l.b.val * (t.y.val - o.y.val)| ≤ (2 : ℝ) ^ (-42 : ℤ) * (Λ * B ^ 3) ∧
  (P.x.val - o.x.val) * (P.x.val - t.x.val) ≤ 1 / 500000000 ∧ (P.y.val - o.y.val) * (P.y.val - t.y.val) ≤ 1 / 500000000

/-- **C201** A reported intersection of a segment with a line is near both. -/
theorem C201_segment (s : Seg (FP double)) (l : Line (FP double)) {B Λ : ℝ} (hB1 : 1 ≤ B) (hΛ1 : 1 ≤ Λ) (hΛB : Λ * B ≤ 2 ^ 22)
    (ho : |s.origin.x.val| ≤ B ∧ |s.origin.y.val| ≤ B) (ht : |s.terminal.x.val| ≤ B ∧ |s.terminal.y.val| ≤ B)
    (ha : |l.a.val| ≤ Λ) (hb : |l.b.val| ≤ Λ) (hc : |l.c.val| ≤ Λ * B) (hv : (s.intersectionLine l).valid = true) :
    NearMeet s.origin s.terminal l B Λ (s.intersectionLine l) := by
  obtain ⟨v1, v2⟩ := seg_intersection_valid.mp hv
  rw [seg_intersection_eq hv]
  obtain ⟨δ, hδ⟩ : ∃ δ, δ = l.a.val * (s.terminal.x.val - s.origin.x.val) + l.b.val * (s.terminal.y.val - s.origin.y.val) := ⟨_, rfl⟩
  obtain ⟨P, hP⟩ : ∃ P, P = s.line.intersection l := ⟨_, rfl⟩
  rw [← hP] at v1 v2 ⊢
  obtain ⟨k1, k2⟩ := seg_residual hB1 hΛ1 hΛB ho ht ha hb hc hδ hP v1
  obtain ⟨b1, b2⟩ := (contains_iff s P).mp v2
  have B0 : 0 ≤ B := by linarith
  have Λ0 : 0 ≤ Λ := by linarith
  have hB4 : B ≤ (2 : ℝ) ^ (400 : ℤ) := by
    have h6 : (2 : ℝ) ^ (22 : ℤ) ≤ (2 : ℝ) ^ (400 : ℤ) := zpow_le_zpow_right₀ one_le_two (by norm_num)
    refine le_trans ?_ h6
    norm_num at hΛB ⊢
    nlinarith
  have c1 : (P.x.val - s.origin.x.val) * (P.x.val - s.terminal.x.val) ≤ 1 / 500000000 := box_sound hB4 (by
    rw [show P.x.val - s.origin.x.val - (P.x.val - s.terminal.x.val) = s.terminal.x.val - s.origin.x.val by ring]
    exact (abs_sub _ _).trans (by linarith [ho.1, ht.1])) b1
  have c2 : (P.y.val - s.origin.y.val) * (P.y.val - s.terminal.y.val) ≤ 1 / 500000000 := box_sound hB4 (by
    rw [show P.y.val - s.origin.y.val - (P.y.val - s.terminal.y.val) = s.terminal.y.val - s.origin.y.val by ring]
    exact (abs_sub _ _).trans (by linarith [ho.2, ht.2])) b2
  refine ⟨?_, ?_, c1, c2⟩
  · rw [← hδ, show (2 : ℝ) ^ (-44 : ℤ) = 1 / 17592186044416 by norm_num]; exact k1
  · rw [← hδ, show (2 : ℝ) ^ (-42 : ℤ) = 1 / 4398046511104 by norm_num]
    have n1 := seg_near_end hB1 ho.1 ht.1 c1
    have n2 := seg_near_end hB1 ho.2 ht.2 c2
    have k := seg_line_cross (A := s.line.a.val) (D := s.line.b.val) (C := s.line.c.val) (X := P.x.val) (Y := P.y.val) hB1 ho.1 ho.2 ht.1 ht.2 rfl rfl rfl
    rw [abs_sub_comm] at k
    have q := abs_sub_abs_le_abs_sub ((s.terminal.x.val - s.origin.x.val) * (P.y.val - s.origin.y.val) - (s.terminal.y.val - s.origin.y.val) * (P.x.val - s.origin.x.val))
        (s.line.a.val * P.x.val + s.line.b.val * P.y.val + s.line.c.val)
    have q2 : B * (|P.x.val - s.origin.x.val| + |P.y.val - s.origin.y.val| + 4 * B) ≤ B * (10 * B) := mul_le_mul_of_nonneg_left (by linarith) B0
    have q3 : |δ| ≤ 4 * (Λ * B) := by
      rw [hδ]
      refine (abs_add_le _ _).trans ?_
      rw [abs_mul, abs_mul]
      have p1 := mul_le_mul ha ((abs_sub s.terminal.x.val s.origin.x.val).trans (add_le_add ht.1 ho.1)) (abs_nonneg _) Λ0
      have p2 := mul_le_mul hb ((abs_sub s.terminal.y.val s.origin.y.val).trans (add_le_add ht.2 ho.2)) (abs_nonneg _) Λ0
      nlinarith
    have q4 : B * (10 * B) * |δ| ≤ B * (10 * B) * (4 * (Λ * B)) := mul_le_mul_of_nonneg_left q3 (by positivity)
    have q5 := mul_le_mul_of_nonneg_right (show |(s.terminal.x.val - s.origin.x.val) * (P.y.val - s.origin.y.val) - (s.terminal.y.val - s.origin.y.val) * (P.x.val - s.origin.x.val)| ≤
        |s.line.a.val * P.x.val + s.line.b.val * P.y.val + s.line.c.val| + 1 / 2251799813685248 * (B * (10 * B)) by linarith) (abs_nonneg δ)
    have : 0 ≤ Λ * B ^ 3 := by positivity
    nlinarith

/-- The number `x` is between `a` and `b` and at least `τ` from both, or very near both (as on a horizontal or vertical side). -/
def Spec.Within (τ a b x : ℝ) : Prop := Inside τ a b x ∨ (|x - a| + τ ≤ (2 : ℝ) ^ (-16 : ℤ) ∧ |x - b| + τ ≤ (2 : ℝ) ^ (-16 : ℤ))

theorem within_box {τ a b x p : ℝ} (h : Within τ a b x) (hp : |p - x| ≤ τ) : rne (rne (p - a) * rne (p - b)) ≤ (CALC_ERROR : FP double).val := by
  rcases h with h | ⟨h1, h2⟩
  · exact box_of_between (inside_between h hp)
  · refine box_of_near ((abs_sub_le p x a).trans ?_) ((abs_sub_le p x b).trans ?_)
    · exact le_trans (by linarith) h1
    · exact le_trans (by linarith) h2

theorem within_near {τ a b x B : ℝ} (hτ : 0 ≤ τ) (hB1 : 1 ≤ B) (h : Within τ a b x) (ha : |a| ≤ B) (hb : |b| ≤ B) : |x - a| ≤ 2 * B := by
  rcases h with h | ⟨h1, -⟩
  · exact (abs_sub _ _).trans (by linarith [inside_abs hτ h ha hb])
  · rw [show (2 : ℝ) ^ (-16 : ℤ) = 1 / 65536 by norm_num] at h1
    linarith

set_option maxHeartbeats 1000000 in
/-- **C201** A meeting that is inside the box of the ends by a margin is reported, if the angle is not too small. -/
theorem C201_found (s : Seg (FP double)) (l : Line (FP double)) {B Λ : ℝ} (hB1 : 1 ≤ B) (hΛ1 : 1 ≤ Λ) (hΛB : Λ * B ≤ 2 ^ 22)
    (ho : |s.origin.x.val| ≤ B ∧ |s.origin.y.val| ≤ B) (ht : |s.terminal.x.val| ≤ B ∧ |s.terminal.y.val| ≤ B)
    (ha : |l.a.val| ≤ Λ) (hb : |l.b.val| ≤ Λ) (hc : |l.c.val| ≤ Λ * B) {δ x y τ : ℝ}
    (hδ : δ = l.a.val * (s.terminal.x.val - s.origin.x.val) + l.b.val * (s.terminal.y.val - s.origin.y.val))
    (hδ2 : (2 : ℝ) ^ (-17 : ℤ) ≤ |δ|) (hτ : (2 : ℝ) ^ (-41 : ℤ) * (Λ ^ 2 * B ^ 3) ≤ τ * δ ^ 2)
    (h1 : l.a.val * x + l.b.val * y + l.c.val = 0)
    (h2 : (s.terminal.x.val - s.origin.x.val) * (y - s.origin.y.val) = (s.terminal.y.val - s.origin.y.val) * (x - s.origin.x.val))
    (hx : Within τ s.origin.x.val s.terminal.x.val x) (hy : Within τ s.origin.y.val s.terminal.y.val y) :
    (s.intersectionLine l).valid = true ∧ |(s.intersectionLine l).x.val - x| ≤ τ ∧ |(s.intersectionLine l).y.val - y| ≤ τ := by
  obtain ⟨d1, d2, d3⟩ := seg_det hB1 hΛ1 hΛB ho ht ha hb hc hδ
  obtain ⟨-, ⟨a1, a2⟩, -⟩ := seg_mags hB1 hΛ1 ho ht ha hb hc
  have B0 : 0 ≤ B := by linarith
  have Λ0 : 0 ≤ Λ := by linarith
  have δ0 : 0 < |δ| := lt_of_lt_of_le (by positivity) hδ2
  rw [show (2 : ℝ) ^ (-17 : ℤ) = 1 / 131072 by norm_num] at hδ2
  rw [show (2 : ℝ) ^ (-41 : ℤ) = 1 / 2199023255552 by norm_num] at hτ
  have τ0 : 0 ≤ τ := by
    by_contra hn
    push Not at hn
    have : 0 < δ ^ 2 := by rw [← sq_abs]; positivity
    have : τ * δ ^ 2 < 0 := mul_neg_of_neg_of_pos hn this
    have : 0 ≤ 1 / 2199023255552 * (Λ ^ 2 * B ^ 3) := by positivity
    linarith
  have hE := fp_EPSILON_le
  have v1 : (s.line.intersection l).valid = true := by
    rw [fp_intersection_valid]
    have h5 := abs_sub_abs_le_abs_sub (-δ) (s.line.cdet l)
    rw [abs_neg, show -δ - s.line.cdet l = -(s.line.cdet l + δ) by ring, abs_neg] at h5
    linarith
  obtain ⟨P, hP⟩ : ∃ P, P = s.line.intersection l := ⟨_, rfl⟩
  obtain ⟨k1, k2⟩ := seg_residual hB1 hΛ1 hΛB ho ht ha hb hc hδ hP (by rw [hP]; exact v1)
  have k := seg_line_cross (A := s.line.a.val) (D := s.line.b.val) (C := s.line.c.val) (X := x) (Y := y) hB1 ho.1 ho.2 ht.1 ht.2 rfl rfl rfl
  rw [h2, sub_self, sub_zero] at k
  have q1 : |x - s.origin.x.val| ≤ 2 * B := within_near τ0 hB1 hx ho.1 ht.1
  have q2 : |y - s.origin.y.val| ≤ 2 * B := within_near τ0 hB1 hy ho.2 ht.2
  have q3 : B * (|x - s.origin.x.val| + |y - s.origin.y.val| + 4 * B) ≤ B * (8 * B) := mul_le_mul_of_nonneg_left (by linarith) B0
  have q4 : |δ| ≤ 4 * (Λ * B) := by
    rw [hδ]
    refine (abs_add_le _ _).trans ?_
    rw [abs_mul, abs_mul]
    have p1 := mul_le_mul ha ((abs_sub s.terminal.x.val s.origin.x.val).trans (add_le_add ht.1 ho.1)) (abs_nonneg _) Λ0
    have p2 := mul_le_mul hb ((abs_sub s.terminal.y.val s.origin.y.val).trans (add_le_add ht.2 ho.2)) (abs_nonneg _) Λ0
    nlinarith
  have kδ : |s.line.a.val * x + s.line.b.val * y + s.line.c.val| * |δ| ≤ 1 / 2251799813685248 * (32 * (Λ * B ^ 3)) := by
    have p1 := mul_le_mul (k.trans (mul_le_mul_of_nonneg_left q3 (by norm_num))) q4 (abs_nonneg _) (by positivity)
    refine p1.trans (le_of_eq ?_)
    ring
  -- the errors of the computed point in the two equations
  obtain ⟨e1, he1⟩ : ∃ e1, e1 = l.a.val * (P.x.val - x) + l.b.val * (P.y.val - y) := ⟨_, rfl⟩
  obtain ⟨e2, he2⟩ : ∃ e2, e2 = s.line.a.val * (P.x.val - x) + s.line.b.val * (P.y.val - y) := ⟨_, rfl⟩
  have b1 : |e1| * |δ| ≤ 1 / 17592186044416 * (Λ ^ 2 * B ^ 2) := by
    rw [show e1 = l.a.val * P.x.val + l.b.val * P.y.val + l.c.val by rw [he1]; linear_combination -h1]
    exact k1
  have b2 : |e2| * |δ| ≤ 1 / 7000000000000 * (Λ * B ^ 3) := by
    have t := abs_sub (s.line.a.val * P.x.val + s.line.b.val * P.y.val + s.line.c.val) (s.line.a.val * x + s.line.b.val * y + s.line.c.val)
    rw [show s.line.a.val * P.x.val + s.line.b.val * P.y.val + s.line.c.val - (s.line.a.val * x + s.line.b.val * y + s.line.c.val) = e2 by
      rw [he2]; ring] at t
    have t2 := mul_le_mul_of_nonneg_right t (abs_nonneg δ)
    have : 0 ≤ Λ * B ^ 3 := by positivity
    linarith
  have hf : |δ| ≤ 101 / 100 * |s.line.fdet l| := by
    have h5 := abs_sub_abs_le_abs_sub (-δ) (s.line.fdet l)
    rw [abs_neg, show -δ - s.line.fdet l = -(s.line.fdet l + δ) by ring, abs_neg] at h5
    linarith
  have fin : ∀ {p q z : ℝ}, z * s.line.fdet l = p * e2 - q * e1 → |p| ≤ Λ → |q| ≤ 201 / 100 * B → |z| ≤ τ := by
    intro p q z hz hp hq
    have t1 : |z| * |s.line.fdet l| ≤ Λ * |e2| + 201 / 100 * B * |e1| := by
      rw [← abs_mul, hz]
      refine (abs_sub _ _).trans ?_
      rw [abs_mul, abs_mul]
      exact add_le_add (mul_le_mul_of_nonneg_right hp (abs_nonneg _)) (mul_le_mul_of_nonneg_right hq (abs_nonneg _))
    have t2 := mul_le_mul_of_nonneg_right t1 (abs_nonneg δ)
    have t3 := mul_le_mul_of_nonneg_left b2 Λ0
    have t4 := mul_le_mul_of_nonneg_left b1 (show 0 ≤ 201 / 100 * B by positivity)
    have t5 := mul_le_mul_of_nonneg_left hf (mul_nonneg (abs_nonneg z) (abs_nonneg δ))
    have t6 : 0 ≤ Λ ^ 2 * B ^ 3 := by positivity
    have t7 : |z| * δ ^ 2 ≤ τ * δ ^ 2 := by
      rw [← sq_abs δ] at hτ ⊢
      clear * - t2 t3 t4 t5 t6 hτ
      linarith
    exact le_of_mul_le_mul_right t7 (by rw [← sq_abs]; positivity)
  have px : |P.x.val - x| ≤ τ := fin (p := l.b.val) (q := s.line.b.val) (by rw [he1, he2]; unfold Line.fdet; ring) hb a2
  have py : |P.y.val - y| ≤ τ := by
    refine fin (p := -l.a.val) (q := -s.line.a.val) (by rw [he1, he2]; unfold Line.fdet; ring) ?_ ?_
    · rw [abs_neg]; exact ha
    · rw [abs_neg]; exact a1
  have hc' : s.contains P = true := (contains_iff s P).mpr ⟨within_box hx px, within_box hy py⟩
  have hv : (s.intersectionLine l).valid = true := seg_intersection_valid.mpr ⟨v1, by rw [← hP]; exact hc'⟩
  rw [seg_intersection_eq hv, ← hP]
  exact ⟨by rw [hP]; exact v1, px, py⟩

/-! ## Triangles -/

/-- The sides of a triangle, with their ends. -/
def Spec.sidesOf (t : Tri (FP double)) : List (Vec (FP double) × Vec (FP double)) := [(t.a, t.b), (t.b, t.c), (t.c, t.a)]

/-- The points of a result `[n, s0, s1]`. -/
def Spec.solutions (r : Tri.InterRes (FP double)) : List (Vec (FP double)) := [r.s0, r.s1].take r.n

theorem tri_cases (t : Tri (FP double)) (l : Line (FP double))
    (h : ¬ (((Seg.ofPoints t.a t.b).intersectionLine l).valid = true ∧ ((Seg.ofPoints t.b t.c).intersectionLine l).valid = true)) :
    ∃ r, t.intersectionLine l = .ok r ∧ r.n ≤ 2 ∧
      (∀ v ∈ solutions r, ∃ e ∈ sidesOf t, ((Seg.ofPoints e.1 e.2).intersectionLine l).valid = true ∧ v = (Seg.ofPoints e.1 e.2).intersectionLine l) ∧
      ∀ e ∈ sidesOf t, ∀ w, w = (Seg.ofPoints e.1 e.2).intersectionLine l → w.valid = true →
        ∃ v ∈ solutions r, v = w ∨ (fabs (v.x - w.x) < EPSILON ∧ fabs (v.y - w.y) < EPSILON) := by
  simp only [sidesOf, List.mem_cons, List.not_mem_nil, or_false, exists_eq_or_imp, exists_eq_left, forall_eq_or_imp, forall_eq]
  have hrun : ∀ v0 v1 v2, v0 = (Seg.ofPoints t.a t.b).intersectionLine l → v1 = (Seg.ofPoints t.b t.c).intersectionLine l →
      v2 = (Seg.ofPoints t.c t.a).intersectionLine l → t.intersectionLine l = (do
      let sol ← Tri.setSol (Vec.zero, Vec.zero) 0 v0
      let n := if v0.valid then 1 else 0
      let sol ← Tri.setSol sol n v1
      let n := if n < 2 && v1.valid then n + 1 else n
      let sol ← Tri.setSol sol n v2
      let n := if n < 2 && v2.valid then n + 1 else n
      let n := if n = 2 ∧ fabs (sol.1.x - sol.2.x) < EPSILON ∧ fabs (sol.1.y - sol.2.y) < EPSILON then 1 else n
      return ⟨n, sol.1, sol.2⟩) := by
    rintro _ _ _ rfl rfl rfl
    rfl
  have hr := hrun _ _ _ rfl rfl rfl
  generalize (Seg.ofPoints t.a t.b).intersectionLine l = v0 at *
  generalize (Seg.ofPoints t.b t.c).intersectionLine l = v1 at *
  generalize (Seg.ofPoints t.c t.a).intersectionLine l = v2 at *
  clear hrun
  cases c0 : v0.valid <;> cases c1 : v1.valid <;> cases c2 : v2.valid
  · exact ⟨⟨0, v2, Vec.zero⟩, by rw [hr]; simp [Tri.setSol, c0, c1, c2, bind, Except.bind, pure, Except.pure], by simp, by simp [solutions, c0, c1, c2], by simp [solutions, c0, c1, c2]⟩
  · exact ⟨⟨1, v2, Vec.zero⟩, by rw [hr]; simp [Tri.setSol, c0, c1, c2, bind, Except.bind, pure, Except.pure], by simp, by simp [solutions, c0, c1, c2], by simp [solutions, c0, c1, c2]⟩
  · exact ⟨⟨1, v1, v2⟩, by rw [hr]; simp [Tri.setSol, c0, c1, c2, bind, Except.bind, pure, Except.pure], by simp, by simp [solutions, c0, c1, c2], by simp [solutions, c0, c1, c2]⟩
  · by_cases hn : fabs (v1.x - v2.x) < EPSILON ∧ fabs (v1.y - v2.y) < EPSILON
    · exact ⟨⟨1, v1, v2⟩, by rw [hr]; simp [Tri.setSol, c0, c1, c2, hn, bind, Except.bind, pure, Except.pure], by simp, by simp [solutions, c0, c1, c2], by
        simp [solutions, c0, c1, c2, hn]⟩
    · exact ⟨⟨2, v1, v2⟩, by rw [hr]; simp [Tri.setSol, c0, c1, c2, hn, bind, Except.bind, pure, Except.pure], by simp, by simp [solutions, c0, c1, c2], by
        simp [solutions, c0, c1, c2]⟩
  · exact ⟨⟨1, v0, v2⟩, by rw [hr]; simp [Tri.setSol, c0, c1, c2, bind, Except.bind, pure, Except.pure], by simp, by simp [solutions, c0, c1, c2], by simp [solutions, c0, c1, c2]⟩
  · by_cases hn : fabs (v0.x - v2.x) < EPSILON ∧ fabs (v0.y - v2.y) < EPSILON
    · exact ⟨⟨1, v0, v2⟩, by rw [hr]; simp [Tri.setSol, c0, c1, c2, hn, bind, Except.bind, pure, Except.pure], by simp, by simp [solutions, c0, c1, c2], by
        simp [solutions, c0, c1, c2, hn]⟩
    · exact ⟨⟨2, v0, v2⟩, by rw [hr]; simp [Tri.setSol, c0, c1, c2, hn, bind, Except.bind, pure, Except.pure], by simp, by simp [solutions, c0, c1, c2], by
        simp [solutions, c0, c1, c2]⟩
  · exact absurd ⟨c0, c1⟩ h
  · exact absurd ⟨c0, c1⟩ h

/-- **C201** `intersection(Line2D)` of a triangle in double precision raises exactly if both of the first two sides are hit. -/
theorem C201_raises_iff (t : Tri (FP double)) (l : Line (FP double)) : t.intersectionLine l = .error .indexError ↔
    ((Seg.ofPoints t.a t.b).intersectionLine l).valid = true ∧ ((Seg.ofPoints t.b t.c).intersectionLine l).valid = true := by
  cases h0 : ((Seg.ofPoints t.a t.b).intersectionLine l).valid <;>
  cases h1 : ((Seg.ofPoints t.b t.c).intersectionLine l).valid <;>
  simp [Tri.intersectionLine, Tri.setSol, h0, h1, bind, Except.bind, pure, Except.pure]

/-- **C201** Otherwise at most two points are returned; each is near the line and near a side, and near every meeting of the line with a side that
is inside by a margin there is a returned point. -/
theorem C201_triangle (t : Tri (FP double)) (l : Line (FP double)) {B Λ : ℝ} (hB1 : 1 ≤ B) (hΛ1 : 1 ≤ Λ) (hΛB : Λ * B ≤ 2 ^ 22)
    (hta : |t.a.x.val| ≤ B ∧ |t.a.y.val| ≤ B) (htb : |t.b.x.val| ≤ B ∧ |t.b.y.val| ≤ B) (htc : |t.c.x.val| ≤ B ∧ |t.c.y.val| ≤ B)
    (ha : |l.a.val| ≤ Λ) (hb : |l.b.val| ≤ Λ) (hc : |l.c.val| ≤ Λ * B) (hne : t.intersectionLine l ≠ .error .indexError) :
    ∃ r, t.intersectionLine l = .ok r ∧ r.n ≤ 2 ∧
      (∀ v ∈ solutions r, ∃ e ∈ sidesOf t, NearMeet e.1 e.2 l B Λ v) ∧
      ∀ e ∈ sidesOf t, ∀ δ x y τ : ℝ, δ = l.a.val * (e.2.x.val - e.1.x.val) + l.b.val * (e.2.y.val - e.1.y.val) →
        (2 : ℝ) ^ (-17 : ℤ) ≤ |δ| → (2 : ℝ) ^ (-41 : ℤ) * (Λ ^ 2 * B ^ 3) ≤ τ * δ ^ 2 → l.a.val * x + l.b.val * y + l.c.val = 0 →
        (e.2.x.val - e.1.x.val) * (y - e.1.y.val) = (e.2.y.val - e.1.y.val) * (x - e.1.x.val) →
        Within τ e.1.x.val e.2.x.val x → Within τ e.1.y.val e.2.y.val y →
        ∃ v ∈ solutions r, |v.x.val - x| ≤ (EPSILON : FP double).val + τ ∧ |v.y.val - y| ≤ (EPSILON : FP double).val + τ := by
  rw [Ne, C201_raises_iff] at hne
  obtain ⟨r, h1, h2, h3, h4⟩ := tri_cases t l hne
  have size : ∀ e ∈ sidesOf t, (|e.1.x.val| ≤ B ∧ |e.1.y.val| ≤ B) ∧ (|e.2.x.val| ≤ B ∧ |e.2.y.val| ≤ B) := by
    intro e he
    simp only [sidesOf, List.mem_cons, List.not_mem_nil, or_false] at he
    rcases he with rfl | rfl | rfl
    · exact ⟨hta, htb⟩
    · exact ⟨htb, htc⟩
    · exact ⟨htc, hta⟩
  refine ⟨r, h1, h2, ?_, ?_⟩
  · intro v hv
    obtain ⟨e, he, hval, rfl⟩ := h3 v hv
    exact ⟨e, he, C201_segment (Seg.ofPoints e.1 e.2) l hB1 hΛ1 hΛB (size e he).1 (size e he).2 ha hb hc hval⟩
  · intro e he δ x y τ g1 g2 g3 g4 g5 g6 g7
    obtain ⟨f1, f2, f3⟩ := C201_found (Seg.ofPoints e.1 e.2) l hB1 hΛ1 hΛB (size e he).1 (size e he).2 ha hb hc g1 g2 g3 g4 g5 g6 g7
    obtain ⟨v, hv, hn⟩ := h4 e he _ rfl f1
    obtain ⟨n1, n2⟩ := near_val hn
    exact ⟨v, hv, (abs_sub_le _ _ _).trans (add_le_add n1 f2), (abs_sub_le _ _ _).trans (add_le_add n2 f3)⟩

/-- The line `y = 1/2` and the triangle `(0, 0), (1, 0), (0, 1)`: it is parallel to the first side, so nothing is raised, and the meetings
`(1/2, 1/2)` with the second and `(0, 1/2)` with the third side are found. -/
example : ∃ r, (⟨Vec.ofXY ⟨0⟩ ⟨0⟩, Vec.ofXY ⟨1⟩ ⟨0⟩, Vec.ofXY ⟨0⟩ ⟨1⟩⟩ : Tri (FP double)).intersectionLine ⟨⟨0⟩, ⟨1⟩, ⟨-(1 / 2)⟩⟩ = .ok r ∧
      (∃ v ∈ solutions r, |v.x.val - 1 / 2| ≤ (EPSILON : FP double).val + 1 / 1000000) ∧
      ∃ v ∈ solutions r, |v.x.val| ≤ (EPSILON : FP double).val + 1 / 1000000 := by
  have hne : (⟨Vec.ofXY ⟨0⟩ ⟨0⟩, Vec.ofXY ⟨1⟩ ⟨0⟩, Vec.ofXY ⟨0⟩ ⟨1⟩⟩ : Tri (FP double)).intersectionLine ⟨⟨0⟩, ⟨1⟩, ⟨-(1 / 2)⟩⟩ ≠ .error .indexError := by
    rw [Ne, C201_raises_iff]
    rintro ⟨h, -⟩
    have h2 := (fp_intersection_valid _ _).mp (seg_intersection_valid.mp h).1
    have e : (Seg.ofPoints (Vec.ofXY ⟨0⟩ ⟨0⟩) (Vec.ofXY ⟨1⟩ ⟨0⟩) : Seg (FP double)).line.cdet ⟨⟨0⟩, ⟨1⟩, ⟨-(1 / 2)⟩⟩ = 0 := by
      change rne (rne (-rne ((0 : ℝ) - 0) * 1) - rne (rne ((1 : ℝ) - 0) * 0)) = 0
      simp [rne_zero]
    rw [show (Seg.ofPoints _ _ : Seg (FP double)).line.cdet _ = 0 from e, abs_zero] at h2
    exact absurd fp_EPSILON.1 (not_lt.mpr h2)
  obtain ⟨r, h1, _, _, h4⟩ := C201_triangle _ _ (B := 1) (Λ := 1) le_rfl le_rfl (by norm_num) (by change |(0 : ℝ)| ≤ 1 ∧ |(0 : ℝ)| ≤ 1; norm_num)
    (by change |(1 : ℝ)| ≤ 1 ∧ |(0 : ℝ)| ≤ 1; norm_num) (by change |(0 : ℝ)| ≤ 1 ∧ |(1 : ℝ)| ≤ 1; norm_num) (by change |(0 : ℝ)| ≤ 1; norm_num)
    (by change |(1 : ℝ)| ≤ 1; norm_num) (by change |(-(1 / 2) : ℝ)| ≤ 1 * 1; rw [abs_neg, abs_of_pos (by norm_num)]; norm_num) hne
  obtain ⟨v, hv, k, _⟩ := h4 (Vec.ofXY ⟨1⟩ ⟨0⟩, Vec.ofXY ⟨0⟩ ⟨1⟩) (by simp [sidesOf]) 1 (1 / 2) (1 / 2) (1 / 1000000)
    (by change (1 : ℝ) = 0 * (0 - 1) + 1 * (1 - 0); norm_num) (by norm_num) (by norm_num) (by change (0 : ℝ) * (1 / 2) + 1 * (1 / 2) + -(1 / 2) = 0; norm_num)
    (by change ((0 : ℝ) - 1) * (1 / 2 - 0) = (1 - 0) * (1 / 2 - 1); norm_num) (Or.inl <| Or.inr (by change (0 : ℝ) + 1 / 1000000 ≤ 1 / 2 ∧ (1 : ℝ) / 2 ≤ 1 - 1 / 1000000; norm_num))
    (Or.inl <| Or.inl (by change (0 : ℝ) + 1 / 1000000 ≤ 1 / 2 ∧ (1 : ℝ) / 2 ≤ 1 - 1 / 1000000; norm_num))
  obtain ⟨w, hw, k2, _⟩ := h4 (Vec.ofXY ⟨0⟩ ⟨1⟩, Vec.ofXY ⟨0⟩ ⟨0⟩) (by simp [sidesOf]) (-1) 0 (1 / 2) (1 / 1000000)
    (by change (-1 : ℝ) = 0 * (0 - 0) + 1 * (0 - 1); norm_num) (by norm_num) (by norm_num) (by change (0 : ℝ) * 0 + 1 * (1 / 2) + -(1 / 2) = 0; norm_num)
    (by change ((0 : ℝ) - 0) * (1 / 2 - 1) = (0 - 1) * (0 - 0); norm_num)
    (Or.inr (by change |(0 : ℝ) - 0| + 1 / 1000000 ≤ _ ∧ |(0 : ℝ) - 0| + 1 / 1000000 ≤ _; norm_num))
    (Or.inl <| Or.inr (by change (0 : ℝ) + 1 / 1000000 ≤ 1 / 2 ∧ (1 : ℝ) / 2 ≤ 1 - 1 / 1000000; norm_num))
  rw [sub_zero] at k2
  exact ⟨r, h1, ⟨v, hv, k⟩, w, hw, k2⟩

end PyrusGeom
