import Verif.Props.FloatClip
import Verif.Props.FloatCircle

/-! # C186: clipping by an axis-parallel line in double precision -/

namespace PyrusGeom
open Spec

section
variable {K : Type} [Add K] [Sub K] [Mul K] [Div K] [Neg K] [NatCast K] [LT K] [LE K] [DecidableLT K] [DecidableLE K] [BEq K] [PyMath K]

/-- Where the vertices of a clipped polygon come from. -/
theorem Poly.clipLoop_memK {inR : Vec K → Bool} {l : Line K} {E : List (Vec K × Vec K)} {acc : List (Vec K)} {v : Vec K}
    (h : v ∈ Poly.clipLoop inR l E acc) :
    v ∈ acc ∨ (inR v = true ∧ ∃ e ∈ E, v = e.2) ∨
      (∃ e ∈ E, inR e.1 ≠ inR e.2 ∧ v = l.intersection (Line.ofPoints e.1 e.2) ∧ v.valid = true) := by
  induction E generalizing acc with
  | nil => exact Or.inl h
  | cons e E ih =>
    obtain ⟨p0, p1⟩ := e
    have lift : ∀ acc', (v ∈ acc' → v ∈ acc ∨ (inR v = true ∧ v = p1) ∨
        (inR p0 ≠ inR p1 ∧ v = l.intersection (Line.ofPoints p0 p1) ∧ v.valid = true)) →
        v ∈ Poly.clipLoop inR l E acc' →
        v ∈ acc ∨ (inR v = true ∧ ∃ e ∈ (p0, p1) :: E, v = e.2) ∨
        (∃ e ∈ (p0, p1) :: E, inR e.1 ≠ inR e.2 ∧ v = l.intersection (Line.ofPoints e.1 e.2) ∧ v.valid = true) := by
      intro acc' hacc hv
      rcases ih hv with h | ⟨h, e, he, h'⟩ | ⟨e, he, h'⟩
      · rcases hacc h with h | h | h
        · exact Or.inl h
        · exact Or.inr (Or.inl ⟨h.1, _, List.mem_cons_self, h.2⟩)
        · exact Or.inr (Or.inr ⟨_, List.mem_cons_self, h⟩)
      · exact Or.inr (Or.inl ⟨h, e, List.mem_cons_of_mem _ he, h'⟩)
      · exact Or.inr (Or.inr ⟨e, List.mem_cons_of_mem _ he, h'⟩)
    rw [Poly.clipLoop] at h
    by_cases h0 : inR p0 = true <;> by_cases h1 : inR p1 = true
    · rw [if_pos h0, if_pos h1] at h
      refine lift _ ?_ h
      intro hv
      rcases List.mem_append.mp hv with hv | hv
      · exact Or.inl hv
      · rw [List.mem_singleton] at hv; exact Or.inr (Or.inl ⟨hv ▸ h1, hv⟩)
    · rw [if_pos h0, if_neg h1] at h
      simp only at h
      by_cases hc : (l.intersection (Line.ofPoints p0 p1)).valid = true
      · rw [if_neg (by simp [hc])] at h
        refine lift _ ?_ h
        intro hv
        rcases List.mem_append.mp hv with hv | hv
        · exact Or.inl hv
        · rw [List.mem_singleton] at hv
          exact Or.inr (Or.inr ⟨by rw [h0]; exact fun h => h1 h.symm, hv, hv ▸ hc⟩)
      · rw [if_pos (by simpa using hc)] at h
        exact Or.inl h
    · rw [if_neg h0, if_pos h1] at h
      simp only at h
      by_cases hc : (l.intersection (Line.ofPoints p0 p1)).valid = true
      · rw [if_neg (by simp [hc])] at h
        refine lift _ ?_ h
        intro hv
        rcases List.mem_append.mp hv with hv | hv
        · exact Or.inl hv
        · simp only [List.mem_cons, List.not_mem_nil, or_false] at hv
          rcases hv with hv | hv
          · exact Or.inr (Or.inr ⟨by rw [h1]; exact h0, hv, hv ▸ hc⟩)
          · exact Or.inr (Or.inl ⟨hv ▸ h1, hv⟩)
      · rw [if_pos (by simpa using hc)] at h
        exact Or.inl h
    · rw [if_neg h0, if_neg h1] at h
      exact lift acc (fun h => Or.inl h) h

theorem Poly.lineClipped_memK {inR : Vec K → Bool} {l : Line K} {pts : List (Vec K)} {v : Vec K}
    (h : v ∈ Poly.lineClipped inR pts l) :
    (inR v = true ∧ v ∈ pts) ∨
      (∃ e ∈ cyclicPairs pts, inR e.1 ≠ inR e.2 ∧ v = l.intersection (Line.ofPoints e.1 e.2) ∧ v.valid = true) := by
  rcases Poly.clipLoop_memK h with h | ⟨h, e, he, rfl⟩ | h
  · simp at h
  · exact Or.inl ⟨h, snd_mem_of_cyclicPairs he⟩
  · exact Or.inr h

/-- What one edge adds to the clipped polygon. -/
def Poly.emitK (inR : Vec K → Bool) (l : Line K) (e : Vec K × Vec K) : List (Vec K) :=
  if inR e.1 then if inR e.2 then [e.2] else [l.intersection (Line.ofPoints e.1 e.2)]
  else if inR e.2 then [l.intersection (Line.ofPoints e.1 e.2), e.2] else []

theorem Poly.clipLoop_flatMapK {inR : Vec K → Bool} {l : Line K} (E : List (Vec K × Vec K)) (acc : List (Vec K))
    (hE : ∀ e ∈ E, inR e.1 ≠ inR e.2 → (l.intersection (Line.ofPoints e.1 e.2)).valid = true) :
    Poly.clipLoop inR l E acc = acc ++ E.flatMap (Poly.emitK inR l) := by
  induction E generalizing acc with
  | nil => simp [Poly.clipLoop]
  | cons a E ih =>
    obtain ⟨p0, p1⟩ := a
    have hE' := fun e he => hE e (List.mem_cons_of_mem _ he)
    have hc := hE _ List.mem_cons_self
    simp only at hc
    rw [Poly.clipLoop, List.flatMap_cons]
    by_cases h0 : inR p0 = true <;> by_cases h1 : inR p1 = true
    · rw [if_pos h0, if_pos h1, ih _ hE']; simp [h0, h1, Poly.emitK]
    · have := hc (by rw [h0]; exact fun h => h1 h.symm)
      rw [if_pos h0, if_neg h1]
      simp only
      rw [if_neg (by simp [this]), ih _ hE']; simp [h0, h1, Poly.emitK]
    · have := hc (by rw [h1]; exact h0)
      rw [if_neg h0, if_pos h1]
      simp only
      rw [if_neg (by simp [this]), ih _ hE']; simp [h0, h1, Poly.emitK]
    · rw [if_neg h0, if_neg h1, ih _ hE']; simp [h0, h1, Poly.emitK]

end


/-- A rounding error with plain numbers. -/
theorem rne_error_plain (x : ℝ) : |rne x - x| ≤ 1 / 9007199254740992 * |x| + 1 / 1329227995784915872903807060280344576 := by
  refine (rne_error_mixed x).trans ?_
  have h1 : (2 : ℝ) ^ (-1075 : ℤ) ≤ 1 / 1329227995784915872903807060280344576 := by
    rw [show (1 / 1329227995784915872903807060280344576 : ℝ) = (2 : ℝ) ^ (-120 : ℤ) by norm_num]; exact zpow_le_zpow_right₀ one_le_two (by norm_num)
  rw [show (2 : ℝ) ^ (-53 : ℤ) = 1 / 9007199254740992 by norm_num]
  linarith

/-- The rounding errors in the equation of the line through two points. -/
theorem edge_line {B px py qx qy : ℝ} (hB1 : 1 ≤ B) (hpx : |px| ≤ B) (hpy : |py| ≤ B) (hqx : |qx| ≤ B) (hqy : |qy| ≤ B) {A D C : ℝ}
    (hA : A = -rne (qy - py)) (hD : D = rne (qx - px)) (hC : C = rne (rne (-A * px) - rne (D * py))) :
    |A + (qy - py)| ≤ 1 / 2251799813685248 * B ∧ |D - (qx - px)| ≤ 1 / 2251799813685248 * B ∧
    |C + A * px + D * py| ≤ 1 / 562949953421312 * B ^ 2 := by
  have BB : B ≤ B ^ 2 := by nlinarith
  have t1 : |qy - py| ≤ 2 * B := (abs_sub _ _).trans (by linarith)
  have t2 : |qx - px| ≤ 2 * B := (abs_sub _ _).trans (by linarith)
  have r1 := rne_error_plain (qy - py)
  have r2 := rne_error_plain (qx - px)
  have r3 := rne_error_plain (-A * px)
  have r4 := rne_error_plain (D * py)
  have r5 := rne_error_plain (rne (-A * px) - rne (D * py))
  have a1 : |A + (qy - py)| ≤ 1 / 2251799813685248 * B := by
    rw [hA, show -rne (qy - py) + (qy - py) = -(rne (qy - py) - (qy - py)) by ring, abs_neg]
    linarith
  have a2 : |D - (qx - px)| ≤ 1 / 2251799813685248 * B := by
    rw [hD]
    linarith
  have A3 : |A| ≤ 3 * B := by
    have h1 := abs_sub_abs_le_abs_sub A (-(qy - py))
    rw [sub_neg_eq_add, abs_neg] at h1
    linarith
  have D3 : |D| ≤ 3 * B := by
    have h1 := abs_sub_abs_le_abs_sub D (qx - px)
    linarith
  refine ⟨a1, a2, ?_⟩
  have m1 : |-A * px| ≤ 3 * B ^ 2 := by
    rw [abs_mul, abs_neg, pow_two, ← mul_assoc]; exact mul_le_mul A3 hpx (abs_nonneg _) (by linarith)
  have m2 : |D * py| ≤ 3 * B ^ 2 := by
    rw [abs_mul, pow_two, ← mul_assoc]; exact mul_le_mul D3 hpy (abs_nonneg _) (by linarith)
  rw [← hC] at r5
  have m3 := abs_sub (rne (-A * px)) (rne (D * py))
  have m4 := abs_sub_abs_le_abs_sub (rne (-A * px)) (-A * px)
  have m5 := abs_sub_abs_le_abs_sub (rne (D * py)) (D * py)
  rw [show C + A * px + D * py = (C - (rne (-A * px) - rne (D * py))) + (rne (-A * px) - -A * px) + -(rne (D * py) - D * py) by ring]
  refine (abs_add_three _ _ _).trans ?_
  rw [abs_neg]
  linarith

/-- The rounding errors of the determinant with a nearly axis-parallel line. -/
theorem det_near {B a b A D : ℝ} (hB2 : B ≤ 1048576) (ha2 : |a| ≤ 5 / 4) (hb : |b| ≤ 1 / 1125899906842624) (hA : |A| ≤ 3 * B) :
    |rne (rne (a * D) - rne (b * A)) - (a * D - b * A)| ≤ 1 / 1125899906842624 * (2 * |D| + 1 / 1048576) := by
  have r1 := rne_error_plain (a * D)
  have r2 := rne_error_plain (b * A)
  have r3 := rne_error_plain (rne (a * D) - rne (b * A))
  have m1 : |a * D| ≤ 5 / 4 * |D| := by rw [abs_mul]; exact mul_le_mul_of_nonneg_right ha2 (abs_nonneg _)
  have m2 : |b * A| ≤ 1 / 1125899906842624 * (3 * B) := by rw [abs_mul]; exact mul_le_mul hb hA (abs_nonneg _) (by norm_num)
  have m3 := abs_sub (rne (a * D)) (rne (b * A))
  have m4 := abs_sub_abs_le_abs_sub (rne (a * D)) (a * D)
  have m5 := abs_sub_abs_le_abs_sub (rne (b * A)) (b * A)
  rw [show rne (rne (a * D) - rne (b * A)) - (a * D - b * A) = (rne (rne (a * D) - rne (b * A)) - (rne (a * D) - rne (b * A))) +
    (rne (a * D) - a * D) + -(rne (b * A) - b * A) by ring]
  refine (abs_add_three _ _ _).trans ?_
  rw [abs_neg]
  have D0 := abs_nonneg D
  linarith

/-- The height of the exact crossing is between the heights of the ends. -/
theorem crossing_le {B px py qx qy X0 ys : ℝ} (hpy : |py| ≤ B) (hqy : |qy| ≤ B) (hx : (px ≤ X0 ∧ X0 ≤ qx) ∨ (qx ≤ X0 ∧ X0 ≤ px)) (hne : px ≠ qx)
    (he : (qx - px) * (ys - py) = (X0 - px) * (qy - py)) : |ys| ≤ B := by
  have hd : qx - px ≠ 0 := sub_ne_zero.mpr hne.symm
  set t := (X0 - px) / (qx - px) with ht
  have e : ys = (1 - t) * py + t * qy := by
    rw [ht]; field_simp; linear_combination he
  have t01 : 0 ≤ t ∧ t ≤ 1 := by
    rcases hx with ⟨h1, h2⟩ | ⟨h1, h2⟩
    · have : 0 < qx - px := lt_of_le_of_ne (by linarith) hd.symm
      exact ⟨div_nonneg (by linarith) this.le, (div_le_one this).mpr (by linarith)⟩
    · have : qx - px < 0 := lt_of_le_of_ne (by linarith) hd
      exact ⟨div_nonneg_of_nonpos (by linarith) this.le, (div_le_one_of_neg this).mpr (by linarith)⟩
  obtain ⟨h1, h2⟩ := abs_le.mp hpy
  obtain ⟨h3, h4⟩ := abs_le.mp hqy
  rw [e, abs_le]
  constructor <;> nlinarith

theorem between_le {px qx X0 : ℝ} (hx : (px ≤ X0 ∧ X0 ≤ qx) ∨ (qx ≤ X0 ∧ X0 ≤ px)) : |X0 - px| ≤ |qx - px| := by
  rcases hx with ⟨h1, h2⟩ | ⟨h1, h2⟩
  · rw [abs_of_nonneg (by linarith), abs_of_nonneg (by linarith)]; linarith
  · rw [abs_of_nonpos (by linarith), abs_of_nonpos (by linarith)]; linarith

/-- The determinant is large when the edge is not nearly parallel to the line. -/
theorem det_big {B a b A D T qx px : ℝ} (hB1 : 1 ≤ B) (hB2 : B ≤ 1048576) (ha1 : 3 / 4 ≤ |a|) (hb : |b| ≤ 1 / 1125899906842624) (hA : |A| ≤ 3 * B)
    (hD : |D - (qx - px)| ≤ 1 / 2251799813685248 * B) (hT : |T - (a * D - b * A)| ≤ 1 / 1125899906842624 * (2 * |D| + 1 / 1048576))
    (h : 1 / 262144 ≤ |qx - px|) : 1 / 524288 ≤ |T| := by
  have h1 := abs_sub_abs_le_abs_sub (a * D) (b * A)
  have h2 := abs_sub_abs_le_abs_sub (a * D - b * A) T
  rw [abs_sub_comm (a * D - b * A)] at h2
  have h3 := mul_le_mul_of_nonneg_right ha1 (abs_nonneg D)
  have h4 := abs_sub_abs_le_abs_sub (qx - px) D
  rw [abs_sub_comm (qx - px) D] at h4
  have m2 : |b * A| ≤ 1 / 1125899906842624 * (3 * B) := by rw [abs_mul]; exact mul_le_mul hb hA (abs_nonneg _) (by norm_num)
  rw [abs_mul] at h1
  linarith

/-! ## One edge -/

/-- The crossing of an edge and a nearly vertical line with an equation `a x + b y + c = 0`. -/
theorem cut_vertical (l : Line (FP double)) (X0 B : ℝ) (hB1 : 1 ≤ B) (hB2 : B ≤ 1048576) (hX0 : |X0| ≤ B)
    (ha1 : 3 / 4 ≤ |l.a.val|) (ha2 : |l.a.val| ≤ 5 / 4) (hb : |l.b.val| ≤ 1 / 1125899906842624)
    (hc : |l.c.val + l.a.val * X0| ≤ 1 / 1125899906842624 * B) (p q : Vec (FP double))
    (hp : |p.x.val| ≤ B ∧ |p.y.val| ≤ B) (hq : |q.x.val| ≤ B ∧ |q.y.val| ≤ B)
    (hx : (p.x.val ≤ X0 ∧ X0 ≤ q.x.val) ∨ (q.x.val ≤ X0 ∧ X0 ≤ p.x.val)) :
    (1 / 262144 ≤ |q.x.val - p.x.val| → (l.intersection (Line.ofPoints p q)).valid = true) ∧
    ((l.intersection (Line.ofPoints p q)).valid = true → p.x.val ≠ q.x.val ∧ |(l.intersection (Line.ofPoints p q)).x.val - X0| ≤ 1 / 35184372088832 * B ∧
      ∀ ys, (q.x.val - p.x.val) * (ys - p.y.val) = (X0 - p.x.val) * (q.y.val - p.y.val) →
        |(l.intersection (Line.ofPoints p q)).y.val - ys| * |q.x.val - p.x.val| ≤ 1 / 8796093022208 * B ^ 2) := by
  obtain ⟨hpx, hpy⟩ := hp
  obtain ⟨hqx, hqy⟩ := hq
  set o := Line.ofPoints p q with ho
  obtain ⟨k1, k2, k3⟩ := edge_line hB1 hpx hpy hqx hqy (A := o.a.val) (D := o.b.val) (C := o.c.val) rfl rfl rfl
  have A3 : |o.a.val| ≤ 3 * B := by
    have h1 := abs_sub_abs_le_abs_sub o.a.val (-(q.y.val - p.y.val))
    rw [sub_neg_eq_add, abs_neg] at h1
    have := abs_sub q.y.val p.y.val
    linarith
  have kT : |l.cdet o - (l.a.val * o.b.val - l.b.val * o.a.val)| ≤ _ := det_near hB2 ha2 hb A3
  constructor
  · intro h
    have := det_big hB1 hB2 ha1 hb A3 k2 kT h
    refine (fp_intersection_valid l o).mpr (fp_EPSILON_le19.trans ?_)
    rw [show (2 : ℝ) ^ (-19 : ℤ) = 1 / 524288 by norm_num]
    exact this
  · intro h
    have D3 : |o.b.val| ≤ 3 * B := by
      have h1 := abs_sub_abs_le_abs_sub o.b.val (q.x.val - p.x.val)
      have := abs_sub q.x.val p.x.val
      linarith
    have T4 : |l.cdet o| ≤ (2 : ℝ) ^ (400 : ℤ) := by
      have h1 := abs_sub_abs_le_abs_sub (l.cdet o) (l.a.val * o.b.val - l.b.val * o.a.val)
      have h2 := abs_sub (l.a.val * o.b.val) (l.b.val * o.a.val)
      rw [abs_mul, abs_mul] at h2
      have h3 := mul_le_mul ha2 D3 (abs_nonneg _) (by norm_num)
      have h4 := mul_le_mul hb A3 (abs_nonneg _) (by norm_num)
      refine le_trans (b := (4 : ℝ) * 1048576 + 1) ?_ ?_
      · linarith
      · exact le_trans (b := (2 : ℝ) ^ (30 : ℤ)) (by norm_num) (zpow_le_zpow_right₀ one_le_two (by norm_num))
    obtain ⟨hT, rt, rx, ry⟩ := meet_rounded l o h T4
    rw [show (2 : ℝ) ^ (-20 : ℤ) = 1 / 1048576 by norm_num] at hT
    have e8 : (8 : ℝ) * (2 : ℝ) ^ (-53 : ℤ) = 1 / 1125899906842624 := by norm_num
    have ex := rx.err
    have ey := ry.err
    rw [e8] at ex ey
    have hne : p.x.val ≠ q.x.val := by
      intro e
      have D0 : o.b.val = 0 := by
        change rne (q.x.val - p.x.val) = 0
        rw [e, sub_self, rne_zero]
      rw [D0] at kT
      have h1 := abs_sub_abs_le_abs_sub (l.cdet o) (l.a.val * 0 - l.b.val * o.a.val)
      rw [mul_zero, zero_sub, abs_neg, abs_mul] at h1
      rw [mul_zero, zero_sub, abs_zero] at kT
      have h4 := mul_le_mul hb A3 (abs_nonneg _) (by norm_num)
      linarith
    refine ⟨hne, ?_, ?_⟩
    · obtain ⟨ys, hys⟩ : ∃ ys, (q.x.val - p.x.val) * (ys - p.y.val) = (X0 - p.x.val) * (q.y.val - p.y.val) := by
        refine ⟨p.y.val + (X0 - p.x.val) * (q.y.val - p.y.val) / (q.x.val - p.x.val), ?_⟩
        have := sub_ne_zero.mpr hne.symm
        field_simp
        ring
      exact (clip_core hB1 hB2 hpx hpy hqx hqy hX0 (crossing_le hpy hqy hx hne hys) ha1 ha2 hb hc k1 k2 k3 hT kT ex ey (between_le hx) hys).1
    · intro ys hys
      exact (clip_core hB1 hB2 hpx hpy hqx hqy hX0 (crossing_le hpy hqy hx hne hys) ha1 ha2 hb hc k1 k2 k3 hT kT ex ey (between_le hx) hys).2

/-- The crossing of an edge and a nearly horizontal line. -/
theorem cut_horizontal (l : Line (FP double)) (Y0 B : ℝ) (hB1 : 1 ≤ B) (hB2 : B ≤ 1048576) (hY0 : |Y0| ≤ B)
    (ha1 : 3 / 4 ≤ |l.b.val|) (ha2 : |l.b.val| ≤ 5 / 4) (hb : |l.a.val| ≤ 1 / 1125899906842624)
    (hc : |l.c.val + l.b.val * Y0| ≤ 1 / 1125899906842624 * B) (p q : Vec (FP double))
    (hp : |p.x.val| ≤ B ∧ |p.y.val| ≤ B) (hq : |q.x.val| ≤ B ∧ |q.y.val| ≤ B)
    (hx : (p.y.val ≤ Y0 ∧ Y0 ≤ q.y.val) ∨ (q.y.val ≤ Y0 ∧ Y0 ≤ p.y.val)) :
    (1 / 262144 ≤ |q.y.val - p.y.val| → (l.intersection (Line.ofPoints p q)).valid = true) ∧
    ((l.intersection (Line.ofPoints p q)).valid = true → p.y.val ≠ q.y.val ∧ |(l.intersection (Line.ofPoints p q)).y.val - Y0| ≤ 1 / 35184372088832 * B ∧
      ∀ xs, (q.y.val - p.y.val) * (xs - p.x.val) = (Y0 - p.y.val) * (q.x.val - p.x.val) →
        |(l.intersection (Line.ofPoints p q)).x.val - xs| * |q.y.val - p.y.val| ≤ 1 / 8796093022208 * B ^ 2) := by
  obtain ⟨hpx, hpy⟩ := hp
  obtain ⟨hqx, hqy⟩ := hq
  set o := Line.ofPoints p q with ho
  obtain ⟨k1, k2, k3⟩ := edge_line hB1 hpx hpy hqx hqy (A := o.a.val) (D := o.b.val) (C := o.c.val) rfl rfl rfl
  have k1' : |-o.a.val - (q.y.val - p.y.val)| ≤ 1 / 2251799813685248 * B := by
    rw [← abs_neg]; convert k1 using 2; ring
  have k2' : |-o.b.val + (q.x.val - p.x.val)| ≤ 1 / 2251799813685248 * B := by
    rw [← abs_neg]; convert k2 using 2; ring
  have k3' : |-o.c.val + -o.b.val * p.y.val + -o.a.val * p.x.val| ≤ 1 / 562949953421312 * B ^ 2 := by
    rw [← abs_neg]; convert k3 using 2; ring
  have A3 : |-o.b.val| ≤ 3 * B := by
    have h1 := abs_sub_abs_le_abs_sub o.b.val (q.x.val - p.x.val)
    rw [abs_neg]
    have := abs_sub q.x.val p.x.val
    linarith
  have D3 : |-o.a.val| ≤ 3 * B := by
    have h1 := abs_sub_abs_le_abs_sub o.a.val (-(q.y.val - p.y.val))
    rw [sub_neg_eq_add, abs_neg] at h1
    rw [abs_neg]
    have := abs_sub q.y.val p.y.val
    linarith
  have kT : |l.cdet o - (l.b.val * -o.a.val - l.a.val * -o.b.val)| ≤ 1 / 1125899906842624 * (2 * |-o.a.val| + 1 / 1048576) := by
    have := det_near (D := -o.a.val) hB2 ha2 hb A3
    have e : l.cdet o = rne (rne (l.b.val * -o.a.val) - rne (l.a.val * -o.b.val)) := by
      change rne (rne (l.a.val * o.b.val) - rne (l.b.val * o.a.val)) = _
      rw [mul_neg, mul_neg, rne_neg, rne_neg]
      congr 1
      ring
    rwa [e]
  constructor
  · intro h
    have := det_big hB1 hB2 ha1 hb A3 k1' kT h
    refine (fp_intersection_valid l o).mpr (fp_EPSILON_le19.trans ?_)
    rw [show (2 : ℝ) ^ (-19 : ℤ) = 1 / 524288 by norm_num]
    exact this
  · intro h
    have T4 : |l.cdet o| ≤ (2 : ℝ) ^ (400 : ℤ) := by
      have h1 := abs_sub_abs_le_abs_sub (l.cdet o) (l.b.val * -o.a.val - l.a.val * -o.b.val)
      have h2 := abs_sub (l.b.val * -o.a.val) (l.a.val * -o.b.val)
      rw [abs_mul, abs_mul] at h2
      have h3 := mul_le_mul ha2 D3 (abs_nonneg _) (by norm_num)
      have h4 := mul_le_mul hb A3 (abs_nonneg _) (by norm_num)
      refine le_trans (b := (4 : ℝ) * 1048576 + 1) ?_ ?_
      · linarith
      · exact le_trans (b := (2 : ℝ) ^ (30 : ℤ)) (by norm_num) (zpow_le_zpow_right₀ one_le_two (by norm_num))
    obtain ⟨hT, rt, rx, ry⟩ := meet_rounded l o h T4
    rw [show (2 : ℝ) ^ (-20 : ℤ) = 1 / 1048576 by norm_num] at hT
    have e8 : (8 : ℝ) * (2 : ℝ) ^ (-53 : ℤ) = 1 / 1125899906842624 := by norm_num
    have ex := rx.err
    have ey := ry.err
    rw [e8] at ex ey
    have mneg : ∀ x : ℝ, mag (-x) = mag x := fun x => by unfold mag; rw [abs_neg]
    have ey' : |(l.intersection o).y.val - (l.a.val * -o.c.val - -o.a.val * l.c.val) / l.cdet o| ≤
        1 / 1125899906842624 * ((mag l.a.val * mag (-o.c.val) + mag (-o.a.val) * mag l.c.val) / |l.cdet o|) := by
      rw [mneg, mneg]
      convert ey using 3
      · ring
      · unfold Line.magV; ring
    have ex' : |(l.intersection o).x.val - (-o.b.val * l.c.val - l.b.val * -o.c.val) / l.cdet o| ≤
        1 / 1125899906842624 * ((mag (-o.b.val) * mag l.c.val + mag l.b.val * mag (-o.c.val)) / |l.cdet o|) := by
      rw [mneg, mneg]
      convert ex using 3
      · ring
      · unfold Line.magU; ring
    have hne : p.y.val ≠ q.y.val := by
      intro e
      have D0 : o.a.val = 0 := by
        change -rne (q.y.val - p.y.val) = 0
        rw [e, sub_self, rne_zero, neg_zero]
      rw [D0, neg_zero] at kT
      have h1 := abs_sub_abs_le_abs_sub (l.cdet o) (l.b.val * 0 - l.a.val * -o.b.val)
      rw [mul_zero, zero_sub, abs_neg, abs_mul] at h1
      rw [mul_zero, zero_sub, abs_zero] at kT
      have h4 := mul_le_mul hb A3 (abs_nonneg _) (by norm_num)
      linarith
    refine ⟨hne, ?_, ?_⟩
    · obtain ⟨xs, hxs⟩ : ∃ xs, (q.y.val - p.y.val) * (xs - p.x.val) = (Y0 - p.y.val) * (q.x.val - p.x.val) := by
        refine ⟨p.x.val + (Y0 - p.y.val) * (q.x.val - p.x.val) / (q.y.val - p.y.val), ?_⟩
        have := sub_ne_zero.mpr hne.symm
        field_simp
        ring
      exact (clip_core hB1 hB2 hpy hpx hqy hqx hY0 (crossing_le hpx hqx hx hne hxs) ha1 ha2 hb hc k2' k1' k3' hT kT ey' ex' (between_le hx) hxs).1
    · intro xs hxs
      exact (clip_core hB1 hB2 hpy hpx hqy hqx hY0 (crossing_le hpx hqx hx hne hxs) ha1 ha2 hb hc k2' k1' k3' hT kT ey' ex' (between_le hx) hxs).2

section
variable [m : PyMath (FP double)]

theorem fp_normalDeg_small (x : FP double) (h : |x.val| ≤ 180) : AngleDeg.normalDeg x = x := by
  have e180 : (num 180 : FP double).val = 180 := (double.int 180 (by norm_num)).trans (by norm_num)
  have e360 : (num 360 : FP double).val = 360 := (double.int 360 (by norm_num)).trans (by norm_num)
  obtain ⟨h1, h2⟩ := abs_le.mp h
  unfold AngleDeg.normalDeg
  simp only [FP.lt_def, FP.neg_val, e180, e360]
  have c1 : ¬ (x.val < -360 ∨ 360 < x.val) := by rintro (k | k) <;> linarith
  have c2 : ¬ x.val < -180 := not_lt.mpr h1
  have c3 : ¬ 180 < x.val := not_lt.mpr h2
  simp only [if_neg c1, if_neg c2, if_neg c3]


/-- The line the code builds for a vertical side. -/
theorem vertical_line (h : Accurate m) (X0 : FP double) (B : ℝ) (hB : 1 ≤ B) (hX : |X0.val| ≤ B) :
    let l := Line.ofAngle (Vec.ofXY X0 (num 0)) (AngleDeg.ofNum (num 90))
    3 / 4 ≤ |l.a.val| ∧ |l.a.val| ≤ 5 / 4 ∧ |l.b.val| ≤ 1 / 1125899906842624 ∧ |l.c.val + l.a.val * X0.val| ≤ 1 / 1125899906842624 * B := by
  intro l
  have e90 : (num 90 : FP double).val = 90 := (double.int 90 (by norm_num)).trans (by norm_num)
  have hn : AngleDeg.ofNum (num 90 : FP double) = ⟨num 90⟩ := by
    unfold AngleDeg.ofNum
    rw [fp_normalDeg_small _ (by rw [e90]; norm_num)]
  obtain ⟨hs, hc⟩ := C179_sin_deg h (num 90)
  have la : l.a.val = -(AngleDeg.sinDeg (num 90 : FP double)).val := by
    change -(AngleDeg.sinDeg (AngleDeg.ofNum (num 90 : FP double)).deg).val = _
    rw [hn]
  have lb : l.b.val = (AngleDeg.cosDeg (num 90 : FP double)).val := by
    change (AngleDeg.cosDeg (AngleDeg.ofNum (num 90 : FP double)).deg).val = _
    rw [hn]
  rw [e90, show (90 : ℝ) * (Real.pi / 180) = Real.pi / 2 by ring] at hs hc
  rw [Real.sin_pi_div_two] at hs
  rw [Real.cos_pi_div_two, sub_zero] at hc
  rw [show (2 : ℝ) ^ (-58 : ℤ) * |(90 : ℝ)| + (2 : ℝ) ^ (-51 : ℤ) = 90 / 288230376151711744 + 1 / 2251799813685248 by norm_num] at hs hc
  have lc : l.c.val = rne (rne (-l.a.val * X0.val)) := by
    change rne (rne (-l.a.val * X0.val) - rne (l.b.val * (num 0 : FP double).val)) = _
    rw [fp_zero, mul_zero, rne_zero, sub_zero]
  obtain ⟨h1, h2⟩ := abs_le.mp hs
  have a1 : 3 / 4 ≤ |l.a.val| := by
    rw [la, abs_neg]; exact le_trans (by linarith) (le_abs_self _)
  have a2 : |l.a.val| ≤ 5 / 4 := by
    rw [la, abs_neg, abs_le]; constructor <;> linarith
  refine ⟨a1, a2, by rw [lb]; linarith, ?_⟩
  rw [lc, rne_of_isDouble (isDouble_rne _), show rne (-l.a.val * X0.val) + l.a.val * X0.val = rne (-l.a.val * X0.val) - -l.a.val * X0.val by ring]
  refine (rne_error_plain _).trans ?_
  rw [abs_mul, abs_neg]
  have := mul_le_mul a2 hX (abs_nonneg _) (by norm_num)
  linarith

/-- The line the code builds for a horizontal side. -/
theorem horizontal_line (h : Accurate m) (Y0 : FP double) (B : ℝ) (hB : 1 ≤ B) (hY : |Y0.val| ≤ B) :
    let l := Line.ofAngle (Vec.ofXY (num 0) Y0) (AngleDeg.ofNum (num 0))
    3 / 4 ≤ |l.b.val| ∧ |l.b.val| ≤ 5 / 4 ∧ |l.a.val| ≤ 1 / 1125899906842624 ∧ |l.c.val + l.b.val * Y0.val| ≤ 1 / 1125899906842624 * B := by
  intro l
  have e0 : (num 0 : FP double).val = 0 := fp_zero
  have hn : AngleDeg.ofNum (num 0 : FP double) = ⟨num 0⟩ := by
    unfold AngleDeg.ofNum
    rw [fp_normalDeg_small _ (by rw [e0]; norm_num)]
  obtain ⟨hs, hc⟩ := C179_sin_deg h (num 0)
  have la : l.a.val = -(AngleDeg.sinDeg (num 0 : FP double)).val := by
    change -(AngleDeg.sinDeg (AngleDeg.ofNum (num 0 : FP double)).deg).val = _
    rw [hn]
  have lb : l.b.val = (AngleDeg.cosDeg (num 0 : FP double)).val := by
    change (AngleDeg.cosDeg (AngleDeg.ofNum (num 0 : FP double)).deg).val = _
    rw [hn]
  rw [e0, zero_mul] at hs hc
  rw [Real.sin_zero, sub_zero] at hs
  rw [Real.cos_zero] at hc
  rw [show (2 : ℝ) ^ (-58 : ℤ) * |(0 : ℝ)| + (2 : ℝ) ^ (-51 : ℤ) = 1 / 2251799813685248 by norm_num] at hs hc
  have lc : l.c.val = rne (-rne (l.b.val * Y0.val)) := by
    change rne (rne (-l.a.val * (num 0 : FP double).val) - rne (l.b.val * Y0.val)) = _
    rw [fp_zero, mul_zero, rne_zero, zero_sub]
  obtain ⟨h1, h2⟩ := abs_le.mp hc
  have a1 : 3 / 4 ≤ |l.b.val| := by
    rw [lb]; exact le_trans (by linarith) (le_abs_self _)
  have a2 : |l.b.val| ≤ 5 / 4 := by
    rw [lb, abs_le]; constructor <;> linarith
  refine ⟨a1, a2, by rw [la, abs_neg]; linarith, ?_⟩
  rw [lc, rne_neg, rne_of_isDouble (isDouble_rne _), show -rne (l.b.val * Y0.val) + l.b.val * Y0.val = -(rne (l.b.val * Y0.val) - l.b.val * Y0.val) by ring, abs_neg]
  refine (rne_error_plain _).trans ?_
  rw [abs_mul]
  have := mul_le_mul a2 hY (abs_nonneg _) (by norm_num)
  linarith

/-! ## Polygons -/

/-- Being left or right of the vertical line at `X0`, as the code asks it. -/
def Spec.LeftOrRight (X0 : FP double) (inR : Vec (FP double) → Bool) : Prop :=
  (∀ v, inR v = true ↔ v.x.val ≤ X0.val) ∨ (∀ v, inR v = true ↔ X0.val ≤ v.x.val)

/-- Being above or below the horizontal line at `Y0`. -/
def Spec.AboveOrBelow (Y0 : FP double) (inR : Vec (FP double) → Bool) : Prop :=
  (∀ v, inR v = true ↔ v.y.val ≤ Y0.val) ∨ (∀ v, inR v = true ↔ Y0.val ≤ v.y.val)

omit m in
theorem sides_of_ne {f : Vec (FP double) → ℝ} {X : ℝ} {inR : Vec (FP double) → Bool}
    (hR : (∀ v, inR v = true ↔ f v ≤ X) ∨ (∀ v, inR v = true ↔ X ≤ f v)) {p q : Vec (FP double)} (h : inR p ≠ inR q) :
    (f p ≤ X ∧ X ≤ f q) ∨ (f q ≤ X ∧ X ≤ f p) := by
  have key : ∀ p q : Vec (FP double), inR p = true → inR q = false → (f p ≤ X ∧ X ≤ f q) ∨ (f q ≤ X ∧ X ≤ f p) := by
    intro p q hp hq
    rcases hR with hR | hR
    · have h2 : ¬ f q ≤ X := fun k => by rw [(hR q).mpr k] at hq; cases hq
      exact Or.inl ⟨(hR p).mp hp, (not_le.mp h2).le⟩
    · have h2 : ¬ X ≤ f q := fun k => by rw [(hR q).mpr k] at hq; cases hq
      exact Or.inr ⟨(not_le.mp h2).le, (hR p).mp hp⟩
  cases hp : inR p <;> cases hq : inR q
  · exact absurd (hp.trans hq.symm) h
  · exact (key q p hq hp).symm
  · exact key p q hp hq
  · exact absurd (hp.trans hq.symm) h

/-- **C186** Clipping by a vertical line: every vertex of the result is a given vertex of the wanted side or nearly on the line, at the
height where an edge crosses the line. -/
theorem C186_vertical (h : Accurate m) (X0 : FP double) (inR : Vec (FP double) → Bool) (hR : LeftOrRight X0 inR) (pts : List (Vec (FP double)))
    (B : ℝ) (hB1 : 1 ≤ B) (hB2 : B ≤ 2 ^ 20) (hX : |X0.val| ≤ B) (hp : ∀ v ∈ pts, |v.x.val| ≤ B ∧ |v.y.val| ≤ B) (v : Vec (FP double))
    (hv : v ∈ Poly.lineClipped inR pts (Line.ofAngle (Vec.ofXY X0 (num 0)) (AngleDeg.ofNum (num 90)))) :
    (v ∈ pts ∧ inR v = true) ∨
    (|v.x.val - X0.val| ≤ (2 : ℝ) ^ (-45 : ℤ) * B ∧ ∃ e ∈ cyclicPairs pts, inR e.1 ≠ inR e.2 ∧
      ∀ ys, (X0.val, ys) ∈ segment ℝ e.1.fpt e.2.fpt → |v.y.val - ys| * |e.2.x.val - e.1.x.val| ≤ (2 : ℝ) ^ (-43 : ℤ) * B ^ 2) := by
  rw [show (2 : ℝ) ^ (-45 : ℤ) = 1 / 35184372088832 by norm_num, show (2 : ℝ) ^ (-43 : ℤ) = 1 / 8796093022208 by norm_num]
  have hB2' : B ≤ 1048576 := hB2.trans (by norm_num)
  rcases Poly.lineClipped_memK hv with ⟨h1, h2⟩ | ⟨e, he, hne, rfl, hval⟩
  · exact Or.inl ⟨h2, h1⟩
  · obtain ⟨a1, a2, a3, a4⟩ := vertical_line h X0 B hB1 hX
    obtain ⟨-, k⟩ := cut_vertical _ X0.val B hB1 hB2' hX a1 a2 a3 a4 e.1 e.2 (hp _ (fst_mem_of_cyclicPairs he)) (hp _ (snd_mem_of_cyclicPairs he))
      (sides_of_ne (f := fun v => v.x.val) hR hne)
    obtain ⟨-, k1, k2⟩ := k hval
    refine Or.inr ⟨k1, e, he, hne, fun ys hys => k2 ys ?_⟩
    obtain ⟨s, t, hs, ht, hst, e1⟩ := hys
    obtain ⟨ex, ey⟩ := Prod.ext_iff.mp e1
    simp only [Prod.smul_mk, Prod.mk_add_mk, smul_eq_mul, Vec.fpt] at ex ey
    rw [← ex, ← ey, show s = 1 - t by linarith]
    ring

/-- **C186** Nothing is lost when every crossing edge is at least `2^-18` wide: the vertices of the wanted side stay, and every crossing has its vertex. -/
theorem C186_vertical_complete (h : Accurate m) (X0 : FP double) (inR : Vec (FP double) → Bool) (hR : LeftOrRight X0 inR)
    (pts : List (Vec (FP double))) (B : ℝ) (hB1 : 1 ≤ B) (hB2 : B ≤ 2 ^ 20) (hX : |X0.val| ≤ B) (hp : ∀ v ∈ pts, |v.x.val| ≤ B ∧ |v.y.val| ≤ B)
    (hw : ∀ e ∈ cyclicPairs pts, inR e.1 ≠ inR e.2 → (2 : ℝ) ^ (-18 : ℤ) ≤ |e.2.x.val - e.1.x.val|) :
    (∀ v ∈ pts, inR v = true → v ∈ Poly.lineClipped inR pts (Line.ofAngle (Vec.ofXY X0 (num 0)) (AngleDeg.ofNum (num 90)))) ∧
    (∀ e ∈ cyclicPairs pts, inR e.1 ≠ inR e.2 → ∃ v ∈ Poly.lineClipped inR pts (Line.ofAngle (Vec.ofXY X0 (num 0)) (AngleDeg.ofNum (num 90))),
      |v.x.val - X0.val| ≤ (2 : ℝ) ^ (-45 : ℤ) * B ∧ ∃ ys, (X0.val, ys) ∈ segment ℝ e.1.fpt e.2.fpt ∧
        |v.y.val - ys| * |e.2.x.val - e.1.x.val| ≤ (2 : ℝ) ^ (-43 : ℤ) * B ^ 2) := by
  rw [show (2 : ℝ) ^ (-45 : ℤ) = 1 / 35184372088832 by norm_num, show (2 : ℝ) ^ (-43 : ℤ) = 1 / 8796093022208 by norm_num]
  rw [show (2 : ℝ) ^ (-18 : ℤ) = 1 / 262144 by norm_num] at hw
  have hB2' : B ≤ 1048576 := hB2.trans (by norm_num)
  obtain ⟨a1, a2, a3, a4⟩ := vertical_line h X0 B hB1 hX
  have cut := fun e (he : e ∈ cyclicPairs pts) (hne : inR e.1 ≠ inR e.2) =>
    cut_vertical _ X0.val B hB1 hB2' hX a1 a2 a3 a4 e.1 e.2 (hp _ (fst_mem_of_cyclicPairs he)) (hp _ (snd_mem_of_cyclicPairs he))
      (sides_of_ne (f := fun v => v.x.val) hR hne)
  have eq := Poly.clipLoop_flatMapK (inR := inR) (l := Line.ofAngle (Vec.ofXY X0 (num 0)) (AngleDeg.ofNum (num 90))) (cyclicPairs pts) []
    (fun e he hne => (cut e he hne).1 (hw e he hne))
  have hmem : ∀ e ∈ cyclicPairs pts, ∀ v ∈ Poly.emitK inR (Line.ofAngle (Vec.ofXY X0 (num 0)) (AngleDeg.ofNum (num 90))) e,
      v ∈ Poly.lineClipped inR pts (Line.ofAngle (Vec.ofXY X0 (num 0)) (AngleDeg.ofNum (num 90))) := by
    intro e he v hv
    unfold Poly.lineClipped
    rw [eq, List.nil_append]
    exact List.mem_flatMap.mpr ⟨e, he, hv⟩
  constructor
  · intro v hv hin
    obtain ⟨e, he, rfl⟩ : ∃ e ∈ cyclicPairs pts, e.2 = v := by
      have : v ∈ (cyclicPairs pts).map Prod.snd := by rw [map_snd_cyclicPairs]; exact List.mem_rotate.mpr hv
      exact List.mem_map.mp this
    refine hmem e he _ ?_
    unfold Poly.emitK
    by_cases h1 : inR e.1 = true <;> simp [h1, hin]
  · intro e he hne
    obtain ⟨c1, c2⟩ := cut e he hne
    obtain ⟨n0, n1, n2⟩ := c2 (c1 (hw e he hne))
    refine ⟨_, hmem e he (Line.intersection _ (Line.ofPoints e.1 e.2)) ?_, n1, ?_⟩
    · unfold Poly.emitK
      by_cases h1 : inR e.1 = true <;> by_cases h2 : inR e.2 = true
      · exact absurd (h1.trans h2.symm) hne
      · simp [h1, h2]
      · simp [h1, h2]
      · rw [Bool.not_eq_true] at h1 h2; exact absurd (h1.trans h2.symm) hne
    · have hd : e.2.x.val - e.1.x.val ≠ 0 := sub_ne_zero.mpr n0.symm
      set t := (X0.val - e.1.x.val) / (e.2.x.val - e.1.x.val) with ht
      have t01 : 0 ≤ t ∧ t ≤ 1 := by
        rcases sides_of_ne (f := fun v => v.x.val) hR hne with ⟨h1, h2⟩ | ⟨h1, h2⟩
        · have : 0 < e.2.x.val - e.1.x.val := lt_of_le_of_ne (by linarith) hd.symm
          exact ⟨div_nonneg (by linarith) this.le, (div_le_one this).mpr (by linarith)⟩
        · have : e.2.x.val - e.1.x.val < 0 := lt_of_le_of_ne (by linarith) hd
          exact ⟨div_nonneg_of_nonpos (by linarith) this.le, (div_le_one_of_neg this).mpr (by linarith)⟩
      have et : t * (e.2.x.val - e.1.x.val) = X0.val - e.1.x.val := by rw [ht]; field_simp
      refine ⟨(1 - t) * e.1.y.val + t * e.2.y.val, ⟨1 - t, t, by linarith, t01.1, by ring, ?_⟩, n2 _ ?_⟩
      · refine Prod.ext ?_ rfl
        change (1 - t) * e.1.x.val + t * e.2.x.val = X0.val
        linear_combination et
      · linear_combination (e.2.y.val - e.1.y.val) * et

/-- **C186** Clipping by a horizontal line: every vertex of the result is a given vertex of the wanted side or nearly on the line, at the
place where an edge crosses the line. -/
theorem C186_horizontal (h : Accurate m) (Y0 : FP double) (inR : Vec (FP double) → Bool) (hR : AboveOrBelow Y0 inR) (pts : List (Vec (FP double)))
    (B : ℝ) (hB1 : 1 ≤ B) (hB2 : B ≤ 2 ^ 20) (hY : |Y0.val| ≤ B) (hp : ∀ v ∈ pts, |v.x.val| ≤ B ∧ |v.y.val| ≤ B) (v : Vec (FP double))
    (hv : v ∈ Poly.lineClipped inR pts (Line.ofAngle (Vec.ofXY (num 0) Y0) (AngleDeg.ofNum (num 0)))) :
    (v ∈ pts ∧ inR v = true) ∨
    (|v.y.val - Y0.val| ≤ (2 : ℝ) ^ (-45 : ℤ) * B ∧ ∃ e ∈ cyclicPairs pts, inR e.1 ≠ inR e.2 ∧
      ∀ xs, (xs, Y0.val) ∈ segment ℝ e.1.fpt e.2.fpt → |v.x.val - xs| * |e.2.y.val - e.1.y.val| ≤ (2 : ℝ) ^ (-43 : ℤ) * B ^ 2) := by
  rw [show (2 : ℝ) ^ (-45 : ℤ) = 1 / 35184372088832 by norm_num, show (2 : ℝ) ^ (-43 : ℤ) = 1 / 8796093022208 by norm_num]
  have hB2' : B ≤ 1048576 := hB2.trans (by norm_num)
  rcases Poly.lineClipped_memK hv with ⟨h1, h2⟩ | ⟨e, he, hne, rfl, hval⟩
  · exact Or.inl ⟨h2, h1⟩
  · obtain ⟨a1, a2, a3, a4⟩ := horizontal_line h Y0 B hB1 hY
    obtain ⟨-, k⟩ := cut_horizontal _ Y0.val B hB1 hB2' hY a1 a2 a3 a4 e.1 e.2 (hp _ (fst_mem_of_cyclicPairs he)) (hp _ (snd_mem_of_cyclicPairs he))
      (sides_of_ne (f := fun v => v.y.val) hR hne)
    obtain ⟨-, k1, k2⟩ := k hval
    refine Or.inr ⟨k1, e, he, hne, fun xs hys => k2 xs ?_⟩
    obtain ⟨s, t, hs, ht, hst, e1⟩ := hys
    obtain ⟨ex, ey⟩ := Prod.ext_iff.mp e1
    simp only [Prod.smul_mk, Prod.mk_add_mk, smul_eq_mul, Vec.fpt] at ex ey
    rw [← ex, ← ey, show s = 1 - t by linarith]
    ring

/-- **C186** Nothing is lost when every crossing edge is at least `2^-18` high: the vertices of the wanted side stay, and every crossing has its vertex. -/
theorem C186_horizontal_complete (h : Accurate m) (Y0 : FP double) (inR : Vec (FP double) → Bool) (hR : AboveOrBelow Y0 inR)
    (pts : List (Vec (FP double))) (B : ℝ) (hB1 : 1 ≤ B) (hB2 : B ≤ 2 ^ 20) (hY : |Y0.val| ≤ B) (hp : ∀ v ∈ pts, |v.x.val| ≤ B ∧ |v.y.val| ≤ B)
    (hw : ∀ e ∈ cyclicPairs pts, inR e.1 ≠ inR e.2 → (2 : ℝ) ^ (-18 : ℤ) ≤ |e.2.y.val - e.1.y.val|) :
    (∀ v ∈ pts, inR v = true → v ∈ Poly.lineClipped inR pts (Line.ofAngle (Vec.ofXY (num 0) Y0) (AngleDeg.ofNum (num 0)))) ∧
    (∀ e ∈ cyclicPairs pts, inR e.1 ≠ inR e.2 → ∃ v ∈ Poly.lineClipped inR pts (Line.ofAngle (Vec.ofXY (num 0) Y0) (AngleDeg.ofNum (num 0))),
      |v.y.val - Y0.val| ≤ (2 : ℝ) ^ (-45 : ℤ) * B ∧ ∃ xs, (xs, Y0.val) ∈ segment ℝ e.1.fpt e.2.fpt ∧
        |v.x.val - xs| * |e.2.y.val - e.1.y.val| ≤ (2 : ℝ) ^ (-43 : ℤ) * B ^ 2) := by
  rw [show (2 : ℝ) ^ (-45 : ℤ) = 1 / 35184372088832 by norm_num, show (2 : ℝ) ^ (-43 : ℤ) = 1 / 8796093022208 by norm_num]
  rw [show (2 : ℝ) ^ (-18 : ℤ) = 1 / 262144 by norm_num] at hw
  have hB2' : B ≤ 1048576 := hB2.trans (by norm_num)
  obtain ⟨a1, a2, a3, a4⟩ := horizontal_line h Y0 B hB1 hY
  have cut := fun e (he : e ∈ cyclicPairs pts) (hne : inR e.1 ≠ inR e.2) =>
    cut_horizontal _ Y0.val B hB1 hB2' hY a1 a2 a3 a4 e.1 e.2 (hp _ (fst_mem_of_cyclicPairs he)) (hp _ (snd_mem_of_cyclicPairs he))
      (sides_of_ne (f := fun v => v.y.val) hR hne)
  have eq := Poly.clipLoop_flatMapK (inR := inR) (l := Line.ofAngle (Vec.ofXY (num 0) Y0) (AngleDeg.ofNum (num 0))) (cyclicPairs pts) []
    (fun e he hne => (cut e he hne).1 (hw e he hne))
  have hmem : ∀ e ∈ cyclicPairs pts, ∀ v ∈ Poly.emitK inR (Line.ofAngle (Vec.ofXY (num 0) Y0) (AngleDeg.ofNum (num 0))) e,
      v ∈ Poly.lineClipped inR pts (Line.ofAngle (Vec.ofXY (num 0) Y0) (AngleDeg.ofNum (num 0))) := by
    intro e he v hv
    unfold Poly.lineClipped
    rw [eq, List.nil_append]
    exact List.mem_flatMap.mpr ⟨e, he, hv⟩
  constructor
  · intro v hv hin
    obtain ⟨e, he, rfl⟩ : ∃ e ∈ cyclicPairs pts, e.2 = v := by
      have : v ∈ (cyclicPairs pts).map Prod.snd := by rw [map_snd_cyclicPairs]; exact List.mem_rotate.mpr hv
      exact List.mem_map.mp this
    refine hmem e he _ ?_
    unfold Poly.emitK
    by_cases h1 : inR e.1 = true <;> simp [h1, hin]
  · intro e he hne
    obtain ⟨c1, c2⟩ := cut e he hne
    obtain ⟨n0, n1, n2⟩ := c2 (c1 (hw e he hne))
    refine ⟨_, hmem e he (Line.intersection _ (Line.ofPoints e.1 e.2)) ?_, n1, ?_⟩
    · unfold Poly.emitK
      by_cases h1 : inR e.1 = true <;> by_cases h2 : inR e.2 = true
      · exact absurd (h1.trans h2.symm) hne
      · simp [h1, h2]
      · simp [h1, h2]
      · rw [Bool.not_eq_true] at h1 h2; exact absurd (h1.trans h2.symm) hne
    · have hd : e.2.y.val - e.1.y.val ≠ 0 := sub_ne_zero.mpr n0.symm
      set t := (Y0.val - e.1.y.val) / (e.2.y.val - e.1.y.val) with ht
      have t01 : 0 ≤ t ∧ t ≤ 1 := by
        rcases sides_of_ne (f := fun v => v.y.val) hR hne with ⟨h1, h2⟩ | ⟨h1, h2⟩
        · have : 0 < e.2.y.val - e.1.y.val := lt_of_le_of_ne (by linarith) hd.symm
          exact ⟨div_nonneg (by linarith) this.le, (div_le_one this).mpr (by linarith)⟩
        · have : e.2.y.val - e.1.y.val < 0 := lt_of_le_of_ne (by linarith) hd
          exact ⟨div_nonneg_of_nonpos (by linarith) this.le, (div_le_one_of_neg this).mpr (by linarith)⟩
      have et : t * (e.2.y.val - e.1.y.val) = Y0.val - e.1.y.val := by rw [ht]; field_simp
      refine ⟨(1 - t) * e.1.x.val + t * e.2.x.val, ⟨1 - t, t, by linarith, t01.1, by ring, ?_⟩, n2 _ ?_⟩
      · refine Prod.ext rfl ?_
        change (1 - t) * e.1.y.val + t * e.2.y.val = Y0.val
        linear_combination et
      · linear_combination (e.2.x.val - e.1.x.val) * et


/-- Clipping the triangle (0,0), (4,0), (4,3) at `x ≤ 2` puts a vertex near (2, 3/2), whatever accurate library is used. -/
example (h : Accurate m) : ∃ v ∈ Poly.lineClipped (fun v => decide (v.x ≤ (⟨2⟩ : FP double)))
      [⟨⟨0⟩, ⟨0⟩, true⟩, ⟨⟨4⟩, ⟨0⟩, true⟩, ⟨⟨4⟩, ⟨3⟩, true⟩] (Line.ofAngle (Vec.ofXY ⟨2⟩ (num 0)) (AngleDeg.ofNum (num 90))),
    |v.x.val - 2| ≤ (2 : ℝ) ^ (-43 : ℤ) ∧ |v.y.val - 3 / 2| ≤ (2 : ℝ) ^ (-41 : ℤ) := by
  have key := (C186_vertical_complete h ⟨2⟩ (fun v => decide (v.x ≤ (⟨2⟩ : FP double))) (Or.inl fun v => by rw [decide_eq_true_iff]; exact Iff.rfl)
    [⟨⟨0⟩, ⟨0⟩, true⟩, ⟨⟨4⟩, ⟨0⟩, true⟩, ⟨⟨4⟩, ⟨3⟩, true⟩] 4 (by norm_num) (by norm_num) (by norm_num) (by
      intro v hv
      simp only [List.mem_cons, List.not_mem_nil, or_false] at hv
      rcases hv with rfl | rfl | rfl <;> norm_num) (by
      intro e he hne
      simp only [cyclicPairs, List.mem_cons, List.not_mem_nil, or_false] at he
      simp [List.rotate, List.zip, List.zipWith] at he
      rcases he with rfl | rfl | rfl
      · norm_num
      · exact absurd rfl hne
      · norm_num)).2 (⟨⟨4⟩, ⟨3⟩, true⟩, ⟨⟨0⟩, ⟨0⟩, true⟩) (by simp [cyclicPairs]) (by
        have h1 : ¬ ((⟨4⟩ : FP double) ≤ ⟨2⟩) := by change ¬ ((4 : ℝ) ≤ 2); norm_num
        have h2 : ((⟨0⟩ : FP double) ≤ ⟨2⟩) := by change ((0 : ℝ) ≤ 2); norm_num
        simp [h1, h2])
  obtain ⟨v, hv, k1, ys, ⟨s, t, hs, ht, hst, e1⟩, k2⟩ := key
  refine ⟨v, hv, k1.trans (by norm_num), ?_⟩
  obtain ⟨ex, ey⟩ := Prod.ext_iff.mp e1
  simp only [Prod.smul_mk, Prod.mk_add_mk, smul_eq_mul, Vec.fpt] at ex ey
  rw [show ys = 3 / 2 by linarith] at k2
  norm_num at k2 ⊢
  linarith

end

end PyrusGeom
