import Verif.Props.Vector
import Verif.Props.Line

/-! # Geometry of segments in the plane (no model involved) -/

namespace PyrusGeom
open Spec

/-- Doubled signed area of the triangle `a b c`. -/
def Spec.area2 (a b c : Pt) : ℝ := (b.1 - a.1) * (c.2 - a.2) - (b.2 - a.2) * (c.1 - a.1)

theorem mem_seg {a b z : Pt} : z ∈ segment ℝ a b ↔
    ∃ t : ℝ, 0 ≤ t ∧ t ≤ 1 ∧ z.1 = a.1 + t * (b.1 - a.1) ∧ z.2 = a.2 + t * (b.2 - a.2) := by
  rw [segment_eq_image']
  constructor
  · rintro ⟨t, ⟨h0, h1⟩, rfl⟩
    exact ⟨t, h0, h1, rfl, rfl⟩
  · rintro ⟨t, h0, h1, hx, hy⟩
    exact ⟨t, ⟨h0, h1⟩, Prod.ext hx.symm hy.symm⟩

theorem mem_openSeg {a b z : Pt} : z ∈ openSegment ℝ a b ↔
    ∃ t : ℝ, 0 < t ∧ t < 1 ∧ z.1 = a.1 + t * (b.1 - a.1) ∧ z.2 = a.2 + t * (b.2 - a.2) := by
  rw [openSegment_eq_image']
  constructor
  · rintro ⟨t, ⟨h0, h1⟩, rfl⟩
    exact ⟨t, h0, h1, rfl, rfl⟩
  · rintro ⟨t, h0, h1, hx, hy⟩
    exact ⟨t, ⟨h0, h1⟩, Prod.ext hx.symm hy.symm⟩

/-- Being between two numbers. -/
def Btw (a b z : ℝ) : Prop := (a ≤ z ∧ z ≤ b) ∨ (b ≤ z ∧ z ≤ a)

theorem btw_of_param {a b t : ℝ} (h0 : 0 ≤ t) (h1 : t ≤ 1) : Btw a b (a + t * (b - a)) := by
  rcases le_total a b with h | h
  · left; constructor <;> nlinarith
  · right; constructor <;> nlinarith

theorem param_of_btw {a b z : ℝ} (h : Btw a b z) (hab : a ≠ b) :
    0 ≤ (z - a) / (b - a) ∧ (z - a) / (b - a) ≤ 1 := by
  rcases h with ⟨h1, h2⟩ | ⟨h1, h2⟩
  · have : 0 < b - a := by
      rcases lt_or_eq_of_le (h1.trans h2) with h | h
      · linarith
      · exact absurd h hab
    exact ⟨div_nonneg (by linarith) this.le, (div_le_one this).mpr (by linarith)⟩
  · have : b - a < 0 := by
      rcases lt_or_eq_of_le (h1.trans h2) with h | h
      · linarith
      · exact absurd h.symm hab
    exact ⟨div_nonneg_of_nonpos (by linarith) this.le, (div_le_one_of_neg this).mpr (by linarith)⟩

theorem mem_seg_of_x {a b z : Pt} (h : a.1 ≠ b.1) :
    z ∈ segment ℝ a b ↔ area2 a b z = 0 ∧ Btw a.1 b.1 z.1 := by
  rw [mem_seg]; unfold area2
  constructor
  · rintro ⟨t, h0, h1, hx, hy⟩
    refine ⟨by rw [hx, hy]; ring, ?_⟩
    rw [hx]; exact btw_of_param h0 h1
  · rintro ⟨h2, hb⟩
    have hne : b.1 - a.1 ≠ 0 := sub_ne_zero.mpr h.symm
    obtain ⟨p0, p1⟩ := param_of_btw hb h
    refine ⟨(z.1 - a.1) / (b.1 - a.1), p0, p1, ?_, ?_⟩
    · field_simp; ring
    · field_simp; linear_combination h2

theorem mem_seg_of_y {a b z : Pt} (_h1 : a.1 = b.1) (h : a.2 ≠ b.2) :
    z ∈ segment ℝ a b ↔ area2 a b z = 0 ∧ Btw a.2 b.2 z.2 := by
  rw [mem_seg]; unfold area2
  constructor
  · rintro ⟨t, h0, h1, hx, hy⟩
    refine ⟨by rw [hx, hy]; ring, ?_⟩
    rw [hy]; exact btw_of_param h0 h1
  · rintro ⟨h2, hb⟩
    have hne : b.2 - a.2 ≠ 0 := sub_ne_zero.mpr h.symm
    obtain ⟨p0, p1⟩ := param_of_btw hb h
    refine ⟨(z.2 - a.2) / (b.2 - a.2), p0, p1, ?_, ?_⟩
    · field_simp; linear_combination -h2
    · field_simp; ring

theorem pt_ne {a b : Pt} (h : a ≠ b) : a.1 ≠ b.1 ∨ (a.1 = b.1 ∧ a.2 ≠ b.2) := by
  by_cases h1 : a.1 = b.1
  · exact Or.inr ⟨h1, fun h2 => h (Prod.ext h1 h2)⟩
  · exact Or.inl h1

theorem dir_pos {a b : Pt} (h : a ≠ b) : 0 < (b.1 - a.1) ^ 2 + (b.2 - a.2) ^ 2 := by
  rcases pt_ne h with h | ⟨_, h⟩
  · have : b.1 - a.1 ≠ 0 := sub_ne_zero.mpr h.symm
    positivity
  · have : b.2 - a.2 ≠ 0 := sub_ne_zero.mpr h.symm
    positivity

/-- Membership through the scalar product. -/
theorem mem_seg_of_dot {a b z : Pt} (h : a ≠ b) :
    z ∈ segment ℝ a b ↔ area2 a b z = 0 ∧
      0 ≤ (b.1 - a.1) * (z.1 - a.1) + (b.2 - a.2) * (z.2 - a.2) ∧
      (b.1 - a.1) * (z.1 - a.1) + (b.2 - a.2) * (z.2 - a.2) ≤ (b.1 - a.1) ^ 2 + (b.2 - a.2) ^ 2 := by
  have hp := dir_pos h
  rw [mem_seg]; unfold area2
  constructor
  · rintro ⟨t, h0, h1, hx, hy⟩
    refine ⟨by rw [hx, hy]; ring, ?_, ?_⟩
    · have : (b.1 - a.1) * (z.1 - a.1) + (b.2 - a.2) * (z.2 - a.2) =
        t * ((b.1 - a.1) ^ 2 + (b.2 - a.2) ^ 2) := by rw [hx, hy]; ring
      rw [this]; positivity
    · have : (b.1 - a.1) * (z.1 - a.1) + (b.2 - a.2) * (z.2 - a.2) =
        t * ((b.1 - a.1) ^ 2 + (b.2 - a.2) ^ 2) := by rw [hx, hy]; ring
      rw [this]; nlinarith
  · rintro ⟨h2, h3, h4⟩
    refine ⟨((b.1 - a.1) * (z.1 - a.1) + (b.2 - a.2) * (z.2 - a.2)) / ((b.1 - a.1) ^ 2 + (b.2 - a.2) ^ 2),
      div_nonneg h3 hp.le, (div_le_one hp).mpr h4, ?_, ?_⟩
    · field_simp; linear_combination -(b.2 - a.2) * h2
    · field_simp; linear_combination (b.1 - a.1) * h2

/-! ## Two segments -/

/-- Two sign changes give a common inner point. -/
theorem proper_cross {a b c e : Pt} (h1 : area2 a b c * area2 a b e < 0) (h2 : area2 c e a * area2 c e b < 0) :
    ∃ z, z ∈ openSegment ℝ a b ∧ z ∈ openSegment ℝ c e := by
  set D := (b.1 - a.1) * (e.2 - c.2) - (b.2 - a.2) * (e.1 - c.1) with hD
  have r1 : area2 a b e - area2 a b c = D := by simp only [area2, hD]; ring
  have r2 : area2 c e a - area2 c e b = D := by simp only [area2, hD]; ring
  have hD0 : D ≠ 0 := by
    intro h0
    have : area2 a b e = area2 a b c := by linarith
    rw [this] at h1
    nlinarith [mul_self_nonneg (area2 a b c)]
  have key : ∀ {u v : ℝ}, u * v < 0 → u - v ≠ 0 → 0 < u / (u - v) ∧ u / (u - v) < 1 := by
    intro u v huv hne
    rcases mul_neg_iff.mp huv with ⟨hu, hv⟩ | ⟨hu, hv⟩
    · have : 0 < u - v := by linarith
      exact ⟨div_pos hu this, (div_lt_one this).mpr (by linarith)⟩
    · have : u - v < 0 := by linarith
      exact ⟨div_pos_of_neg_of_neg hu this, (div_lt_one_of_neg this).mpr (by linarith)⟩
  have k1 := key h2 (by rw [r2]; exact hD0)
  have k2 := key h1 (by intro h; apply hD0; linarith)
  rw [r2] at k1
  rw [show area2 a b c - area2 a b e = -D by linarith] at k2
  refine ⟨(a.1 + area2 c e a / D * (b.1 - a.1), a.2 + area2 c e a / D * (b.2 - a.2)),
    mem_openSeg.mpr ⟨_, k1.1, k1.2, rfl, rfl⟩, mem_openSeg.mpr ⟨_, k2.1, k2.2, ?_, ?_⟩⟩
  · simp only
    field_simp
    simp only [area2, hD]; ring
  · simp only
    field_simp
    simp only [area2, hD]; ring

theorem area2_param (a b c e : Pt) {z : Pt} {t : ℝ} (hx : z.1 = c.1 + t * (e.1 - c.1))
    (hy : z.2 = c.2 + t * (e.2 - c.2)) : area2 a b z = (1 - t) * area2 a b c + t * area2 a b e := by
  simp only [area2, hx, hy]; ring

/-- Points on a non-degenerate line are described by a parameter. -/
theorem line_param {a b z : Pt} (h : a ≠ b) (hz : area2 a b z = 0) :
    ∃ u : ℝ, z.1 = a.1 + u * (b.1 - a.1) ∧ z.2 = a.2 + u * (b.2 - a.2) := by
  have hp := dir_pos h
  unfold area2 at hz
  refine ⟨((b.1 - a.1) * (z.1 - a.1) + (b.2 - a.2) * (z.2 - a.2)) / ((b.1 - a.1) ^ 2 + (b.2 - a.2) ^ 2), ?_, ?_⟩
  · field_simp; linear_combination -(b.2 - a.2) * hz
  · field_simp; linear_combination (b.1 - a.1) * hz

theorem seg_left_mem (a b : Pt) : a ∈ segment ℝ a b := left_mem_segment ℝ a b
theorem seg_right_mem (a b : Pt) : b ∈ segment ℝ a b := right_mem_segment ℝ a b

/-- Without a sign change, a common point forces an end point on the other segment. -/
theorem touch {a b c e z : Pt} (hab : a ≠ b) (h1 : z ∈ segment ℝ a b) (h2 : z ∈ segment ℝ c e)
    (hs : 0 ≤ area2 a b c * area2 a b e) :
    c ∈ segment ℝ a b ∨ e ∈ segment ℝ a b ∨ a ∈ segment ℝ c e := by
  have hz : area2 a b z = 0 := ((mem_seg_of_dot hab).mp h1).1
  obtain ⟨t, t0, t1, hx, hy⟩ := mem_seg.mp h2
  obtain ⟨w, w0, w1, wx, wy⟩ := mem_seg.mp h1
  have hl := area2_param a b c e hx hy
  rw [hz] at hl
  by_cases ht0 : t = 0
  · left
    have : z = c := Prod.ext (by rw [hx, ht0]; ring) (by rw [hy, ht0]; ring)
    rwa [this] at h1
  by_cases ht1 : t = 1
  · right; left
    have : z = e := Prod.ext (by rw [hx, ht1]; ring) (by rw [hy, ht1]; ring)
    rwa [this] at h1
  have t0' : 0 < t := lt_of_le_of_ne t0 (Ne.symm ht0)
  have t1' : 0 < 1 - t := by
    have := lt_of_le_of_ne t1 ht1
    linarith
  have hsq : ((1 - t) * area2 a b c) ^ 2 ≤ 0 := by
    have : (1 - t) * area2 a b c = -(t * area2 a b e) := by linarith
    calc ((1 - t) * area2 a b c) ^ 2 = -((1 - t) * t) * (area2 a b c * area2 a b e) := by
          rw [pow_two]; nth_rewrite 2 [this]; ring
      _ ≤ 0 := by nlinarith [mul_pos t1' t0', mul_nonneg (mul_pos t1' t0').le hs]
  have hc0 : area2 a b c = 0 := by
    have : (1 - t) * area2 a b c = 0 := pow_eq_zero_iff (two_ne_zero) |>.mp (le_antisymm hsq (sq_nonneg _))
    exact (mul_eq_zero.mp this).resolve_left t1'.ne'
  have he0 : area2 a b e = 0 := by
    rw [hc0, mul_zero, zero_add] at hl
    exact (mul_eq_zero.mp hl.symm).resolve_left t0'.ne'
  obtain ⟨u, ux, uy⟩ := line_param hab hc0
  obtain ⟨v, vx, vy⟩ := line_param hab he0
  have hw : w = u + t * (v - u) := by
    rcases pt_ne hab with h | ⟨_, h⟩
    · have hne : b.1 - a.1 ≠ 0 := sub_ne_zero.mpr h.symm
      apply mul_right_cancel₀ hne
      rw [hx, ux, vx] at wx; linear_combination -wx
    · have hne : b.2 - a.2 ≠ 0 := sub_ne_zero.mpr h.symm
      apply mul_right_cancel₀ hne
      rw [hy, uy, vy] at wy; linear_combination -wy
  by_cases hu : 0 ≤ u ∧ u ≤ 1
  · left; exact mem_seg.mpr ⟨u, hu.1, hu.2, ux, uy⟩
  by_cases hv : 0 ≤ v ∧ v ≤ 1
  · right; left; exact mem_seg.mpr ⟨v, hv.1, hv.2, vx, vy⟩
  right; right
  have huv : (u < 0 ∧ 1 < v) ∨ (v < 0 ∧ 1 < u) := by
    rw [not_and_or, not_le, not_le] at hu hv
    rcases hu with hu | hu <;> rcases hv with hv | hv
    · exfalso; nlinarith
    · left; exact ⟨hu, hv⟩
    · right; exact ⟨hv, hu⟩
    · exfalso; nlinarith
  have hne : v - u ≠ 0 := by rcases huv with ⟨h, h'⟩ | ⟨h, h'⟩ <;> intro h0 <;> linarith
  refine mem_seg.mpr ⟨-u / (v - u), ?_, ?_, ?_, ?_⟩
  · rcases huv with ⟨h, h'⟩ | ⟨h, h'⟩
    · exact div_nonneg (by linarith) (by linarith)
    · exact div_nonneg_of_nonpos (by linarith) (by linarith)
  · rcases huv with ⟨h, h'⟩ | ⟨h, h'⟩
    · rw [div_le_one (by linarith)]; linarith
    · rw [div_le_one_of_neg (by linarith)]; linarith
  · rw [ux, vx]; field_simp; ring
  · rw [uy, vy]; field_simp; ring

/-! ## Distances -/

/-- `m` is the minimum of the distances between points of `S` and points of `T`. -/
def Spec.IsMinDistSets (S T : Set Pt) (m : ℝ) : Prop :=
  (∃ p ∈ S, ∃ q ∈ T, Spec.d p q = m) ∧ ∀ p ∈ S, ∀ q ∈ T, m ≤ Spec.d p q

theorem IsMinDist.unique {S : Set Pt} {p : Pt} {m m' : ℝ} (h : IsMinDist S p m) (h' : IsMinDist S p m') : m = m' := by
  obtain ⟨⟨q, hq, e⟩, l⟩ := h
  obtain ⟨⟨q', hq', e'⟩, l'⟩ := h'
  exact le_antisymm (e' ▸ l q' hq') (e ▸ l' q hq)

theorem IsMaxDist.unique {S : Set Pt} {p : Pt} {m m' : ℝ} (h : IsMaxDist S p m) (h' : IsMaxDist S p m') : m = m' := by
  obtain ⟨⟨q, hq, e⟩, l⟩ := h
  obtain ⟨⟨q', hq', e'⟩, l'⟩ := h'
  exact le_antisymm (e ▸ l' q hq) (e' ▸ l q' hq')

theorem IsMinDistSets.unique {S T : Set Pt} {m m' : ℝ} (h : IsMinDistSets S T m) (h' : IsMinDistSets S T m') :
    m = m' := by
  obtain ⟨⟨p, hp, q, hq, e⟩, l⟩ := h
  obtain ⟨⟨p', hp', q', hq', e'⟩, l'⟩ := h'
  exact le_antisymm (e' ▸ l p' hp' q' hq') (e ▸ l' p hp q hq)

theorem IsMinDistSets.symm {S T : Set Pt} {m : ℝ} (h : IsMinDistSets S T m) : IsMinDistSets T S m := by
  obtain ⟨⟨p, hp, q, hq, e⟩, l⟩ := h
  exact ⟨⟨q, hq, p, hp, by rw [Spec.d_comm, e]⟩, fun p hp q hq => by rw [Spec.d_comm]; exact l q hq p hp⟩

/-- The distance stays below its value at the foot's parameter: along `a + t (b-a)`, the squared distance to `p`. -/
theorem d2_param (a b p : Pt) (t : ℝ) :
    (p.1 - (a.1 + t * (b.1 - a.1))) ^ 2 + (p.2 - (a.2 + t * (b.2 - a.2))) ^ 2 =
      (p.1 - a.1) ^ 2 + (p.2 - a.2) ^ 2
      - 2 * t * ((b.1 - a.1) * (p.1 - a.1) + (b.2 - a.2) * (p.2 - a.2))
      + t ^ 2 * ((b.1 - a.1) ^ 2 + (b.2 - a.2) ^ 2) := by ring

/-- Exit time of a moving parameter from `[0, 1]`. -/
theorem exit_time {x α : ℝ} (h0 : 0 ≤ x) (h1 : x ≤ 1) :
    ∃ τ, 0 ≤ τ ∧ τ ≤ 1 ∧ (∀ σ, 0 ≤ σ → σ ≤ τ → 0 ≤ x + σ * α ∧ x + σ * α ≤ 1) ∧
      (x + τ * α = 0 ∨ x + τ * α = 1 ∨ τ = 1) := by
  by_cases hhi : 1 < x + α
  · have hα : 0 < α := by linarith
    refine ⟨(1 - x) / α, div_nonneg (by linarith) hα.le, (div_le_one hα).mpr (by linarith), ?_, ?_⟩
    · intro σ s0 s1
      have := (le_div_iff₀ hα).mp s1
      exact ⟨by nlinarith, by linarith⟩
    · right; left; field_simp; ring
  by_cases hlo : x + α < 0
  · have hα : 0 < -α := by linarith
    refine ⟨x / (-α), div_nonneg h0 hα.le, (div_le_one hα).mpr (by linarith), ?_, ?_⟩
    · intro σ s0 s1
      have := (le_div_iff₀ hα).mp s1
      exact ⟨by linarith, by nlinarith⟩
    · left
      have : α ≠ 0 := by intro h; rw [h] at hα; simp at hα
      field_simp; ring
  · refine ⟨1, zero_le_one, le_refl 1, ?_, Or.inr (Or.inr rfl)⟩
    intro σ s0 s1
    push Not at hhi hlo
    constructor
    · nlinarith
    · nlinarith

/-- For two disjoint segments, any pair of points can be moved, without increasing the distance, until one of the
two is an end point. -/
theorem slide {a b c e p q : Pt} (hp : p ∈ segment ℝ a b) (hq : q ∈ segment ℝ c e)
    (hd : ∀ z, z ∈ segment ℝ a b → z ∉ segment ℝ c e) :
    ∃ p' ∈ segment ℝ a b, ∃ q' ∈ segment ℝ c e, Spec.d p' q' ≤ Spec.d p q ∧
      (p' = a ∨ p' = b ∨ q' = c ∨ q' = e) := by
  obtain ⟨x, x0, x1, px, py⟩ := mem_seg.mp hp
  obtain ⟨y, y0, y1, qx, qy⟩ := mem_seg.mp hq
  -- moving both parameters with a given velocity
  have move : ∀ α β k : ℝ, (k = 0 ∨ k = 1) →
      (q.1 - p.1) + (β * (e.1 - c.1) - α * (b.1 - a.1)) = (1 - k) * (q.1 - p.1) →
      (q.2 - p.2) + (β * (e.2 - c.2) - α * (b.2 - a.2)) = (1 - k) * (q.2 - p.2) →
      (k = 0 → x + α < 0 ∨ 1 < x + α) →
      ∃ p' ∈ segment ℝ a b, ∃ q' ∈ segment ℝ c e, Spec.d p' q' ≤ Spec.d p q ∧
      (p' = a ∨ p' = b ∨ q' = c ∨ q' = e) := by
    intro α β k hk m1 m2 hout
    obtain ⟨τ, τ0, τ1, hτ, eτ⟩ := exit_time (α := α) x0 x1
    obtain ⟨ρ, ρ0, ρ1, hρ, eρ⟩ := exit_time (α := β) y0 y1
    set σ := min τ ρ with hσ
    have σ0 : 0 ≤ σ := le_min τ0 ρ0
    have σ1 : σ ≤ 1 := (min_le_left _ _).trans τ1
    have hx := hτ σ σ0 (min_le_left _ _)
    have hy := hρ σ σ0 (min_le_right _ _)
    refine ⟨(a.1 + (x + σ * α) * (b.1 - a.1), a.2 + (x + σ * α) * (b.2 - a.2)),
      mem_seg.mpr ⟨_, hx.1, hx.2, rfl, rfl⟩,
      (c.1 + (y + σ * β) * (e.1 - c.1), c.2 + (y + σ * β) * (e.2 - c.2)),
      mem_seg.mpr ⟨_, hy.1, hy.2, rfl, rfl⟩, ?_, ?_⟩
    · apply Spec.d_le_d
      have f1 : a.1 + (x + σ * α) * (b.1 - a.1) - (c.1 + (y + σ * β) * (e.1 - c.1)) = (1 - σ * k) * (p.1 - q.1) := by
        linear_combination (1 - σ * 0) * (qx - px) - σ * m1
      have f2 : a.2 + (x + σ * α) * (b.2 - a.2) - (c.2 + (y + σ * β) * (e.2 - c.2)) = (1 - σ * k) * (p.2 - q.2) := by
        linear_combination (qy - py) - σ * m2
      simp only
      rw [f1, f2, mul_pow, mul_pow, ← mul_add]
      have : (1 - σ * k) ^ 2 ≤ 1 := by
        rcases hk with rfl | rfl
        · norm_num
        · nlinarith
      nlinarith [sq_nonneg (p.1 - q.1), sq_nonneg (p.2 - q.2)]
    · have hend : (x + σ * α = 0 ∨ x + σ * α = 1) ∨ (y + σ * β = 0 ∨ y + σ * β = 1) ∨ (σ = 1) := by
        rcases le_total τ ρ with h | h
        · rw [hσ, min_eq_left h]; tauto
        · rw [hσ, min_eq_right h]; tauto
      rcases hend with (h | h) | (h | h) | h
      · left; exact Prod.ext (by simp only [h]; ring) (by simp only [h]; ring)
      · right; left; exact Prod.ext (by simp only [h]; ring) (by simp only [h]; ring)
      · right; right; left; exact Prod.ext (by simp only [h]; ring) (by simp only [h]; ring)
      · right; right; right; exact Prod.ext (by simp only [h]; ring) (by simp only [h]; ring)
      · exfalso
        rcases hk with rfl | rfl
        · rw [h, one_mul] at hx
          rcases hout rfl with h' | h' <;> linarith [hx.1, hx.2]
        · rw [h, one_mul] at hx hy
          refine hd (a.1 + (x + α) * (b.1 - a.1), a.2 + (x + α) * (b.2 - a.2))
            (mem_seg.mpr ⟨_, hx.1, hx.2, rfl, rfl⟩) (mem_seg.mpr ⟨y + β, hy.1, hy.2, ?_, ?_⟩)
          · simp only; linear_combination qx - px - m1
          · simp only; linear_combination qy - py - m2
  by_cases hD : (b.1 - a.1) * (e.2 - c.2) - (b.2 - a.2) * (e.1 - c.1) = 0
  · -- parallel: slide both points by the same vector
    by_cases hab : a = b
    · refine ⟨p, hp, q, hq, le_refl _, Or.inl ?_⟩
      exact Prod.ext (by rw [px, hab]; ring) (by rw [py, hab]; ring)
    by_cases hce : c = e
    · refine ⟨p, hp, q, hq, le_refl _, Or.inr (Or.inr (Or.inl ?_))⟩
      exact Prod.ext (by rw [qx, hce]; ring) (by rw [qy, hce]; ring)
    have hcp := dir_pos hce
    set k := ((b.1 - a.1) * (e.1 - c.1) + (b.2 - a.2) * (e.2 - c.2)) / ((e.1 - c.1) ^ 2 + (e.2 - c.2) ^ 2) with hk
    have k1 : b.1 - a.1 = k * (e.1 - c.1) := by
      rw [hk]; field_simp; linear_combination (e.2 - c.2) * hD
    have k2 : b.2 - a.2 = k * (e.2 - c.2) := by
      rw [hk]; field_simp; linear_combination -(e.1 - c.1) * hD
    refine move 2 (2 * k) 0 (Or.inl rfl) ?_ ?_ (fun _ => Or.inr (by linarith))
    · rw [k1]; ring
    · rw [k2]; ring
  · -- not parallel: move towards the crossing of the carrier lines
    set D := (b.1 - a.1) * (e.2 - c.2) - (b.2 - a.2) * (e.1 - c.1) with hDdef
    refine move (((q.1 - p.1) * (e.2 - c.2) - (q.2 - p.2) * (e.1 - c.1)) / D)
      (((q.1 - p.1) * (b.2 - a.2) - (q.2 - p.2) * (b.1 - a.1)) / D) 1 (Or.inr rfl) ?_ ?_ (fun h => by norm_num at h)
    · field_simp; rw [hDdef]; ring
    · field_simp; rw [hDdef]; ring

end PyrusGeom
