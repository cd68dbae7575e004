import Verif.Props.Affine
import Verif.Props.Agree
import Mathlib.Analysis.Convex.Between

/-! # C151 – C153: polygon containment does not depend on the half line, is affine, and adds up along diagonals -/

namespace PyrusGeom
open Spec

/-- `z` is strictly on the same side of the three directed sides. -/
def SameSide (a b c z : Pt) : Prop :=
  (0 < area2 a b z ∧ 0 < area2 b c z ∧ 0 < area2 c a z) ∨ (area2 a b z < 0 ∧ area2 b c z < 0 ∧ area2 c a z < 0)

theorem bary_snd (a b c z : Pt) :
    area2 a b z * (c.2 - z.2) + area2 b c z * (a.2 - z.2) + area2 c a z * (b.2 - z.2) = 0 := by
  unfold area2; ring

theorem collinear_of_area2 {a b c : Pt} (h : area2 a b c = 0) : Collinear ℝ {a, b, c} := by
  rw [collinear_iff_of_mem (p₀ := a) (by simp)]
  by_cases hb : b = a
  · refine ⟨c - a, ?_⟩
    rintro y (rfl | rfl | rfl)
    · exact ⟨0, by simp⟩
    · exact ⟨0, by simp [hb]⟩
    · exact ⟨1, by simp⟩
  · refine ⟨b - a, ?_⟩
    rintro y (rfl | rfl | rfl)
    · exact ⟨0, by simp⟩
    · exact ⟨1, by simp⟩
    · have hne : b.1 - a.1 ≠ 0 ∨ b.2 - a.2 ≠ 0 := by
        by_contra hc
        push Not at hc
        exact hb (Prod.ext (by linarith [hc.1]) (by linarith [hc.2]))
      unfold area2 at h
      rcases hne with h1 | h1
      · refine ⟨(y.1 - a.1) / (b.1 - a.1), Prod.ext ?_ ?_⟩ <;>
          simp only [vadd_eq_add, Prod.fst_add, Prod.snd_add, Prod.smul_fst, Prod.smul_snd, smul_eq_mul, Prod.fst_sub, Prod.snd_sub] <;>
          field_simp <;> linarith
      · refine ⟨(y.2 - a.2) / (b.2 - a.2), Prod.ext ?_ ?_⟩ <;>
          simp only [vadd_eq_add, Prod.fst_add, Prod.snd_add, Prod.smul_fst, Prod.smul_snd, smul_eq_mul, Prod.fst_sub, Prod.snd_sub] <;>
          field_simp <;> linarith

/-- Off its sides, a triangle, degenerate or not, consists of the points strictly on one side of all sides. -/
theorem mem_triangle_iff {a b c z : Pt} (h1 : z ∉ segment ℝ a b) (h2 : z ∉ segment ℝ b c) (h3 : z ∉ segment ℝ c a) :
    z ∈ convexHull ℝ {a, b, c} ↔ SameSide a b c z := by
  constructor
  · intro hz
    have key : ∀ {u v w : Pt}, Wbtw ℝ u v w → convexHull ℝ {u, v, w} ⊆ segment ℝ u w := by
      intro u v w h
      refine convexHull_min ?_ (convex_segment u w)
      rintro y (rfl | rfl | rfl)
      · exact left_mem_segment ℝ _ _
      · exact mem_segment_iff_wbtw.mpr h
      · exact right_mem_segment ℝ _ _
    have hD : area2 a b c ≠ 0 := by
      intro hD
      rcases (collinear_of_area2 hD).wbtw_or_wbtw_or_wbtw with h | h | h
      · exact h3 (by rw [segment_symm]; exact key h hz)
      · rw [show ({a, b, c} : Set Pt) = {b, c, a} by ext; simp; tauto] at hz
        exact h1 (by rw [segment_symm]; exact key h hz)
      · rw [show ({a, b, c} : Set Pt) = {c, a, b} by ext; simp; tauto] at hz
        exact h2 (by rw [segment_symm]; exact key h hz)
    rw [convexHull_insert (by simp), convexHull_pair] at hz
    obtain ⟨x, hx, y, hy, hz⟩ := mem_convexJoin.mp hz
    rw [Set.mem_singleton_iff] at hx
    subst hx
    obtain ⟨u, v, hu, hv, huv, rfl⟩ := hy
    obtain ⟨s, t, hs, ht, hst, rfl⟩ := hz
    obtain rfl : s = 1 - t := by linarith
    obtain rfl : u = 1 - v := by linarith
    have e1 : area2 x b ((1 - t) • x + t • ((1 - v) • b + v • c)) = t * v * area2 x b c := by
      simp only [area2, Prod.fst_add, Prod.snd_add, Prod.smul_fst, Prod.smul_snd, smul_eq_mul]; ring
    have e2 : area2 b c ((1 - t) • x + t • ((1 - v) • b + v • c)) = (1 - t) * area2 x b c := by
      simp only [area2, Prod.fst_add, Prod.snd_add, Prod.smul_fst, Prod.smul_snd, smul_eq_mul]; ring
    have e3 : area2 c x ((1 - t) • x + t • ((1 - v) • b + v • c)) = t * (1 - v) * area2 x b c := by
      simp only [area2, Prod.fst_add, Prod.snd_add, Prod.smul_fst, Prod.smul_snd, smul_eq_mul]; ring
    have p1 : 0 < t := by
      refine lt_of_le_of_ne ht fun h => h1 ?_
      rw [← h]; simp [left_mem_segment]
    have p2 : 0 < 1 - t := by
      refine lt_of_le_of_ne hs fun h => h2 ⟨1 - v, v, hu, hv, huv, ?_⟩
      obtain rfl : t = 1 := by linarith
      simp
    have p3 : 0 < v := by
      refine lt_of_le_of_ne hv fun h => h1 ⟨1 - t, t, hs, ht, hst, ?_⟩
      rw [← h]; simp
    have p4 : 0 < 1 - v := by
      refine lt_of_le_of_ne hu fun h => h3 ⟨t, 1 - t, ht, hs, by ring, ?_⟩
      obtain rfl : v = 1 := by linarith
      simp [add_comm]
    unfold SameSide
    rw [e1, e2, e3]
    rcases lt_or_gt_of_ne hD with hn | hp
    · exact Or.inr ⟨mul_neg_of_pos_of_neg (by positivity) hn, mul_neg_of_pos_of_neg (by positivity) hn,
        mul_neg_of_pos_of_neg (by positivity) hn⟩
    · exact Or.inl ⟨by positivity, by positivity, by positivity⟩
  · intro h
    have hs : area2 a b z + area2 b c z + area2 c a z = area2 a b c := by unfold area2; ring
    have hD : area2 a b c ≠ 0 := by
      rcases h with ⟨p1, p2, p3⟩ | ⟨p1, p2, p3⟩
      · linarith
      · linarith
    have ha : (a : Pt) ∈ convexHull ℝ {a, b, c} := subset_convexHull ℝ _ (by simp)
    have hb : (b : Pt) ∈ convexHull ℝ {a, b, c} := subset_convexHull ℝ _ (by simp)
    have hc : (c : Pt) ∈ convexHull ℝ {a, b, c} := subset_convexHull ℝ _ (by simp)
    have pos : 0 < area2 a b z / area2 a b c ∧ 0 < area2 b c z / area2 a b c ∧ 0 < area2 c a z / area2 a b c := by
      rcases h with ⟨p1, p2, p3⟩ | ⟨p1, p2, p3⟩
      · have : 0 < area2 a b c := by linarith
        exact ⟨by positivity, by positivity, by positivity⟩
      · have : area2 a b c < 0 := by linarith
        exact ⟨div_pos_of_neg_of_neg p1 this, div_pos_of_neg_of_neg p2 this, div_pos_of_neg_of_neg p3 this⟩
    have hz : z = (area2 b c z / area2 a b c) • a + (area2 c a z / area2 a b c) • b + (area2 a b z / area2 a b c) • c := by
      refine Prod.ext ?_ ?_ <;> simp only [Prod.fst_add, Prod.snd_add, Prod.smul_fst, Prod.smul_snd, smul_eq_mul] <;>
        field_simp <;> unfold area2 <;> ring
    have hsum : area2 b c z / area2 a b c + area2 c a z / area2 a b c + area2 a b z / area2 a b c = 1 := by
      field_simp; linarith
    generalize area2 a b z / area2 a b c = r at *
    generalize area2 b c z / area2 a b c = s at *
    generalize area2 c a z / area2 a b c = t at *
    obtain ⟨pr, ps, pt⟩ := pos
    have hy := convex_convexHull ℝ {a, b, c} hb hc (div_nonneg pt.le (add_pos pt pr).le) (div_nonneg pr.le (add_pos pt pr).le)
      (by rw [← add_div]; exact div_self (add_pos pt pr).ne')
    have := convex_convexHull ℝ {a, b, c} ha hy ps.le (add_pos pt pr).le (by linarith)
    have hne : t + r ≠ 0 := (add_pos pt pr).ne'
    rw [smul_add, smul_smul, smul_smul, mul_div_cancel₀ _ hne, mul_div_cancel₀ _ hne, ← add_assoc, ← hz] at this
    exact this

/-- Two edges that meet in `w`, the other ends being on the other side of the height of `z`. -/
theorem cross_two {a w b z : Pt} (h1 : z ∉ segment ℝ a w) (h2 : z ∉ segment ℝ w b) (h3 : z ∉ segment ℝ b a)
    (hh : (a.2 ≤ z.2 ∧ b.2 ≤ z.2 ∧ z.2 < w.2) ∨ (z.2 < a.2 ∧ z.2 < b.2 ∧ w.2 ≤ z.2)) :
    ¬ Crosses z b a ∧ ((Crosses z a w ↔ ¬ Crosses z w b) ↔ SameSide a w b z) := by
  have hid := bary_snd a w b z
  constructor
  · rw [crosses_iff]
    rcases hh with ⟨g1, g2, g3⟩ | ⟨g1, g2, g3⟩
    · rintro (⟨k1, k2, -⟩ | ⟨k1, k2, -⟩) <;> linarith
    · rintro (⟨k1, k2, -⟩ | ⟨k1, k2, -⟩) <;> linarith
  have zero : ∀ {u v : Pt}, (u.2 ≤ z.2 ∧ z.2 < v.2) ∨ (v.2 ≤ z.2 ∧ z.2 < u.2) → area2 u v z = 0 → z ∈ segment ℝ u v := by
    intro u v huv h0
    have hne : u.2 ≠ v.2 := by rcases huv with ⟨a, b⟩ | ⟨a, b⟩ <;> intro h <;> linarith
    have hb : Btw u.2 v.2 z.2 := by rcases huv with ⟨a, b⟩ | ⟨a, b⟩; exacts [Or.inl ⟨a, b.le⟩, Or.inr ⟨a, b.le⟩]
    refine ((seg_at_height (z := z) hne hb).mpr (Prod.ext ?_ rfl)).1
    have : v.2 - u.2 ≠ 0 := sub_ne_zero.mpr hne.symm
    simp only [area2] at h0 ⊢
    field_simp
    linarith
  rcases hh with ⟨g1, g2, g3⟩ | ⟨g1, g2, g3⟩
  · have n1 : area2 a w z ≠ 0 := fun h => h1 (zero (Or.inl ⟨g1, g3⟩) h)
    have n2 : area2 w b z ≠ 0 := fun h => h2 (zero (Or.inr ⟨g2, g3⟩) h)
    have c1 : Crosses z a w ↔ 0 < area2 a w z := by
      rw [crosses_iff]
      constructor
      · rintro (⟨k1, k2, k3⟩ | ⟨k1, k2, k3⟩)
        · exact lt_of_le_of_ne k3 n1.symm
        · linarith
      · intro h; exact Or.inl ⟨g1, g3, h.le⟩
    have c2 : Crosses z w b ↔ area2 w b z < 0 := by
      rw [crosses_iff]
      constructor
      · rintro (⟨k1, k2, k3⟩ | ⟨k1, k2, k3⟩)
        · linarith
        · exact lt_of_le_of_ne k3 n2
      · intro h; exact Or.inr ⟨g2, g3, h.le⟩
    have flat : a.2 = z.2 → b.2 = z.2 → 0 < area2 a w z * area2 w b z → False := by
      intro e1 e2 hp
      have f1 : area2 a w z = -((w.2 - z.2) * (z.1 - a.1)) := by unfold area2; rw [← e1]; ring
      have f2 : area2 w b z = (w.2 - z.2) * (z.1 - b.1) := by unfold area2; rw [← e2]; ring
      have hp' : (z.1 - a.1) * (z.1 - b.1) < 0 := by
        rw [f1, f2] at hp
        have hw : 0 < (w.2 - z.2) ^ 2 := by have : 0 < w.2 - z.2 := by linarith
                                            positivity
        by_contra hc
        push Not at hc
        nlinarith
      apply h3
      have hba : a.1 - b.1 ≠ 0 := by
        intro h
        have : a.1 = b.1 := by linarith
        rw [this] at hp'
        nlinarith [mul_self_nonneg (z.1 - b.1)]
      refine mem_seg.mpr ⟨(z.1 - b.1) / (a.1 - b.1), ?_, ?_, by field_simp; ring, by rw [e1, e2]; ring⟩
      · rcases lt_or_gt_of_ne hba with hn | hn
        · exact div_nonneg_of_nonpos (by nlinarith) hn.le
        · exact div_nonneg (by nlinarith) hn.le
      · rcases lt_or_gt_of_ne hba with hn | hn
        · rw [div_le_one_of_neg hn]; nlinarith
        · rw [div_le_one hn]; nlinarith
    rw [c1, c2]
    constructor
    · intro h
      by_cases hA : 0 < area2 a w z
      · have hB : 0 < area2 w b z := lt_of_le_of_ne (not_lt.mp (h.mp hA)) n2.symm
        refine Or.inl ⟨hA, hB, ?_⟩
        by_contra hc
        push Not at hc
        have e1 : area2 w b z * (a.2 - z.2) = 0 := by nlinarith
        have e2 : area2 a w z * (b.2 - z.2) = 0 := by nlinarith
        exact flat (by have := (mul_eq_zero.mp e1).resolve_left hB.ne'; linarith)
          (by have := (mul_eq_zero.mp e2).resolve_left hA.ne'; linarith) (mul_pos hA hB)
      · have hA' : area2 a w z < 0 := lt_of_le_of_ne (not_lt.mp hA) n1
        have hB : area2 w b z < 0 := by by_contra hc; exact hA (h.mpr hc)
        refine Or.inr ⟨hA', hB, ?_⟩
        by_contra hc
        push Not at hc
        have e1 : area2 w b z * (a.2 - z.2) = 0 := by nlinarith
        have e2 : area2 a w z * (b.2 - z.2) = 0 := by nlinarith
        exact flat (by have := (mul_eq_zero.mp e1).resolve_left hB.ne; linarith)
          (by have := (mul_eq_zero.mp e2).resolve_left hA'.ne; linarith) (mul_pos_of_neg_of_neg hA' hB)
    · rintro (⟨k1, k2, -⟩ | ⟨k1, k2, -⟩)
      · exact ⟨fun _ => not_lt.mpr k2.le, fun _ => k1⟩
      · exact ⟨fun h => absurd h (not_lt.mpr k1.le), fun h => absurd k2 h⟩
  · have n1 : area2 a w z ≠ 0 := fun h => h1 (zero (Or.inr ⟨g3, g1⟩) h)
    have n2 : area2 w b z ≠ 0 := fun h => h2 (zero (Or.inl ⟨g3, g2⟩) h)
    have c1 : Crosses z a w ↔ area2 a w z < 0 := by
      rw [crosses_iff]
      constructor
      · rintro (⟨k1, k2, k3⟩ | ⟨k1, k2, k3⟩)
        · linarith
        · exact lt_of_le_of_ne k3 n1
      · intro h; exact Or.inr ⟨g3, g1, h.le⟩
    have c2 : Crosses z w b ↔ 0 < area2 w b z := by
      rw [crosses_iff]
      constructor
      · rintro (⟨k1, k2, k3⟩ | ⟨k1, k2, k3⟩)
        · exact lt_of_le_of_ne k3 n2.symm
        · linarith
      · intro h; exact Or.inl ⟨g3, g2, h.le⟩
    rw [c1, c2]
    constructor
    · intro h
      by_cases hA : area2 a w z < 0
      · have hB : area2 w b z < 0 := lt_of_le_of_ne (not_lt.mp (h.mp hA)) n2
        refine Or.inr ⟨hA, hB, ?_⟩
        by_contra hc
        push Not at hc
        nlinarith
      · have hA' : 0 < area2 a w z := lt_of_le_of_ne (not_lt.mp hA) n1.symm
        have hB : 0 < area2 w b z := by by_contra hc; exact hA (h.mpr hc)
        refine Or.inl ⟨hA', hB, ?_⟩
        by_contra hc
        push Not at hc
        nlinarith
    · rintro (⟨k1, k2, -⟩ | ⟨k1, k2, -⟩)
      · exact ⟨fun h => absurd h (not_lt.mpr k1.le), fun h => absurd k2 h⟩
      · exact ⟨fun _ => not_lt.mpr k2.le, fun _ => k1⟩

theorem SameSide.rot {a b c z : Pt} : SameSide b c a z ↔ SameSide a b c z := by
  unfold SameSide; tauto

/-- Parity of the crossings of a triangle. -/
theorem triangle_parity {a b c z : Pt} (h1 : z ∉ segment ℝ a b) (h2 : z ∉ segment ℝ b c) (h3 : z ∉ segment ℝ c a) :
    (Crosses z a b ↔ (Crosses z b c ↔ Crosses z c a)) ↔ SameSide a b c z := by
  have hxor : ∀ {P Q R S : Prop}, ¬ R → ((P ↔ ¬ Q) ↔ S) → ((P ↔ (Q ↔ R)) ↔ S) := by
    intro P Q R S hR h
    rw [← h]; simp [hR]
  have hrot : ∀ {P Q R S : Prop}, ((P ↔ (Q ↔ R)) ↔ S) → ((Q ↔ (R ↔ P)) ↔ S) := by
    intro P Q R S h
    rw [← h]; by_cases P <;> by_cases Q <;> by_cases R <;> simp [*]
  have hid := bary_snd a b c z
  rcases le_or_gt a.2 z.2 with ha | ha <;> rcases le_or_gt b.2 z.2 with hb | hb <;> rcases le_or_gt c.2 z.2 with hc | hc
  · have n1 : ¬ Crosses z a b := by rw [crosses_iff]; rintro (⟨k1, k2, -⟩ | ⟨k1, k2, -⟩) <;> linarith
    have n2 : ¬ Crosses z b c := by rw [crosses_iff]; rintro (⟨k1, k2, -⟩ | ⟨k1, k2, -⟩) <;> linarith
    have n3 : ¬ Crosses z c a := by rw [crosses_iff]; rintro (⟨k1, k2, -⟩ | ⟨k1, k2, -⟩) <;> linarith
    simp only [n1, n2, n3, iff_true, false_iff, not_true_eq_false]
    rintro (⟨k1, k2, k3⟩ | ⟨k1, k2, k3⟩)
    · have e1 : area2 a b z * (c.2 - z.2) = 0 := by nlinarith
      have e2 : area2 b c z * (a.2 - z.2) = 0 := by nlinarith
      have f1 := (mul_eq_zero.mp e1).resolve_left k1.ne'
      have f2 := (mul_eq_zero.mp e2).resolve_left k2.ne'
      have : area2 c a z = 0 := by
        have g1 : c.2 = z.2 := by linarith
        have g2 : a.2 = z.2 := by linarith
        unfold area2; rw [g1, g2]; ring
      linarith
    · have e1 : area2 a b z * (c.2 - z.2) = 0 := by nlinarith
      have e2 : area2 b c z * (a.2 - z.2) = 0 := by nlinarith
      have f1 := (mul_eq_zero.mp e1).resolve_left k1.ne
      have f2 := (mul_eq_zero.mp e2).resolve_left k2.ne
      have : area2 c a z = 0 := by
        have g1 : c.2 = z.2 := by linarith
        have g2 : a.2 = z.2 := by linarith
        unfold area2; rw [g1, g2]; ring
      linarith
  · have := cross_two (a := b) (w := c) (b := a) h2 h3 h1 (Or.inl ⟨hb, ha, hc⟩)
    rw [SameSide.rot] at this
    exact hrot (hrot (hxor this.1 this.2))
  · have := cross_two (a := a) (w := b) (b := c) h1 h2 h3 (Or.inl ⟨ha, hc, hb⟩)
    exact hxor this.1 this.2
  · have := cross_two (a := c) (w := a) (b := b) h3 h1 h2 (Or.inr ⟨hc, hb, ha⟩)
    rw [← SameSide.rot] at this
    exact hrot (hxor this.1 this.2)
  · have := cross_two (a := c) (w := a) (b := b) h3 h1 h2 (Or.inl ⟨hc, hb, ha⟩)
    rw [← SameSide.rot] at this
    exact hrot (hxor this.1 this.2)
  · have := cross_two (a := a) (w := b) (b := c) h1 h2 h3 (Or.inr ⟨ha, hc, hb⟩)
    exact hxor this.1 this.2
  · have := cross_two (a := b) (w := c) (b := a) h2 h3 h1 (Or.inr ⟨hb, ha, hc⟩)
    rw [SameSide.rot] at this
    exact hrot (hrot (hxor this.1 this.2))
  · have n1 : ¬ Crosses z a b := by rw [crosses_iff]; rintro (⟨k1, k2, -⟩ | ⟨k1, k2, -⟩) <;> linarith
    have n2 : ¬ Crosses z b c := by rw [crosses_iff]; rintro (⟨k1, k2, -⟩ | ⟨k1, k2, -⟩) <;> linarith
    have n3 : ¬ Crosses z c a := by rw [crosses_iff]; rintro (⟨k1, k2, -⟩ | ⟨k1, k2, -⟩) <;> linarith
    simp only [n1, n2, n3, iff_true, false_iff, not_true_eq_false]
    rintro (⟨k1, k2, k3⟩ | ⟨k1, k2, k3⟩)
    · nlinarith [mul_pos k1 (by linarith : 0 < c.2 - z.2), mul_pos k2 (by linarith : 0 < a.2 - z.2), mul_pos k3 (by linarith : 0 < b.2 - z.2)]
    · nlinarith [mul_pos (neg_pos.mpr k1) (by linarith : 0 < c.2 - z.2), mul_pos (neg_pos.mpr k2) (by linarith : 0 < a.2 - z.2), mul_pos (neg_pos.mpr k3) (by linarith : 0 < b.2 - z.2)]

open Classical in
theorem odd_count_xor {γ : Type} {P A B C : γ → Prop} (l : List γ) (h : ∀ e ∈ l, (P e ↔ (A e ↔ (B e ↔ C e)))) :
    Odd (Spec.count P l) ↔ Odd (Spec.count A l + Spec.count B l + Spec.count C l) := by
  induction l with
  | nil => simp
  | cons e l ih =>
    have ih := ih (fun e he => h e (List.mem_cons_of_mem _ he))
    have he := h e List.mem_cons_self
    simp only [count_cons]
    rw [Nat.odd_iff] at ih ⊢
    rw [Nat.odd_iff] at ih ⊢
    by_cases hA : A e <;> by_cases hB : B e <;> by_cases hC : C e <;> simp only [hA, hB, hC, iff_true, iff_false, not_true_eq_false, not_false_eq_true] at he <;>
      simp only [hA, hB, hC, he, if_true, if_false] <;> omega

/-- The half line to the right crosses as many edges, up to an even number, as there are triangles of the fan from `o`
that contain the point. -/
theorem fan_parity (l : List Pt) (o z : Pt) (h1 : z ∉ outline l) (h2 : ∀ v ∈ l, z ∉ segment ℝ o v) :
    Odd (Spec.count (fun e : Pt × Pt => Crosses z e.1 e.2) (cyclicPairs l)) ↔
      Odd (Spec.count (fun e : Pt × Pt => SameSide o e.1 e.2 z) (cyclicPairs l)) := by
  rw [odd_count_xor (P := fun e : Pt × Pt => SameSide o e.1 e.2 z) (A := fun e : Pt × Pt => Crosses z o e.1)
    (B := fun e : Pt × Pt => Crosses z e.1 e.2) (C := fun e : Pt × Pt => Crosses z e.2 o)]
  · have e1 : Spec.count (fun e : Pt × Pt => Crosses z o e.1) (cyclicPairs l) = Spec.count (fun v => Crosses z o v) l := by
      conv_rhs => rw [← map_fst_cyclicPairs l, count_map]
    have e2 : Spec.count (fun e : Pt × Pt => Crosses z e.2 o) (cyclicPairs l) = Spec.count (fun v => Crosses z o v) l := by
      rw [← count_perm (List.rotate_perm l 1), ← map_snd_cyclicPairs l, count_map]
      exact count_congr fun e _ => crosses_swap
    rw [e1, e2, Nat.odd_iff, Nat.odd_iff]
    omega
  · intro e he
    refine (triangle_parity (h2 _ (fst_mem_of_cyclicPairs he)) (fun h => h1 ⟨e, he, h⟩) ?_).symm
    rw [segment_symm]
    exact h2 _ (snd_mem_of_cyclicPairs he)

/-- There is a point from which `z` hides none of finitely many others. -/
theorem exists_apex (l : List Pt) (z : Pt) (h : z ∉ l) : ∃ o, ∀ v ∈ l, z ∉ segment ℝ o v := by
  obtain ⟨t, ht⟩ := Infinite.exists_notMem_finset ((l.map fun v : Pt => (v.2 - z.2) / (v.1 - z.1)).toFinset)
  refine ⟨(z.1 + 1, z.2 + t), fun v hv hz => ?_⟩
  obtain ⟨r, r0, r1, hx, hy⟩ := mem_seg.mp hz
  simp only at hx hy
  have hx' : v.1 - z.1 ≠ 0 := by
    intro h0
    have : r = 1 := by
      have : v.1 = z.1 := by linarith
      rw [this] at hx; linarith
    subst this
    exact h (by rw [show z = v from Prod.ext (by linarith) (by linarith)]; exact hv)
  apply ht
  rw [List.mem_toFinset]
  refine List.mem_map.mpr ⟨v, hv, ?_⟩
  rw [div_eq_iff hx']
  have hr : r ≠ 0 := by rintro rfl; linarith
  have : r * (v.2 - z.2 - t * (v.1 - z.1)) = 0 := by linear_combination -hy + t * hx
  have := (mul_eq_zero.mp this).resolve_left hr
  linarith

theorem notMem_of_outline {l : List Pt} {z : Pt} (h : z ∉ outline l) : z ∉ l := by
  intro hm
  rw [← map_fst_cyclicPairs l] at hm
  obtain ⟨e, he, hz⟩ := List.mem_map.mp hm
  exact h ⟨e, he, hz ▸ left_mem_segment ℝ _ _⟩

theorem C73_odd (poly : Poly ℝ) (p : Vec ℝ) (h : p.pt ∉ outline poly.pts) :
    poly.contains p true = true ↔ Odd (poly.crossings p.pt) := by
  rw [C73_parity]; exact or_iff_right (notMem_of_outline h)

/-! ## C151 -/

/-- **C151** A point off the outline is contained exactly if it is in an odd number of the triangles spanned by the edges
and any one point `o` for which it is not on a connection of `o` with a vertex. -/
theorem C151_fan (poly : Poly ℝ) (p : Vec ℝ) (o : Pt) (h : p.pt ∉ outline poly.pts)
    (ho : ∀ v ∈ poly.pts, p.pt ∉ segment ℝ o v) :
    poly.contains p true = true ↔
      Odd (Spec.count (fun e : Pt × Pt => p.pt ∈ convexHull ℝ {o, e.1, e.2}) (cyclicPairs poly.pts)) := by
  rw [C73_odd poly p h, Poly.crossings, fan_parity _ o _ h ho]
  rw [count_congr]
  intro e he
  refine (mem_triangle_iff (ho _ (fst_mem_of_cyclicPairs he)) (fun hz => h ⟨e, he, hz⟩) ?_).symm
  rw [segment_symm]
  exact ho _ (snd_mem_of_cyclicPairs he)

theorem outline_map (M : Mat ℝ) (hM : M.det ≠ 0) (l : List Pt) (z : Pt) : M.map z ∈ outline (l.map M.map) ↔ z ∈ outline l := by
  unfold outline
  rw [cyclicPairs_map]
  constructor
  · rintro ⟨e, he, hz⟩
    obtain ⟨f, hf, rfl⟩ := List.mem_map.mp he
    refine ⟨f, hf, ?_⟩
    simp only [Prod.map_fst, Prod.map_snd] at hz
    rw [M.image_segment] at hz
    obtain ⟨w, hw, e⟩ := hz
    rwa [← M.map_inj hM e]
  · rintro ⟨f, hf, hz⟩
    refine ⟨_, List.mem_map_of_mem hf, ?_⟩
    simp only [Prod.map_fst, Prod.map_snd]
    rw [M.image_segment]
    exact ⟨z, hz, rfl⟩

theorem SameSide.map (M : Mat ℝ) (hM : M.det ≠ 0) (a b c z : Pt) :
    SameSide (M.map a) (M.map b) (M.map c) (M.map z) ↔ SameSide a b c z := by
  unfold SameSide
  simp only [M.area2_map]
  rcases lt_or_gt_of_ne hM with h | h
  · have e1 : ∀ x, 0 < M.det * x ↔ x < 0 := fun x => by
      constructor
      · intro hx; by_contra hc; push Not at hc; nlinarith
      · intro hx; exact mul_pos_of_neg_of_neg h hx
    have e2 : ∀ x, M.det * x < 0 ↔ 0 < x := fun x => by
      constructor
      · intro hx; by_contra hc; push Not at hc; nlinarith
      · intro hx; exact mul_neg_of_neg_of_pos h hx
    simp only [e1, e2]; tauto
  · have e2 : ∀ x, M.det * x < 0 ↔ x < 0 := fun x => by
      constructor
      · intro hx; by_contra hc; push Not at hc; nlinarith
      · intro hx; exact mul_neg_of_pos_of_neg h hx
    simp only [mul_pos_iff_of_pos_left h, e2]

/-- The parity of crossings does not change under an invertible affine map. -/
theorem crossings_map (M : Mat ℝ) (hM : M.det ≠ 0) (l : List Pt) (z : Pt) (h : z ∉ outline l) :
    Odd (Spec.count (fun e : Pt × Pt => Crosses (M.map z) e.1 e.2) (cyclicPairs (l.map M.map))) ↔
      Odd (Spec.count (fun e : Pt × Pt => Crosses z e.1 e.2) (cyclicPairs l)) := by
  obtain ⟨o, ho⟩ := exists_apex l z (notMem_of_outline h)
  rw [fan_parity l o z h ho, fan_parity (l.map M.map) (M.map o) (M.map z) (fun hz => h ((outline_map M hM l z).mp hz))]
  · rw [cyclicPairs_map, count_map]
    rw [count_congr]
    intro e _
    exact SameSide.map M hM _ _ _ _
  · intro v hv hz
    obtain ⟨w, hw, rfl⟩ := List.mem_map.mp hv
    rw [M.image_segment] at hz
    obtain ⟨y, hy, e⟩ := hz
    exact ho w hw (M.map_inj hM e ▸ hy)

theorem param_lt {a b c t : ℝ} (t0 : 0 ≤ t) (t1 : t ≤ 1) (ha : a < c) (hb : b < c) : a + t * (b - a) < c := by
  rcases eq_or_lt_of_le t0 with rfl | h
  · linarith
  · nlinarith [mul_pos h (sub_pos.mpr hb), mul_nonneg (sub_nonneg.mpr t1) (sub_pos.mpr ha).le]

theorem lt_param {a b c t : ℝ} (t0 : 0 ≤ t) (t1 : t ≤ 1) (ha : c < a) (hb : c < b) : c < a + t * (b - a) := by
  have := param_lt t0 t1 (neg_lt_neg ha) (neg_lt_neg hb)
  linarith

theorem crosses_of_meets {q a b : Pt} (ha : a ∉ rayRight q) (hb : b ∉ rayRight q) :
    Crosses q a b ↔ (segment ℝ a b ∩ rayRight q).Nonempty := by
  refine ⟨fun h => h.2, fun h => ⟨?_, h⟩⟩
  obtain ⟨y, hy, hy2, hy1⟩ := h
  obtain ⟨t, t0, t1, hx, hy'⟩ := mem_seg.mp hy
  have ha' : a.2 = q.2 → a.1 < q.1 := fun h => not_le.mp fun h' => ha ⟨h, h'⟩
  have hb' : b.2 = q.2 → b.1 < q.1 := fun h => not_le.mp fun h' => hb ⟨h, h'⟩
  by_cases ea : a.2 = q.2
  · exfalso
    by_cases eb : b.2 = q.2
    · have := ha' ea
      have := param_lt t0 t1 (ha' ea) (hb' eb)
      linarith
    · have ht : t * (b.2 - q.2) = 0 := by rw [ea] at hy'; linarith
      have : t = 0 := (mul_eq_zero.mp ht).resolve_right (sub_ne_zero.mpr eb)
      have := ha' ea
      subst t
      linarith
  · by_cases eb : b.2 = q.2
    · exfalso
      have ht : (1 - t) * (a.2 - q.2) = 0 := by rw [eb] at hy'; linarith
      have : 1 - t = 0 := (mul_eq_zero.mp ht).resolve_right (sub_ne_zero.mpr ea)
      obtain rfl : t = 1 := by linarith
      have := hb' eb
      linarith
    · rcases lt_or_gt_of_ne ea with h1 | h1 <;> rcases lt_or_gt_of_ne eb with h2 | h2
      · exfalso; have := param_lt t0 t1 h1 h2; linarith
      · exact Or.inl ⟨h1.le, h2⟩
      · exact Or.inr ⟨h2.le, h1⟩
      · exfalso; have := lt_param t0 t1 h1 h2; linarith

/-- **C151** The direction of the half line is irrelevant: for any half line from `p` that passes through no vertex, `p`
is contained exactly if the half line meets an odd number of edges. -/
theorem C151_any_direction (poly : Poly ℝ) (p : Vec ℝ) (w : Pt) (hw : w ≠ 0) (h : p.pt ∉ outline poly.pts)
    (hv : ∀ v ∈ poly.pts, v ∉ rayFrom p.pt w) :
    poly.contains p true = true ↔ Odd (Spec.count
      (fun e : Pt × Pt => (segment ℝ e.1 e.2 ∩ rayFrom p.pt w).Nonempty) (cyclicPairs poly.pts)) := by
  have hsq : 0 < w.1 ^ 2 + w.2 ^ 2 := by
    by_contra hc
    have h1 : w.1 = 0 := by nlinarith [pow_two_nonneg w.1, pow_two_nonneg w.2]
    have h2 : w.2 = 0 := by nlinarith [pow_two_nonneg w.1, pow_two_nonneg w.2]
    exact hw (Prod.ext h1 h2)
  set M : Mat ℝ := ⟨w.1, w.2, -w.2, w.1, 0, 0⟩ with hM
  have hdet : M.det ≠ 0 := by
    have : M.det = w.1 ^ 2 + w.2 ^ 2 := by simp only [Mat.det, hM]; ring
    rw [this]; exact hsq.ne'
  have hray : ∀ z : Pt, M.map z ∈ rayRight (M.map p.pt) ↔ z ∈ rayFrom p.pt w := by
    intro z
    simp only [rayRight, Mat.map, affine, hM, Set.mem_ofPred_eq, rayFrom]
    constructor
    · rintro ⟨h2, h1⟩
      refine ⟨(w.1 * (z.1 - p.x) + w.2 * (z.2 - p.y)) / (w.1 ^ 2 + w.2 ^ 2), div_nonneg ?_ hsq.le, Prod.ext ?_ ?_⟩
      · simp only [Vec.pt_fst, Vec.pt_snd] at h1; linarith
      · simp only [Prod.fst_add, Prod.smul_fst, smul_eq_mul, Vec.pt_fst, Vec.pt_snd] at h2 ⊢
        field_simp
        linear_combination (-w.2) * h2
      · simp only [Prod.snd_add, Prod.smul_snd, smul_eq_mul, Vec.pt_fst, Vec.pt_snd] at h2 ⊢
        field_simp
        linear_combination w.1 * h2
    · rintro ⟨t, t0, rfl⟩
      simp only [Prod.fst_add, Prod.smul_fst, smul_eq_mul, Prod.snd_add, Prod.smul_snd]
      constructor
      · ring
      · nlinarith [mul_nonneg t0 hsq.le]
  rw [C73_odd poly p h, Poly.crossings, ← crossings_map M hdet _ _ h, cyclicPairs_map, count_map]
  rw [count_congr]
  intro e he
  simp only [Prod.map_fst, Prod.map_snd]
  rw [crosses_of_meets (fun hz => hv _ (fst_mem_of_cyclicPairs he) ((hray _).mp hz))
    (fun hz => hv _ (snd_mem_of_cyclicPairs he) ((hray _).mp hz)), M.image_segment]
  constructor
  · rintro ⟨y, ⟨z, hz, rfl⟩, hy⟩
    exact ⟨z, hz, (hray z).mp hy⟩
  · rintro ⟨z, hz, hy⟩
    exact ⟨_, ⟨z, hz, rfl⟩, (hray z).mpr hy⟩

/-! ## C152 -/

/-- **C152** An invertible transform of polygon and point does not change the answer, off the outline; in the strict mode
if no two consecutive vertices coincide. -/
theorem C152_transform (M : Mat ℝ) (hM : M.det ≠ 0) (l : List (Vec ℝ)) (p : Vec ℝ) (h : p.pt ∉ outline (l.map Vec.pt)) :
    (Poly.ofList (l.map M.transform)).contains (M.transform p) true = (Poly.ofList l).contains p true ∧
    ((∀ e ∈ cyclicPairs l, e.1.pt ≠ e.2.pt) →
      (Poly.ofList (l.map M.transform)).contains (M.transform p) false = (Poly.ofList l).contains p false) := by
  have hpts : (Poly.ofList (l.map M.transform)).pts = (l.map Vec.pt).map M.map := by
    simp only [Poly.pts, Poly.ofList, List.map_map]; rfl
  have h' : (M.transform p).pt ∉ outline (Poly.ofList (l.map M.transform)).pts := by
    rw [hpts, M.transform_pt]
    exact fun hz => h ((outline_map M hM _ _).mp hz)
  have key : (Poly.ofList (l.map M.transform)).contains (M.transform p) true = (Poly.ofList l).contains p true := by
    rw [Bool.eq_iff_iff, C73_odd _ _ h', C73_odd (Poly.ofList l) p h, Poly.crossings, Poly.crossings, hpts, M.transform_pt]
    exact crossings_map M hM _ _ h
  refine ⟨key, fun hd => ?_⟩
  rw [C73_strict_partial (Poly.ofList l) p h hd, C73_strict_partial _ _ h', key]
  intro e he
  change e ∈ cyclicPairs (l.map M.transform) at he
  rw [cyclicPairs_map] at he
  obtain ⟨f, hf, rfl⟩ := List.mem_map.mp he
  exact fun hz => hd f hf (M.map_inj hM hz)

/-! ## C153 -/

/-- **C153** A diagonal from `a` to `b` splits a polygon: a point off the outlines of both parts is in the whole exactly
if it is in one part and not in the other. -/
theorem C153_diagonal (a b : Vec ℝ) (l₁ l₂ : List (Vec ℝ)) (p : Vec ℝ)
    (h1 : p.pt ∉ outline ((a :: l₁ ++ [b]).map Vec.pt)) (h2 : p.pt ∉ outline ((b :: l₂ ++ [a]).map Vec.pt)) :
    (Poly.ofList (a :: l₁ ++ b :: l₂)).contains p true =
      ((Poly.ofList (a :: l₁ ++ [b])).contains p true ^^ (Poly.ofList (b :: l₂ ++ [a])).contains p true) := by
  have e1 : cyclicPairs ((a :: l₁ ++ b :: l₂).map Vec.pt) =
      chainPairs ((a :: l₁).map Vec.pt ++ [b.pt]) ++ chainPairs ((b :: l₂).map Vec.pt ++ [a.pt]) := by
    rw [show (a :: l₁ ++ b :: l₂).map Vec.pt = a.pt :: (l₁.map Vec.pt ++ b.pt :: l₂.map Vec.pt) by simp, cyclicPairs_eq_chain,
      show a.pt :: (l₁.map Vec.pt ++ b.pt :: l₂.map Vec.pt ++ [a.pt]) = (a :: l₁).map Vec.pt ++ b.pt :: (l₂.map Vec.pt ++ [a.pt]) by simp,
      chainPairs_append]
    simp
  have split : ∀ (x y : Vec ℝ) (l : List (Vec ℝ)), cyclicPairs ((x :: l ++ [y]).map Vec.pt) =
      chainPairs ((x :: l).map Vec.pt ++ [y.pt]) ++ [(y.pt, x.pt)] := by
    intro x y l
    rw [show (x :: l ++ [y]).map Vec.pt = x.pt :: (l.map Vec.pt ++ [y.pt]) by simp, cyclicPairs_eq_chain,
      show x.pt :: (l.map Vec.pt ++ [y.pt] ++ [x.pt]) = (x :: l).map Vec.pt ++ y.pt :: [x.pt] by simp, chainPairs_append]
    simp [chainPairs]
  have h0 : p.pt ∉ outline ((a :: l₁ ++ b :: l₂).map Vec.pt) := by
    rintro ⟨e, he, hz⟩
    rw [e1] at he
    rcases List.mem_append.mp he with he | he
    · exact h1 ⟨e, by rw [split]; exact List.mem_append_left _ he, hz⟩
    · exact h2 ⟨e, by rw [split]; exact List.mem_append_left _ he, hz⟩
  have k0 := C73_odd (Poly.ofList (a :: l₁ ++ b :: l₂)) p h0
  have k1 := C73_odd (Poly.ofList (a :: l₁ ++ [b])) p h1
  have k2 := C73_odd (Poly.ofList (b :: l₂ ++ [a])) p h2
  have app : ∀ (P : Pt × Pt → Prop) (x y : List (Pt × Pt)), Spec.count P (x ++ y) = Spec.count P x + Spec.count P y :=
    fun P x y => List.countP_append
  unfold Poly.crossings Poly.pts Poly.ofList at k0 k1 k2
  rw [e1, app] at k0
  rw [split, app] at k1 k2
  have hs : Spec.count (fun e : Pt × Pt => Crosses p.pt e.1 e.2) [(b.pt, a.pt)] =
      Spec.count (fun e : Pt × Pt => Crosses p.pt e.1 e.2) [(a.pt, b.pt)] := by
    classical
    simp only [count_cons, count_nil, crosses_swap (a := a.pt) (b := b.pt)]
  rw [hs] at k1
  unfold Poly.ofList
  rw [Nat.odd_iff] at k0 k1 k2
  rw [Bool.eq_iff_iff, k0]
  cases hA : Poly.contains ⟨a :: l₁ ++ [b]⟩ p true <;> cases hB : Poly.contains ⟨b :: l₂ ++ [a]⟩ p true <;>
    rw [hA] at k1 <;> rw [hB] at k2 <;> simp at k1 k2 ⊢ <;> omega

/-! ## Example: a dart, which is not convex -/

theorem notMem_of_area2 {a b z : Pt} (h : area2 a b z ≠ 0) : z ∉ segment ℝ a b := by
  intro hz
  obtain ⟨t, -, -, hx, hy⟩ := mem_seg.mp hz
  apply h
  unfold area2
  rw [hx, hy]; ring

noncomputable def dart : List (Vec ℝ) := [⟨0, 0, true⟩, ⟨4, 0, true⟩, ⟨1, 1, true⟩, ⟨0, 4, true⟩]

theorem dart_off {z : Pt} (h1 : z.2 ≠ 0) (h2 : z.1 + 3 * z.2 ≠ 4) (h3 : 3 * z.1 + z.2 ≠ 4) (h4 : z.1 ≠ 0) :
    z ∉ outline (dart.map Vec.pt) := by
  rintro ⟨e, he, hz⟩
  have : e ∈ [((0, 0), (4, 0)), ((4, 0), (1, 1)), ((1, 1), (0, 4)), (((0, 4), (0, 0)) : Pt × Pt)] := he
  simp only [List.mem_cons, List.not_mem_nil, or_false] at this
  rcases this with rfl | rfl | rfl | rfl
  · refine notMem_of_area2 ?_ hz
    intro h; unfold area2 at h; norm_num at h; exact h1 h
  · refine notMem_of_area2 ?_ hz
    intro h; unfold area2 at h; norm_num at h; exact h2 (by linarith)
  · refine notMem_of_area2 ?_ hz
    intro h; unfold area2 at h; norm_num at h; exact h3 (by linarith)
  · refine notMem_of_area2 ?_ hz
    intro h; unfold area2 at h; norm_num at h; exact h4 h

/-- The half line upwards from `(2, 1/2)` meets one edge of the dart, so the point is inside; `(2, 2)` is in the notch. -/
example : (Poly.ofList dart).contains ⟨2, 1 / 2, true⟩ true = true ∧ (Poly.ofList dart).contains ⟨2, 2, true⟩ true = false := by
  have meets : ∀ y : ℝ, 0 < y → ∀ e ∈ [((0, 0), (4, 0)), ((1, 1), (0, 4)), (((0, 4), (0, 0)) : Pt × Pt)],
      ¬ (segment ℝ e.1 e.2 ∩ rayFrom (2, y) (0, 1)).Nonempty := by
    rintro y hy e he ⟨z, hz, t, t0, rfl⟩
    simp only [List.mem_cons, List.not_mem_nil, or_false] at he
    rcases he with rfl | rfl | rfl <;> obtain ⟨s, s0, s1, h1, h2⟩ := mem_seg.mp hz
    · norm_num at h2; linarith
    · norm_num at h1; linarith
    · norm_num at h1
  have novert : ∀ y : ℝ, ∀ v ∈ (Poly.ofList dart).pts, v ∉ rayFrom (2, y) (0, 1) := by
    rintro y v hv ⟨t, t0, rfl⟩
    have : (2 + t * 0 : ℝ) ∈ (((Poly.ofList dart).pts).map Prod.fst) := by simpa using List.mem_map_of_mem (f := Prod.fst) hv
    simp [Poly.pts, Poly.ofList, dart] at this
  have hp : cyclicPairs (Poly.ofList dart).pts =
      [((0, 0), (4, 0)), ((4, 0), (1, 1)), ((1, 1), (0, 4)), (((0, 4), (0, 0)) : Pt × Pt)] := rfl
  classical
  constructor
  · rw [C151_any_direction (Poly.ofList dart) ⟨2, 1 / 2, true⟩ (0, 1) (by simp)
      (dart_off (by norm_num) (by norm_num) (by norm_num) (by norm_num)) (novert _), hp]
    have m := meets (1 / 2) (by norm_num)
    have y : (segment ℝ ((4, 0) : Pt) (1, 1) ∩ rayFrom (2, 1 / 2) (0, 1)).Nonempty := by
      refine ⟨(2, 2 / 3), mem_seg.mpr ⟨2 / 3, by norm_num, by norm_num, by norm_num, by norm_num⟩, 1 / 6, by norm_num, ?_⟩
      ext <;> norm_num
    simp only [List.mem_cons, List.not_mem_nil, or_false, forall_eq_or_imp, forall_eq] at m
    simp only [count_cons, count_nil]
    rw [show (⟨2, 1 / 2, true⟩ : Vec ℝ).pt = (2, 1 / 2) from rfl, if_neg m.1, if_pos y, if_neg m.2.1, if_neg m.2.2]
    decide
  · rw [← Bool.not_eq_true, C151_any_direction (Poly.ofList dart) ⟨2, 2, true⟩ (0, 1) (by simp)
      (dart_off (by norm_num) (by norm_num) (by norm_num) (by norm_num)) (novert _), hp]
    have m := meets 2 (by norm_num)
    have y : ¬ (segment ℝ ((4, 0) : Pt) (1, 1) ∩ rayFrom (2, 2) (0, 1)).Nonempty := by
      rintro ⟨z, hz, t, t0, rfl⟩
      obtain ⟨s, s0, s1, h1, h2⟩ := mem_seg.mp hz
      norm_num at h1 h2
      linarith
    simp only [List.mem_cons, List.not_mem_nil, or_false, forall_eq_or_imp, forall_eq] at m
    simp only [count_cons, count_nil]
    rw [show (⟨2, 2, true⟩ : Vec ℝ).pt = (2, 2) from rfl, if_neg m.1, if_neg y, if_neg m.2.1, if_neg m.2.2]
    decide

/-- The same for the dart after a reflection that also moves it: `(x, y) ↦ (y + 10, x)`. -/
example : (Poly.ofList (dart.map (⟨0, 1, 1, 0, 10, 0⟩ : Mat ℝ).transform)).contains
    ((⟨0, 1, 1, 0, 10, 0⟩ : Mat ℝ).transform ⟨2, 1 / 2, true⟩) true = (Poly.ofList dart).contains ⟨2, 1 / 2, true⟩ true :=
  (C152_transform _ (by norm_num [Mat.det]) dart _ (dart_off (by norm_num) (by norm_num) (by norm_num) (by norm_num))).1

end PyrusGeom
