import Verif.Props.PolygonParity
import Mathlib.Topology.Connected.Basic
import Mathlib.Analysis.Normed.Module.Convex
import Mathlib.Topology.MetricSpace.HausdorffDistance

/-! # C168: a simple polygon has one inside, and its orientation says on which side of the edges it is -/

namespace PyrusGeom
open Spec Filter Topology

namespace Spec

/-- A simple polygon: at least three vertices, all different, and edges meet only where one ends and the next begins. -/
structure Simple (l : List Pt) : Prop where
  three : 3 ≤ l.length
  nodup : l.Nodup
  meet : ∀ e ∈ cyclicPairs l, ∀ f ∈ cyclicPairs l, e ≠ f → ∀ z, z ∈ segment ℝ e.1 e.2 → z ∈ segment ℝ f.1 f.2 →
    (z = e.2 ∧ z = f.1) ∨ (z = e.1 ∧ z = f.2)

end Spec

/-! ## Winding number -/

/-- Signed crossing of the edge `a b` with the half line from `z` to the right. -/
noncomputable def wn (z a b : Pt) : ℤ :=
  if a.2 ≤ z.2 ∧ z.2 < b.2 ∧ 0 < area2 a b z then 1
  else if b.2 ≤ z.2 ∧ z.2 < a.2 ∧ area2 a b z < 0 then -1 else 0

/-- The winding number of the closed polygon about `z`. -/
noncomputable def winding (l : List Pt) (z : Pt) : ℤ := ((cyclicPairs l).map fun e => wn z e.1 e.2).sum

/-- 1 inside a counterclockwise triangle, -1 inside a clockwise one, 0 outside. -/
noncomputable def triSign (a b c z : Pt) : ℤ :=
  if 0 < area2 a b z ∧ 0 < area2 b c z ∧ 0 < area2 c a z then 1
  else if area2 a b z < 0 ∧ area2 b c z < 0 ∧ area2 c a z < 0 then -1 else 0

theorem wn_swap (z a b : Pt) : wn z b a = -wn z a b := by
  unfold wn
  rw [area2_swap a b z]
  by_cases h1 : a.2 ≤ z.2 ∧ z.2 < b.2
  · have h2 : ¬ (b.2 ≤ z.2 ∧ z.2 < a.2) := fun h => absurd h1.2 (not_lt.mpr h.1)
    have h2' : ∀ p : Prop, ¬ (b.2 ≤ z.2 ∧ z.2 < a.2 ∧ p) := fun p h => h2 ⟨h.1, h.2.1⟩
    simp only [h2', if_false]
    by_cases h3 : 0 < area2 a b z
    · rw [if_pos ⟨h1.1, h1.2, by linarith⟩, if_pos ⟨h1.1, h1.2, h3⟩]
    · rw [if_neg (fun h => h3 (by linarith [h.2.2])), if_neg (fun h => h3 h.2.2)]; rfl
  · have h1' : ∀ p : Prop, ¬ (a.2 ≤ z.2 ∧ z.2 < b.2 ∧ p) := fun p h => h1 ⟨h.1, h.2.1⟩
    simp only [h1', if_false]
    by_cases h3 : b.2 ≤ z.2 ∧ z.2 < a.2 ∧ area2 a b z < 0
    · rw [if_pos ⟨h3.1, h3.2.1, by linarith [h3.2.2]⟩, if_pos h3]; rfl
    · rw [if_neg (fun h => h3 ⟨h.1, h.2.1, by linarith [h.2.2]⟩), if_neg h3]; rfl

theorem area2_ne_of_height {a b z : Pt} (h : z ∉ segment ℝ a b) (h1 : a.2 ≤ z.2) (h2 : z.2 < b.2) : area2 a b z ≠ 0 := by
  intro h0
  apply h
  have hd : 0 < b.2 - a.2 := by linarith
  refine mem_seg.mpr ⟨(z.2 - a.2) / (b.2 - a.2), div_nonneg (by linarith) hd.le, (div_le_one hd).mpr (by linarith), ?_, ?_⟩
  · unfold area2 at h0
    field_simp
    linarith
  · field_simp; ring

theorem triSign_rot (a b c z : Pt) : triSign b c a z = triSign a b c z := by
  unfold triSign
  have e1 : (0 < area2 b c z ∧ 0 < area2 c a z ∧ 0 < area2 a b z) ↔ (0 < area2 a b z ∧ 0 < area2 b c z ∧ 0 < area2 c a z) := by tauto
  have e2 : (area2 b c z < 0 ∧ area2 c a z < 0 ∧ area2 a b z < 0) ↔ (area2 a b z < 0 ∧ area2 b c z < 0 ∧ area2 c a z < 0) := by tauto
  simp only [e1, e2]

theorem triSign_swap (a b c z : Pt) : triSign b a c z = -triSign a b c z := by
  unfold triSign
  rw [area2_swap a b, area2_swap c a, area2_swap b c]
  simp only [Left.neg_pos_iff, Left.neg_neg_iff]
  by_cases h1 : 0 < area2 a b z ∧ 0 < area2 b c z ∧ 0 < area2 c a z
  · rw [if_neg (fun h => by linarith [h.1, h1.1]), if_pos ⟨h1.1, h1.2.2, h1.2.1⟩, if_pos h1]
  · by_cases h2 : area2 a b z < 0 ∧ area2 b c z < 0 ∧ area2 c a z < 0
    · rw [if_pos ⟨h2.1, h2.2.2, h2.2.1⟩, if_neg h1, if_pos h2]; rfl
    · rw [if_neg (fun h => h2 ⟨h.1, h.2.2, h.2.1⟩), if_neg (fun h => h1 ⟨h.1, h.2.2, h.2.1⟩), if_neg h1, if_neg h2]; rfl

theorem wn_up {z a b : Pt} (h1 : a.2 ≤ z.2) (h2 : z.2 < b.2) : wn z a b = if 0 < area2 a b z then 1 else 0 := by
  unfold wn
  rw [if_neg (c := b.2 ≤ z.2 ∧ _) (fun h => by linarith [h.1])]
  simp only [h1, h2, true_and]

theorem wn_down {z a b : Pt} (h1 : b.2 ≤ z.2) (h2 : z.2 < a.2) : wn z a b = if area2 a b z < 0 then -1 else 0 := by
  unfold wn
  rw [if_neg (fun h => by linarith [h.1])]
  simp only [h1, h2, true_and]

theorem wn_below {z a b : Pt} (h1 : a.2 ≤ z.2) (h2 : b.2 ≤ z.2) : wn z a b = 0 := by
  unfold wn
  rw [if_neg (fun h => by linarith [h.2.1]), if_neg (fun h => by linarith [h.2.1])]

theorem wn_above {z a b : Pt} (h1 : z.2 < a.2) (h2 : z.2 < b.2) : wn z a b = 0 := by
  unfold wn
  rw [if_neg (fun h => by linarith [h.1]), if_neg (fun h => by linarith [h.1])]

/-- One vertex at the height of `z` or below, two above. -/
theorem tri_wn_low {z a b c : Pt} (h1 : z ∉ segment ℝ a b) (h2 : z ∉ segment ℝ b c)
    (ha : z.2 < a.2) (hb : b.2 ≤ z.2) (hc : z.2 < c.2) : wn z a b + wn z b c + wn z c a = triSign a b c z := by
  rw [wn_down hb ha, wn_up hb hc, wn_above hc ha]
  have n1 : area2 a b z ≠ 0 := by
    rw [area2_swap]; rw [segment_symm] at h1
    exact neg_ne_zero.mpr (area2_ne_of_height h1 hb ha)
  have n2 : area2 b c z ≠ 0 := area2_ne_of_height h2 hb hc
  have hbary := bary_snd a b c z
  unfold triSign
  rcases lt_or_gt_of_ne n1 with k1 | k1 <;> rcases lt_or_gt_of_ne n2 with k2 | k2
  · have k3 : area2 c a z < 0 := by
      by_contra hh; push Not at hh
      nlinarith [mul_pos (neg_pos.mpr k1) (sub_pos.mpr hc), mul_pos (neg_pos.mpr k2) (sub_pos.mpr ha), mul_nonneg hh (sub_nonneg.mpr hb)]
    rw [if_pos k1, if_neg (not_lt.mpr k2.le), if_neg (fun h => by linarith [h.1]), if_pos ⟨k1, k2, k3⟩]; rfl
  · rw [if_pos k1, if_pos k2, if_neg (fun h => by linarith [h.1]), if_neg (fun h => by linarith [h.2.1])]; rfl
  · rw [if_neg (not_lt.mpr k1.le), if_neg (not_lt.mpr k2.le), if_neg (fun h => by linarith [h.2.1]), if_neg (fun h => by linarith [h.1])]; rfl
  · have k3 : 0 < area2 c a z := by
      by_contra hh; push Not at hh
      nlinarith [mul_pos k1 (sub_pos.mpr hc), mul_pos k2 (sub_pos.mpr ha), mul_nonneg (neg_nonneg.mpr hh) (sub_nonneg.mpr hb)]
    rw [if_neg (not_lt.mpr k1.le), if_pos k2, if_pos ⟨k1, k2, k3⟩]; rfl

/-- One vertex above, two at the height of `z` or below. -/
theorem tri_wn_high {z a b c : Pt} (h1 : z ∉ segment ℝ a b) (h2 : z ∉ segment ℝ b c) (h3 : z ∉ segment ℝ c a)
    (ha : a.2 ≤ z.2) (hb : z.2 < b.2) (hc : c.2 ≤ z.2) : wn z a b + wn z b c + wn z c a = triSign a b c z := by
  rw [wn_up ha hb, wn_down hc hb, wn_below hc ha]
  have n1 : area2 a b z ≠ 0 := area2_ne_of_height h1 ha hb
  have n2 : area2 b c z ≠ 0 := by
    rw [area2_swap]; rw [segment_symm] at h2
    exact neg_ne_zero.mpr (area2_ne_of_height h2 hc hb)
  have hbary := bary_snd a b c z
  have flat : a.2 = z.2 → c.2 = z.2 → ((0 < area2 a b z ∧ 0 < area2 b c z) ∨ (area2 a b z < 0 ∧ area2 b c z < 0)) → False := by
    intro e1 e2 h
    have s1 : area2 a b z = -(b.2 - z.2) * (z.1 - a.1) := by unfold area2; rw [e1]; ring
    have s2 : area2 b c z = (b.2 - z.2) * (z.1 - c.1) := by unfold area2; rw [e2]; ring
    rw [s1, s2] at h
    have hp : 0 < b.2 - z.2 := by linarith
    have hx : (c.1 < z.1 ∧ z.1 < a.1) ∨ (a.1 < z.1 ∧ z.1 < c.1) := by
      rcases h with ⟨k1, k2⟩ | ⟨k1, k2⟩
      · left; constructor <;> nlinarith
      · right; constructor <;> nlinarith
    apply h3
    have hne : a.1 - c.1 ≠ 0 := by rcases hx with h | h <;> intro h0 <;> linarith [h.1, h.2]
    refine mem_seg.mpr ⟨(z.1 - c.1) / (a.1 - c.1), ?_, ?_, by field_simp; ring, by rw [e1, e2]; ring⟩
    · rcases hx with h | h
      · exact div_nonneg (by linarith) (by linarith)
      · exact div_nonneg_of_nonpos (by linarith) (by linarith)
    · rcases hx with h | h
      · rw [div_le_one (by linarith)]; linarith
      · rw [div_le_one_of_neg (by linarith)]; linarith
  have hz : ∀ {x : ℝ}, 0 < x → ∀ {y w : ℝ}, 0 < y → 0 ≤ w → x * w + y * w = 0 → w = 0 := by
    intro x hx y hy w hw h
    nlinarith
  unfold triSign
  rcases lt_or_gt_of_ne n1 with k1 | k1 <;> rcases lt_or_gt_of_ne n2 with k2 | k2
  · have k3 : area2 c a z < 0 := by
      by_contra hh; push Not at hh
      have p1 := mul_nonneg (neg_pos.mpr k1).le (sub_nonneg.mpr hc)
      have p2 := mul_nonneg (neg_pos.mpr k2).le (sub_nonneg.mpr ha)
      have p3 := mul_nonneg hh (sub_pos.mpr hb).le
      have q1 : -area2 a b z * (z.2 - c.2) = 0 := by linarith
      have q2 : -area2 b c z * (z.2 - a.2) = 0 := by linarith
      refine flat ?_ ?_ (Or.inr ⟨k1, k2⟩)
      · rcases mul_eq_zero.mp q2 with h | h <;> linarith
      · rcases mul_eq_zero.mp q1 with h | h <;> linarith
    rw [if_neg (not_lt.mpr k1.le), if_pos k2, if_neg (fun h => by linarith [h.1]), if_pos ⟨k1, k2, k3⟩]; rfl
  · rw [if_neg (not_lt.mpr k1.le), if_neg (not_lt.mpr k2.le), if_neg (fun h => by linarith [h.1]), if_neg (fun h => by linarith [h.2.1])]; rfl
  · rw [if_pos k1, if_pos k2, if_neg (fun h => by linarith [h.2.1]), if_neg (fun h => by linarith [h.1])]; rfl
  · have k3 : 0 < area2 c a z := by
      by_contra hh; push Not at hh
      have p1 := mul_nonneg k1.le (sub_nonneg.mpr hc)
      have p2 := mul_nonneg k2.le (sub_nonneg.mpr ha)
      have p3 := mul_nonneg (neg_nonneg.mpr hh) (sub_pos.mpr hb).le
      have q1 : area2 a b z * (z.2 - c.2) = 0 := by linarith
      have q2 : area2 b c z * (z.2 - a.2) = 0 := by linarith
      refine flat ?_ ?_ (Or.inl ⟨k1, k2⟩)
      · rcases mul_eq_zero.mp q2 with h | h <;> linarith
      · rcases mul_eq_zero.mp q1 with h | h <;> linarith
    rw [if_pos k1, if_neg (not_lt.mpr k2.le), if_pos ⟨k1, k2, k3⟩]; rfl

theorem tri_wn {a b c z : Pt} (h1 : z ∉ segment ℝ a b) (h2 : z ∉ segment ℝ b c) (h3 : z ∉ segment ℝ c a) :
    wn z a b + wn z b c + wn z c a = triSign a b c z := by
  have all : ((a.2 ≤ z.2 ∧ b.2 ≤ z.2 ∧ c.2 ≤ z.2) ∨ (z.2 < a.2 ∧ z.2 < b.2 ∧ z.2 < c.2)) →
      wn z a b + wn z b c + wn z c a = triSign a b c z := by
    intro h
    have hs : ¬ SameSide a b c z := by
      have hb := bary_snd a b c z
      have flat : a.2 = z.2 → b.2 = z.2 → area2 a b z = 0 := fun e1 e2 => by unfold area2; rw [e1, e2]; ring
      have zero : ∀ {x y : ℝ}, 0 < x → x * y = 0 → y = 0 := fun hx h => (mul_eq_zero.mp h).resolve_left hx.ne'
      have key : ∀ {x y w p q r : ℝ}, 0 < x → 0 < y → 0 < w → 0 ≤ p → 0 ≤ q → 0 ≤ r → x * p + y * q + w * r = 0 → q = 0 ∧ r = 0 := by
        intro x y w p q r hx hy hw hp hq hr h
        have := mul_nonneg hx.le hp
        have := mul_nonneg hy.le hq
        have := mul_nonneg hw.le hr
        exact ⟨zero hy (by linarith), zero hw (by linarith)⟩
      rintro (⟨k1, k2, k3⟩ | ⟨k1, k2, k3⟩) <;> rcases h with ⟨m1, m2, m3⟩ | ⟨m1, m2, m3⟩
      · obtain ⟨e1, e2⟩ := key k1 k2 k3 (sub_nonneg.mpr m3) (sub_nonneg.mpr m1) (sub_nonneg.mpr m2) (by linarith)
        linarith [flat (by linarith) (by linarith)]
      · obtain ⟨e1, e2⟩ := key k1 k2 k3 (sub_nonneg.mpr m3.le) (sub_nonneg.mpr m1.le) (sub_nonneg.mpr m2.le) (by linarith)
        linarith
      · obtain ⟨e1, e2⟩ := key (neg_pos.mpr k1) (neg_pos.mpr k2) (neg_pos.mpr k3) (sub_nonneg.mpr m3) (sub_nonneg.mpr m1) (sub_nonneg.mpr m2) (by linarith)
        linarith [flat (by linarith) (by linarith)]
      · obtain ⟨e1, e2⟩ := key (neg_pos.mpr k1) (neg_pos.mpr k2) (neg_pos.mpr k3) (sub_nonneg.mpr m3.le) (sub_nonneg.mpr m1.le) (sub_nonneg.mpr m2.le) (by linarith)
        linarith
    have ht : triSign a b c z = 0 := by
      unfold triSign
      rw [if_neg (fun k => hs (Or.inl k)), if_neg (fun k => hs (Or.inr k))]
    rw [ht]
    rcases h with ⟨k1, k2, k3⟩ | ⟨k1, k2, k3⟩
    · rw [wn_below k1 k2, wn_below k2 k3, wn_below k3 k1]; rfl
    · rw [wn_above k1 k2, wn_above k2 k3, wn_above k3 k1]; rfl
  rcases le_or_gt a.2 z.2 with ha | ha <;> rcases le_or_gt b.2 z.2 with hb | hb <;> rcases le_or_gt c.2 z.2 with hc | hc
  · exact all (Or.inl ⟨ha, hb, hc⟩)
  · have := tri_wn_high (a := b) (b := c) (c := a) h2 h3 h1 hb hc ha
    rw [triSign_rot] at this; rw [← this]; ring
  · exact tri_wn_high h1 h2 h3 ha hb hc
  · have := tri_wn_low (a := c) (b := a) (c := b) h3 h1 hc ha hb
    rw [← triSign_rot a b c z, ← triSign_rot b c a z, ← this]; ring
  · have := tri_wn_high (a := c) (b := a) (c := b) h3 h1 h2 hc ha hb
    rw [← triSign_rot a b c z, ← triSign_rot b c a z, ← this]; ring
  · exact tri_wn_low h1 h2 ha hb hc
  · have := tri_wn_low (a := b) (b := c) (c := a) h2 h3 hb hc ha
    rw [triSign_rot] at this; rw [← this]; ring
  · exact all (Or.inr ⟨ha, hb, hc⟩)


theorem area2_sum3 (a b c z : Pt) : area2 a b z + area2 b c z + area2 c a z = area2 a b c := by unfold area2; ring

/-! ## Local constancy -/

theorem isCompact_seg (a b : Pt) : IsCompact (segment ℝ a b) := by
  rw [segment_eq_image']
  exact isCompact_Icc.image (by fun_prop)

theorem isCompact_outline (l : List Pt) : IsCompact (outline l) := by
  have : outline l = ⋃ e ∈ {e | e ∈ cyclicPairs l}, segment ℝ e.1 e.2 := by
    ext z; simp [outline]
  rw [this]
  exact (List.finite_toSet _).isCompact_biUnion fun e _ => isCompact_seg _ _

theorem continuous_area2 (a b : Pt) : Continuous fun z => area2 a b z := by
  unfold area2; fun_prop

theorem triSign_const {a b c z : Pt} (h1 : z ∉ segment ℝ a b) (h2 : z ∉ segment ℝ b c) (h3 : z ∉ segment ℝ c a) :
    ∀ᶠ y in 𝓝 z, triSign a b c y = triSign a b c z := by
  have pos : ∀ {u v : Pt}, 0 < area2 u v z → ∀ᶠ y in 𝓝 z, 0 < area2 u v y := fun h => (continuous_area2 _ _).continuousAt.eventually_const_lt h
  have neg : ∀ {u v : Pt}, area2 u v z < 0 → ∀ᶠ y in 𝓝 z, area2 u v y < 0 := fun h => (continuous_area2 _ _).continuousAt.eventually_lt_const h
  by_cases hs : SameSide a b c z
  · rcases hs with ⟨k1, k2, k3⟩ | ⟨k1, k2, k3⟩
    · filter_upwards [pos k1, pos k2, pos k3] with y y1 y2 y3
      unfold triSign
      rw [if_pos ⟨y1, y2, y3⟩, if_pos ⟨k1, k2, k3⟩]
    · filter_upwards [neg k1, neg k2, neg k3] with y y1 y2 y3
      unfold triSign
      rw [if_neg (fun h => by linarith [h.1]), if_pos ⟨y1, y2, y3⟩, if_neg (fun h => by linarith [h.1]), if_pos ⟨k1, k2, k3⟩]
  · have off : ∀ {u v : Pt}, z ∉ segment ℝ u v → ∀ᶠ y in 𝓝 z, y ∉ segment ℝ u v := fun h => (isCompact_seg _ _).isClosed.isOpen_compl.mem_nhds h
    have hz : z ∉ convexHull ℝ {a, b, c} := fun h => hs ((mem_triangle_iff h1 h2 h3).mp h)
    have hcl : IsClosed (convexHull ℝ ({a, b, c} : Set Pt)) := ((Set.toFinite ({a, b, c} : Set Pt)).isCompact_convexHull (𝕜 := ℝ)).isClosed
    filter_upwards [off h1, off h2, off h3, hcl.isOpen_compl.mem_nhds hz] with y y1 y2 y3 y4
    have hy : ¬ SameSide a b c y := fun h => y4 ((mem_triangle_iff y1 y2 y3).mpr h)
    unfold triSign
    rw [if_neg (fun k => hy (Or.inl k)), if_neg (fun k => hy (Or.inr k)), if_neg (fun k => hs (Or.inl k)), if_neg (fun k => hs (Or.inr k))]

theorem winding_fan (l : List Pt) (o z : Pt) (h1 : z ∉ outline l) (h2 : ∀ v ∈ l, z ∉ segment ℝ o v) :
    winding l z = ((cyclicPairs l).map fun e => triSign o e.1 e.2 z).sum := by
  have hf : ((cyclicPairs l).map fun e => wn z o e.1).sum = ((cyclicPairs l).map fun e => wn z o e.2).sum := by
    have k1 : (cyclicPairs l).map (fun e => wn z o e.1) = l.map (wn z o) := by
      conv_rhs => rw [← map_fst_cyclicPairs l]
      rw [List.map_map]; rfl
    have k2 : (cyclicPairs l).map (fun e => wn z o e.2) = (l.rotate 1).map (wn z o) := by
      rw [← map_snd_cyclicPairs l, List.map_map]; rfl
    rw [k1, k2]
    exact ((List.rotate_perm l 1).map _).sum_eq.symm
  have hs : ∀ E : List (Pt × Pt), (∀ e ∈ E, e ∈ cyclicPairs l) →
      (E.map fun e => triSign o e.1 e.2 z).sum = (E.map fun e => wn z o e.1).sum + (E.map fun e => wn z e.1 e.2).sum - (E.map fun e => wn z o e.2).sum := by
    intro E
    induction E with
    | nil => intro _; simp
    | cons e E ih =>
      intro hE
      have he := hE e List.mem_cons_self
      have h3 := tri_wn (h2 _ (fst_mem_of_cyclicPairs he)) (fun h => h1 ⟨e, he, h⟩) (by rw [segment_symm]; exact h2 _ (snd_mem_of_cyclicPairs he))
      rw [wn_swap z o e.2] at h3
      simp only [List.map_cons, List.sum_cons, ih (fun e he => hE e (List.mem_cons_of_mem _ he)), ← h3]
      ring
  rw [hs _ (fun e he => he), hf]
  unfold winding
  ring

theorem winding_const {l : List Pt} {z : Pt} (h : z ∉ outline l) : ∀ᶠ y in 𝓝 z, winding l y = winding l z := by
  obtain ⟨o, ho⟩ := exists_apex l z (notMem_of_outline h)
  have off : ∀ᶠ y in 𝓝 z, ∀ v ∈ {v | v ∈ l}, y ∉ segment ℝ o v := by
    rw [(List.finite_toSet l).eventually_all]
    exact fun v hv => (isCompact_seg _ _).isClosed.isOpen_compl.mem_nhds (ho v hv)
  have tri : ∀ᶠ y in 𝓝 z, ∀ e ∈ {e | e ∈ cyclicPairs l}, triSign o e.1 e.2 y = triSign o e.1 e.2 z := by
    rw [(List.finite_toSet _).eventually_all]
    intro e he
    exact triSign_const (ho _ (fst_mem_of_cyclicPairs he)) (fun hz => h ⟨e, he, hz⟩)
      (by rw [segment_symm]; exact ho _ (snd_mem_of_cyclicPairs he))
  filter_upwards [off, tri, (isCompact_outline l).isClosed.isOpen_compl.mem_nhds h] with y y1 y2 y3
  rw [winding_fan l o y y3 y1, winding_fan l o z h ho]
  congr 1
  exact List.map_congr_left y2

/-! ## Near the outline -/

theorem pairs_three (u v w : Pt) (t : List Pt) :
    cyclicPairs (u :: v :: w :: t) = (u, v) :: (v, w) :: chainPairs (w :: (t ++ [u])) := by
  rw [cyclicPairs_eq_chain]; rfl

theorem pairs_two (u w : Pt) (t : List Pt) : cyclicPairs (u :: w :: t) = (u, w) :: chainPairs (w :: (t ++ [u])) := by
  rw [cyclicPairs_eq_chain]; rfl

/-- Leaving out a vertex. -/
theorem winding_remove {u v w : Pt} {t : List Pt} {z : Pt} (h1 : z ∉ segment ℝ u v) (h2 : z ∉ segment ℝ v w) (h3 : z ∉ segment ℝ w u) :
    winding (u :: v :: w :: t) z = winding (u :: w :: t) z + triSign u v w z := by
  unfold winding
  rw [pairs_three, pairs_two, ← tri_wn h1 h2 h3, wn_swap z u w]
  simp only [List.map_cons, List.sum_cons]
  ring

/-- Near `q` the winding number is `c` or `c + 1`, and both occur. -/
structure NearLine (l : List Pt) (q : Pt) (c : ℤ) : Prop where
  all : ∀ᶠ z in 𝓝 q, z ∉ outline l → winding l z = c ∨ winding l z = c + 1
  low : ∃ᶠ z in 𝓝 q, z ∉ outline l ∧ winding l z = c
  high : ∃ᶠ z in 𝓝 q, z ∉ outline l ∧ winding l z = c + 1

theorem tendsto_dir (q n : Pt) : Tendsto (fun ε : ℝ => q + ε • n) (𝓝[>] 0) (𝓝 q) := by
  have h : Tendsto (fun ε : ℝ => q + ε • n) (𝓝 0) (𝓝 (q + (0 : ℝ) • n)) := by
    apply Continuous.tendsto; fun_prop
  rw [zero_smul, add_zero] at h
  exact h.mono_left nhdsWithin_le_nhds

theorem freq_of_dir {q n : Pt} {P : Pt → Prop} (h : ∀ᶠ ε : ℝ in 𝓝[>] 0, P (q + ε • n)) : ∃ᶠ z in 𝓝 q, P z :=
  (tendsto_dir q n).frequently h.frequently

theorem eventually_off {L : List (Pt × Pt)} {q : Pt} (h : ∀ f ∈ L, q ∉ segment ℝ f.1 f.2) :
    ∀ᶠ z in 𝓝 q, ∀ f ∈ L, z ∉ segment ℝ f.1 f.2 := by
  have : ∀ᶠ z in 𝓝 q, ∀ f ∈ {f | f ∈ L}, z ∉ segment ℝ f.1 f.2 := by
    rw [(List.finite_toSet L).eventually_all]
    exact fun f hf => (isCompact_seg _ _).isClosed.isOpen_compl.mem_nhds (h f hf)
  exact this

theorem area2_of_mem {a b z : Pt} (h : z ∈ segment ℝ a b) : area2 a b z = 0 := by
  by_contra h0
  exact notMem_of_area2 h0 h

/-- The two sides of an edge at an inner point of it. -/
theorem edge_sides {u w q : Pt} {t : List Pt} (hq : q ∈ segment ℝ u w) (hu : q ≠ u) (hw : q ≠ w)
    (hr : ∀ f ∈ chainPairs (w :: (t ++ [u])), q ∉ segment ℝ f.1 f.2) :
    ∃ c, (∀ᶠ z in 𝓝 q, z ∉ outline (u :: w :: t) → winding (u :: w :: t) z = c ∨ winding (u :: w :: t) z = c + 1) ∧
      (∀ᶠ z in 𝓝 q, 0 < area2 u w z → z ∉ outline (u :: w :: t) ∧ winding (u :: w :: t) z = c + 1) ∧
      (∀ᶠ z in 𝓝 q, area2 u w z < 0 → z ∉ outline (u :: w :: t) ∧ winding (u :: w :: t) z = c) := by
  obtain ⟨s, s0, s1, hx, hy⟩ := mem_seg.mp hq
  have s0' : 0 < s := by
    rcases s0.lt_or_eq with h | h
    · exact h
    · exact absurd (Prod.ext (by rw [hx, ← h]; ring) (by rw [hy, ← h]; ring)) hu
  have s1' : s < 1 := by
    rcases s1.lt_or_eq with h | h
    · exact h
    · exact absurd (Prod.ext (by rw [hx, h]; ring) (by rw [hy, h]; ring)) hw
  have huw : u ≠ w := by
    rintro rfl
    exact hu (Prod.ext (by rw [hx]; ring) (by rw [hy]; ring))
  have hpos : 0 < (w.1 - u.1) ^ 2 + (w.2 - u.2) ^ 2 := by
    by_contra hc
    have h1 := sq_nonneg (w.1 - u.1)
    have h2 := sq_nonneg (w.2 - u.2)
    have h3 : (w.1 - u.1) ^ 2 = 0 := by linarith
    have h4 : (w.2 - u.2) ^ 2 = 0 := by linarith
    have h5 := pow_eq_zero_iff (two_ne_zero) |>.mp h3
    have h6 := pow_eq_zero_iff (two_ne_zero) |>.mp h4
    exact huw (Prod.ext (by linarith) (by linarith))
  set o : Pt := (u.1 + (w.2 - u.2), u.2 - (w.1 - u.1)) with ho
  have hD : area2 u o w = (w.1 - u.1) ^ 2 + (w.2 - u.2) ^ 2 := by rw [ho]; unfold area2; ring
  have q1 : area2 u o q = s * area2 u o w := by unfold area2; rw [hx, hy]; ring
  have q2 : area2 o w q = (1 - s) * area2 u o w := by unfold area2; rw [hx, hy]; ring
  have p1 : 0 < area2 u o q := by rw [q1, hD]; positivity
  have p2 : 0 < area2 o w q := by rw [q2, hD]; exact mul_pos (by linarith) hpos
  have hoff : q ∉ outline (u :: o :: w :: t) := by
    rintro ⟨f, hf, hz⟩
    rw [pairs_three] at hf
    rcases List.mem_cons.mp hf with rfl | hf
    · exact p1.ne' (area2_of_mem hz)
    · rcases List.mem_cons.mp hf with rfl | hf
      · exact p2.ne' (area2_of_mem hz)
      · exact hr f hf hz
  have c1 : ∀ᶠ z in 𝓝 q, 0 < area2 u o z := (continuous_area2 _ _).continuousAt.eventually_const_lt p1
  have c2 : ∀ᶠ z in 𝓝 q, 0 < area2 o w z := (continuous_area2 _ _).continuousAt.eventually_const_lt p2
  have form : ∀ᶠ z in 𝓝 q, z ∉ segment ℝ u w → winding (u :: w :: t) z =
      winding (u :: o :: w :: t) q - (if area2 u w z < 0 then 1 else 0) := by
    filter_upwards [c1, c2, winding_const hoff] with z z1 z2 z3 hz
    rw [← z3, winding_remove (fun h => z1.ne' (area2_of_mem h)) (fun h => z2.ne' (area2_of_mem h)) (by rw [segment_symm]; exact hz)]
    have : triSign u o w z = if area2 u w z < 0 then 1 else 0 := by
      unfold triSign
      rw [area2_swap u w z, if_neg (c := area2 u o z < 0 ∧ _) (fun h => by linarith [h.1])]
      simp only [z1, z2, true_and, Left.neg_pos_iff]
    rw [this]; ring
  have out : ∀ᶠ z in 𝓝 q, area2 u w z ≠ 0 → z ∉ outline (u :: w :: t) := by
    filter_upwards [eventually_off hr] with z hz hne
    rintro ⟨f, hf, hm⟩
    rw [pairs_two] at hf
    rcases List.mem_cons.mp hf with rfl | hf
    · exact hne (area2_of_mem hm)
    · exact hz f hf hm
  have mem : ∀ {z}, z ∉ outline (u :: w :: t) → z ∉ segment ℝ u w := fun h hm => h ⟨(u, w), by rw [pairs_two]; exact List.mem_cons_self, hm⟩
  refine ⟨winding (u :: o :: w :: t) q - 1, ?_, ?_, ?_⟩
  · filter_upwards [form] with z hz ho
    rw [hz (mem ho)]
    split
    · left; rfl
    · right; ring
  · filter_upwards [form, out] with z hz ho hp
    have := ho hp.ne'
    rw [hz (mem this), if_neg (not_lt.mpr hp.le)]
    exact ⟨this, by ring⟩
  · filter_upwards [form, out] with z hz ho hp
    have := ho hp.ne
    rw [hz (mem this), if_pos hp]
    exact ⟨this, rfl⟩

/-- The direction to the left of an edge. -/
def leftDir (u w : Pt) : Pt := (-(w.2 - u.2), w.1 - u.1)

theorem area2_leftDir (u w q : Pt) (ε : ℝ) :
    area2 u w (q + ε • leftDir u w) = area2 u w q + ε * ((w.1 - u.1) ^ 2 + (w.2 - u.2) ^ 2) := by
  simp only [area2, leftDir, Prod.fst_add, Prod.snd_add, Prod.smul_fst, Prod.smul_snd, smul_eq_mul]; ring


theorem sumsq_pos {u w : Pt} (h : u ≠ w) : 0 < (w.1 - u.1) ^ 2 + (w.2 - u.2) ^ 2 := by
  by_contra hc
  have h1 := sq_nonneg (w.1 - u.1)
  have h2 := sq_nonneg (w.2 - u.2)
  have h3 : (w.1 - u.1) ^ 2 = 0 := by linarith
  have h4 : (w.2 - u.2) ^ 2 = 0 := by linarith
  have h5 := pow_eq_zero_iff (two_ne_zero) |>.mp h3
  have h6 := pow_eq_zero_iff (two_ne_zero) |>.mp h4
  exact h (Prod.ext (by linarith) (by linarith))

theorem edge_near {u w q : Pt} {t : List Pt} (hq : q ∈ segment ℝ u w) (hu : q ≠ u) (hw : q ≠ w)
    (hr : ∀ f ∈ chainPairs (w :: (t ++ [u])), q ∉ segment ℝ f.1 f.2) : ∃ c, NearLine (u :: w :: t) q c := by
  obtain ⟨c, h1, h2, h3⟩ := edge_sides hq hu hw hr
  have huw : u ≠ w := by
    rintro rfl
    rw [segment_same] at hq
    exact hu hq
  have hp := sumsq_pos huw
  have h0 := area2_of_mem hq
  refine ⟨c, h1, freq_of_dir (n := -leftDir u w) ?_, freq_of_dir (n := leftDir u w) ?_⟩
  · filter_upwards [(tendsto_dir q (-leftDir u w)).eventually h3, self_mem_nhdsWithin] with ε he hpos
    apply he
    rw [smul_neg, ← neg_smul, area2_leftDir, h0]
    have : (0 : ℝ) < ε := hpos
    have := mul_pos this hp
    linarith
  · filter_upwards [(tendsto_dir q (leftDir u w)).eventually h2, self_mem_nhdsWithin] with ε he hpos
    apply he
    rw [area2_leftDir, h0]
    have : (0 : ℝ) < ε := hpos
    have := mul_pos this hp
    linarith

theorem triSign_zero {u v w : Pt} (h : area2 u v w = 0) (z : Pt) : triSign u v w z = 0 := by
  have hs := area2_sum3 u v w z
  unfold triSign
  rw [if_neg (fun k => by linarith [k.1, k.2.1, k.2.2]), if_neg (fun k => by linarith [k.1, k.2.1, k.2.2])]

theorem seg_split {u v w z : Pt} (hv : v ∈ segment ℝ u w) (hz : z ∈ segment ℝ u w) : z ∈ segment ℝ u v ∨ z ∈ segment ℝ v w := by
  obtain ⟨s, s0, s1, sx, sy⟩ := mem_seg.mp hv
  obtain ⟨r, r0, r1, rx, ry⟩ := mem_seg.mp hz
  rcases le_or_gt r s with h | h
  · left
    rcases s0.lt_or_eq with hs | hs
    · refine mem_seg.mpr ⟨r / s, div_nonneg r0 s0, (div_le_one hs).mpr h, ?_, ?_⟩
      · rw [rx, sx]; field_simp; ring
      · rw [ry, sy]; field_simp; ring
    · refine mem_seg.mpr ⟨0, le_refl _, zero_le_one, ?_, ?_⟩
      · rw [rx, le_antisymm (h.trans hs.symm.le) r0]; ring
      · rw [ry, le_antisymm (h.trans hs.symm.le) r0]; ring
  · right
    have hd : 0 < 1 - s := by linarith
    refine mem_seg.mpr ⟨(r - s) / (1 - s), div_nonneg (by linarith) hd.le, (div_le_one hd).mpr (by linarith), ?_, ?_⟩
    · rw [rx, sx]; field_simp; ring
    · rw [ry, sy]; field_simp; ring

/-- A vertex between its neighbours does not matter. -/
theorem outline_between {u v w : Pt} {t : List Pt} (hs : v ∈ segment ℝ u w) : outline (u :: v :: w :: t) = outline (u :: w :: t) := by
  ext z
  unfold outline
  rw [pairs_three, pairs_two]
  simp only [List.mem_cons, exists_eq_or_imp, Set.mem_ofPred_eq]
  rw [← or_assoc]
  refine or_congr ⟨?_, seg_split hs⟩ Iff.rfl
  rintro (h | h)
  · exact (convex_segment u w).segment_subset (left_mem_segment ℝ _ _) hs h
  · exact (convex_segment u w).segment_subset hs (right_mem_segment ℝ _ _) h

theorem winding_between {u v w : Pt} {t : List Pt} (hs : v ∈ segment ℝ u w) {z : Pt} (hz : z ∉ outline (u :: v :: w :: t)) :
    winding (u :: v :: w :: t) z = winding (u :: w :: t) z := by
  have h1 : z ∉ segment ℝ u v := fun hm => hz ⟨(u, v), by rw [pairs_three]; simp, hm⟩
  have h2 : z ∉ segment ℝ v w := fun hm => hz ⟨(v, w), by rw [pairs_three]; simp, hm⟩
  have h3 : z ∉ segment ℝ w u := by
    rw [segment_symm]
    intro hm
    rcases seg_split hs hm with h | h
    · exact h1 h
    · exact h2 h
  have hD : area2 u v w = 0 := by
    rw [show area2 u v w = -area2 u w v by unfold area2; ring, area2_of_mem hs, neg_zero]
  rw [winding_remove h1 h2 h3, triSign_zero hD, add_zero]

theorem vertex_near {u v w : Pt} {t : List Pt} (hr : ∀ f ∈ chainPairs (w :: (t ++ [u])), v ∉ segment ℝ f.1 f.2)
    (h0 : area2 u v w = 0 → v ∈ segment ℝ u w ∧ v ≠ u ∧ v ≠ w) : ∃ c, NearLine (u :: v :: w :: t) v c := by
  have memo : ∀ {z}, z ∉ outline (u :: v :: w :: t) → z ∉ segment ℝ u v ∧ z ∉ segment ℝ v w := fun h =>
    ⟨fun hm => h ⟨(u, v), by rw [pairs_three]; simp, hm⟩, fun hm => h ⟨(v, w), by rw [pairs_three]; simp, hm⟩⟩
  by_cases hD : area2 u v w = 0
  · obtain ⟨hs, hu, hw⟩ := h0 hD
    obtain ⟨c, hc⟩ := edge_near hs hu hw hr
    have hout := outline_between (t := t) hs
    refine ⟨c, ?_, ?_, ?_⟩
    · filter_upwards [hc.all] with z hz ho
      rw [winding_between hs ho]; exact hz (hout ▸ ho)
    · refine hc.low.mono fun z hz => ?_
      rw [← hout] at hz
      exact ⟨hz.1, (winding_between hs hz.1).trans hz.2⟩
    · refine hc.high.mono fun z hz => ?_
      rw [← hout] at hz
      exact ⟨hz.1, (winding_between hs hz.1).trans hz.2⟩
  · have hoff : v ∉ outline (u :: w :: t) := by
      rintro ⟨f, hf, hm⟩
      rw [pairs_two] at hf
      rcases List.mem_cons.mp hf with rfl | hf
      · apply hD
        have := area2_of_mem hm
        rw [show area2 u v w = -area2 u w v by unfold area2; ring, this, neg_zero]
      · exact hr f hf hm
    have hwu : ∀ᶠ z in 𝓝 v, z ∉ segment ℝ w u := by
      refine (isCompact_seg _ _).isClosed.isOpen_compl.mem_nhds fun hm => hoff ⟨(u, w), by rw [pairs_two]; simp, by rw [segment_symm]; exact hm⟩
    have form : ∀ᶠ z in 𝓝 v, z ∉ outline (u :: v :: w :: t) → winding (u :: v :: w :: t) z = winding (u :: w :: t) v + triSign u v w z := by
      filter_upwards [winding_const hoff, hwu] with z z1 z2 hz
      rw [winding_remove (memo hz).1 (memo hz).2 z2, z1]
    have out : ∀ᶠ z in 𝓝 v, area2 u v z ≠ 0 → area2 v w z ≠ 0 → z ∉ outline (u :: v :: w :: t) := by
      filter_upwards [eventually_off hr] with z hz n1 n2
      rintro ⟨f, hf, hm⟩
      rw [pairs_three] at hf
      rcases List.mem_cons.mp hf with rfl | hf
      · exact n1 (area2_of_mem hm)
      · rcases List.mem_cons.mp hf with rfl | hf
        · exact n2 (area2_of_mem hm)
        · exact hz f hf hm
    set m : Pt := (u.1 + w.1 - 2 * v.1, u.2 + w.2 - 2 * v.2) with hm
    have a1 : ∀ ε : ℝ, area2 u v (v + ε • m) = ε * area2 u v w := by
      intro ε; simp only [hm, area2, Prod.fst_add, Prod.snd_add, Prod.smul_fst, Prod.smul_snd, smul_eq_mul]; ring
    have a2 : ∀ ε : ℝ, area2 v w (v + ε • m) = ε * area2 u v w := by
      intro ε; simp only [hm, area2, Prod.fst_add, Prod.snd_add, Prod.smul_fst, Prod.smul_snd, smul_eq_mul]; ring
    have a3 : area2 w u v = area2 u v w := by unfold area2; ring
    have fwd : ∀ᶠ ε : ℝ in 𝓝[>] 0, v + ε • m ∉ outline (u :: v :: w :: t) ∧
        winding (u :: v :: w :: t) (v + ε • m) = winding (u :: w :: t) v + if 0 < area2 u v w then 1 else -1 := by
      have near : ∀ᶠ z in 𝓝 v, 0 < area2 w u z * area2 u v w := by
        have : 0 < area2 w u v * area2 u v w := by rw [a3]; exact mul_self_pos.mpr hD
        exact ((continuous_area2 w u).mul continuous_const).continuousAt.eventually_const_lt this
      filter_upwards [(tendsto_dir v m).eventually form, (tendsto_dir v m).eventually out, (tendsto_dir v m).eventually near, self_mem_nhdsWithin] with ε h1 h2 h3 h4
      have h4 : (0 : ℝ) < ε := h4
      have ho := h2 (by rw [a1]; exact mul_ne_zero h4.ne' hD) (by rw [a2]; exact mul_ne_zero h4.ne' hD)
      refine ⟨ho, ?_⟩
      rw [h1 ho]
      congr 1
      unfold triSign
      rw [a1, a2]
      rcases lt_or_gt_of_ne hD with hd | hd
      · rw [if_neg (fun k => by nlinarith [k.1]), if_pos ⟨by nlinarith, by nlinarith, by nlinarith⟩, if_neg (not_lt.mpr hd.le)]
      · rw [if_pos ⟨by positivity, by positivity, by nlinarith⟩, if_pos hd]
    have bwd : ∀ᶠ ε : ℝ in 𝓝[>] 0, v + ε • (-m) ∉ outline (u :: v :: w :: t) ∧
        winding (u :: v :: w :: t) (v + ε • (-m)) = winding (u :: w :: t) v := by
      filter_upwards [(tendsto_dir v (-m)).eventually form, (tendsto_dir v (-m)).eventually out, self_mem_nhdsWithin,
        (tendsto_dir v (-m)).eventually (((continuous_area2 w u).mul continuous_const).continuousAt.eventually_const_lt
          (show 0 < area2 w u v * area2 u v w by rw [a3]; exact mul_self_pos.mpr hD))] with ε h1 h2 h4 h3
      have h4 : (0 : ℝ) < ε := h4
      rw [smul_neg, ← neg_smul] at h1 h2 h3 ⊢
      have ho := h2 (by rw [a1]; exact mul_ne_zero (neg_ne_zero.mpr h4.ne') hD) (by rw [a2]; exact mul_ne_zero (neg_ne_zero.mpr h4.ne') hD)
      refine ⟨ho, ?_⟩
      rw [h1 ho]
      have : triSign u v w (v + -ε • m) = 0 := by
        unfold triSign
        rw [a1, a2]
        rw [if_neg, if_neg]
        · rintro ⟨k1, k2, k3⟩
          have : 0 < area2 u v w := by nlinarith
          exact absurd h3 (not_lt.mpr (mul_neg_of_neg_of_pos k3 this).le)
        · rintro ⟨k1, k2, k3⟩
          have : area2 u v w < 0 := by nlinarith
          exact absurd h3 (not_lt.mpr (mul_neg_of_pos_of_neg k3 this).le)
      rw [this, add_zero]
    have hsum := area2_sum3 u v w
    rcases lt_or_gt_of_ne hD with hd | hd
    · refine ⟨winding (u :: w :: t) v - 1, ?_, freq_of_dir (n := m) ?_, freq_of_dir (n := -m) ?_⟩
      · filter_upwards [form] with z hz ho
        rw [hz ho]
        unfold triSign
        rw [if_neg (fun k => by linarith [k.1, k.2.1, k.2.2, hsum z])]
        split
        · left; rfl
        · right; ring
      · filter_upwards [fwd] with ε h
        rw [if_neg (not_lt.mpr hd.le)] at h
        exact ⟨h.1, h.2⟩
      · filter_upwards [bwd] with ε h
        exact ⟨h.1, by rw [h.2]; ring⟩
    · refine ⟨winding (u :: w :: t) v, ?_, freq_of_dir (n := -m) ?_, freq_of_dir (n := m) ?_⟩
      · filter_upwards [form] with z hz ho
        rw [hz ho]
        unfold triSign
        rw [if_neg (c := area2 u v z < 0 ∧ _) (fun k => by linarith [k.1, k.2.1, k.2.2, hsum z])]
        split
        · right; rfl
        · left; ring
      · filter_upwards [bwd] with ε h
        exact h
      · filter_upwards [fwd] with ε h
        rw [if_pos hd] at h
        exact h


/-! ## One inside -/

theorem winding_rotate (l : List Pt) (n : ℕ) : winding (l.rotate n) = winding l := by
  funext z
  exact ((cyclicPairs_rotate_perm l n).map _).sum_eq

theorem outline_rotate (l : List Pt) (n : ℕ) : outline (l.rotate n) = outline l := by
  ext z
  unfold outline
  simp only [Set.mem_ofPred_eq, (cyclicPairs_rotate_perm l n).mem_iff]

theorem Spec.Simple.rotate {l : List Pt} (S : Simple l) (n : ℕ) : Simple (l.rotate n) := by
  refine ⟨by rw [List.length_rotate]; exact S.three, List.nodup_rotate.mpr S.nodup, ?_⟩
  intro e he f hf
  exact S.meet e ((cyclicPairs_rotate_perm l n).mem_iff.mp he) f ((cyclicPairs_rotate_perm l n).mem_iff.mp hf)

theorem NearLine.of_rotate {l : List Pt} {n : ℕ} {q : Pt} {c : ℤ} (h : NearLine (l.rotate n) q c) : NearLine l q c := by
  obtain ⟨h1, h2, h3⟩ := h
  rw [winding_rotate, outline_rotate] at h1 h2 h3
  exact ⟨h1, h2, h3⟩

/-- Every edge can be made the first one. -/
theorem rotate_edge {l : List Pt} {e : Pt × Pt} (he : e ∈ cyclicPairs l) (hl : 2 ≤ l.length) : ∃ n t, l.rotate n = e.1 :: e.2 :: t := by
  obtain ⟨n, hn, rfl⟩ := List.mem_iff_getElem.mp he
  rw [length_cyclicPairs] at hn
  have hr : cyclicPairs (l.rotate n) = (cyclicPairs l).rotate n := cyclicPairs_rotate l n
  have h0 : ((cyclicPairs l).rotate n)[0]? = some ((cyclicPairs l)[n]) := by
    rw [List.getElem?_rotate (by rw [length_cyclicPairs]; omega)]
    rw [length_cyclicPairs, zero_add, Nat.mod_eq_of_lt hn]
    exact List.getElem?_eq_getElem _
  rw [← hr] at h0
  have hlen : (l.rotate n).length = l.length := List.length_rotate _ _
  match hm : l.rotate n with
  | [] => rw [hm] at hlen; simp at hlen; omega
  | [a] => rw [hm] at hlen; simp at hlen; omega
  | a :: b :: t =>
    rw [hm, pairs_two] at h0
    simp only [List.getElem?_cons_zero, Option.some.injEq] at h0
    exact ⟨n, t, by rw [← h0, hm]⟩

theorem chain_fst {w u : Pt} {t : List Pt} : (chainPairs (w :: (t ++ [u]))).map Prod.fst = w :: t := by
  have := map_fst_cyclicPairs (u :: w :: t)
  rw [pairs_two] at this
  simpa using this

/-- To prove something about all points of the outline of a simple polygon, consider inner points of the first edge and the
second vertex. -/
theorem Spec.Simple.locally {P : List Pt → Pt → Prop} (rot : ∀ l n q, P (l.rotate n) q → P l q)
    (edge : ∀ u w t q, q ∈ segment ℝ u w → q ≠ u → q ≠ w → (∀ f ∈ chainPairs (w :: (t ++ [u])), q ∉ segment ℝ f.1 f.2) → P (u :: w :: t) q)
    (vertex : ∀ u v w t, (∀ f ∈ chainPairs (w :: (t ++ [u])), v ∉ segment ℝ f.1 f.2) →
      (area2 u v w = 0 → v ∈ segment ℝ u w ∧ v ≠ u ∧ v ≠ w) → P (u :: v :: w :: t) v)
    {l : List Pt} (S : Simple l) {q : Pt} (hq : q ∈ outline l) : P l q := by
  obtain ⟨e, he, hz⟩ := hq
  obtain ⟨n, t, hn⟩ := rotate_edge he (by have := S.three; omega)
  apply rot l n
  have S' := S.rotate n
  rw [hn] at S' ⊢
  obtain ⟨u, w⟩ := e
  simp only at hz S' ⊢
  -- the last vertex
  have vert : ∀ {v : Pt} {l' : List Pt}, Simple l' → v ∈ l' → P l' v := by
    intro v l' S hv
    obtain ⟨k, hk, rfl⟩ := List.mem_iff_getElem.mp hv
    have h3 := S.three
    -- rotate so that the vertex is second
    set m := (k + l'.length - 1) % l'.length with hm
    apply rot l' m
    have S' := S.rotate m
    have hlen : (l'.rotate m).length = l'.length := List.length_rotate _ _
    have h1 : (l'.rotate m)[1]? = some l'[k] := by
      rw [List.getElem?_rotate (by omega)]
      have : (1 + m) % l'.length = k := by
        rw [hm, Nat.add_mod_mod, show 1 + (k + l'.length - 1) = k + l'.length by omega, Nat.add_mod_right, Nat.mod_eq_of_lt hk]
      rw [this]
      exact List.getElem?_eq_getElem _
    generalize l'[k] = v at h1
    match hl : l'.rotate m with
    | [] => rw [hl] at hlen; simp at hlen; omega
    | [a] => rw [hl] at hlen; simp at hlen; omega
    | [a, b] => rw [hl] at hlen; simp at hlen; omega
    | a :: b :: c :: t =>
      rw [hl] at S' h1
      simp only [List.getElem?_cons_succ, List.getElem?_cons_zero, Option.some.injEq] at h1
      subst h1
      have hnd := S'.nodup
      simp only [List.nodup_cons, List.mem_cons, not_or] at hnd
      have hrest : ∀ f ∈ chainPairs (c :: (t ++ [a])), b ∉ segment ℝ f.1 f.2 := by
        intro f hf hb
        have hf1 : f.1 ∈ c :: t := by
          rw [← chain_fst (w := c) (u := a) (t := t)]
          exact List.mem_map_of_mem hf
        have hne : (a, b) ≠ f := by
          rintro rfl
          simp only [List.mem_cons] at hf1
          rcases hf1 with h | h
          · exact hnd.1.2.1 h
          · exact hnd.1.2.2 h
        have hb1 : b ≠ f.1 := by
          rintro rfl
          simp only [List.mem_cons] at hf1
          rcases hf1 with h | h
          · exact hnd.2.1.1 h
          · exact hnd.2.1.2 h
        rcases S'.meet (a, b) (by rw [pairs_three]; simp) f (by rw [pairs_three]; simp [hf]) hne b (right_mem_segment ℝ _ _) hb with h | h
        · exact hb1 h.2
        · exact hnd.1.1 h.1.symm
      refine vertex _ _ _ _ hrest fun hD => ⟨?_, fun h => hnd.1.1 h.symm, hnd.2.1.1⟩
      have hne : ((a, b) : Pt × Pt) ≠ (b, c) := fun h => hnd.1.1 (Prod.mk.inj h).1
      have hmeet := S'.meet (a, b) (by rw [pairs_three]; simp) (b, c) (by rw [pairs_three]; simp) hne
      rcases (collinear_of_area2 hD).wbtw_or_wbtw_or_wbtw with h | h | h
      · exact mem_segment_iff_wbtw.mpr h
      · exfalso
        rcases hmeet c (by rw [segment_symm]; exact mem_segment_iff_wbtw.mpr h) (right_mem_segment ℝ _ _) with k | k
        · exact hnd.2.1.1 k.2.symm
        · exact hnd.1.2.1 k.1.symm
      · exfalso
        rcases hmeet a (left_mem_segment ℝ _ _) (by rw [segment_symm]; exact mem_segment_iff_wbtw.mpr h) with k | k
        · exact hnd.1.1 k.1
        · exact hnd.1.2.1 k.2
  by_cases hu : q = u
  · subst hu
    exact vert S' (by simp)
  by_cases hw : q = w
  · subst hw
    exact vert S' (by simp)
  refine edge _ _ _ _ hz hu hw fun f hf hm => ?_
  have hnd := S'.nodup
  have hf1 : f.1 ∈ w :: t := by
    rw [← chain_fst (w := w) (u := u) (t := t)]
    exact List.mem_map_of_mem hf
  have hne : (u, w) ≠ f := by
    rintro rfl
    exact (List.nodup_cons.mp hnd).1 hf1
  rcases S'.meet (u, w) (by rw [pairs_two]; simp) f (by rw [pairs_two]; simp [hf]) hne q hz hm with h | h
  · exact hw h.1
  · exact hu h.1

theorem Spec.Simple.near {l : List Pt} (S : Simple l) {q : Pt} (hq : q ∈ outline l) : ∃ c, NearLine l q c :=
  S.locally (P := fun l q => ∃ c, NearLine l q c) (fun _ _ _ h => h.imp fun _ hc => hc.of_rotate)
    (fun _ _ _ _ h1 h2 h3 h4 => edge_near h1 h2 h3 h4) (fun _ _ _ _ h1 h2 => vertex_near h1 h2) hq

theorem preconnected_chain (a : Pt) (t : List Pt) : IsPreconnected ({a} ∪ {z | ∃ e ∈ chainPairs (a :: t), z ∈ segment ℝ e.1 e.2}) := by
  induction t generalizing a with
  | nil => simpa using isPreconnected_singleton
  | cons b t ih =>
    have : ({a} ∪ {z | ∃ e ∈ chainPairs (a :: b :: t), z ∈ segment ℝ e.1 e.2} : Set Pt) =
        segment ℝ a b ∪ ({b} ∪ {z | ∃ e ∈ chainPairs (b :: t), z ∈ segment ℝ e.1 e.2}) := by
      ext z
      simp only [chainPairs_cons_cons, List.mem_cons, exists_eq_or_imp, Set.mem_union, Set.mem_singleton_iff, Set.mem_ofPred_eq]
      constructor
      · rintro (rfl | h | h)
        · exact Or.inl (left_mem_segment ℝ _ _)
        · exact Or.inl h
        · exact Or.inr (Or.inr h)
      · rintro (h | rfl | h)
        · exact Or.inr (Or.inl h)
        · exact Or.inr (Or.inl (right_mem_segment ℝ _ _))
        · exact Or.inr (Or.inr h)
    rw [this]
    exact IsPreconnected.union b (right_mem_segment ℝ _ _) (Or.inl rfl) (convex_segment a b).isPreconnected (ih b)

theorem preconnected_outline (l : List Pt) : IsPreconnected (outline l) := by
  cases l with
  | nil =>
    have : outline [] = ∅ := by ext z; simp [outline]
    rw [this]; exact isPreconnected_empty
  | cons a t =>
    have h := preconnected_chain a (t ++ [a])
    rw [← cyclicPairs_eq_chain] at h
    have : ({a} ∪ {z | ∃ e ∈ cyclicPairs (a :: t), z ∈ segment ℝ e.1 e.2} : Set Pt) = outline (a :: t) := by
      ext z
      refine ⟨?_, Or.inr⟩
      rintro (rfl | h)
      · by_contra hc
        exact notMem_of_outline hc (by simp)
      · exact h
    rwa [this] at h

theorem NearLine.unique {l : List Pt} {q : Pt} {c d : ℤ} (hc : ∀ᶠ z in 𝓝 q, z ∉ outline l → winding l z = c ∨ winding l z = c + 1)
    (h1 : ∃ᶠ z in 𝓝 q, z ∉ outline l ∧ winding l z = d) (h2 : ∃ᶠ z in 𝓝 q, z ∉ outline l ∧ winding l z = d + 1) : d = c := by
  obtain ⟨z, ⟨z1, z2⟩, z3⟩ := (h1.and_eventually hc).exists
  obtain ⟨y, ⟨y1, y2⟩, y3⟩ := (h2.and_eventually hc).exists
  have := z3 z1
  have := y3 y1
  omega

theorem winding_far (l : List Pt) (N : ℝ) : ∃ z : Pt, N ≤ z.2 ∧ z ∉ outline l ∧ winding l z = 0 := by
  obtain ⟨M, hN, hM⟩ : ∃ M : ℝ, N ≤ M ∧ ∀ v ∈ l, v.2 < M := by
    induction l with
    | nil => exact ⟨N, le_refl _, by simp⟩
    | cons a t ih =>
      obtain ⟨M, hN, hM⟩ := ih
      refine ⟨max M (a.2 + 1), hN.trans (le_max_left _ _), ?_⟩
      intro v hv
      rcases List.mem_cons.mp hv with rfl | hv
      · exact lt_max_of_lt_right (by linarith)
      · exact lt_max_of_lt_left (hM v hv)
  refine ⟨(0, M), hN, ?_, ?_⟩
  · rintro ⟨e, he, hz⟩
    obtain ⟨s, s0, s1, -, hy⟩ := mem_seg.mp hz
    have h1 := hM _ (fst_mem_of_cyclicPairs he)
    have h2 := hM _ (snd_mem_of_cyclicPairs he)
    have := param_lt s0 s1 h1 h2
    simp only at hy
    linarith
  · unfold winding
    apply List.sum_eq_zero
    intro x hx
    obtain ⟨e, he, rfl⟩ := List.mem_map.mp hx
    exact wn_below (hM _ (fst_mem_of_cyclicPairs he)).le (hM _ (snd_mem_of_cyclicPairs he)).le

/-- A point off the outline has the winding number of points near some point of the outline. -/
theorem reach_outline {l : List Pt} (hl : (outline l).Nonempty) {z : Pt} (hz : z ∉ outline l) :
    ∃ q ∈ outline l, ∃ᶠ y in 𝓝 q, (y ∉ outline l ∧ winding l y = winding l z) ∧ y ∈ connectedComponentIn (outline l)ᶜ z := by
  obtain ⟨q, hq, hd⟩ := (isCompact_outline l).exists_infDist_eq_dist hl z
  refine ⟨q, hq, ?_⟩
  have hne : z ≠ q := fun h => hz (h ▸ hq)
  have hpos : 0 < dist z q := dist_pos.mpr hne
  set γ : ℝ → Pt := fun s => q + s • (z - q) with hγ
  have hγc : Continuous γ := by rw [hγ]; fun_prop
  have off : ∀ s ∈ Set.Ioc (0 : ℝ) 1, γ s ∉ outline l := by
    intro s hs hm
    have h1 := Metric.infDist_le_dist_of_mem (x := z) hm
    rw [hd] at h1
    have h2 : dist z (γ s) = (1 - s) * dist z q := by
      rw [dist_eq_norm, dist_eq_norm, show z - γ s = (1 - s) • (z - q) by simp only [hγ]; module, norm_smul, Real.norm_of_nonneg (by linarith [hs.2])]
    rw [h2] at h1
    nlinarith [mul_pos hs.1 hpos]
  have hconst : ∀ s ∈ Set.Ioc (0 : ℝ) 1, winding l (γ s) = winding l z := by
    intro s hs
    have hcont : ContinuousOn (fun s => winding l (γ s)) (Set.Ioc 0 1) := by
      intro r hr
      have := (hγc.continuousAt (x := r)).eventually (winding_const (off r hr))
      exact (tendsto_const_nhds.congr' (this.mono fun _ h => h.symm)).mono_left nhdsWithin_le_nhds
    have h1 := isPreconnected_Ioc.constant hcont hs (Set.right_mem_Ioc.mpr one_pos)
    rw [h1]
    congr 1
    simp only [hγ, one_smul, add_sub_cancel]
  refine freq_of_dir (n := z - q) ?_
  filter_upwards [Ioc_mem_nhdsGT one_pos] with s hs
  refine ⟨⟨off s hs, hconst s hs⟩, ?_⟩
  have hpre : IsPreconnected (γ '' Set.Ioc 0 1) := isPreconnected_Ioc.image _ hγc.continuousOn
  refine hpre.subset_connectedComponentIn ⟨1, Set.right_mem_Ioc.mpr one_pos, ?_⟩ ?_ ⟨s, hs, rfl⟩
  · simp only [hγ, one_smul, add_sub_cancel]
  · rintro _ ⟨r, hr, rfl⟩
    exact off r hr

/-- **The winding number of a simple polygon** takes at most the values 0 and 1, or at most 0 and -1. -/
theorem simple_winding {l : List Pt} (S : Simple l) : ∃ c : ℤ, (c = 0 ∨ c = -1) ∧ (∀ q ∈ outline l, NearLine l q c) ∧
    ∀ z, z ∉ outline l → winding l z = c ∨ winding l z = c + 1 := by
  classical
  have hne : (outline l).Nonempty := by
    have h3 := S.three
    match l with
    | [] => simp at h3
    | a :: t => exact ⟨a, by by_contra hc; exact notMem_of_outline hc (by simp)⟩
  choose! f hf using fun q (hq : q ∈ outline l) => S.near hq
  have hcont : ContinuousOn f (outline l) := by
    intro q hq
    have h1 : ∀ᶠ y in 𝓝 q, ∀ᶠ z in 𝓝 y, z ∉ outline l → winding l z = f q ∨ winding l z = f q + 1 :=
      eventually_eventually_nhds.mpr (hf q hq).all
    have h2 : ∀ᶠ y in 𝓝[outline l] q, f y = f q := by
      filter_upwards [nhdsWithin_le_nhds h1, self_mem_nhdsWithin] with y hy hm
      exact NearLine.unique hy (hf y hm).low (hf y hm).high
    exact tendsto_const_nhds.congr' (h2.mono fun _ h => h.symm)
  obtain ⟨q₀, hq₀⟩ := hne
  have hall : ∀ q ∈ outline l, NearLine l q (f q₀) := fun q hq =>
    ((preconnected_outline l).constant hcont hq hq₀) ▸ hf q hq
  have hval : ∀ z, z ∉ outline l → winding l z = f q₀ ∨ winding l z = f q₀ + 1 := by
    intro z hz
    obtain ⟨q, hq, hfr⟩ := reach_outline ⟨q₀, hq₀⟩ hz
    obtain ⟨y, ⟨⟨y1, y2⟩, -⟩, y3⟩ := (hfr.and_eventually (hall q hq).all).exists
    rw [← y2]; exact y3 y1
  refine ⟨f q₀, ?_, hall, hval⟩
  obtain ⟨z, -, hz, h0⟩ := winding_far l 0
  have := hval z hz
  omega


/-! ## The two sides are connected -/

/-- Near `q` the complement of the outline consists of two connected pieces. -/
structure SidesAt (l : List Pt) (q : Pt) (A B : Set Pt) (c : ℤ) : Prop where
  connA : IsPreconnected A
  connB : IsPreconnected B
  high : ∀ z ∈ A, z ∉ outline l ∧ winding l z = c + 1
  low : ∀ z ∈ B, z ∉ outline l ∧ winding l z = c
  all : ∀ᶠ z in 𝓝 q, z ∉ outline l → z ∈ A ∨ z ∈ B

theorem exists_ball {q : Pt} {P : Pt → Prop} (h : ∀ᶠ z in 𝓝 q, P z) : ∃ U : Set Pt, Convex ℝ U ∧ U ∈ 𝓝 q ∧ ∀ z ∈ U, P z := by
  obtain ⟨r, hr, hU⟩ := Metric.eventually_nhds_iff_ball.mp h
  exact ⟨Metric.ball q r, convex_ball q r, Metric.ball_mem_nhds q hr, hU⟩

theorem convex_area2_pos (a b : Pt) (k : ℝ) : Convex ℝ {z : Pt | 0 < area2 a b z * k} := by
  intro x hx y hy s t hs ht hst
  simp only [Set.mem_ofPred_eq] at hx hy ⊢
  rw [area2_affine a b x y s t hst]
  rcases hs.lt_or_eq with h | h
  · have := mul_pos h hx
    have := mul_nonneg ht hy.le
    nlinarith
  · have ht1 : t = 1 := by linarith
    rw [← h, ht1]; linarith

/-- A point of the line `a b` near an inner point of the segment is on the segment. -/
theorem near_inner {a b q : Pt} (hq : q ∈ segment ℝ a b) (ha : q ≠ a) (hb : q ≠ b) :
    ∀ᶠ z in 𝓝 q, area2 a b z = 0 → z ∈ segment ℝ a b := by
  obtain ⟨s, s0, s1, hx, hy⟩ := mem_seg.mp hq
  have s0' : 0 < s := by
    rcases s0.lt_or_eq with h | h
    · exact h
    · exact absurd (Prod.ext (by rw [hx, ← h]; ring) (by rw [hy, ← h]; ring)) ha
  have s1' : s < 1 := by
    rcases s1.lt_or_eq with h | h
    · exact h
    · exact absurd (Prod.ext (by rw [hx, h]; ring) (by rw [hy, h]; ring)) hb
  have hab : a ≠ b := by
    rintro rfl
    exact ha (Prod.ext (by rw [hx]; ring) (by rw [hy]; ring))
  have hp := sumsq_pos hab
  set N := (b.1 - a.1) ^ 2 + (b.2 - a.2) ^ 2 with hN
  set r : Pt → ℝ := fun z => (z.1 - a.1) * (b.1 - a.1) + (z.2 - a.2) * (b.2 - a.2) with hr
  have hrc : Continuous r := by rw [hr]; fun_prop
  have hrq : r q = s * N := by simp only [hr, hN]; rw [hx, hy]; ring
  have e1 : ∀ᶠ z in 𝓝 q, 0 < r z := hrc.continuousAt.eventually_const_lt (by rw [hrq]; positivity)
  have e2 : ∀ᶠ z in 𝓝 q, r z < N := hrc.continuousAt.eventually_lt_const (by rw [hrq]; nlinarith)
  filter_upwards [e1, e2] with z z1 z2 h0
  refine mem_seg.mpr ⟨r z / N, div_nonneg z1.le hp.le, (div_le_one hp).mpr z2.le, ?_, ?_⟩
  · unfold area2 at h0
    field_simp
    simp only [hr, hN]
    linear_combination -(b.2 - a.2) * h0
  · unfold area2 at h0
    field_simp
    simp only [hr, hN]
    linear_combination (b.1 - a.1) * h0

theorem edge_sidesAt {u w q : Pt} {t : List Pt} (hq : q ∈ segment ℝ u w) (hu : q ≠ u) (hw : q ≠ w)
    (hr : ∀ f ∈ chainPairs (w :: (t ++ [u])), q ∉ segment ℝ f.1 f.2) : ∃ A B c, SidesAt (u :: w :: t) q A B c := by
  obtain ⟨c, -, h2, h3⟩ := edge_sides hq hu hw hr
  obtain ⟨U, hU, hUq, hUP⟩ := exists_ball (h2.and (h3.and (near_inner hq hu hw)))
  refine ⟨U ∩ {z | 0 < area2 u w z * 1}, U ∩ {z | 0 < area2 u w z * (-1)}, c, (hU.inter (convex_area2_pos u w 1)).isPreconnected,
    (hU.inter (convex_area2_pos u w (-1))).isPreconnected, ?_, ?_, ?_⟩
  · rintro z ⟨z1, z2⟩
    exact (hUP z z1).1 (by simpa using z2)
  · rintro z ⟨z1, z2⟩
    refine (hUP z z1).2.1 ?_
    simp only [Set.mem_ofPred_eq] at z2; linarith
  · filter_upwards [hUq] with z hz ho
    have hne : area2 u w z ≠ 0 := fun h0 => ho ⟨(u, w), by rw [pairs_two]; simp, (hUP z hz).2.2 h0⟩
    rcases lt_or_gt_of_ne hne with h | h
    · exact Or.inr ⟨hz, by simp only [Set.mem_ofPred_eq]; linarith⟩
    · exact Or.inl ⟨hz, by simp only [Set.mem_ofPred_eq]; linarith⟩

theorem near_end {v a : Pt} (h : v ≠ a) : ∀ᶠ z in 𝓝 v, area2 v a z = 0 → ∃ s : ℝ, s < 1 ∧ z.1 = v.1 + s * (a.1 - v.1) ∧ z.2 = v.2 + s * (a.2 - v.2) := by
  have hp := sumsq_pos h
  set N := (a.1 - v.1) ^ 2 + (a.2 - v.2) ^ 2 with hN
  set r : Pt → ℝ := fun z => (z.1 - v.1) * (a.1 - v.1) + (z.2 - v.2) * (a.2 - v.2) with hr
  have hrc : Continuous r := by rw [hr]; fun_prop
  have e2 : ∀ᶠ z in 𝓝 v, r z < N := hrc.continuousAt.eventually_lt_const (by simp only [hr]; linarith)
  filter_upwards [e2] with z z2 h0
  refine ⟨r z / N, (div_lt_one hp).mpr z2, ?_, ?_⟩
  · unfold area2 at h0
    field_simp
    simp only [hr, hN]
    linear_combination -(a.2 - v.2) * h0
  · unfold area2 at h0
    field_simp
    simp only [hr, hN]
    linear_combination (a.1 - v.1) * h0

theorem vertex_sidesAt {u v w : Pt} {t : List Pt} (hr : ∀ f ∈ chainPairs (w :: (t ++ [u])), v ∉ segment ℝ f.1 f.2) (hD : area2 u v w ≠ 0) :
    ∃ A B c, SidesAt (u :: v :: w :: t) v A B c := by
  have memo : ∀ {z}, z ∉ outline (u :: v :: w :: t) → z ∉ segment ℝ u v ∧ z ∉ segment ℝ v w := fun h =>
    ⟨fun hm => h ⟨(u, v), by rw [pairs_three]; simp, hm⟩, fun hm => h ⟨(v, w), by rw [pairs_three]; simp, hm⟩⟩
  have hoff : v ∉ outline (u :: w :: t) := by
    rintro ⟨f, hf, hm⟩
    rw [pairs_two] at hf
    rcases List.mem_cons.mp hf with rfl | hf
    · apply hD
      have := area2_of_mem hm
      rw [show area2 u v w = -area2 u w v by unfold area2; ring, this, neg_zero]
    · exact hr f hf hm
  have hwu : ∀ᶠ z in 𝓝 v, z ∉ segment ℝ w u := by
    refine (isCompact_seg _ _).isClosed.isOpen_compl.mem_nhds fun hm => hoff ⟨(u, w), by rw [pairs_two]; simp, by rw [segment_symm]; exact hm⟩
  have form : ∀ᶠ z in 𝓝 v, z ∉ outline (u :: v :: w :: t) → winding (u :: v :: w :: t) z = winding (u :: w :: t) v + triSign u v w z := by
    filter_upwards [winding_const hoff, hwu] with z z1 z2 hz
    rw [winding_remove (memo hz).1 (memo hz).2 z2, z1]
  have hvu : v ≠ u := by rintro rfl; exact hD (by unfold area2; ring)
  have hvw : v ≠ w := by rintro rfl; exact hD (by unfold area2; ring)
  have n1 : ∀ᶠ z in 𝓝 v, z ∈ segment ℝ u v ↔ area2 u v z = 0 ∧ 0 ≤ area2 v w z * area2 u v w := by
    filter_upwards [near_end hvu] with z hz
    have form : ∀ s : ℝ, z.1 = v.1 + s * (u.1 - v.1) → z.2 = v.2 + s * (u.2 - v.2) → area2 v w z = s * area2 u v w := by
      intro s e1 e2; unfold area2; rw [e1, e2]; ring
    constructor
    · intro hm
      refine ⟨area2_of_mem hm, ?_⟩
      rw [segment_symm] at hm
      obtain ⟨s, s0, s1, e1, e2⟩ := mem_seg.mp hm
      rw [form s e1 e2]; nlinarith [mul_self_nonneg (area2 u v w)]
    · rintro ⟨h0, hp⟩
      obtain ⟨s, s1, e1, e2⟩ := hz (by rw [area2_swap, h0, neg_zero])
      rw [form s e1 e2] at hp
      rw [segment_symm]
      refine mem_seg.mpr ⟨s, ?_, s1.le, e1, e2⟩
      by_contra hs
      nlinarith [mul_self_pos.mpr hD]
  have n2 : ∀ᶠ z in 𝓝 v, z ∈ segment ℝ v w ↔ area2 v w z = 0 ∧ 0 ≤ area2 u v z * area2 u v w := by
    filter_upwards [near_end hvw] with z hz
    have form : ∀ s : ℝ, z.1 = v.1 + s * (w.1 - v.1) → z.2 = v.2 + s * (w.2 - v.2) → area2 u v z = s * area2 u v w := by
      intro s e1 e2; unfold area2; rw [e1, e2]; ring
    constructor
    · intro hm
      refine ⟨area2_of_mem hm, ?_⟩
      obtain ⟨s, s0, s1, e1, e2⟩ := mem_seg.mp hm
      rw [form s e1 e2]; nlinarith [mul_self_nonneg (area2 u v w)]
    · rintro ⟨h0, hp⟩
      obtain ⟨s, s1, e1, e2⟩ := hz h0
      rw [form s e1 e2] at hp
      refine mem_seg.mpr ⟨s, ?_, s1.le, e1, e2⟩
      by_contra hs
      nlinarith [mul_self_pos.mpr hD]
  have n3 : ∀ᶠ z in 𝓝 v, 0 < area2 w u z * area2 u v w := by
    refine ((continuous_area2 w u).mul continuous_const).continuousAt.eventually_const_lt ?_
    change 0 < area2 w u v * area2 u v w
    rw [show area2 w u v = area2 u v w by unfold area2; ring]
    exact mul_self_pos.mpr hD
  obtain ⟨U, hU, hUq, hUP⟩ := exists_ball (form.and (n1.and (n2.and (n3.and (eventually_off hr)))))
  set I : Set Pt := U ∩ ({z | 0 < area2 u v z * area2 u v w} ∩ {z | 0 < area2 v w z * area2 u v w}) with hI
  set O : Set Pt := (U ∩ {z | 0 < area2 u v z * -area2 u v w}) ∪ (U ∩ {z | 0 < area2 v w z * -area2 u v w}) with hO
  have cI : IsPreconnected I := (hU.inter ((convex_area2_pos _ _ _).inter (convex_area2_pos _ _ _))).isPreconnected
  have cO : IsPreconnected O := by
    set m : Pt := (u.1 + w.1 - 2 * v.1, u.2 + w.2 - 2 * v.2) with hm
    have a1 : ∀ ε : ℝ, area2 u v (v + ε • (-m)) = -ε * area2 u v w := by
      intro ε; simp only [hm, area2, Prod.fst_add, Prod.snd_add, Prod.smul_fst, Prod.smul_snd, Prod.fst_neg, Prod.snd_neg, smul_eq_mul]; ring
    have a2 : ∀ ε : ℝ, area2 v w (v + ε • (-m)) = -ε * area2 u v w := by
      intro ε; simp only [hm, area2, Prod.fst_add, Prod.snd_add, Prod.smul_fst, Prod.smul_snd, Prod.fst_neg, Prod.snd_neg, smul_eq_mul]; ring
    obtain ⟨ε, he, hpos⟩ := ((tendsto_dir v (-m)).eventually hUq |>.and self_mem_nhdsWithin).exists
    have hpos : (0 : ℝ) < ε := hpos
    have hDD := mul_pos hpos (mul_self_pos.mpr hD)
    refine IsPreconnected.union (v + ε • (-m)) ⟨he, ?_⟩ ⟨he, ?_⟩ (hU.inter (convex_area2_pos _ _ _)).isPreconnected
      (hU.inter (convex_area2_pos _ _ _)).isPreconnected
    · simp only [Set.mem_ofPred_eq]; rw [a1]; linarith
    · simp only [Set.mem_ofPred_eq]; rw [a2]; linarith
  have out : ∀ z ∈ U, z ∉ segment ℝ u v → z ∉ segment ℝ v w → z ∉ outline (u :: v :: w :: t) := by
    rintro z hz k1 k2 ⟨f, hf, hm⟩
    rw [pairs_three] at hf
    rcases List.mem_cons.mp hf with rfl | hf
    · exact k1 hm
    · rcases List.mem_cons.mp hf with rfl | hf
      · exact k2 hm
      · exact (hUP z hz).2.2.2.2 f hf hm
  have inI : ∀ z ∈ I, z ∉ outline (u :: v :: w :: t) ∧
      winding (u :: v :: w :: t) z = winding (u :: w :: t) v + if 0 < area2 u v w then 1 else -1 := by
    rintro z ⟨hz, k1, k2⟩
    simp only [Set.mem_ofPred_eq] at k1 k2
    obtain ⟨p1, p2, p3, p4, -⟩ := hUP z hz
    have ho := out z hz (fun h => by rw [(p2.mp h).1, zero_mul] at k1; exact lt_irrefl _ k1) (fun h => by rw [(p3.mp h).1, zero_mul] at k2; exact lt_irrefl _ k2)
    refine ⟨ho, ?_⟩
    rw [p1 ho]
    congr 1
    unfold triSign
    rcases lt_or_gt_of_ne hD with hd | hd
    · have s1 : area2 u v z < 0 := by by_contra h; nlinarith
      have s2 : area2 v w z < 0 := by by_contra h; nlinarith
      have s3 : area2 w u z < 0 := by by_contra h; nlinarith
      rw [if_neg (fun k => by linarith [k.1]), if_pos ⟨s1, s2, s3⟩, if_neg (not_lt.mpr hd.le)]
    · have s1 : 0 < area2 u v z := by by_contra h; nlinarith
      have s2 : 0 < area2 v w z := by by_contra h; nlinarith
      have s3 : 0 < area2 w u z := by by_contra h; nlinarith
      rw [if_pos ⟨s1, s2, s3⟩, if_pos hd]
  have inO : ∀ z ∈ O, z ∉ outline (u :: v :: w :: t) ∧ winding (u :: v :: w :: t) z = winding (u :: w :: t) v := by
    intro z hz
    have hzU : z ∈ U := by rcases hz with h | h <;> exact h.1
    obtain ⟨p1, p2, p3, p4, -⟩ := hUP z hzU
    have hor : area2 u v z * area2 u v w < 0 ∨ area2 v w z * area2 u v w < 0 := by
      rcases hz with ⟨-, h⟩ | ⟨-, h⟩
      · left; simp only [Set.mem_ofPred_eq] at h; linarith
      · right; simp only [Set.mem_ofPred_eq] at h; linarith
    have ho := out z hzU (fun h => by
        have := p2.mp h
        rcases hor with k | k
        · rw [this.1, zero_mul] at k; exact lt_irrefl _ k
        · linarith [this.2]) (fun h => by
        have := p3.mp h
        rcases hor with k | k
        · linarith [this.2]
        · rw [this.1, zero_mul] at k; exact lt_irrefl _ k)
    refine ⟨ho, ?_⟩
    rw [p1 ho]
    have : triSign u v w z = 0 := by
      unfold triSign
      rw [if_neg, if_neg]
      · rintro ⟨k1, k2, k3⟩
        have hd : area2 u v w < 0 := by by_contra h; nlinarith
        rcases hor with k | k <;> nlinarith
      · rintro ⟨k1, k2, k3⟩
        have hd : 0 < area2 u v w := by by_contra h; nlinarith
        rcases hor with k | k <;> nlinarith
    rw [this, add_zero]
  have hall : ∀ z ∈ U, z ∉ outline (u :: v :: w :: t) → z ∈ I ∨ z ∈ O := by
    intro z hz ho
    obtain ⟨p1, p2, p3, p4, -⟩ := hUP z hz
    obtain ⟨m1, m2⟩ := memo ho
    rw [p2] at m1
    rw [p3] at m2
    by_cases k1 : area2 u v z * area2 u v w < 0
    · exact Or.inr (Or.inl ⟨hz, by simp only [Set.mem_ofPred_eq]; linarith⟩)
    by_cases k2 : area2 v w z * area2 u v w < 0
    · exact Or.inr (Or.inr ⟨hz, by simp only [Set.mem_ofPred_eq]; linarith⟩)
    push Not at k1 k2
    left
    refine ⟨hz, ?_, ?_⟩
    · rcases k1.lt_or_eq with h | h
      · exact h
      · exact absurd ⟨(mul_eq_zero.mp h.symm).resolve_right hD, k2⟩ m1
    · rcases k2.lt_or_eq with h | h
      · exact h
      · exact absurd ⟨(mul_eq_zero.mp h.symm).resolve_right hD, k1⟩ m2
  rcases lt_or_gt_of_ne hD with hd | hd
  · refine ⟨O, I, winding (u :: w :: t) v - 1, cO, cI, ?_, ?_, ?_⟩
    · intro z hz; rw [(inO z hz).2]; exact ⟨(inO z hz).1, by ring⟩
    · intro z hz; rw [(inI z hz).2, if_neg (not_lt.mpr hd.le)]; exact ⟨(inI z hz).1, rfl⟩
    · filter_upwards [hUq] with z hz ho
      exact (hall z hz ho).symm
  · refine ⟨I, O, winding (u :: w :: t) v, cI, cO, ?_, ?_, ?_⟩
    · intro z hz; rw [(inI z hz).2, if_pos hd]; exact ⟨(inI z hz).1, rfl⟩
    · intro z hz; rw [(inO z hz).2]; exact ⟨(inO z hz).1, rfl⟩
    · filter_upwards [hUq] with z hz ho
      exact hall z hz ho


theorem Spec.Simple.sidesAt {l : List Pt} (S : Simple l) {q : Pt} (hq : q ∈ outline l) : ∃ A B c, SidesAt l q A B c := by
  refine S.locally (P := fun l q => ∃ A B c, SidesAt l q A B c) ?_ (fun _ _ _ _ h1 h2 h3 h4 => edge_sidesAt h1 h2 h3 h4) ?_ hq
  · rintro l n q ⟨A, B, c, h1, h2, h3, h4, h5⟩
    rw [winding_rotate, outline_rotate] at h3 h4
    rw [outline_rotate] at h5
    exact ⟨A, B, c, h1, h2, h3, h4, h5⟩
  · intro u v w t hr h0
    by_cases hD : area2 u v w = 0
    · obtain ⟨hs, hu, hw⟩ := h0 hD
      obtain ⟨A, B, c, h1, h2, h3, h4, h5⟩ := edge_sidesAt hs hu hw hr
      rw [← outline_between hs] at h3 h4 h5
      refine ⟨A, B, c, h1, h2, fun z hz => ⟨(h3 z hz).1, ?_⟩, fun z hz => ⟨(h4 z hz).1, ?_⟩, h5⟩
      · rw [winding_between hs (h3 z hz).1]; exact (h3 z hz).2
      · rw [winding_between hs (h4 z hz).1]; exact (h4 z hz).2
    · exact vertex_sidesAt hr hD

/-- Points off the outline with the same winding number are connected off the outline. -/
theorem simple_connected {l : List Pt} (S : Simple l) {x y : Pt} (hx : x ∉ outline l) (hy : y ∉ outline l) (h : winding l x = winding l y) :
    connectedComponentIn (outline l)ᶜ x = connectedComponentIn (outline l)ᶜ y := by
  classical
  obtain ⟨c, -, hnear, hval⟩ := simple_winding S
  -- one of the two values
  have key : ∀ d : ℤ, (d = c ∨ d = c + 1) → ∃ K : Set Pt, ∀ z, z ∉ outline l → winding l z = d → connectedComponentIn (outline l)ᶜ z = K := by
    intro d hd
    -- a connected set near each point of the outline
    have loc : ∀ q ∈ outline l, ∃ A : Set Pt, IsPreconnected A ∧ A ⊆ (outline l)ᶜ ∧ ∀ᶠ z in 𝓝 q, z ∉ outline l → winding l z = d → z ∈ A := by
      intro q hq
      obtain ⟨A, B, c', h1, h2, h3, h4, h5⟩ := S.sidesAt hq
      have hc : c' = c := by
        refine (NearLine.unique (q := q) (c := c') ?_ (hnear q hq).low (hnear q hq).high).symm
        filter_upwards [h5] with z hz ho
        rcases hz ho with k | k
        · exact Or.inr (h3 z k).2
        · exact Or.inl (h4 z k).2
      subst hc
      rcases hd with rfl | rfl
      · refine ⟨B, h2, fun z hz => (h4 z hz).1, ?_⟩
        filter_upwards [h5] with z hz ho hw
        rcases hz ho with k | k
        · have := (h3 z k).2; omega
        · exact k
      · refine ⟨A, h1, fun z hz => (h3 z hz).1, ?_⟩
        filter_upwards [h5] with z hz ho hw
        rcases hz ho with k | k
        · exact k
        · have := (h4 z k).2; omega
    have freq : ∀ q ∈ outline l, ∃ᶠ z in 𝓝 q, z ∉ outline l ∧ winding l z = d := by
      intro q hq
      rcases hd with rfl | rfl
      · exact (hnear q hq).low
      · exact (hnear q hq).high
    choose! A hA1 hA2 hA3 using loc
    have same : ∀ q ∈ outline l, ∀ z ∈ A q, ∀ z' ∈ A q, connectedComponentIn (outline l)ᶜ z = connectedComponentIn (outline l)ᶜ z' := by
      intro q hq z hz z' hz'
      exact connectedComponentIn_eq ((hA1 q hq).subset_connectedComponentIn hz' (hA2 q hq) hz) |>.symm
    have hpt : ∀ q ∈ outline l, ∃ a, a ∈ A q := by
      intro q hq
      obtain ⟨z, ⟨h1, h2⟩, h3⟩ := ((freq q hq).and_eventually (hA3 q hq)).exists
      exact ⟨z, h3 h1 h2⟩
    choose! a ha using hpt
    -- neighbouring points of the outline have the same component
    have nbr : ∀ q ∈ outline l, ∀ᶠ q' in 𝓝[outline l] q, connectedComponentIn (outline l)ᶜ (a q) = connectedComponentIn (outline l)ᶜ (a q') := by
      intro q hq
      filter_upwards [nhdsWithin_le_nhds (eventually_eventually_nhds.mpr (hA3 q hq)), self_mem_nhdsWithin] with q' h1 hq'
      obtain ⟨z, ⟨⟨z1, z2⟩, z3⟩, z4⟩ := (((freq q' hq').and_eventually (hA3 q' hq')).and_eventually h1).exists
      rw [same q hq _ (ha q hq) z (z4 z1 z2), same q' hq' _ (ha q' hq') z (z3 z1 z2)]
    by_cases hne : (outline l).Nonempty
    · obtain ⟨q₀, hq₀⟩ := hne
      refine ⟨connectedComponentIn (outline l)ᶜ (a q₀), fun z hz hw => ?_⟩
      obtain ⟨q, hq, hfr⟩ := reach_outline ⟨q₀, hq₀⟩ hz
      obtain ⟨y, ⟨⟨y1, y2⟩, y3⟩, y4⟩ := (hfr.and_eventually (hA3 q hq)).exists
      have e1 := (preconnected_outline l).induction₂ (fun q q' => connectedComponentIn (outline l)ᶜ (a q) = connectedComponentIn (outline l)ᶜ (a q'))
        nbr (fun _ _ _ _ _ _ h1 h2 => h1.trans h2) (fun _ _ _ _ h => h.symm) hq₀ hq
      rw [e1, same q hq _ (ha q hq) y (y4 y1 (y2.trans hw)), connectedComponentIn_eq y3]
    · exfalso
      obtain ⟨n, hn⟩ : ∃ v, v ∈ l := by
        have := S.three
        match l with
        | [] => simp at this
        | v :: _ => exact ⟨v, by simp⟩
      refine hne ⟨n, ?_⟩
      by_contra hc
      exact notMem_of_outline hc hn
  obtain ⟨K, hK⟩ := key (winding l x) (hval x hx)
  rw [hK x hx rfl, hK y hy h.symm]


/-! ## C168 -/

theorem odd_winding {l : List Pt} {z : Pt} (h : z ∉ outline l) :
    Odd (Spec.count (fun e : Pt × Pt => Crosses z e.1 e.2) (cyclicPairs l)) ↔ Odd (winding l z) := by
  have key : ∀ E : List (Pt × Pt), (∀ e ∈ E, e ∈ cyclicPairs l) →
      (Spec.count (fun e : Pt × Pt => Crosses z e.1 e.2) E % 2 : ℤ) = ((E.map fun e => wn z e.1 e.2).sum) % 2 := by
    intro E
    induction E with
    | nil => intro _; simp
    | cons e E ih =>
      intro hE
      have ih := ih fun e he => hE e (List.mem_cons_of_mem _ he)
      have he : z ∉ segment ℝ e.1 e.2 := fun hm => h ⟨e, hE e List.mem_cons_self, hm⟩
      classical
      rw [count_cons]
      simp only [List.map_cons, List.sum_cons]
      have hc : Crosses z e.1 e.2 ↔ wn z e.1 e.2 = 1 ∨ wn z e.1 e.2 = -1 := by
        rw [crosses_iff]
        unfold wn
        constructor
        · rintro (⟨h1, h2, h3⟩ | ⟨h1, h2, h3⟩)
          · rw [if_pos ⟨h1, h2, lt_of_le_of_ne h3 (area2_ne_of_height he h1 h2).symm⟩]; left; rfl
          · rw [segment_symm] at he
            have h4 : area2 e.1 e.2 z ≠ 0 := by
              rw [area2_swap]; exact neg_ne_zero.mpr (area2_ne_of_height he h1 h2)
            rw [if_neg (fun k => by linarith [k.1]), if_pos ⟨h1, h2, lt_of_le_of_ne h3 h4⟩]; right; rfl
        · intro hh
          split_ifs at hh with k1 k2
          · exact Or.inl ⟨k1.1, k1.2.1, k1.2.2.le⟩
          · exact Or.inr ⟨k2.1, k2.2.1, k2.2.2.le⟩
          · rcases hh with hh | hh <;> norm_num at hh
      have hv : wn z e.1 e.2 = 1 ∨ wn z e.1 e.2 = -1 ∨ wn z e.1 e.2 = 0 := by
        unfold wn; split_ifs <;> simp
      by_cases hcr : Crosses z e.1 e.2
      · rw [if_pos hcr]
        push_cast
        rcases hc.mp hcr with k | k <;> rw [k] <;> omega
      · rw [if_neg hcr]
        have : wn z e.1 e.2 = 0 := by
          rcases hv with k | k | k
          · exact absurd (hc.mpr (Or.inl k)) hcr
          · exact absurd (hc.mpr (Or.inr k)) hcr
          · exact k
        rw [this]; push_cast; omega
  have := key _ fun e he => he
  rw [Nat.odd_iff, Int.odd_iff]
  unfold winding
  omega

theorem winding_component {l : List Pt} {z y : Pt} (hy : y ∈ connectedComponentIn (outline l)ᶜ z) : y ∉ outline l ∧ winding l y = winding l z := by
  have hsub := connectedComponentIn_subset (outline l)ᶜ z
  have hz : z ∈ (outline l)ᶜ := by
    by_contra hc
    rw [connectedComponentIn_eq_empty hc] at hy
    exact hy
  refine ⟨hsub hy, ?_⟩
  refine isPreconnected_connectedComponentIn.constant (f := winding l) ?_ hy (mem_connectedComponentIn hz)
  intro r hr
  exact (tendsto_const_nhds.congr' ((winding_const (hsub hr)).mono fun _ h => h.symm)).mono_left nhdsWithin_le_nhds

theorem Spec.Simple.edge_ne {l : List Pt} (S : Simple l) {e : Pt × Pt} (he : e ∈ cyclicPairs l) : e.1 ≠ e.2 := by
  obtain ⟨n, t, hn⟩ := rotate_edge he (by have := S.three; omega)
  have := (S.rotate n).nodup
  rw [hn] at this
  intro h
  rw [h] at this
  simp at this

theorem contains_iff_winding (poly : Poly ℝ) (p : Vec ℝ) (h : p.pt ∉ outline poly.pts) :
    poly.contains p true = true ↔ Odd (winding poly.pts p.pt) := by
  rw [C73_odd poly p h, Poly.crossings, odd_winding h]

theorem Spec.Simple.contains_iff {poly : Poly ℝ} (S : Simple poly.pts) (p : Vec ℝ) (h : p.pt ∉ outline poly.pts) (allow : Bool) :
    poly.contains p allow = true ↔ winding poly.pts p.pt ≠ 0 := by
  have hstrict : poly.contains p false = poly.contains p true := by
    apply C73_strict_partial poly p h
    intro e he
    have : (e.1.pt, e.2.pt) ∈ cyclicPairs poly.pts := by
      unfold Poly.pts
      rw [cyclicPairs_map]
      exact List.mem_map.mpr ⟨e, he, rfl⟩
    exact S.edge_ne this
  have h1 : poly.contains p allow = true ↔ Odd (winding poly.pts p.pt) := by
    rw [← contains_iff_winding poly p h]
    cases allow
    · rw [hstrict]
    · exact Iff.rfl
  rw [h1]
  obtain ⟨c, hc, -, hv⟩ := simple_winding S
  have := hv p.pt h
  rw [Int.odd_iff]
  omega

/-- **C168**, for every polygon: a contained point off the outline is enclosed by the outline, that is, in a bounded component of
its complement. -/
theorem C168_enclosed (poly : Poly ℝ) (p : Vec ℝ) (h : p.pt ∉ outline poly.pts) (hc : poly.contains p true = true) :
    Bornology.IsBounded (connectedComponentIn (outline poly.pts)ᶜ p.pt) := by
  rw [contains_iff_winding poly p h] at hc
  obtain ⟨M, hM⟩ : ∃ M : ℝ, ∀ v ∈ poly.pts, v ∈ box (-M) M (-M) M := by
    generalize poly.pts = l
    induction l with
    | nil => exact ⟨0, by simp⟩
    | cons a t ih =>
      obtain ⟨M, hM⟩ := ih
      refine ⟨max M (max |a.1| |a.2|), fun v hv => ?_⟩
      rcases List.mem_cons.mp hv with rfl | hv
      · have h1 : |v.1| ≤ max M (max |v.1| |v.2|) := (le_max_left _ _).trans (le_max_right _ _)
        have h2 : |v.2| ≤ max M (max |v.1| |v.2|) := (le_max_right _ _).trans (le_max_right _ _)
        rw [abs_le] at h1 h2
        exact ⟨h1.1, h1.2, h2.1, h2.2⟩
      · obtain ⟨h1, h2, h3, h4⟩ := hM v hv
        have := le_max_left M (max |a.1| |a.2|)
        exact ⟨by linarith, by linarith, by linarith, by linarith⟩
  refine (Metric.isBounded_closedBall (x := (0 : Pt)) (r := |M|)).subset fun y hy => ?_
  obtain ⟨h1, h2⟩ := winding_component hy
  have hb : y ∈ box (-M) M (-M) M := by
    by_contra hb
    have := even_outside hM hb
    rw [odd_winding h1, h2] at this
    exact this hc
  obtain ⟨b1, b2, b3, b4⟩ := hb
  rw [mem_closedBall_zero_iff, Prod.norm_def]
  have := le_abs_self M
  exact max_le (abs_le.mpr ⟨by linarith, by linarith⟩) (abs_le.mpr ⟨by linarith, by linarith⟩)

/-- **C168** A point off the outline of a simple polygon is contained exactly if it is enclosed by the outline. -/
theorem C168_inside (poly : Poly ℝ) (S : Simple poly.pts) (p : Vec ℝ) (h : p.pt ∉ outline poly.pts) (allow : Bool) :
    poly.contains p allow = true ↔ Bornology.IsBounded (connectedComponentIn (outline poly.pts)ᶜ p.pt) := by
  have e : poly.contains p allow = true ↔ poly.contains p true = true := by rw [S.contains_iff p h, S.contains_iff p h]
  rw [e]
  refine ⟨C168_enclosed poly p h, fun hb => ?_⟩
  rw [S.contains_iff p h]
  intro h0
  obtain ⟨R, hR⟩ := hb.subset_closedBall (0 : Pt)
  obtain ⟨z, z1, z2, z3⟩ := winding_far poly.pts (R + 1)
  have hz : z ∈ connectedComponentIn (outline poly.pts)ᶜ p.pt := by
    rw [simple_connected S h z2 (h0.trans z3.symm)]
    exact mem_connectedComponentIn z2
  have := hR hz
  rw [mem_closedBall_zero_iff, Prod.norm_def] at this
  have := (le_max_right _ _).trans this
  have := le_abs_self z.2
  rw [Real.norm_eq_abs] at *
  linarith

/-- The points off the outline with a given winding number, if it is taken near the outline. -/
theorem simple_piece {l : List Pt} (S : Simple l) {c : ℤ} (hq : ∀ q ∈ outline l, ∃ᶠ z in 𝓝 q, z ∉ outline l ∧ winding l z = c) :
    IsConnected {z : Pt | z ∉ outline l ∧ winding l z = c} ∧ IsOpen {z : Pt | z ∉ outline l ∧ winding l z = c} ∧
    frontier {z : Pt | z ∉ outline l ∧ winding l z = c} = outline l := by
  have hne : (outline l).Nonempty := by
    have h3 := S.three
    match l with
    | a :: b :: t => exact ⟨a, (a, b), by simp [cyclicPairs, chainPairs], left_mem_segment ..⟩
  obtain ⟨q₀, hq₀⟩ := hne
  obtain ⟨z₀, hz₀, hc₀⟩ := (hq q₀ hq₀).exists
  have heq : {z : Pt | z ∉ outline l ∧ winding l z = c} = connectedComponentIn (outline l)ᶜ z₀ := by
    ext z
    constructor
    · rintro ⟨h1, h2⟩
      rw [← simple_connected S h1 hz₀ (h2.trans hc₀.symm)]
      exact mem_connectedComponentIn h1
    · intro h
      obtain ⟨h1, h2⟩ := winding_component h
      exact ⟨h1, h2.trans hc₀⟩
  have hopen : IsOpen {z : Pt | z ∉ outline l ∧ winding l z = c} := by
    rw [isOpen_iff_mem_nhds]
    rintro z ⟨h1, h2⟩
    filter_upwards [(isCompact_outline l).isClosed.isOpen_compl.mem_nhds h1, winding_const h1] with y hy hw
    exact ⟨hy, hw.trans h2⟩
  refine ⟨?_, hopen, ?_⟩
  · rw [heq]
    exact isConnected_connectedComponentIn_iff.mpr hz₀
  · rw [hopen.frontier_eq]
    ext q
    constructor
    · rintro ⟨h1, h2⟩
      by_contra hn
      apply h2
      refine ⟨hn, ?_⟩
      obtain ⟨y, ⟨-, hyc⟩, hy⟩ := ((mem_closure_iff_frequently.mp h1).and_eventually (winding_const hn)).exists
      exact hy.symm.trans hyc
    · intro h
      exact ⟨mem_closure_iff_frequently.mpr (hq q h), fun k => k.1 h⟩

/-- **C168** The points off the outline that a simple polygon contains form one connected open piece, so do the others, the outline is the
boundary of both, and the contained piece is the bounded one. -/
theorem C168_two_sides (poly : Poly ℝ) (S : Simple poly.pts) (allow : Bool) :
    let inside := {z : Pt | z ∉ outline poly.pts ∧ poly.contains (Vec.ofXY z.1 z.2) allow = true}
    let outside := {z : Pt | z ∉ outline poly.pts ∧ poly.contains (Vec.ofXY z.1 z.2) allow = false}
    (IsConnected inside ∧ IsOpen inside ∧ frontier inside = outline poly.pts) ∧
    (IsConnected outside ∧ IsOpen outside ∧ frontier outside = outline poly.pts) ∧
    Bornology.IsBounded inside ∧ ¬ Bornology.IsBounded outside := by
  intro inside outside
  obtain ⟨c, hc, hn, hv⟩ := simple_winding S
  have hin : ∀ z, z ∉ outline poly.pts → (poly.contains (Vec.ofXY z.1 z.2) allow = true ↔ winding poly.pts z ≠ 0) :=
    fun z hz => S.contains_iff (Vec.ofXY z.1 z.2) hz allow
  have e1 : inside = {z : Pt | z ∉ outline poly.pts ∧ winding poly.pts z = 2 * c + 1} := by
    ext z
    refine and_congr_right fun hz => ?_
    rw [hin z hz]
    have := hv z hz
    omega
  have e2 : outside = {z : Pt | z ∉ outline poly.pts ∧ winding poly.pts z = 0} := by
    ext z
    refine and_congr_right fun hz => ?_
    rw [← Bool.not_eq_true, hin z hz, not_not]
  have p1 := simple_piece S (c := 2 * c + 1) (fun q hq => by
    rcases hc with rfl | rfl
    · exact (hn q hq).high
    · exact (hn q hq).low)
  have p2 := simple_piece S (c := 0) (fun q hq => by
    rcases hc with rfl | rfl
    · exact (hn q hq).low
    · exact (hn q hq).high)
  refine ⟨by rw [e1]; exact p1, by rw [e2]; exact p2, ?_, ?_⟩
  · obtain ⟨z, hz⟩ := (e1 ▸ p1.1.nonempty : inside.Nonempty)
    refine ((C168_inside poly S (Vec.ofXY z.1 z.2) hz.1 allow).mp hz.2).subset ?_
    exact (e1 ▸ p1.1.isPreconnected : IsPreconnected inside).subset_connectedComponentIn hz fun y hy => hy.1
  · intro hb
    obtain ⟨R, hR⟩ := hb.subset_closedBall (0 : Pt)
    obtain ⟨z, z1, z2, z3⟩ := winding_far poly.pts (R + 1)
    have := hR (show z ∈ outside by rw [e2]; exact ⟨z2, z3⟩)
    rw [mem_closedBall_zero_iff, Prod.norm_def] at this
    have := (le_max_right _ _).trans this
    have := le_abs_self z.2
    rw [Real.norm_eq_abs] at *
    linarith

theorem dart_simple : Simple (Poly.ofList dart).pts := by
  have hp : cyclicPairs (Poly.ofList dart).pts =
      [((0, 0), (4, 0)), ((4, 0), (1, 1)), ((1, 1), (0, 4)), (((0, 4), (0, 0)) : Pt × Pt)] := rfl
  refine ⟨by decide, ?_, ?_⟩
  · norm_num [Poly.pts, Poly.ofList, dart, Vec.pt]
  · rw [hp]
    intro e he f hf hne z hz hz'
    simp only [List.mem_cons, List.not_mem_nil, or_false] at he hf
    obtain ⟨x, y⟩ := z
    rcases he with rfl | rfl | rfl | rfl <;> rcases hf with rfl | rfl | rfl | rfl <;>
      first
      | exact absurd rfl hne
      | (obtain ⟨s, s0, s1, h1, h2⟩ := mem_seg.mp hz
         obtain ⟨t, t0, t1, h3, h4⟩ := mem_seg.mp hz'
         simp only [sub_zero, zero_sub, zero_add, mul_zero, add_zero] at h1 h2 h3 h4
         simp only [Prod.mk.injEq]
         first
         | (left; refine ⟨⟨?_, ?_⟩, ?_, ?_⟩ <;> linarith)
         | (right; refine ⟨⟨?_, ?_⟩, ?_, ?_⟩ <;> linarith)
         | (exfalso; linarith))

/-- Non-vacuity of C168: the dart, which is not convex, encloses `(2, 1/2)` and not the point `(2, 2)` of its notch. -/
example : Bornology.IsBounded (connectedComponentIn (outline (Poly.ofList dart).pts)ᶜ (2, 1 / 2)) ↔
    (Poly.ofList dart).contains ⟨2, 1 / 2, true⟩ true = true :=
  (C168_inside _ dart_simple ⟨2, 1 / 2, true⟩ (dart_off (by norm_num) (by norm_num) (by norm_num) (by norm_num)) true).symm

/-- `Simple` is needed in C168: a triangle run through twice encloses `(1, 1)` and does not contain it. -/
theorem C168_needs_simple : ∃ (poly : Poly ℝ) (p : Vec ℝ), p.pt ∉ outline poly.pts ∧ poly.contains p true = false ∧
    Bornology.IsBounded (connectedComponentIn (outline poly.pts)ᶜ p.pt) := by
  let l : List (Vec ℝ) := [⟨0, 0, true⟩, ⟨4, 0, true⟩, ⟨0, 4, true⟩]
  have e1 : cyclicPairs (Poly.ofList l).pts = [((0, 0), (4, 0)), ((4, 0), (0, 4)), (((0, 4), (0, 0)) : Pt × Pt)] := rfl
  have e2 : cyclicPairs (Poly.ofList (l ++ l)).pts = [((0, 0), (4, 0)), ((4, 0), (0, 4)), (((0, 4), (0, 0)) : Pt × Pt),
    ((0, 0), (4, 0)), ((4, 0), (0, 4)), (((0, 4), (0, 0)) : Pt × Pt)] := rfl
  have ho : outline (Poly.ofList (l ++ l)).pts = outline (Poly.ofList l).pts := by
    unfold outline
    rw [e1, e2]
    ext z
    simp only [List.mem_cons, List.not_mem_nil, or_false, Set.mem_ofPred_eq]
    constructor
    · rintro ⟨e, he, hz⟩
      exact ⟨e, by tauto, hz⟩
    · rintro ⟨e, he, hz⟩
      exact ⟨e, by tauto, hz⟩
  have hoff : ((1, 1) : Pt) ∉ outline (Poly.ofList l).pts := by
    rintro ⟨e, he, hz⟩
    rw [e1] at he
    simp only [List.mem_cons, List.not_mem_nil, or_false] at he
    rcases he with rfl | rfl | rfl <;> exact notMem_of_area2 (by norm_num [area2]) hz
  have w1 : winding (Poly.ofList l).pts (1, 1) = 1 := by
    unfold winding
    rw [e1]
    norm_num [wn, area2]
  have w2 : winding (Poly.ofList (l ++ l)).pts (1, 1) = 2 := by
    unfold winding
    rw [e2]
    norm_num [wn, area2]
  refine ⟨Poly.ofList (l ++ l), ⟨1, 1, true⟩, by rw [ho]; exact hoff, ?_, ?_⟩
  · rw [← Bool.not_eq_true, contains_iff_winding _ _ (by rw [ho]; exact hoff)]
    change ¬ Odd (winding (Poly.ofList (l ++ l)).pts (1, 1))
    rw [w2]; decide
  · rw [ho]
    apply C168_enclosed (Poly.ofList l) ⟨1, 1, true⟩ hoff
    rw [contains_iff_winding _ _ hoff]
    change Odd (winding (Poly.ofList l).pts (1, 1))
    rw [w1]; decide

end PyrusGeom
