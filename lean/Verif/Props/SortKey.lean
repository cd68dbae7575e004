import Verif.Model.Wrappers
import Verif.Props.Graham

/-! # Property C115: the sort key of convex_hull.py -/

namespace PyrusGeom
open Spec
namespace Hull

theorem cmp_cases (a b base : Vec ℝ) : angleSortPredicate a b base = -1 ∨ angleSortPredicate a b base = 1 := by
  unfold angleSortPredicate
  simp only
  split_ifs <;> simp

theorem dist2_pt (a b : Vec ℝ) : a.dist2 b = (b.x - a.x) ^ 2 + (b.y - a.y) ^ 2 := by
  simp [Vec.dist2, PyrusGeom.sq]; ring

/-- **C115**, what the key always satisfies: of `<` and `>` exactly one holds, `<=` is `<`, `>=` is `>`. -/
theorem C115_total_partial (s o : SortKey ℝ) :
    (s.lt o = true ↔ s.gt o = false) ∧ s.le o = s.lt o ∧ s.ge o = s.gt o := by
  rcases cmp_cases s.obj o.obj s.base with h | h <;>
    simp [SortKey.lt, SortKey.gt, SortKey.le, SortKey.ge, h]

/-- **C115 is false**: no key equals itself, every key is greater than itself. -/
theorem C115_reflexive_refuted (s o : SortKey ℝ) : s.eq o = false ∧ s.ne o = true ∧ s.gt s = true := by
  have hE := EPSILON_pos
  refine ⟨?_, ?_, ?_⟩
  · rcases cmp_cases s.obj o.obj s.base with h | h <;> simp [SortKey.eq, h]
  · rcases cmp_cases s.obj o.obj s.base with h | h <;> simp [SortKey.ne, h]
  · have h0 : area2 s.base.pt s.obj.pt s.obj.pt = 0 := by unfold area2; ring
    simp [SortKey.gt, angleSortPredicate, Tri.dsa_real, h0, hE]

/-- **C115**, points off a common line with the base: `a < b` exactly if base, a, b turn clockwise, and then `b > a`. -/
theorem C115_orientation_partial (a b base : Vec ℝ) (h : EPSILON ≤ |area2 base.pt a.pt b.pt|) :
    ((⟨a, base⟩ : SortKey ℝ).lt ⟨b, base⟩ = true ↔ area2 base.pt a.pt b.pt < 0) ∧
    ((⟨a, base⟩ : SortKey ℝ).lt ⟨b, base⟩ = (⟨b, base⟩ : SortKey ℝ).gt ⟨a, base⟩) := by
  have hE := EPSILON_pos
  have hs : area2 base.pt b.pt a.pt = -area2 base.pt a.pt b.pt := by unfold area2; ring
  simp only [SortKey.lt, SortKey.gt, angleSortPredicate, Tri.dsa_real, Nat.cast_zero, hs]
  rcases le_abs.mp h with h1 | h1
  · have h2 : ¬ area2 base.pt a.pt b.pt < 0 := by linarith
    have h3 : -area2 base.pt a.pt b.pt < 0 := by linarith
    have h4 : ¬ area2 base.pt a.pt b.pt < EPSILON := not_lt.mpr h1
    simp [h2, h3, h4]
  · have h2 : area2 base.pt a.pt b.pt < 0 := by linarith
    have h3 : ¬ -area2 base.pt a.pt b.pt < 0 := by linarith
    have h4 : ¬ -area2 base.pt a.pt b.pt < EPSILON := not_lt.mpr h1
    simp only [h2, h3, h4, if_true, if_false]
    simp

/-- **C115**, points on a line through the base: above the base the farther one comes first, elsewhere the nearer one. -/
theorem C115_collinear_partial (a b base : Vec ℝ) (h : area2 base.pt a.pt b.pt = 0) :
    ((⟨a, base⟩ : SortKey ℝ).lt ⟨b, base⟩ = true ↔
      if base.y < a.y then (b.x - base.x) ^ 2 + (b.y - base.y) ^ 2 < (a.x - base.x) ^ 2 + (a.y - base.y) ^ 2
      else (a.x - base.x) ^ 2 + (a.y - base.y) ^ 2 < (b.x - base.x) ^ 2 + (b.y - base.y) ^ 2) := by
  have hE := EPSILON_pos
  simp only [SortKey.lt, angleSortPredicate, Tri.dsa_real, Nat.cast_zero, h, lt_irrefl, if_false, hE, if_true,
    dist2_pt]
  split_ifs <;> simp_all

/-- **C115**, in an open half plane with the base on its boundary (here: strictly on the left of the direction `d`) and off common
lines, the key is a strict linear order: transitive and total, so that sorting means the clockwise order around the base. -/
theorem C115_half_plane_partial (l : List (Vec ℝ)) (base : Vec ℝ) (d : Pt)
    (hd : ∀ a ∈ l, 0 < d.1 * (a.y - base.y) - d.2 * (a.x - base.x))
    (hg : l.Pairwise fun a b => EPSILON ≤ |area2 base.pt a.pt b.pt|) :
    (∀ a ∈ l, ∀ b ∈ l, a ≠ b →
      ((⟨a, base⟩ : SortKey ℝ).lt ⟨b, base⟩ = true ↔ (⟨b, base⟩ : SortKey ℝ).lt ⟨a, base⟩ = false)) ∧
    (∀ a ∈ l, ∀ b ∈ l, ∀ c ∈ l, (⟨a, base⟩ : SortKey ℝ).lt ⟨b, base⟩ = true →
      (⟨b, base⟩ : SortKey ℝ).lt ⟨c, base⟩ = true → (⟨a, base⟩ : SortKey ℝ).lt ⟨c, base⟩ = true) := by
  have hE := EPSILON_pos
  have hs : ∀ a b : Vec ℝ, area2 base.pt b.pt a.pt = -area2 base.pt a.pt b.pt := by intro a b; unfold area2; ring
  have hg' : ∀ a ∈ l, ∀ b ∈ l, a ≠ b → EPSILON ≤ |area2 base.pt a.pt b.pt| := by
    haveI : Std.Symm (fun a b : Vec ℝ => EPSILON ≤ |area2 base.pt a.pt b.pt|) :=
      ⟨fun x y h => by rw [hs, abs_neg]; exact h⟩
    exact fun a ha b hb hab => hg.forall ha hb hab
  have hself : ∀ a : Vec ℝ, (⟨a, base⟩ : SortKey ℝ).lt ⟨a, base⟩ = false := by
    intro a
    have h1 := (C115_total_partial ⟨a, base⟩ ⟨a, base⟩).1
    have h2 := (C115_reflexive_refuted ⟨a, base⟩ ⟨a, base⟩).2.2
    by_contra h
    rw [Bool.not_eq_false] at h
    rw [h1.mp h] at h2
    cases h2
  have hlt : ∀ a ∈ l, ∀ b ∈ l, ((⟨a, base⟩ : SortKey ℝ).lt ⟨b, base⟩ = true ↔ area2 base.pt a.pt b.pt < 0) := by
    intro a ha b hb
    by_cases hab : a = b
    · subst hab
      have h0 : area2 base.pt a.pt a.pt = 0 := by unfold area2; ring
      simp [hself, h0]
    · exact (C115_orientation_partial a b base (hg' a ha b hb hab)).1
  refine ⟨?_, ?_⟩
  · intro a ha b hb hab
    rw [hlt a ha b hb, ← Bool.not_eq_true, hlt b hb a ha, hs a b]
    have := hg' a ha b hb hab
    constructor
    · intro h; linarith
    · intro h
      rcases le_abs.mp this with h1 | h1 <;> linarith
  · intro a ha b hb c hc h1 h2
    rw [hlt a ha b hb] at h1
    rw [hlt b hb c hc] at h2
    rw [hlt a ha c hc]
    have da := hd a ha
    have db := hd b hb
    have dc := hd c hc
    have key : area2 base.pt a.pt c.pt * (d.1 * (b.y - base.y) - d.2 * (b.x - base.x)) =
        area2 base.pt a.pt b.pt * (d.1 * (c.y - base.y) - d.2 * (c.x - base.x)) +
        area2 base.pt b.pt c.pt * (d.1 * (a.y - base.y) - d.2 * (a.x - base.x)) := by
      simp only [area2, Vec.pt]; ring
    by_contra h
    have := mul_nonneg (not_lt.mp h) db.le
    nlinarith [mul_neg_of_neg_of_pos h1 dc, mul_neg_of_neg_of_pos h2 da]

/-- The hypotheses hold for three points below the base, sorted from left to right. -/
example : ∃ l : List (Vec ℝ), l.length = 3 ∧ (∀ a ∈ l, 0 < (-1 : ℝ) * (a.y - 0) - 0 * (a.x - 0)) ∧
    (l.Pairwise fun a b => EPSILON ≤ |area2 (0, 0) a.pt b.pt|) ∧
    (l.Pairwise fun a b => (⟨b, Vec.zero⟩ : SortKey ℝ).lt ⟨a, Vec.zero⟩ = true) := by
  refine ⟨[⟨-4, -1, true⟩, ⟨0, -1, true⟩, ⟨4, -2, true⟩], rfl, ?_, ?_, ?_⟩
  · simp
  · rw [EPSILON_real]; norm_num [area2, Vec.pt, abs_of_nonneg, abs_of_neg]
  · norm_num [SortKey.lt, angleSortPredicate, Tri.dsa, Vec.zero, EPSILON_real, Vec.dist2]

/-- **C115 is false** for antisymmetry: (0,2) and (0,-1) are each less than the other. -/
theorem C115_antisymmetric_refuted :
    (⟨⟨0, 2, true⟩, Vec.zero⟩ : SortKey ℝ).lt ⟨⟨0, -1, true⟩, Vec.zero⟩ = true ∧
    (⟨⟨0, -1, true⟩, Vec.zero⟩ : SortKey ℝ).lt ⟨⟨0, 2, true⟩, Vec.zero⟩ = true := by
  norm_num [SortKey.lt, angleSortPredicate, Tri.dsa, Vec.zero, EPSILON_real, Vec.dist2, PyrusGeom.sq]

/-- **C115 is false** for transitivity: (0,1) < (1,-1) < (-1,-1) < (0,1). -/
theorem C115_transitive_refuted :
    (⟨⟨0, 1, true⟩, Vec.zero⟩ : SortKey ℝ).lt ⟨⟨1, -1, true⟩, Vec.zero⟩ = true ∧
    (⟨⟨1, -1, true⟩, Vec.zero⟩ : SortKey ℝ).lt ⟨⟨-1, -1, true⟩, Vec.zero⟩ = true ∧
    (⟨⟨-1, -1, true⟩, Vec.zero⟩ : SortKey ℝ).lt ⟨⟨0, 1, true⟩, Vec.zero⟩ = true := by
  norm_num [SortKey.lt, angleSortPredicate, Tri.dsa, Vec.zero, EPSILON_real, Vec.dist2, PyrusGeom.sq]

end Hull
end PyrusGeom
