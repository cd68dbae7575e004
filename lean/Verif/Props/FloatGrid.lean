import Verif.Props.FloatDist
import Verif.Props.Segment

/-! # Properties C118 – C120: predicates on a common grid in double precision

Coordinates are multiples of `2 ^ k` with factors of at most `2 ^ 25`: for example whole numbers up to 33554432 (`k = 0`) or
positions in 1/1024 of a metre up to 32 km (`k = -10`). -/

namespace PyrusGeom
open Spec

/-- A multiple of `2 ^ k` with a factor of at most `B`. -/
def Grid (k B : ℤ) (x : ℝ) : Prop := ∃ m : ℤ, |m| ≤ B ∧ x = m * (2 : ℝ) ^ k

theorem Grid.add {k B C : ℤ} {x y : ℝ} (hx : Grid k B x) (hy : Grid k C y) : Grid k (B + C) (x + y) := by
  obtain ⟨m, hm, rfl⟩ := hx
  obtain ⟨n, hn, rfl⟩ := hy
  exact ⟨m + n, (abs_add_le _ _).trans (add_le_add hm hn), by push_cast; ring⟩

theorem Grid.neg {k B : ℤ} {x : ℝ} (hx : Grid k B x) : Grid k B (-x) := by
  obtain ⟨m, hm, rfl⟩ := hx
  exact ⟨-m, by rwa [abs_neg], by push_cast; ring⟩

theorem Grid.sub {k B C : ℤ} {x y : ℝ} (hx : Grid k B x) (hy : Grid k C y) : Grid k (B + C) (x - y) := by
  rw [sub_eq_add_neg]; exact hx.add hy.neg

theorem Grid.mul {k l B C : ℤ} {x y : ℝ} (hx : Grid k B x) (hy : Grid l C y) : Grid (k + l) (B * C) (x * y) := by
  obtain ⟨m, hm, rfl⟩ := hx
  obtain ⟨n, hn, rfl⟩ := hy
  refine ⟨m * n, ?_, by rw [zpow_add₀ (by norm_num)]; push_cast; ring⟩
  rw [abs_mul]
  exact mul_le_mul hm hn (abs_nonneg _) ((abs_nonneg _).trans hm)

theorem Grid.le {k B C : ℤ} {x : ℝ} (hx : Grid k B x) (h : B ≤ C) : Grid k C x := by
  obtain ⟨m, hm, rfl⟩ := hx
  exact ⟨m, hm.trans h, rfl⟩

theorem Grid.isDouble {k B : ℤ} {x : ℝ} (hx : Grid k B x) (hk : -1074 ≤ k) (hB : B ≤ 2 ^ 53) : IsDouble x := by
  obtain ⟨m, hm, rfl⟩ := hx
  exact ⟨m, k, hm.trans hB, hk, rfl⟩

theorem Grid.rne {k B : ℤ} {x : ℝ} (hx : Grid k B x) (hk : -1074 ≤ k) (hB : B ≤ 2 ^ 53) : rne x = x :=
  rne_of_isDouble (hx.isDouble hk hB)

/-- The coordinates are multiples of `2 ^ k` with factors of at most `2 ^ 25`. -/
def Vec.OnGrid (k : ℤ) (v : Vec (FP double)) : Prop := Grid k (2 ^ 25) v.x.val ∧ Grid k (2 ^ 25) v.y.val

/-- The vector with the same coordinates in exact arithmetic. -/
def Vec.exact (v : Vec (FP double)) : Vec ℝ := ⟨v.x.val, v.y.val, v.valid⟩

@[simp] theorem Vec.exact_x (v : Vec (FP double)) : v.exact.x = v.x.val := rfl
@[simp] theorem Vec.exact_y (v : Vec (FP double)) : v.exact.y = v.y.val := rfl
@[simp] theorem Vec.exact_pt (v : Vec (FP double)) : v.exact.pt = v.fpt := rfl

theorem grid_prod {k : ℤ} (hk : -537 ≤ k) {x y z w : ℝ} (hx : Grid k (2 ^ 25) x) (hy : Grid k (2 ^ 25) y)
    (hz : Grid k (2 ^ 25) z) (hw : Grid k (2 ^ 25) w) :
    rne (rne (x - y) * rne (z - w)) = (x - y) * (z - w) ∧ Grid (k + k) (2 ^ 52) ((x - y) * (z - w)) := by
  have h1 := hx.sub hy
  have h2 := hz.sub hw
  have h3 := (h1.mul h2).le (C := 2 ^ 52) (by norm_num)
  rw [h1.rne (by omega) (by norm_num), h2.rne (by omega) (by norm_num), h3.rne (by omega) (by norm_num)]
  exact ⟨rfl, h3⟩

theorem fp_dsa_grid {k : ℤ} (hk : -537 ≤ k) {a b c : Vec (FP double)} (ha : a.OnGrid k) (hb : b.OnGrid k)
    (hc : c.OnGrid k) : (Tri.dsa a b c).val = area2 a.fpt b.fpt c.fpt ∧
      Grid (k + k) (2 ^ 53) (area2 a.fpt b.fpt c.fpt) := by
  obtain ⟨e1, g1⟩ := grid_prod hk ha.1 hc.1 hb.2 hc.2
  obtain ⟨e2, g2⟩ := grid_prod hk hb.1 hc.1 hc.2 ha.2
  have g3 := (g1.add g2).le (C := 2 ^ 53) (by norm_num)
  have e : (a.x.val - c.x.val) * (b.y.val - c.y.val) + (b.x.val - c.x.val) * (c.y.val - a.y.val) =
      area2 a.fpt b.fpt c.fpt := by
    simp only [area2, Vec.fpt]; ring
  have hv : (Tri.dsa a b c).val = rne (rne (rne (a.x.val - c.x.val) * rne (b.y.val - c.y.val)) +
      rne (rne (b.x.val - c.x.val) * rne (c.y.val - a.y.val))) := rfl
  rw [hv, e1, e2, g3.rne (by omega) (by norm_num), ← e]
  exact ⟨rfl, g3⟩

theorem fp_lt_zero (x : FP double) : (x < num 0) ↔ x.val < 0 := by rw [FP.lt_def, fp_zero]
theorem fp_zero_lt (x : FP double) : (num 0 < x) ↔ 0 < x.val := by rw [FP.lt_def, fp_zero]
theorem fp_le_zero (x : FP double) : (x ≤ num 0) ↔ x.val ≤ 0 := by rw [FP.le_def, fp_zero]
theorem fp_zero_le (x : FP double) : (num 0 ≤ x) ↔ 0 ≤ x.val := by rw [FP.le_def, fp_zero]
theorem fp_beq (x y : FP double) : (x == y) = true ↔ x.val = y.val := by
  change decide (x.val = y.val) = true ↔ _
  rw [decide_eq_true_eq]
theorem fp_beq_zero (x : FP double) : (x == num 0) = true ↔ x.val = 0 := by rw [fp_beq, fp_zero]

/-! ## C118 -/

theorem fp_outer_grid {k : ℤ} (hk : -537 ≤ k) {p u v : Vec (FP double)} (hp : p.OnGrid k) (hu : u.OnGrid k)
    (hv : v.OnGrid k) : ((Vec.ofVec (u.sub p)).outerProduct (Vec.ofVec (v.sub p))).val = area2 p.fpt u.fpt v.fpt := by
  obtain ⟨e1, g1⟩ := grid_prod hk hu.1 hp.1 hv.2 hp.2
  obtain ⟨e2, g2⟩ := grid_prod hk hu.2 hp.2 hv.1 hp.1
  have g3 := (g1.sub g2).le (C := 2 ^ 53) (by norm_num)
  change rne (rne (rne (u.x.val - p.x.val) * rne (v.y.val - p.y.val)) -
      rne (rne (u.y.val - p.y.val) * rne (v.x.val - p.x.val))) = _
  rw [e1, e2, g3.rne (by omega) (by norm_num)]
  rfl

theorem fp_triContains_grid {k : ℤ} (hk : -537 ≤ k) {a b c p : Vec (FP double)} (ha : a.OnGrid k) (hb : b.OnGrid k)
    (hc : c.OnGrid k) (hp : p.OnGrid k) : Tri.triContains a b c p = Tri.triContains a.exact b.exact c.exact p.exact := by
  rw [Bool.eq_iff_iff, Tri.triContains_iff]
  simp only [Tri.triContains, Bool.or_eq_true, Bool.and_eq_true, decide_eq_true_eq, fp_zero_le, fp_le_zero,
    fp_outer_grid hk hp ha hb, fp_outer_grid hk hp hb hc, fp_outer_grid hk hp hc ha, Vec.exact_pt, and_assoc]

/-- **C118** On a common grid the orientation and the area of a triangle are exact in double precision. -/
theorem C118_area (k : ℤ) (hk : -536 ≤ k) (a b c : Vec (FP double)) (ha : a.OnGrid k) (hb : b.OnGrid k)
    (hc : c.OnGrid k) :
    (Tri.dsa a b c).val = cross (b.fpt - a.fpt) (c.fpt - a.fpt) ∧
    (Tri.signedArea a b c).val = cross (b.fpt - a.fpt) (c.fpt - a.fpt) / 2 ∧
    (Tri.ofPoints a b c).area.val = |cross (b.fpt - a.fpt) (c.fpt - a.fpt)| / 2 ∧
    (Tri.ccw a b c = true ↔ 0 < cross (b.fpt - a.fpt) (c.fpt - a.fpt)) ∧
    ((Tri.dsa a b c).val = 0 ↔ Collinear3 a.fpt b.fpt c.fpt) := by
  obtain ⟨e, g⟩ := fp_dsa_grid (by omega) ha hb hc
  have ec : area2 a.fpt b.fpt c.fpt = cross (b.fpt - a.fpt) (c.fpt - a.fpt) := by
    simp only [area2, cross, Prod.fst_sub, Prod.snd_sub]
  have hh : ∀ x, Grid (k + k) (2 ^ 53) x → rne (x * (1 / 2)) = x / 2 := by
    intro x hx
    have : Grid (k + k - 1) (2 ^ 53) (x / 2) := by
      obtain ⟨m, hm, rfl⟩ := hx
      exact ⟨m, hm, by rw [zpow_sub₀ (by norm_num)]; norm_num; ring⟩
    rw [mul_one_div, this.rne (by omega) le_rfl]
  refine ⟨e.trans ec, ?_, ?_, ?_, ?_⟩
  · change rne ((Tri.dsa a b c).val * (num 1 / num 2 : FP double).val) = _
    rw [fp_half, e, hh _ g, ec]
  · have e2 := fp_outer_grid (by omega) ha hb hc
    have e3 : ((b.sub a).outerProduct (c.sub a)).val = area2 a.fpt b.fpt c.fpt := e2
    change rne ((fabs ((b.sub a).outerProduct (c.sub a))).val * (num 1 / num 2 : FP double).val) = _
    have g' : Grid (k + k) (2 ^ 53) |area2 a.fpt b.fpt c.fpt| := by
      rcases abs_choice (area2 a.fpt b.fpt c.fpt) with h | h <;> rw [h]
      · exact g
      · exact g.neg
    rw [fp_half, fp_fabs_val, e3, hh _ g', ec]
  · unfold Tri.ccw
    rw [decide_eq_true_eq, fp_zero_lt, e, ec]
  · rw [e]
    have h := (C41_signed_area a.exact b.exact c.exact a.exact).2.2.2.2.2.2.1
    rwa [Tri.dsa_real] at h

/-- **C118** On a common grid `tri_contains` and `Triangle2D.contains` decide membership in a triangle that is not
degenerate; a member is accepted for every triangle. -/
theorem C118_contains (k : ℤ) (hk : -537 ≤ k) (a b c p : Vec (FP double)) (ha : a.OnGrid k) (hb : b.OnGrid k)
    (hc : c.OnGrid k) (hp : p.OnGrid k) :
    (cross (b.fpt - a.fpt) (c.fpt - a.fpt) ≠ 0 →
      (Tri.triContains a b c p = true ↔ InTriangle a.fpt b.fpt c.fpt p.fpt) ∧
      ((Tri.ofPoints a b c).contains p = true ↔ InTriangle a.fpt b.fpt c.fpt p.fpt)) ∧
    (InTriangle a.fpt b.fpt c.fpt p.fpt → Tri.triContains a b c p = true ∧ (Tri.ofPoints a b c).contains p = true) := by
  have e := fp_triContains_grid hk ha hb hc hp
  have e' : (Tri.ofPoints a b c).contains p = Tri.triContains a b c p := rfl
  rw [e', e]
  exact ⟨fun h => ⟨(C40_contains_partial a.exact b.exact c.exact p.exact h).1,
    (C40_contains_partial a.exact b.exact c.exact p.exact h).1⟩,
    fun h => ⟨C40_complete a.exact b.exact c.exact p.exact h, C40_complete a.exact b.exact c.exact p.exact h⟩⟩

/-- A vector with whole coordinates. -/
noncomputable def gridVec (m n : ℤ) : Vec (FP double) := Vec.ofXY ⟨m⟩ ⟨n⟩

theorem gridVec_onGrid {m n : ℤ} (hm : |m| ≤ 2 ^ 25) (hn : |n| ≤ 2 ^ 25) : (gridVec m n).OnGrid 0 :=
  ⟨⟨m, hm, by simp [gridVec, Vec.ofXY]⟩, ⟨n, hn, by simp [gridVec, Vec.ofXY]⟩⟩

/-- C118 on a thin triangle with large coordinates: the area is 1/2, and the orientation is recognised. -/
example : (Tri.signedArea (gridVec 0 0) (gridVec 33554432 33554431) (gridVec 33554431 33554430)).val = -(1 / 2) ∧
    Tri.ccw (gridVec 0 0) (gridVec 33554432 33554431) (gridVec 33554431 33554430) = false ∧
    Tri.ccw (gridVec 0 0) (gridVec 33554431 33554430) (gridVec 33554432 33554431) = true := by
  have g0 : (gridVec 0 0).OnGrid 0 := gridVec_onGrid (by norm_num) (by norm_num)
  have g1 : (gridVec 33554432 33554431).OnGrid 0 := gridVec_onGrid (by norm_num) (by norm_num)
  have g2 : (gridVec 33554431 33554430).OnGrid 0 := gridVec_onGrid (by norm_num) (by norm_num)
  refine ⟨?_, ?_, ?_⟩
  · rw [(C118_area 0 (by norm_num) _ _ _ g0 g1 g2).2.1]
    norm_num [cross, Vec.fpt, gridVec, Vec.ofXY]
  · rw [← Bool.not_eq_true, (C118_area 0 (by norm_num) _ _ _ g0 g1 g2).2.2.2.1]
    norm_num [cross, Vec.fpt, gridVec, Vec.ofXY]
  · rw [(C118_area 0 (by norm_num) _ _ _ g0 g2 g1).2.2.2.1]
    norm_num [cross, Vec.fpt, gridVec, Vec.ofXY]

/-! ## C119 -/

/-- Both end points are on the grid. -/
def Seg.OnGrid (k : ℤ) (s : Seg (FP double)) : Prop := s.origin.OnGrid k ∧ s.terminal.OnGrid k

/-- The segment with the same end points in exact arithmetic. -/
def Seg.exact (s : Seg (FP double)) : Seg ℝ := ⟨s.origin.exact, s.terminal.exact⟩

/-- The points of the segment. -/
def Seg.fpts (s : Seg (FP double)) : Set Pt := segment ℝ s.origin.fpt s.terminal.fpt

theorem Grid.rne_neg_iff {k B : ℤ} {x : ℝ} (hx : Grid k B x) (hk : -1074 ≤ k) : PyrusGeom.rne x < 0 ↔ x < 0 := by
  constructor
  · intro h
    by_contra hc
    exact absurd (rne_nonneg (not_lt.mp hc)) (not_le.mpr h)
  · intro h
    obtain ⟨m, _, rfl⟩ := hx
    have hp : (0 : ℝ) < (2 : ℝ) ^ k := by positivity
    have hm : (m : ℝ) ≤ -1 := by
      have : (m : ℝ) < 0 := by
        by_contra hc
        exact absurd (mul_nonneg (not_lt.mp hc) hp.le) (not_le.mpr h)
      have : m < 0 := by exact_mod_cast this
      have : m ≤ -1 := by omega
      exact_mod_cast this
    have := rne_mono (show (m : ℝ) * (2 : ℝ) ^ k ≤ -((2 : ℝ) ^ k) by nlinarith)
    rw [PyrusGeom.rne_neg, rne_of_isDouble (isDouble_pow k hk)] at this
    linarith

theorem fp_dsa_mul_grid {k : ℤ} (hk : -268 ≤ k) {a b c a' b' c' : Vec (FP double)} (ha : a.OnGrid k) (hb : b.OnGrid k)
    (hc : c.OnGrid k) (ha' : a'.OnGrid k) (hb' : b'.OnGrid k) (hc' : c'.OnGrid k) :
    (Tri.dsa a b c * Tri.dsa a' b' c' < num 0) ↔
      Tri.dsa a.exact b.exact c.exact * Tri.dsa a'.exact b'.exact c'.exact < num 0 := by
  obtain ⟨e1, g1⟩ := fp_dsa_grid (by omega) ha hb hc
  obtain ⟨e2, g2⟩ := fp_dsa_grid (by omega) ha' hb' hc'
  rw [fp_lt_zero, FP.mul_val, e1, e2]
  rw [Tri.dsa_real, Tri.dsa_real, num_real, Nat.cast_zero]
  exact (g1.mul g2).rne_neg_iff (by omega)

theorem fp_dsa_beq_grid {k : ℤ} (hk : -268 ≤ k) {a b c : Vec (FP double)} (ha : a.OnGrid k) (hb : b.OnGrid k)
    (hc : c.OnGrid k) : (Tri.dsa a b c == num 0) = (Tri.dsa a.exact b.exact c.exact == num 0) := by
  obtain ⟨e1, g1⟩ := fp_dsa_grid (by omega) ha hb hc
  rw [Bool.eq_iff_iff, fp_beq_zero, e1, beq_iff_eq, Tri.dsa_real, num_real, Nat.cast_zero]
  rfl

theorem fp_beq_exact (x y : FP double) : (x == y) = (x.val == y.val) := by
  rw [Bool.eq_iff_iff, fp_beq, beq_iff_eq]

theorem fp_vec_eq (u v : Vec (FP double)) : u.eq v = u.exact.eq v.exact := by
  simp only [Vec.eq, Vec.equals, fp_beq_exact, Vec.exact_x, Vec.exact_y]

theorem fp_check (s : Seg (FP double)) (p : Vec (FP double)) :
    s.checkIntersectsOnLine p = s.exact.checkIntersectsOnLine p.exact := by
  unfold Seg.checkIntersectsOnLine
  simp only [fp_beq_exact, FP.le_def]
  rfl

theorem fp_exist_grid {k : ℤ} (hk : -268 ≤ k) {s o : Seg (FP double)} (hs : s.OnGrid k) (ho : o.OnGrid k) :
    s.existIntersection o = s.exact.existIntersection o.exact := by
  unfold Seg.existIntersection
  simp only [fp_dsa_mul_grid hk hs.1 hs.2 ho.1 hs.1 hs.2 ho.2, fp_dsa_mul_grid hk ho.1 ho.2 hs.1 ho.1 ho.2 hs.2,
    fp_dsa_beq_grid hk hs.1 hs.2 ho.1, fp_dsa_beq_grid hk hs.1 hs.2 ho.2, fp_dsa_beq_grid hk ho.1 ho.2 hs.1,
    fp_dsa_beq_grid hk ho.1 ho.2 hs.2, fp_vec_eq, fp_check]
  rfl

/-- **C119** On a common grid `exist_intersection` decides in double precision whether two segments share a point. -/
theorem C119_exist_intersection (k : ℤ) (hk : -268 ≤ k) (s o : Seg (FP double)) (hs : s.OnGrid k) (ho : o.OnGrid k) :
    s.existIntersection o = true ↔ (s.fpts ∩ o.fpts).Nonempty := by
  rw [fp_exist_grid hk hs ho, C30_exist_intersection]
  rfl

/-- **C119** On a common grid `exist_intersection_except_endpoint` decides in double precision whether two segments cross
in the interior of both. -/
theorem C119_except_endpoint (k : ℤ) (hk : -268 ≤ k) (s o : Seg (FP double)) (hs : s.OnGrid k) (ho : o.OnGrid k) :
    s.existIntersectionExceptEndpoint o = true ↔
      ¬ Collinear4 s.origin.fpt s.terminal.fpt o.origin.fpt o.terminal.fpt ∧
      ∃ z, z ∈ openSegment ℝ s.origin.fpt s.terminal.fpt ∧ z ∈ openSegment ℝ o.origin.fpt o.terminal.fpt := by
  have h := C32_except_endpoint s.exact o.exact
  unfold Seg.existIntersectionExceptEndpoint at h ⊢
  simp only [fp_dsa_mul_grid hk hs.1 hs.2 ho.1 hs.1 hs.2 ho.2, fp_dsa_mul_grid hk ho.1 ho.2 hs.1 ho.1 ho.2 hs.2]
  exact h

/-- **C119** On a common grid `on_segment` decides in double precision whether a point is on a segment with two different
end points. -/
theorem C119_on_segment (k : ℤ) (hk : -268 ≤ k) (s : Seg (FP double)) (p : Vec (FP double)) (hs : s.OnGrid k)
    (hp : p.OnGrid k) (h : s.origin.fpt ≠ s.terminal.fpt) : s.onSegment p = true ↔ p.fpt ∈ s.fpts := by
  have h2 := C29_on_segment_partial s.exact p.exact h
  unfold Seg.onSegment at h2 ⊢
  rw [fp_dsa_beq_grid hk hs.1 hs.2 hp, fp_check]
  exact h2

/-- C119 with large coordinates: the end point (2, 1) of the second segment is on the first one, a neighbour is not. -/
example : (⟨gridVec (-33554432) (-16777216), gridVec 33554432 16777216⟩ : Seg (FP double)).existIntersection
      ⟨gridVec 2 1, gridVec 2 5⟩ = true ∧
    (⟨gridVec (-33554432) (-16777216), gridVec 33554432 16777216⟩ : Seg (FP double)).onSegment (gridVec 33554430 16777215) =
      true ∧
    (⟨gridVec (-33554432) (-16777216), gridVec 33554432 16777216⟩ : Seg (FP double)).onSegment (gridVec 33554431 16777215) =
      false := by
  have g0 : (gridVec (-33554432) (-16777216)).OnGrid 0 := gridVec_onGrid (by norm_num) (by norm_num)
  have g1 : (gridVec 33554432 16777216).OnGrid 0 := gridVec_onGrid (by norm_num) (by norm_num)
  have ne : (gridVec (-33554432) (-16777216)).fpt ≠ (gridVec 33554432 16777216).fpt := by
    intro h; have := congrArg Prod.fst h; norm_num [gridVec, Vec.fpt, Vec.ofXY] at this
  refine ⟨?_, ?_, ?_⟩
  · rw [C119_exist_intersection 0 (by norm_num) _ _ ⟨g0, g1⟩
      ⟨gridVec_onGrid (by norm_num) (by norm_num), gridVec_onGrid (by norm_num) (by norm_num)⟩]
    refine ⟨(2, 1), mem_seg.mpr ⟨1 / 2 + 1 / 33554432, by norm_num, by norm_num, ?_, ?_⟩, mem_seg.mpr ⟨0, by norm_num,
      by norm_num, ?_, ?_⟩⟩ <;> norm_num [gridVec, Vec.fpt, Vec.ofXY]
  · rw [C119_on_segment 0 (by norm_num) _ _ ⟨g0, g1⟩ (gridVec_onGrid (by norm_num) (by norm_num)) ne]
    refine mem_seg.mpr ⟨1 - 1 / 33554432, by norm_num, by norm_num, ?_, ?_⟩ <;> norm_num [gridVec, Vec.fpt, Vec.ofXY]
  · rw [← Bool.not_eq_true, C119_on_segment 0 (by norm_num) _ _ ⟨g0, g1⟩ (gridVec_onGrid (by norm_num) (by norm_num)) ne]
    intro h
    obtain ⟨t, _, _, h1, h2⟩ := mem_seg.mp h
    norm_num [gridVec, Vec.fpt, Vec.ofXY] at h1 h2
    linarith

/-! ## C120 -/

theorem fp_dist2_grid {k : ℤ} (hk : -537 ≤ k) {v o : Vec (FP double)} (hv : v.OnGrid k) (ho : o.OnGrid k) :
    (v.dist2 o).val = d v.fpt o.fpt ^ 2 := by
  obtain ⟨e1, g1⟩ := grid_prod hk hv.1 ho.1 hv.1 ho.1
  obtain ⟨e2, g2⟩ := grid_prod hk hv.2 ho.2 hv.2 ho.2
  have g3 := (g1.add g2).le (C := 2 ^ 53) (by norm_num)
  rw [fp_dist2]
  change rne (rne (rne _ * rne _) + rne (rne _ * rne _)) = _
  rw [e1, e2, g3.rne (by omega) (by norm_num), d, Real.sq_sqrt (by positivity)]
  simp only [Vec.fpt]; ring

/-- **C120** On a common grid the squared distance is exact and the distance is the correctly rounded one. So distances
are compared without error through `dist2`, `dist` never reverses the order of two distances, and it is exact whenever
the true distance is a double. -/
theorem C120_dist (k : ℤ) (hk : -537 ≤ k) (u v w z : Vec (FP double)) (hu : u.OnGrid k) (hv : v.OnGrid k)
    (hw : w.OnGrid k) (hz : z.OnGrid k) :
    (u.dist2 v).val = d u.fpt v.fpt ^ 2 ∧ (u.dist v).val = rne (d u.fpt v.fpt) ∧
    (u.dist2 v < w.dist2 z ↔ d u.fpt v.fpt < d w.fpt z.fpt) ∧
    (d u.fpt v.fpt ≤ d w.fpt z.fpt → u.dist v ≤ w.dist z) ∧
    (IsDouble (d u.fpt v.fpt) → (u.dist v).val = d u.fpt v.fpt) := by
  have h1 := fp_dist2_grid hk hu hv
  have h2 := fp_dist2_grid hk hw hz
  have n1 : 0 ≤ d u.fpt v.fpt := Real.sqrt_nonneg _
  have n2 : 0 ≤ d w.fpt z.fpt := Real.sqrt_nonneg _
  have e1 : (u.dist v).val = rne (d u.fpt v.fpt) := by
    rw [fp_dist, h1, Real.sqrt_sq n1]; rfl
  have e2 : (w.dist z).val = rne (d w.fpt z.fpt) := by
    rw [fp_dist, h2, Real.sqrt_sq n2]; rfl
  refine ⟨h1, e1, ?_, fun h => ?_, fun h => ?_⟩
  · rw [FP.lt_def, h1, h2, pow_lt_pow_iff_left₀ n1 n2 two_ne_zero]
  · rw [FP.le_def, e1, e2]; exact rne_mono h
  · rw [e1, rne_of_isDouble h]

/-- **C120** On a common grid `Circle2D.contains` decides in double precision whether the distance to the center is less
than the radius. -/
theorem C120_circle (k : ℤ) (hk : -537 ≤ k) (c : Circle (FP double)) (p : Vec (FP double)) (hc : c.center.OnGrid k)
    (hp : p.OnGrid k) (hr : Grid k (2 ^ 26) c.radius.val) (h0 : 0 ≤ c.radius.val) :
    c.contains p = true ↔ d c.center.fpt p.fpt < c.radius.val := by
  rw [fp_circle_contains, fp_dist2_grid hk hc hp, (hr.mul hr).rne (by omega) (by norm_num), ← pow_two,
    pow_lt_pow_iff_left₀ (show 0 ≤ d _ _ from Real.sqrt_nonneg _) h0 two_ne_zero]

/-- **C120** On a common grid `Rect2D.contains` decides in double precision membership in the closed rectangle. -/
theorem C120_rect (k : ℤ) (hk : -1074 ≤ k) (r : Rect (FP double)) (p : Vec (FP double))
    (hl : Grid k (2 ^ 52) r.topLeft.x.val) (ht : Grid k (2 ^ 52) r.topLeft.y.val)
    (hlen : Grid k (2 ^ 52) r.size.length.val) (hwid : Grid k (2 ^ 52) r.size.width.val) :
    r.contains p = true ↔ p.fpt ∈ box r.topLeft.x.val (r.topLeft.x.val + r.size.length.val) r.topLeft.y.val
      (r.topLeft.y.val + r.size.width.val) := by
  have eR : r.right.val = r.topLeft.x.val + r.size.length.val := (hl.add hlen).rne hk (by norm_num)
  have eB : r.bottom.val = r.topLeft.y.val + r.size.width.val := (ht.add hwid).rne hk (by norm_num)
  rw [fp_contains, eR, eB]
  rfl

/-- C120: the point (3, 4) is on the boundary of the circle of radius 5 and not contained; a neighbour is. -/
example : (⟨gridVec 0 0, ⟨5⟩⟩ : Circle (FP double)).contains (gridVec 3 4) = false ∧
    (⟨gridVec 0 0, ⟨5⟩⟩ : Circle (FP double)).contains (gridVec 3 3) = true ∧
    ((gridVec 0 0).dist (gridVec 3 4)).val = 5 := by
  have g0 : (gridVec 0 0).OnGrid 0 := gridVec_onGrid (by norm_num) (by norm_num)
  have g1 : (gridVec 3 4).OnGrid 0 := gridVec_onGrid (by norm_num) (by norm_num)
  have g2 : (gridVec 3 3).OnGrid 0 := gridVec_onGrid (by norm_num) (by norm_num)
  have g5 : Grid 0 (2 ^ 26) (5 : ℝ) := ⟨5, by norm_num, by norm_num⟩
  have e1 : d (gridVec 0 0).fpt (gridVec 3 4).fpt = 5 := by
    rw [d, show ((gridVec 0 0).fpt.1 - (gridVec 3 4).fpt.1) ^ 2 + ((gridVec 0 0).fpt.2 - (gridVec 3 4).fpt.2) ^ 2 = 5 ^ 2 by
      norm_num [gridVec, Vec.fpt, Vec.ofXY]]
    exact Real.sqrt_sq (by norm_num)
  refine ⟨?_, ?_, ?_⟩
  · rw [← Bool.not_eq_true, C120_circle 0 (by norm_num) _ _ g0 g1 g5 (by norm_num), e1]
    exact lt_irrefl _
  · rw [C120_circle 0 (by norm_num) _ _ g0 g2 g5 (by norm_num), d, Real.sqrt_lt' (by norm_num)]
    norm_num [gridVec, Vec.fpt, Vec.ofXY]
  · rw [(C120_dist 0 (by norm_num) _ _ _ _ g0 g1 g0 g1).2.2.2.2, e1]
    rw [e1]
    exact ⟨5, 0, by norm_num, by norm_num, by norm_num⟩

end PyrusGeom
