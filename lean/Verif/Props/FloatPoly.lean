import Verif.Props.FloatGrid
import Verif.Props.Polygon

/-! # Properties C121 – C122: polygons on a common grid in double precision -/

namespace PyrusGeom
open Spec

/-- The exact corners. -/
def Poly.fpts (p : Poly (FP double)) : List Pt := p.vertices.map Vec.fpt

/-- The polygon with the same vertices in exact arithmetic. -/
def Poly.exact (p : Poly (FP double)) : Poly ℝ := ⟨p.vertices.map Vec.exact⟩

theorem Poly.exact_pts (p : Poly (FP double)) : p.exact.pts = p.fpts := by
  unfold Poly.exact Poly.pts Poly.fpts
  rw [List.map_map]; rfl

/-! ## C121 -/

theorem fp_shoelace_loop {k M : ℤ} (hk : -537 ≤ k) (E : List (Vec (FP double) × Vec (FP double)))
    (hE : ∀ e ∈ E, (Grid k M e.1.x.val ∧ Grid k M e.1.y.val) ∧ (Grid k M e.2.x.val ∧ Grid k M e.2.y.val))
    (acc : FP double) (n : ℕ) (hacc : Grid (k + k) (n * (2 * (M * M))) acc.val)
    (hM : ((n + E.length : ℕ) : ℤ) * (2 * (M * M)) ≤ 2 ^ 53) (hM1 : 2 * (M * M) ≤ 2 ^ 53) (hM0 : 0 ≤ M) :
    let r := E.foldl (fun acc e => acc + (e.1.x * e.2.y - e.2.x * e.1.y)) acc
    r.val = acc.val + (E.map (fun e => cross e.1.fpt e.2.fpt)).sum ∧
    Grid (k + k) (((n + E.length : ℕ) : ℤ) * (2 * (M * M))) r.val := by
  induction E generalizing acc n with
  | nil => simpa using hacc
  | cons e E ih =>
    obtain ⟨⟨h1, h2⟩, h3, h4⟩ := hE e List.mem_cons_self
    have hMM : 0 ≤ M * M := mul_nonneg hM0 hM0
    have hlen : ((n + (E.length + 1) : ℕ) : ℤ) = n + 1 + E.length := by push_cast; ring
    rw [List.length_cons, hlen] at hM
    have g1 := h1.mul h4
    have g2 := h3.mul h2
    have g3 := g1.sub g2
    have g4 : Grid (k + k) (((n + 1 : ℕ) : ℤ) * (2 * (M * M)))
        (acc.val + (e.1.x.val * e.2.y.val - e.2.x.val * e.1.y.val)) := by
      have := hacc.add g3
      rwa [show (n : ℤ) * (2 * (M * M)) + (M * M + M * M) = ((n + 1 : ℕ) : ℤ) * (2 * (M * M)) by push_cast; ring] at this
    have hb : ((n + 1 : ℕ) : ℤ) * (2 * (M * M)) ≤ 2 ^ 53 := by
      refine le_trans ?_ hM
      push_cast
      nlinarith [Int.natCast_nonneg E.length]
    have e1 : (acc + (e.1.x * e.2.y - e.2.x * e.1.y)).val =
        acc.val + (e.1.x.val * e.2.y.val - e.2.x.val * e.1.y.val) := by
      change rne (acc.val + rne (rne (e.1.x.val * e.2.y.val) - rne (e.2.x.val * e.1.y.val))) = _
      rw [g1.rne (by omega) (by linarith), g2.rne (by omega) (by linarith), g3.rne (by omega) (by linarith),
        g4.rne (by omega) hb]
    have := ih (fun e he => hE e (List.mem_cons_of_mem _ he)) (acc + (e.1.x * e.2.y - e.2.x * e.1.y)) (n + 1)
      (by rw [e1]; exact g4) (by push_cast at hM ⊢; linarith)
    simp only [List.foldl_cons]
    refine ⟨?_, ?_⟩
    · rw [this.1, e1, List.map_cons, List.sum_cons]
      simp only [cross, Vec.fpt]; ring
    · have := this.2
      rw [List.length_cons]
      rwa [show n + 1 + E.length = n + (E.length + 1) by ring] at this

/-- **C121** On a common grid the area of a polygon is exact in double precision as long as its number of vertices times
twice the square of the largest coordinate is at most `2 ** 53` grid units. -/
theorem C121_area (k M : ℤ) (hk : -536 ≤ k) (p : Poly (FP double))
    (hp : ∀ v ∈ p.vertices, Grid k M v.x.val ∧ Grid k M v.y.val)
    (hM : (p.vertices.length : ℤ) * (2 * M ^ 2) ≤ 2 ^ 53) :
    p.doubleSignedArea.val = shoelace p.fpts ∧ p.area.val = |shoelace p.fpts| / 2 ∧
    (p.isCounterClockwise = true ↔ 0 < shoelace p.fpts) ∧ (p.isClockwise = true ↔ shoelace p.fpts < 0) := by
  have key : p.doubleSignedArea.val = shoelace p.fpts ∧ Grid (k + k) (2 ^ 53) (shoelace p.fpts) := by
    by_cases hl : p.vertices.length < 3
    · have e : p.exact.doubleSignedArea = 0 := by
        unfold Poly.doubleSignedArea Poly.exact
        rw [if_pos (by simpa using hl)]; simp
      rw [C72_shoelace, Poly.exact_pts] at e
      rw [e]
      refine ⟨?_, 0, by norm_num, by simp⟩
      unfold Poly.doubleSignedArea
      rw [if_pos hl]; exact fp_zero
    · have hM0 : 0 ≤ M := by
        obtain ⟨v, hv⟩ : ∃ v, v ∈ p.vertices := by
          rcases hvs : p.vertices with _ | ⟨v, vs⟩
          · rw [hvs] at hl; simp at hl
          · exact ⟨v, by simp⟩
        obtain ⟨m, hm, _⟩ := (hp v hv).1
        exact (abs_nonneg m).trans hm
      have hl' : (1 : ℤ) ≤ p.vertices.length := by omega
      rw [pow_two] at hM
      have := fp_shoelace_loop (k := k) (M := M) (by omega) (cyclicPairs p.vertices)
        (fun e he => ⟨hp _ (fst_mem_of_cyclicPairs he), hp _ (snd_mem_of_cyclicPairs he)⟩) (num 0) 0
        ⟨0, by simp, by rw [fp_zero]; simp⟩ (by rw [zero_add, length_cyclicPairs]; exact hM)
        (le_trans (by nlinarith [mul_nonneg hM0 hM0]) hM) hM0
      rw [fp_zero, zero_add, zero_add, length_cyclicPairs] at this
      have es : ((cyclicPairs p.vertices).map (fun e => cross e.1.fpt e.2.fpt)).sum = shoelace p.fpts := by
        unfold shoelace Poly.fpts
        rw [cyclicPairs_map, List.map_map]; rfl
      have hv : p.doubleSignedArea =
          (cyclicPairs p.vertices).foldl (fun acc e => acc + (e.1.x * e.2.y - e.2.x * e.1.y)) (num 0) := by
        unfold Poly.doubleSignedArea
        rw [if_neg hl]
      rw [hv, this.1, es]
      refine ⟨rfl, ?_⟩
      have g := this.2
      rw [this.1, es] at g
      exact g.le hM
  obtain ⟨e, g⟩ := key
  refine ⟨e, ?_, ?_, ?_⟩
  · unfold Poly.area
    rw [fp_fabs_val, FP.mul_val, fp_half, e]
    have : Grid (k + k - 1) (2 ^ 53) (shoelace p.fpts / 2) := by
      obtain ⟨m, hm, h⟩ := g
      exact ⟨m, hm, by rw [h, zpow_sub₀ (by norm_num)]; norm_num; ring⟩
    change |rne (shoelace p.fpts * (1 / 2))| = _
    rw [mul_one_div, this.rne (by omega) le_rfl, abs_div, abs_two]
  · unfold Poly.isCounterClockwise
    rw [decide_eq_true_eq, fp_zero_lt, e]
  · unfold Poly.isClockwise
    rw [decide_eq_true_eq, fp_lt_zero, e]

/-- C121 on a triangle with large coordinates. -/
example : (⟨[gridVec 0 0, gridVec 33554432 33554431, gridVec 33554431 33554430]⟩ : Poly (FP double)).area.val = 1 / 2 := by
  rw [(C121_area 0 33554432 (by norm_num) _ ?_ ?_).2.1]
  · norm_num [shoelace, Poly.fpts, cyclicPairs, cross, Vec.fpt, gridVec, Vec.ofXY]
  · intro v hv
    simp only [List.mem_cons, List.not_mem_nil, or_false] at hv
    rcases hv with rfl | rfl | rfl
    · exact gridVec_onGrid (m := 0) (n := 0) (by norm_num) (by norm_num)
    · exact gridVec_onGrid (m := 33554432) (n := 33554431) (by norm_num) (by norm_num)
    · exact gridVec_onGrid (m := 33554431) (n := 33554430) (by norm_num) (by norm_num)
  · norm_num

/-! ## C122 -/

/-- The horizontal segment from `p` to a point to the right of an edge meets the edge exactly if the half line does. -/
theorem Poly.ray_exist {p t p0 p1 : Vec ℝ} (hy : t.y = p.y) (hp : p.x ≤ t.x) (h0 : p0.x ≤ t.x) (h1 : p1.x ≤ t.x) :
    (⟨p, t⟩ : Seg ℝ).existIntersection ⟨p0, p1⟩ = true ↔ (segment ℝ p0.pt p1.pt ∩ rayRight p.pt).Nonempty := by
  rw [C30_exist_intersection]
  change (segment ℝ p.pt t.pt ∩ segment ℝ p0.pt p1.pt).Nonempty ↔ _
  constructor
  · rintro ⟨z, hz1, hz2⟩
    obtain ⟨u, u0, u1, hx, hy'⟩ := mem_seg.mp hz1
    refine ⟨z, hz2, ?_, ?_⟩
    · rw [hy']; simp [hy]
    · rw [hx]; simp only [Vec.pt_fst]; nlinarith
  · rintro ⟨z, hz, hz2, hz1⟩
    refine ⟨z, ?_, hz⟩
    have hzX : z.1 ≤ t.x := by
      obtain ⟨u, u0, u1, hx, _⟩ := mem_seg.mp hz
      rw [hx]; simp only [Vec.pt_fst]
      exact param_le u0 u1 h0 h1
    simp only [Vec.pt_fst, Vec.pt_snd] at hz1 hz2
    rcases eq_or_lt_of_le hp with he | hlt
    · have : z = p.pt := Prod.ext (by simp only [Vec.pt_fst]; linarith) hz2
      rw [this]; exact left_mem_segment ℝ _ _
    · refine mem_seg.mpr ⟨(z.1 - p.x) / (t.x - p.x), div_nonneg (by linarith) (by linarith),
        (div_le_one (by linarith)).mpr (by linarith), ?_, ?_⟩
      · have : t.x - p.x ≠ 0 := by linarith
        simp only [Vec.pt_fst]; field_simp; ring
      · simp only [Vec.pt_snd, hy, sub_self, mul_zero, add_zero]; exact hz2

/-- A grid number that is not zero is at least one unit away from it. -/
theorem Grid.unit_le {k B : ℤ} {x : ℝ} (hx : Grid k B x) (h : 0 < x) : (2 : ℝ) ^ k ≤ x := by
  obtain ⟨m, _, rfl⟩ := hx
  have hp : (0 : ℝ) < (2 : ℝ) ^ k := by positivity
  have : (0 : ℝ) < m := pos_of_mul_pos_left h hp.le
  have h1 : (1 : ℤ) ≤ m := by
    have : (0 : ℤ) < m := by exact_mod_cast this
    omega
  have h2 : (1 : ℝ) ≤ m := by exact_mod_cast h1
  nlinarith

theorem grid_unit {k : ℤ} : Grid k 1 ((2 : ℝ) ^ k) := ⟨1, by norm_num, by simp⟩

/-- The computed area of `p`, a far point at the height of `p`, and `c`: with `h` the height of `p` over `c`, the sign is
opposite to that of `h`. -/
theorem fp_far_area {k : ℤ} (hk : -268 ≤ k) {D Q h : ℝ} (hD : Grid k (2 ^ 26) D) (hh : Grid k (2 ^ 26) h)
    (hQ : D + (2 : ℝ) ^ k ≤ Q) :
    (0 < h → rne (rne (D * h) + rne (Q * -h)) ≤ -((2 : ℝ) ^ (k + k))) ∧
    (h < 0 → (2 : ℝ) ^ (k + k) ≤ rne (rne (D * h) + rne (Q * -h))) ∧
    (h = 0 → rne (rne (D * h) + rne (Q * -h)) = 0) := by
  have hkk : IsDouble ((2 : ℝ) ^ (k + k)) := isDouble_pow _ (by omega)
  have e2 : (2 : ℝ) ^ (k + k) = (2 : ℝ) ^ k * (2 : ℝ) ^ k := zpow_add₀ (by norm_num) _ _
  have hp : (0 : ℝ) < (2 : ℝ) ^ k := by positivity
  have gDh := hD.mul hh
  have g1 : Grid (k + k) (2 ^ 53) ((D + (2 : ℝ) ^ k) * h) := by
    have := ((hD.mul hh).add ((grid_unit (k := k)).mul hh)).le (C := 2 ^ 53) (by norm_num)
    rwa [← add_mul] at this
  rw [gDh.rne (by omega) (by norm_num)]
  refine ⟨fun h0 => ?_, fun h0 => ?_, fun h0 => ?_⟩
  · have hu := hh.unit_le h0
    have : (D + (2 : ℝ) ^ k) * h ≤ rne (Q * h) := by
      rw [← g1.rne (by omega) le_rfl]
      exact rne_mono (mul_le_mul_of_nonneg_right hQ h0.le)
    have h3 : D * h + rne (Q * -h) ≤ -((2 : ℝ) ^ (k + k)) := by
      rw [mul_neg, rne_neg, e2]; nlinarith
    have := rne_mono h3
    rwa [rne_neg, rne_of_isDouble hkk] at this
  · have hu := hh.neg.unit_le (by linarith)
    have : rne (Q * h) ≤ (D + (2 : ℝ) ^ k) * h := by
      rw [← g1.rne (by omega) le_rfl]
      exact rne_mono (mul_le_mul_of_nonpos_right hQ h0.le)
    have h3 : (2 : ℝ) ^ (k + k) ≤ D * h + rne (Q * -h) := by
      rw [mul_neg, rne_neg, e2]; nlinarith
    have := rne_mono h3
    rwa [rne_of_isDouble hkk] at this
  · rw [h0]; simp [rne_zero]

/-- Products of numbers that are at least `u` away from zero keep their sign. -/
theorem rne_mul_neg_iff {x y u : ℝ} (hu : 0 < u) (hd : IsDouble (u * u)) (hx : x ≤ -u ∨ x = 0 ∨ u ≤ x)
    (hy : y ≤ -u ∨ y = 0 ∨ u ≤ y) : rne (x * y) < 0 ↔ x * y < 0 := by
  constructor
  · intro h
    by_contra hc
    exact absurd (rne_nonneg (not_lt.mp hc)) (not_le.mpr h)
  · intro h
    have : x * y ≤ -(u * u) := by
      rcases hx with hx | rfl | hx
      · rcases hy with hy | rfl | hy
        · nlinarith
        · simp at h
        · nlinarith
      · simp at h
      · rcases hy with hy | rfl | hy
        · nlinarith
        · simp at h
        · nlinarith
    have := rne_mono this
    rw [rne_neg, rne_of_isDouble hd] at this
    nlinarith

/-- Sums of two products with factors of equal sign. -/
theorem fp_near_area {k : ℤ} (hk : -268 ≤ k) {U V α β : ℝ} (hU : U ≤ -((2 : ℝ) ^ k)) (hV : V ≤ -((2 : ℝ) ^ k))
    (hα : Grid k (2 ^ 26) α) (hβ : Grid k (2 ^ 26) β) :
    (0 ≤ α → 0 ≤ β → (α ≠ 0 ∨ β ≠ 0) → rne (rne (U * α) + rne (V * β)) ≤ -((2 : ℝ) ^ (k + k))) ∧
    (α ≤ 0 → β ≤ 0 → (α ≠ 0 ∨ β ≠ 0) → (2 : ℝ) ^ (k + k) ≤ rne (rne (U * α) + rne (V * β))) ∧
    (α = 0 → β = 0 → rne (rne (U * α) + rne (V * β)) = 0) := by
  have hkk : IsDouble ((2 : ℝ) ^ (k + k)) := isDouble_pow _ (by omega)
  have e2 : (2 : ℝ) ^ (k + k) = (2 : ℝ) ^ k * (2 : ℝ) ^ k := zpow_add₀ (by norm_num) _ _
  have hp : (0 : ℝ) < (2 : ℝ) ^ k := by positivity
  have key : ∀ {U α : ℝ}, U ≤ -((2 : ℝ) ^ k) → Grid k (2 ^ 26) α →
      (0 < α → rne (U * α) ≤ -((2 : ℝ) ^ (k + k))) ∧ (α < 0 → (2 : ℝ) ^ (k + k) ≤ rne (U * α)) ∧
      (α = 0 → rne (U * α) = 0) := by
    intro U α hU hα
    refine ⟨fun h0 => ?_, fun h0 => ?_, fun h0 => ?_⟩
    · have hu := hα.unit_le h0
      have := rne_mono (show U * α ≤ -((2 : ℝ) ^ (k + k)) by rw [e2]; nlinarith)
      rwa [rne_neg, rne_of_isDouble hkk] at this
    · have hu := hα.neg.unit_le (by linarith)
      have := rne_mono (show (2 : ℝ) ^ (k + k) ≤ U * α by rw [e2]; nlinarith)
      rwa [rne_of_isDouble hkk] at this
    · rw [h0, mul_zero, rne_zero]
  obtain ⟨a1, a2, a3⟩ := key hU hα
  obtain ⟨b1, b2, b3⟩ := key hV hβ
  have hpp : (0 : ℝ) < (2 : ℝ) ^ (k + k) := by positivity
  refine ⟨fun h1 h2 h3 => ?_, fun h1 h2 h3 => ?_, fun h1 h2 => ?_⟩
  · have : rne (U * α) + rne (V * β) ≤ -((2 : ℝ) ^ (k + k)) := by
      rcases eq_or_lt_of_le h1 with h1 | h1
      · rcases eq_or_lt_of_le h2 with h2 | h2
        · rcases h3 with h3 | h3
          · exact absurd h1.symm h3
          · exact absurd h2.symm h3
        · linarith [a3 h1.symm, b1 h2]
      · rcases eq_or_lt_of_le h2 with h2 | h2
        · linarith [b3 h2.symm, a1 h1]
        · linarith [b1 h2, a1 h1]
    have := rne_mono this
    rwa [rne_neg, rne_of_isDouble hkk] at this
  · have : (2 : ℝ) ^ (k + k) ≤ rne (U * α) + rne (V * β) := by
      rcases eq_or_lt_of_le h1 with h1 | h1
      · rcases eq_or_lt_of_le h2 with h2 | h2
        · rcases h3 with h3 | h3
          · exact absurd h1 h3
          · exact absurd h2 h3
        · linarith [a3 h1, b2 h2]
      · rcases eq_or_lt_of_le h2 with h2 | h2
        · linarith [b3 h2, a2 h1]
        · linarith [b2 h2, a2 h1]
    have := rne_mono this
    rwa [rne_of_isDouble hkk] at this
  · rw [a3 h1, b3 h2, add_zero, rne_zero]

theorem mul_neg_of_neg_iff {x y : ℝ} (hy : y < 0) : x * y < 0 ↔ 0 < x := by
  constructor
  · intro h; by_contra hn
    exact absurd (mul_nonneg_of_nonpos_of_nonpos (not_lt.mp hn) hy.le) (not_le.mpr h)
  · intro h; exact mul_neg_of_pos_of_neg h hy

theorem mul_neg_of_pos_iff {x y : ℝ} (hy : 0 < y) : x * y < 0 ↔ x < 0 := by
  constructor
  · intro h; by_contra hn
    exact absurd (mul_nonneg (not_lt.mp hn) hy.le) (not_le.mpr h)
  · intro h; exact mul_neg_of_neg_of_pos h hy

theorem sum_neg {a b x y : ℝ} (ha : a < 0) (hb : b < 0) (hx : 0 < x) (hy : 0 < y) : a * x + b * y < 0 :=
  add_neg (mul_neg_of_neg_of_pos ha hx) (mul_neg_of_neg_of_pos hb hy)

theorem sum_pos {a b x y : ℝ} (ha : a < 0) (hb : b < 0) (hx : x < 0) (hy : y < 0) : 0 < a * x + b * y :=
  add_pos (mul_pos_of_neg_of_neg ha hx) (mul_pos_of_neg_of_neg hb hy)

/-- Two numbers with the opposite signs of `x` and `y` have a negative product exactly if `x` and `y` have. -/
theorem mul_neg_opposite {x y X Y w : ℝ} (w0 : 0 < w) (x1 : 0 < x → X ≤ -w) (x2 : x < 0 → w ≤ X) (x3 : x = 0 → X = 0)
    (y1 : 0 < y → Y ≤ -w) (y2 : y < 0 → w ≤ Y) (y3 : y = 0 → Y = 0) : X * Y < 0 ↔ x * y < 0 := by
  rcases lt_trichotomy y 0 with h | h | h
  · rw [mul_neg_of_neg_iff h, mul_neg_of_pos_iff (w0.trans_le (y2 h))]
    rcases lt_trichotomy x 0 with h' | h' | h'
    · have := x2 h'; constructor <;> intro <;> linarith
    · have := x3 h'; constructor <;> intro <;> linarith
    · have := x1 h'; constructor <;> intro <;> linarith
  · rw [y3 h, h]; simp
  · rw [mul_neg_of_pos_iff h, mul_neg_of_neg_iff (lt_of_le_of_lt (y1 h) (by linarith))]
    rcases lt_trichotomy x 0 with h' | h' | h'
    · have := x2 h'; constructor <;> intro <;> linarith
    · have := x3 h'; constructor <;> intro <;> linarith
    · have := x1 h'; constructor <;> intro <;> linarith

theorem fp_far_exist {k : ℤ} (hk : -268 ≤ k) {p t c e : Vec (FP double)} (hp : p.OnGrid k) (hc : c.OnGrid k)
    (he : e.OnGrid k) (hy : t.y = p.y) (tp : p.x.val + (2 : ℝ) ^ k ≤ t.x.val) (tc : c.x.val + (2 : ℝ) ^ k ≤ t.x.val)
    (te : e.x.val + (2 : ℝ) ^ k ≤ t.x.val) :
    (⟨p, t⟩ : Seg (FP double)).existIntersection ⟨c, e⟩ =
      (⟨p.exact, t.exact⟩ : Seg ℝ).existIntersection ⟨c.exact, e.exact⟩ := by
  set u : ℝ := (2 : ℝ) ^ k with hu
  have up : 0 < u := by positivity
  set w : ℝ := (2 : ℝ) ^ (k + k) with hw
  have wp : 0 < w := by positivity
  have hww : IsDouble (w * w) := by
    rw [hw, ← zpow_add₀ (by norm_num)]; exact isDouble_pow _ (by omega)
  have hy' : t.y.val = p.y.val := by rw [hy]
  -- areas over the horizontal segment
  have area : ∀ v : Vec (FP double), v.OnGrid k → v.x.val + u ≤ t.x.val →
      (0 < p.y.val - v.y.val → (Tri.dsa p t v).val ≤ -w) ∧ (p.y.val - v.y.val < 0 → w ≤ (Tri.dsa p t v).val) ∧
      (p.y.val - v.y.val = 0 → (Tri.dsa p t v).val = 0) := by
    intro v hv tv
    have gD := (hp.1.sub hv.1).le (C := 2 ^ 26) (by norm_num)
    have gh := (hp.2.sub hv.2).le (C := 2 ^ 26) (by norm_num)
    have gDu := (gD.add (grid_unit (k := k))).le (C := 2 ^ 53) (by norm_num)
    have hQ : p.x.val - v.x.val + u ≤ rne (t.x.val - v.x.val) := by
      rw [← gDu.rne (by omega) le_rfl]
      exact rne_mono (by rw [← hu]; linarith)
    have := fp_far_area hk gD gh hQ
    have ev : (Tri.dsa p t v).val = rne (rne ((p.x.val - v.x.val) * (p.y.val - v.y.val)) +
        rne (rne (t.x.val - v.x.val) * -(p.y.val - v.y.val))) := by
      change rne (rne (rne (p.x.val - v.x.val) * rne (t.y.val - v.y.val)) +
        rne (rne (t.x.val - v.x.val) * rne (v.y.val - p.y.val))) = _
      rw [hy', gD.rne (by omega) (by norm_num), gh.rne (by omega) (by norm_num), ← neg_sub p.y.val, rne_neg,
        gh.rne (by omega) (by norm_num)]
    rw [ev]; exact this
  have areaR : ∀ v : Vec (FP double), Tri.dsa p.exact t.exact v.exact = (p.x.val - t.x.val) * (p.y.val - v.y.val) := by
    intro v
    simp only [Tri.dsa, Vec.exact_x, Vec.exact_y, hy']; ring
  have trich : ∀ v : Vec (FP double), v.OnGrid k → v.x.val + u ≤ t.x.val →
      ((Tri.dsa p t v).val ≤ -w ∨ (Tri.dsa p t v).val = 0 ∨ w ≤ (Tri.dsa p t v).val) := by
    intro v hv tv
    obtain ⟨h1, h2, h3⟩ := area v hv tv
    rcases lt_trichotomy (p.y.val - v.y.val) 0 with h | h | h
    · exact .inr (.inr (h2 h))
    · exact .inr (.inl (h3 h))
    · exact .inl (h1 h)
  have zero : ∀ v : Vec (FP double), v.OnGrid k → v.x.val + u ≤ t.x.val →
      (Tri.dsa p t v == num 0) = (Tri.dsa p.exact t.exact v.exact == num 0) := by
    intro v hv tv
    obtain ⟨h1, h2, h3⟩ := area v hv tv
    rw [Bool.eq_iff_iff, fp_beq_zero, beq_iff_eq, areaR, num_real, Nat.cast_zero, mul_eq_zero,
      or_iff_right (by intro h; linarith)]
    constructor
    · intro h
      rcases lt_trichotomy (p.y.val - v.y.val) 0 with h' | h' | h'
      · linarith [h2 h']
      · exact h'
      · linarith [h1 h']
    · exact h3
  -- areas over the edge
  obtain ⟨eb0, gb0⟩ := fp_dsa_grid (by omega) hc he hp
  have tb0 : (Tri.dsa c e p).val ≤ -w ∨ (Tri.dsa c e p).val = 0 ∨ w ≤ (Tri.dsa c e p).val := by
    rw [eb0]
    rcases lt_trichotomy (area2 c.fpt e.fpt p.fpt) 0 with h | h | h
    · have := gb0.neg.unit_le (by linarith); exact .inl (by linarith)
    · exact .inr (.inl h)
    · exact .inr (.inr (gb0.unit_le h))
  have gα := (he.2.sub hp.2).le (C := 2 ^ 26) (by norm_num)
  have gβ := (hp.2.sub hc.2).le (C := 2 ^ 26) (by norm_num)
  have hUd : IsDouble (-u) := (isDouble_pow k (by omega)).neg
  have hU : rne (c.x.val - t.x.val) ≤ -u := by
    rw [← rne_of_isDouble hUd]; exact rne_mono (by linarith)
  have hV : rne (e.x.val - t.x.val) ≤ -u := by
    rw [← rne_of_isDouble hUd]; exact rne_mono (by linarith)
  obtain ⟨n1, n2, n3⟩ := fp_near_area hk hU hV gα gβ
  have eb1 : (Tri.dsa c e t).val = rne (rne (rne (c.x.val - t.x.val) * (e.y.val - p.y.val)) +
      rne (rne (e.x.val - t.x.val) * (p.y.val - c.y.val))) := by
    change rne (rne (rne (c.x.val - t.x.val) * rne (e.y.val - t.y.val)) +
        rne (rne (e.x.val - t.x.val) * rne (t.y.val - c.y.val))) = _
    rw [hy', gα.rne (by omega) (by norm_num), gβ.rne (by omega) (by norm_num)]
  rw [← eb1] at n1 n2 n3
  have eb1R : Tri.dsa c.exact e.exact t.exact = (c.x.val - t.x.val) * (e.y.val - p.y.val) +
      (e.x.val - t.x.val) * (p.y.val - c.y.val) := by
    simp only [Tri.dsa, Vec.exact_x, Vec.exact_y, hy']
  have cond : (Tri.dsa p t c * Tri.dsa p t e < num 0 ∧ Tri.dsa c e p * Tri.dsa c e t < num 0) ↔
      (Tri.dsa p.exact t.exact c.exact * Tri.dsa p.exact t.exact e.exact < num 0 ∧
        Tri.dsa c.exact e.exact p.exact * Tri.dsa c.exact e.exact t.exact < num 0) := by
    have hb0R : Tri.dsa c.exact e.exact p.exact = (Tri.dsa c e p).val := by rw [eb0, Tri.dsa_real]; rfl
    rw [fp_lt_zero, fp_lt_zero, FP.mul_val, FP.mul_val, num_real, Nat.cast_zero, areaR, areaR, hb0R]
    change (rne _ < 0 ∧ rne _ < 0) ↔ _
    rw [rne_mul_neg_iff wp hww (trich c hc tc) (trich e he te)]
    obtain ⟨c1, c2, c3⟩ := area c hc tc
    obtain ⟨e1, e2, e3⟩ := area e he te
    have hX : p.x.val - t.x.val < 0 := by linarith
    have hRR : (p.x.val - t.x.val) * (p.y.val - c.y.val) * ((p.x.val - t.x.val) * (p.y.val - e.y.val)) < 0 ↔
        (p.y.val - c.y.val) * (p.y.val - e.y.val) < 0 := by
      rw [show (p.x.val - t.x.val) * (p.y.val - c.y.val) * ((p.x.val - t.x.val) * (p.y.val - e.y.val)) =
        ((p.y.val - c.y.val) * (p.y.val - e.y.val)) * ((p.x.val - t.x.val) * (p.x.val - t.x.val)) by ring]
      exact mul_neg_of_pos_iff (mul_pos_of_neg_of_neg hX hX)
    have hFF : (Tri.dsa p t c).val * (Tri.dsa p t e).val < 0 ↔ (p.y.val - c.y.val) * (p.y.val - e.y.val) < 0 :=
      mul_neg_opposite wp c1 c2 c3 e1 e2 e3
    rw [hFF, hRR]
    refine and_congr_right fun hne => ?_
    rw [eb1R]
    rcases mul_neg_iff.mp hne with ⟨hc', he'⟩ | ⟨hc', he'⟩
    · have k1 := n1 (by linarith) (by linarith) (.inr (by linarith))
      rw [rne_mul_neg_iff wp hww tb0 (.inl k1)]
      rw [mul_neg_of_neg_iff (lt_of_le_of_lt k1 (by linarith)),
        mul_neg_of_neg_iff (sum_neg (by linarith) (by linarith) (by linarith) (by linarith))]
    · have k1 := n2 (by linarith) (by linarith) (.inr (by linarith))
      rw [rne_mul_neg_iff wp hww tb0 (.inr (.inr k1))]
      rw [mul_neg_of_pos_iff (wp.trans_le k1),
        mul_neg_of_pos_iff (sum_pos (by linarith) (by linarith) (by linarith) (by linarith))]
  have last : (Tri.dsa c e t == num 0 && (⟨c.exact, e.exact⟩ : Seg ℝ).checkIntersectsOnLine t.exact) =
      (Tri.dsa c.exact e.exact t.exact == num 0 && (⟨c.exact, e.exact⟩ : Seg ℝ).checkIntersectsOnLine t.exact) := by
    by_cases hchk : (⟨c.exact, e.exact⟩ : Seg ℝ).checkIntersectsOnLine t.exact = true
    · rw [hchk, Bool.and_true, Bool.and_true, Bool.eq_iff_iff, fp_beq_zero, beq_iff_eq, eb1R, num_real, Nat.cast_zero]
      rw [Seg.checkIntersectsOnLine_iff] at hchk
      simp only [Vec.exact_x, Vec.exact_y, hy'] at hchk
      split_ifs at hchk with hx
      · rcases hchk with ⟨h1, h2⟩ | ⟨h1, h2⟩
        · by_cases hz : e.y.val - p.y.val = 0 ∧ p.y.val - c.y.val = 0
          · rw [n3 hz.1 hz.2, hz.1, hz.2]; simp
          · have k1 := n1 (by linarith) (by linarith) (by rw [not_and_or] at hz; exact hz)
            have k2 : 0 < e.y.val - p.y.val ∨ 0 < p.y.val - c.y.val := by
              by_contra hn; push Not at hn; exact hz ⟨by linarith, by linarith⟩
            constructor
            · intro h; linarith
            · intro h
              have m1 := mul_nonneg (show 0 ≤ t.x.val - c.x.val by linarith) (show 0 ≤ e.y.val - p.y.val by linarith)
              have m2 := mul_nonneg (show 0 ≤ t.x.val - e.x.val by linarith) (show 0 ≤ p.y.val - c.y.val by linarith)
              rcases k2 with k2 | k2
              · have := mul_pos (show 0 < t.x.val - c.x.val by linarith) k2
                linarith
              · have := mul_pos (show 0 < t.x.val - e.x.val by linarith) k2
                linarith
        · by_cases hz : e.y.val - p.y.val = 0 ∧ p.y.val - c.y.val = 0
          · rw [n3 hz.1 hz.2, hz.1, hz.2]; simp
          · have k1 := n2 (by linarith) (by linarith) (by rw [not_and_or] at hz; exact hz)
            have k2 : e.y.val - p.y.val < 0 ∨ p.y.val - c.y.val < 0 := by
              by_contra hn; push Not at hn; exact hz ⟨by linarith, by linarith⟩
            constructor
            · intro h; linarith
            · intro h
              have m1 := mul_nonneg (show 0 ≤ t.x.val - c.x.val by linarith) (show 0 ≤ p.y.val - e.y.val by linarith)
              have m2 := mul_nonneg (show 0 ≤ t.x.val - e.x.val by linarith) (show 0 ≤ c.y.val - p.y.val by linarith)
              rcases k2 with k2 | k2
              · have := mul_pos (show 0 < t.x.val - c.x.val by linarith) (show 0 < p.y.val - e.y.val by linarith)
                linarith
              · have := mul_pos (show 0 < t.x.val - e.x.val by linarith) (show 0 < c.y.val - p.y.val by linarith)
                linarith
      · rcases hchk with ⟨h1, h2⟩ | ⟨h1, h2⟩ <;> linarith
    · rw [Bool.not_eq_true] at hchk
      rw [hchk, Bool.and_false, Bool.and_false]
  have hb0 := fp_dsa_beq_grid hk hc he hp
  unfold Seg.existIntersection
  simp only [cond, zero c hc tc, zero e he te, hb0, fp_vec_eq, fp_check, Seg.exact]
  rw [last]

theorem fp_onSegment_grid {k : ℤ} (hk : -268 ≤ k) {s : Seg (FP double)} {p : Vec (FP double)} (hs : s.OnGrid k)
    (hp : p.OnGrid k) : s.onSegment p = s.exact.onSegment p.exact := by
  unfold Seg.onSegment
  rw [fp_dsa_beq_grid hk hs.1 hs.2 hp, fp_check]
  rfl

theorem fp_containsLoop {k : ℤ} (hk : -268 ≤ k) {p t : Vec (FP double)} {t' : Vec ℝ} (hp : p.OnGrid k) (hy : t.y = p.y)
    (hy' : t'.y = p.y.val) (tp : p.x.val + (2 : ℝ) ^ k ≤ t.x.val) (tp' : p.x.val ≤ t'.x) (allow : Bool)
    (E : List (Vec (FP double) × Vec (FP double)))
    (hE : ∀ e ∈ E, (e.1.OnGrid k ∧ e.1.x.val + (2 : ℝ) ^ k ≤ t.x.val ∧ e.1.x.val ≤ t'.x) ∧
      (e.2.OnGrid k ∧ e.2.x.val + (2 : ℝ) ^ k ≤ t.x.val ∧ e.2.x.val ≤ t'.x)) (inside : Bool) :
    Poly.containsLoop p allow (Seg.ofPoints p t) E inside =
      Poly.containsLoop p.exact allow (Seg.ofPoints p.exact t') (E.map (Prod.map Vec.exact Vec.exact)) inside := by
  induction E generalizing inside with
  | nil => rfl
  | cons e E ih =>
    have ih := ih (fun e he => hE e (List.mem_cons_of_mem _ he))
    obtain ⟨⟨g0, r0, l0⟩, g1, r1, l1⟩ := hE e List.mem_cons_self
    obtain ⟨p0, p1⟩ := e
    have e1 : (Seg.ofPoints p0 p1).onSegment p = (Seg.ofPoints p0.exact p1.exact).onSegment p.exact :=
      fp_onSegment_grid hk (s := Seg.ofPoints p0 p1) ⟨g0, g1⟩ hp
    have e2 : (Seg.ofPoints p t).existIntersection (Seg.ofPoints p0 p1) =
        (Seg.ofPoints p.exact t').existIntersection (Seg.ofPoints p0.exact p1.exact) := by
      have h1 := fp_far_exist hk (p := Vec.ofVec p) (t := Vec.ofVec t) (c := Vec.ofVec p0) (e := Vec.ofVec p1) hp g0 g1
        hy tp r0 r1
      refine h1.trans ?_
      have u0 : (0 : ℝ) < (2 : ℝ) ^ k := by positivity
      have r0' : p0.x.val + (2 : ℝ) ^ k ≤ t.x.val := r0
      have r1' : p1.x.val + (2 : ℝ) ^ k ≤ t.x.val := r1
      rw [Bool.eq_iff_iff, Poly.ray_exist (show t.y.val = p.y.val by rw [hy]) (show p.x.val ≤ t.x.val by linarith)
        (show p0.x.val ≤ t.x.val by linarith) (show p1.x.val ≤ t.x.val by linarith)]
      exact (Poly.ray_exist (p := Vec.ofVec p.exact) (t := Vec.ofVec t') (p0 := Vec.ofVec p0.exact)
        (p1 := Vec.ofVec p1.exact) hy' tp' l0 l1).symm
    simp only [List.map_cons, Prod.map_apply, Poly.containsLoop]
    rw [e1, e2, fp_vec_eq p p0, ih, ih]
    simp only [fp_beq_exact, FP.lt_def]
    rfl

theorem IsLeast.eq_of {S : Set ℝ} {a b : ℝ} (h : IsLeast S a) (h1 : b ∈ S) (h2 : ∀ x ∈ S, b ≤ x) : a = b :=
  le_antisymm (h.2 h1) (h2 _ h.1)

/-- Containment in a polygon on the grid does not depend on rounding. -/
theorem fp_contains_grid {k : ℤ} (hk : -268 ≤ k) (poly : Poly (FP double)) (p : Vec (FP double))
    (hv : ∀ v ∈ poly.vertices, v.OnGrid k) (hp : p.OnGrid k) (allow : Bool) :
    poly.contains p allow = poly.exact.contains p.exact allow := by
  obtain ⟨vs⟩ := poly
  rcases vs with _ | ⟨v0, _ | ⟨v1, vs⟩⟩
  · rfl
  · simp only [Poly.contains, Poly.exact, List.map_cons, List.map_nil, fp_vec_eq]
  · set poly : Poly (FP double) := ⟨v0 :: v1 :: vs⟩ with hpoly
    obtain ⟨bb, x0, x1, y0, y1, hbb, lx0, gx1, ly0, gy1, eL, eT, eR, eB⟩ := fp_boundingBox poly (by simp [hpoly])
    obtain ⟨bb', hbb', hok, hall, ⟨w1, m1, q1⟩, ⟨w2, m2, q2⟩, ⟨w3, m3, q3⟩, ⟨w4, m4, q4⟩⟩ :=
      poly.exact.boundingBox_spec (by simp [hpoly, Poly.exact])
    have hxs : ∀ x ∈ poly.xs, Grid k (2 ^ 25) x := by rintro x ⟨v, h, rfl⟩; exact (hv v h).1
    have hys : ∀ y ∈ poly.ys, Grid k (2 ^ 25) y := by rintro x ⟨v, h, rfl⟩; exact (hv v h).2
    have g0 := hxs _ lx0.1
    have g1 := hxs _ gx1.1
    have g2 := hys _ ly0.1
    have g3 := hys _ gy1.1
    have hx01 : x0 ≤ x1 := lx0.2 gx1.1
    have hy01 : y0 ≤ y1 := ly0.2 gy1.1
    have eR' : bb.right.val = x1 := by
      rw [eR]; change rne (x0 + rne (x1 - x0)) = x1
      rw [(g1.sub g0).rne (by omega) (by norm_num), add_sub_cancel, g1.rne (by omega) (by norm_num)]
    have eB' : bb.bottom.val = y1 := by
      rw [eB]; change rne (y0 + rne (y1 - y0)) = y1
      rw [(g3.sub g2).rne (by omega) (by norm_num), add_sub_cancel, g3.rne (by omega) (by norm_num)]
    have hmem : ∀ v ∈ poly.vertices, v.exact ∈ poly.exact.vertices := fun v h => List.mem_map_of_mem h
    have hmem' : ∀ w ∈ poly.exact.vertices, w.x ∈ poly.xs ∧ w.y ∈ poly.ys := by
      intro w hw
      obtain ⟨v, h, rfl⟩ := List.mem_map.mp hw
      exact ⟨⟨v, h, rfl⟩, ⟨v, h, rfl⟩⟩
    have fL : bb'.left = x0 := by
      refine le_antisymm ?_ ?_
      · obtain ⟨v, h, e⟩ := lx0.1
        rw [← e]; exact (hall _ (hmem v h)).1
      · rw [← q1]; exact lx0.2 (hmem' _ m1).1
    have fR : bb'.right = x1 := by
      refine le_antisymm ?_ ?_
      · rw [← q2]; exact gx1.2 (hmem' _ m2).1
      · obtain ⟨v, h, e⟩ := gx1.1
        rw [← e]; exact (hall _ (hmem v h)).2.1
    have fT : bb'.top = y0 := by
      refine le_antisymm ?_ ?_
      · obtain ⟨v, h, e⟩ := ly0.1
        rw [← e]; exact (hall _ (hmem v h)).2.2.1
      · rw [← q3]; exact ly0.2 (hmem' _ m3).2
    have fB : bb'.bottom = y1 := by
      refine le_antisymm ?_ ?_
      · rw [← q4]; exact gy1.2 (hmem' _ m4).2
      · obtain ⟨v, h, e⟩ := gy1.1
        rw [← e]; exact (hall _ (hmem v h)).2.2.2
    have hc : bb.contains p = bb'.contains p.exact := by
      rw [Bool.eq_iff_iff, fp_contains, eL, eT, eR', eB']
      unfold Rect.contains
      simp only [Bool.and_eq_true, decide_eq_true_eq, fL, fR, fT, fB, Vec.exact_x, Vec.exact_y]
      tauto
    have c1 : poly.contains p allow = if !bb.contains p then false else
        Poly.containsLoop p allow (Poly.halfLine bb v0 p) (cyclicPairs (v0 :: v1 :: vs)) false := by
      simp only [hpoly, Poly.contains]
      rw [← hpoly, hbb]
    have c2 : poly.exact.contains p.exact allow = if !bb'.contains p.exact then false else
        Poly.containsLoop p.exact allow (Poly.halfLine bb' v0.exact p.exact)
          ((cyclicPairs (v0 :: v1 :: vs)).map (Prod.map Vec.exact Vec.exact)) false := by
      have : poly.exact = ⟨v0.exact :: v1.exact :: vs.map Vec.exact⟩ := rfl
      rw [← cyclicPairs_map]
      simp only [this, Poly.contains, List.map_cons]
      rw [← this, hbb']
    rw [c1, c2, hc]
    by_cases hin : bb'.contains p.exact = true
    swap
    · rw [Bool.not_eq_true] at hin; rw [hin]; rfl
    rw [hin]
    simp only [Bool.not_true, Bool.false_eq_true, if_false]
    rw [← hc, fp_contains, eL, eT, eR', eB'] at hin
    obtain ⟨i1, i2, i3, i4⟩ := hin
    have hex : ∀ v ∈ poly.vertices, x0 ≤ v.x.val ∧ v.x.val ≤ x1 ∧ y0 ≤ v.y.val ∧ v.y.val ≤ y1 := fun v h =>
      ⟨lx0.2 ⟨v, h, rfl⟩, gx1.2 ⟨v, h, rfl⟩, ly0.2 ⟨v, h, rfl⟩, gy1.2 ⟨v, h, rfl⟩⟩
    have gs := ((g1.sub g0).add g3).sub g2
    rcases eq_or_lt_of_le (show 0 ≤ x1 - x0 + y1 - y0 by linarith) with hs | hs
    · -- all vertices are `p`
      have hx : x1 = x0 := by linarith
      have hy : y1 = y0 := by linarith
      obtain ⟨a1, a2, a3, a4⟩ := hex v0 (by simp [hpoly])
      obtain ⟨b1, b2, b3, b4⟩ := hex v1 (by simp [hpoly])
      have ex0 : v0.x.val = p.x.val := by linarith
      have ey0 : v0.y.val = p.y.val := by linarith
      have ex1 : v1.x.val = p.x.val := by linarith
      have ey1 : v1.y.val = p.y.val := by linarith
      have hcp : cyclicPairs (v0 :: v1 :: vs) = (v0, v1) :: (v1 :: vs).zip (vs ++ [v0]) := rfl
      have hon : (Seg.ofPoints v0.exact v1.exact).onSegment p.exact = true := by
        rw [C29_degenerate _ _ (by
          unfold Seg.NonDeg; rw [not_not]
          exact Prod.ext (ex0.trans ex1.symm) (ey0.trans ey1.symm))]
        exact ey0.symm
      have hon' : (Seg.ofPoints v0 v1).onSegment p = true := by
        rw [fp_onSegment_grid hk (s := Seg.ofPoints v0 v1) ⟨hv v0 (by simp [hpoly]), hv v1 (by simp [hpoly])⟩ hp]
        exact hon
      have heq : p.exact.eq v0.exact = true := by
        rw [Vec.eq_iff_pt]; exact Prod.ext ex0.symm ey0.symm
      rw [hcp, List.map_cons, Poly.containsLoop, Prod.map_apply, Poly.containsLoop, hon, hon', fp_vec_eq, heq]
      cases allow <;> rfl
    · -- the half line is long enough
      have hu := gs.unit_le hs
      have u0 : (0 : ℝ) < (2 : ℝ) ^ k := by positivity
      set u : ℝ := (2 : ℝ) ^ k with hudef
      have es : (bb.right - bb.left + bb.bottom - bb.top).val = x1 - x0 + y1 - y0 := by
        change rne (rne (rne (bb.right.val - bb.left.val) + bb.bottom.val) - bb.top.val) = _
        rw [eR', eL, eB', eT, (g1.sub g0).rne (by omega) (by norm_num), ((g1.sub g0).add g3).rne (by omega) (by norm_num),
          gs.rne (by omega) (by norm_num)]
      have hr : 0 ≤ (v0.sub p).r.val := rne_nonneg (Real.sqrt_nonneg _)
      have e3 : (num 3 : FP double).val = 3 := by
        change rne ((3 : ℕ) : ℝ) = 3
        rw [rne_of_isDouble (isDouble_nat (n := 3) (by norm_num))]; norm_num
      have g3s : Grid k (2 ^ 29) ((x1 - x0 + y1 - y0) * 3) := by
        have := (gs.mul (⟨3, by norm_num, by norm_num⟩ : Grid 0 3 (3 : ℝ))).le (C := 2 ^ 29) (by norm_num)
        rwa [add_zero] at this
      have hlen : (x1 - x0 + y1 - y0) * 3 ≤
          (((bb.right - bb.left + bb.bottom - bb.top) + (v0.sub p).r) * num 3 : FP double).val := by
        rw [FP.mul_val, FP.add_val, es, e3]
        change _ ≤ rne (rne _ * 3)
        rw [← g3s.rne (by omega) (by norm_num)]
        apply rne_mono
        have : x1 - x0 + y1 - y0 ≤ rne (x1 - x0 + y1 - y0 + (v0.sub p).r.val) := by
          conv_lhs => rw [← gs.rne (by omega) (by norm_num)]
          exact rne_mono (by linarith)
        linarith
      have hX : p.x.val + (x1 - x0 + y1 - y0) * 3 ≤
          (p.x + ((bb.right - bb.left + bb.bottom - bb.top) + (v0.sub p).r) * num 3).val := by
        rw [FP.add_val]
        change _ ≤ rne _
        rw [← (hp.1.add g3s).rne (by omega) (by norm_num)]
        exact rne_mono (by linarith)
      set t : Vec (FP double) :=
        Vec.ofXY (p.x + ((bb.right - bb.left + bb.bottom - bb.top) + (v0.sub p).r) * num 3) p.y with ht
      have hXt : x1 + u ≤ t.x.val := by
        refine le_trans ?_ hX
        linarith
      set t' : Vec ℝ := Vec.ofXY (p.exact.x + ((bb'.right - bb'.left + bb'.bottom - bb'.top) + (v0.exact.sub p.exact).r) * num 3)
        p.exact.y with ht'
      have hXt' : x1 ≤ t'.x := by
        have hr' : 0 ≤ (v0.exact.sub p.exact).r := by rw [Vec.r_real]; exact Real.sqrt_nonneg _
        have : t'.x = p.x.val + ((x1 - x0 + y1 - y0) + (v0.exact.sub p.exact).r) * 3 := by
          rw [ht', fL, fR, fT, fB]; simp [Vec.ofXY]
        rw [this]; linarith
      refine fp_containsLoop hk (t := t) (t' := t') hp rfl rfl (by linarith) (by linarith) allow _ ?_ false
      intro e he
      have m0 : e.1 ∈ poly.vertices := fst_mem_of_cyclicPairs he
      have m1 : e.2 ∈ poly.vertices := snd_mem_of_cyclicPairs he
      have b0 := hex _ m0
      have b1 := hex _ m1
      exact ⟨⟨hv _ m0, by linarith, by linarith⟩, ⟨hv _ m1, by linarith, by linarith⟩⟩

/-- **C122** On a common grid `Polygon2D.contains(p, True)` follows the even-odd rule in double precision: `p` is contained
exactly if it is a vertex or the half line to the right crosses an odd number of edges (half-open rule). The end point of
the virtual half line is rounded, but the answer is exact. -/
theorem C122_parity (k : ℤ) (hk : -268 ≤ k) (poly : Poly (FP double)) (p : Vec (FP double))
    (hv : ∀ v ∈ poly.vertices, v.OnGrid k) (hp : p.OnGrid k) :
    poly.contains p true = true ↔
      p.fpt ∈ poly.fpts ∨ Odd (Spec.count (fun e : Pt × Pt => Crosses p.fpt e.1 e.2) (cyclicPairs poly.fpts)) := by
  rw [fp_contains_grid hk poly p hv hp, C73_parity, Poly.crossings, Poly.exact_pts]
  rfl

/-- **C122** Off the outline: for all sufficiently small `ε` the half line to the right of the point moved up by `ε` meets
an odd number of edges. -/
theorem C122_even_odd (k : ℤ) (hk : -268 ≤ k) (poly : Poly (FP double)) (p : Vec (FP double))
    (hv : ∀ v ∈ poly.vertices, v.OnGrid k) (hp : p.OnGrid k) (h : p.fpt ∉ outline poly.fpts) :
    poly.contains p true = true ↔ ∀ᶠ ε : ℝ in nhdsWithin 0 (Set.Ioi 0), Odd (Spec.count
      (fun e : Pt × Pt => (segment ℝ e.1 e.2 ∩ rayRight (p.x.val, p.y.val + ε)).Nonempty) (cyclicPairs poly.fpts)) := by
  rw [fp_contains_grid hk poly p hv hp, C73_even_odd _ _ (by rw [Poly.exact_pts]; exact h), Poly.exact_pts]
  rfl

/-- **C122** For a convex polygon: a point off the outline is contained exactly if it is an interior point, with and
without `allow_on_segment`. -/
theorem C122_convex (k : ℤ) (hk : -268 ≤ k) (poly : Poly (FP double)) (p : Vec (FP double))
    (hv : ∀ v ∈ poly.vertices, v.OnGrid k) (hp : p.OnGrid k) (H : StrictConvex poly.fpts) :
    (p.fpt ∉ outline poly.fpts →
      (poly.contains p true = true ↔ p.fpt ∈ interior (convexHull ℝ {z | z ∈ poly.fpts}))) ∧
    (poly.contains p false = true ↔ p.fpt ∈ interior (convexHull ℝ {z | z ∈ poly.fpts})) := by
  have h := C73_convex poly.exact (by rw [Poly.exact_pts]; exact H) p.exact
  rw [Poly.exact_pts] at h
  rw [fp_contains_grid hk poly p hv hp, fp_contains_grid hk poly p hv hp]
  exact h

/-- **C122** On the outline: never contained without `allow_on_segment`; a vertex is always contained with it. -/
theorem C122_outline (k : ℤ) (hk : -268 ≤ k) (poly : Poly (FP double)) (p : Vec (FP double))
    (hv : ∀ v ∈ poly.vertices, v.OnGrid k) (hp : p.OnGrid k) :
    (p.fpt ∈ outline poly.fpts → poly.contains p false = false) ∧
    (p.fpt ∈ poly.fpts → poly.contains p true = true) := by
  rw [fp_contains_grid hk poly p hv hp, fp_contains_grid hk poly p hv hp]
  refine ⟨fun h => C74_strict _ _ (by rw [Poly.exact_pts]; exact h), fun h => ?_⟩
  rw [C73_parity, Poly.exact_pts]
  exact .inl h

/-- C122 on a thin triangle: (1, 1) is inside the triangle (0, 0), (33554432, 33554431), (0, 33554430); (1, 0) is not. -/
example : (⟨[gridVec 0 0, gridVec 33554432 33554431, gridVec 0 33554430]⟩ : Poly (FP double)).contains (gridVec 1 1) true =
      true ∧
    (⟨[gridVec 0 0, gridVec 33554432 33554431, gridVec 0 33554430]⟩ : Poly (FP double)).contains (gridVec 1 0) true =
      false := by
  have hv : ∀ v ∈ (⟨[gridVec 0 0, gridVec 33554432 33554431, gridVec 0 33554430]⟩ : Poly (FP double)).vertices,
      v.OnGrid 0 := by
    intro v hv
    simp only [List.mem_cons, List.not_mem_nil, or_false] at hv
    rcases hv with rfl | rfl | rfl <;> exact gridVec_onGrid (by norm_num) (by norm_num)
  have hpairs : cyclicPairs (⟨[gridVec 0 0, gridVec 33554432 33554431, gridVec 0 33554430]⟩ : Poly (FP double)).fpts =
      [((0, 0), (33554432, 33554431)), ((33554432, 33554431), (0, 33554430)), ((0, 33554430), (0, 0))] := by
    simp [Poly.fpts, cyclicPairs, Vec.fpt, gridVec, Vec.ofXY]
  constructor
  · rw [C122_parity 0 (by norm_num) _ _ hv (gridVec_onGrid (by norm_num) (by norm_num)), hpairs]
    right
    have e : (gridVec 1 1).fpt = (1, 1) := by simp [Vec.fpt, gridVec, Vec.ofXY]
    rw [e]
    simp only [count_cons, crosses_iff, area2, count_nil]
    norm_num
  · rw [← Bool.not_eq_true, C122_parity 0 (by norm_num) _ _ hv (gridVec_onGrid (by norm_num) (by norm_num)), hpairs]
    have e : (gridVec 1 0).fpt = (1, 0) := by simp [Vec.fpt, gridVec, Vec.ofXY]
    rw [e]
    simp only [count_cons, crosses_iff, area2, count_nil]
    norm_num [Poly.fpts, Vec.fpt, gridVec, Vec.ofXY]

end PyrusGeom
