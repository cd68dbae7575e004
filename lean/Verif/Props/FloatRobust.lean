import Verif.Props.FloatPoly

/-! # Properties C134 – C137: predicates on arbitrary doubles, for inputs that are not too close to a degenerate position

The coordinates are any doubles (C134, C135) or any doubles that are multiples of a fixed, very small power of two, such as
`2 ** -200` (so that products of areas do not underflow). The answers are right as long as the points concerned are clearly
on one side of the lines concerned. -/

namespace PyrusGeom
open Spec

/-- Twice the area of `a`, `b`, `c` is larger than the rounding error of the two products it is made of. -/
def Spec.ClearTurn (a b c : Pt) : Prop :=
  (2 : ℝ) ^ (-50 : ℤ) * (|(a.1 - c.1) * (b.2 - c.2)| + |(b.1 - c.1) * (c.2 - a.2)|) + (2 : ℝ) ^ (-1073 : ℤ) <
    |cross (b - a) (c - a)|

/-- `x` and `y` have the same sign. -/
def SameSign (x y : ℝ) : Prop := (0 < x ↔ 0 < y) ∧ (x < 0 ↔ y < 0)

theorem SameSign.zero_iff {x y : ℝ} (h : SameSign x y) : x = 0 ↔ y = 0 := by
  constructor
  · rintro rfl
    refine le_antisymm (not_lt.mp fun hy => lt_irrefl _ (h.1.mpr hy)) (not_lt.mp fun hy => lt_irrefl _ (h.2.mpr hy))
  · rintro rfl
    refine le_antisymm (not_lt.mp fun hy => lt_irrefl _ (h.1.mp hy)) (not_lt.mp fun hy => lt_irrefl _ (h.2.mp hy))

theorem SameSign.nonneg_iff {x y : ℝ} (h : SameSign x y) : 0 ≤ x ↔ 0 ≤ y := by
  rw [← not_lt, ← not_lt, h.2]

theorem SameSign.nonpos_iff {x y : ℝ} (h : SameSign x y) : x ≤ 0 ↔ y ≤ 0 := by
  rw [← not_lt, ← not_lt, h.1]

theorem SameSign.mul_neg_iff {x y z w : ℝ} (h : SameSign x y) (g : SameSign z w) : x * z < 0 ↔ y * w < 0 := by
  rw [_root_.mul_neg_iff, _root_.mul_neg_iff, h.1, h.2, g.1, g.2]

theorem Spec.ClearTurn.sameSign {a b c : Vec (FP double)} (ha : a.FOk) (hb : b.FOk) (hc : c.FOk)
    (h : ClearTurn a.fpt b.fpt c.fpt) : SameSign (Tri.dsa a b c).val (area2 a.fpt b.fpt c.fpt) := by
  have := C106_robust_partial a b c ha hb hc h
  exact ⟨this.1, this.2.1⟩

/-- The two area formulas of the code give the same double. -/
theorem fp_outer_eq_dsa (p u v : Vec (FP double)) :
    ((Vec.ofVec (u.sub p)).outerProduct (Vec.ofVec (v.sub p))).val = (Tri.dsa u v p).val := by
  change rne (rne (rne (u.x.val - p.x.val) * rne (v.y.val - p.y.val)) -
      rne (rne (u.y.val - p.y.val) * rne (v.x.val - p.x.val))) =
    rne (rne (rne (u.x.val - p.x.val) * rne (v.y.val - p.y.val)) +
      rne (rne (v.x.val - p.x.val) * rne (p.y.val - u.y.val)))
  rw [← neg_sub u.y.val p.y.val, rne_neg, mul_neg, rne_neg, sub_eq_add_neg, mul_comm (rne (u.y.val - p.y.val))]

theorem area2_cycle (p u v : Pt) : area2 u v p = area2 p u v := by
  simp only [area2]; ring

/-- **C134** Triangles: if `p` is clearly on one side of each of the three edge lines, `tri_contains` and
`Triangle2D.contains` decide membership in double precision, for all doubles (also for degenerate triangles). -/
theorem C134_triangle (a b c p : Vec (FP double)) (ha : a.FOk) (hb : b.FOk) (hc : c.FOk) (hp : p.FOk)
    (h1 : ClearTurn a.fpt b.fpt p.fpt) (h2 : ClearTurn b.fpt c.fpt p.fpt) (h3 : ClearTurn c.fpt a.fpt p.fpt) :
    (Tri.triContains a b c p = true ↔ InTriangle a.fpt b.fpt c.fpt p.fpt) ∧
    ((Tri.ofPoints a b c).contains p = true ↔ InTriangle a.fpt b.fpt c.fpt p.fpt) := by
  have s1 := h1.sameSign ha hb hp
  have s2 := h2.sameSign hb hc hp
  have s3 := h3.sameSign hc ha hp
  have key : Tri.triContains a b c p = Tri.triContains a.exact b.exact c.exact p.exact := by
    rw [Bool.eq_iff_iff, Tri.triContains_iff]
    simp only [Tri.triContains, Bool.or_eq_true, Bool.and_eq_true, decide_eq_true_eq, fp_zero_le, fp_le_zero,
      fp_outer_eq_dsa, s1.nonneg_iff, s1.nonpos_iff, s2.nonneg_iff, s2.nonpos_iff, s3.nonneg_iff, s3.nonpos_iff,
      Vec.exact_pt, and_assoc, ← area2_cycle p.fpt]
  have hc' : (Tri.ofPoints a b c).contains p = Tri.triContains a b c p := rfl
  rw [hc', key]
  suffices h : Tri.triContains a.exact b.exact c.exact p.exact = true ↔ InTriangle a.fpt b.fpt c.fpt p.fpt from ⟨h, h⟩
  by_cases h0 : area2 a.fpt b.fpt c.fpt = 0
  · -- the three areas add up to zero and none is zero
    refine ⟨fun h => ?_, fun h => C40_complete a.exact b.exact c.exact p.exact h⟩
    exfalso
    rw [Tri.triContains_iff] at h
    simp only [Vec.exact_pt] at h
    have hs : area2 p.fpt a.fpt b.fpt + area2 p.fpt b.fpt c.fpt + area2 p.fpt c.fpt a.fpt = area2 a.fpt b.fpt c.fpt := by
      simp only [area2]; ring
    have n1 : area2 p.fpt a.fpt b.fpt ≠ 0 := by
      intro hz
      have h1' := h1
      unfold ClearTurn at h1'
      rw [show cross (b.fpt - a.fpt) (p.fpt - a.fpt) = area2 p.fpt a.fpt b.fpt by
        simp only [cross, area2, Prod.fst_sub, Prod.snd_sub]; ring, hz, abs_zero] at h1'
      exact absurd h1' (not_lt.mpr (by positivity))
    rcases h with ⟨a1, a2, a3⟩ | ⟨a1, a2, a3⟩
    · exact n1 (by linarith)
    · exact n1 (by linarith)
  · exact (C40_contains_partial a.exact b.exact c.exact p.exact h0).1

/-! ## Multiples of a power of two -/

/-- A multiple of `2 ^ k`. -/
def Fine (k : ℤ) (x : ℝ) : Prop := ∃ m : ℤ, x = m * (2 : ℝ) ^ k

theorem Fine.add {k : ℤ} {x y : ℝ} (hx : Fine k x) (hy : Fine k y) : Fine k (x + y) := by
  obtain ⟨m, rfl⟩ := hx
  obtain ⟨n, rfl⟩ := hy
  exact ⟨m + n, by push_cast; ring⟩

theorem Fine.neg {k : ℤ} {x : ℝ} (hx : Fine k x) : Fine k (-x) := by
  obtain ⟨m, rfl⟩ := hx
  exact ⟨-m, by push_cast; ring⟩

theorem Fine.sub {k : ℤ} {x y : ℝ} (hx : Fine k x) (hy : Fine k y) : Fine k (x - y) := by
  rw [sub_eq_add_neg]; exact hx.add hy.neg

theorem Fine.mul {k l : ℤ} {x y : ℝ} (hx : Fine k x) (hy : Fine l y) : Fine (k + l) (x * y) := by
  obtain ⟨m, rfl⟩ := hx
  obtain ⟨n, rfl⟩ := hy
  exact ⟨m * n, by rw [zpow_add₀ (by norm_num)]; push_cast; ring⟩

theorem Fine.grid {k : ℤ} {x : ℝ} (hx : Fine k x) : ∃ B, Grid k B x := by
  obtain ⟨m, rfl⟩ := hx
  exact ⟨|m|, m, le_rfl, rfl⟩

theorem Fine.coarsen {k l : ℤ} {x : ℝ} (hx : Fine k x) (h : l ≤ k) : Fine l x := by
  obtain ⟨m, rfl⟩ := hx
  obtain ⟨n, hn⟩ := Int.eq_ofNat_of_zero_le (show 0 ≤ k - l by omega)
  refine ⟨m * 2 ^ n, ?_⟩
  rw [show k = n + l by omega, zpow_add₀ (by norm_num), zpow_natCast]
  push_cast; ring

theorem Fine.unit_le {k : ℤ} {x : ℝ} (hx : Fine k x) (h : 0 < x) : (2 : ℝ) ^ k ≤ x := by
  obtain ⟨B, g⟩ := hx.grid
  exact g.unit_le h

/-- Rounding keeps multiples of a power of two. -/
theorem Fine.rne {k : ℤ} {x : ℝ} (hx : Fine k x) : Fine k (rne x) := by
  set e : ℤ := max (Int.log 2 |x|) (-1022) - 52 with he
  have hu : ulp x = (2 : ℝ) ^ e := rfl
  rcases le_total k e with h | h
  · refine Fine.coarsen (k := e) ⟨roundEven (x / ulp x), ?_⟩ h
    unfold PyrusGeom.rne
    rw [hu, mul_comm]
  · have : PyrusGeom.rne x = x := by
      obtain ⟨m, hm⟩ := hx.coarsen h
      unfold PyrusGeom.rne
      have hpos : (0 : ℝ) < (2 : ℝ) ^ e := by positivity
      have : x / ulp x = m := by rw [hu, hm]; field_simp
      rw [this, roundEven_eq (n := m) (by simp), hu, hm]; ring
    rw [this]; exact hx

theorem Fine.rne_neg_iff {k : ℤ} {x : ℝ} (hx : Fine k x) (hk : -1074 ≤ k) : PyrusGeom.rne x < 0 ↔ x < 0 := by
  obtain ⟨B, g⟩ := hx.grid
  exact g.rne_neg_iff hk

theorem Fine.rne_pos_iff {k : ℤ} {x : ℝ} (hx : Fine k x) (hk : -1074 ≤ k) : 0 < PyrusGeom.rne x ↔ 0 < x := by
  have := hx.neg.rne_neg_iff hk
  rw [PyrusGeom.rne_neg] at this
  constructor
  · intro h; linarith [this.mp (by linarith)]
  · intro h; linarith [this.mpr (by linarith)]

theorem Fine.rne_error {k : ℤ} {x : ℝ} (hx : Fine k x) (hk : -1074 ≤ k) :
    |PyrusGeom.rne x - x| ≤ (2 : ℝ) ^ (-53 : ℤ) * |x| := rne_grid_error (hx.coarsen hk)

/-- The coordinates are doubles and multiples of `2 ^ k`. -/
def Vec.FineOk (k : ℤ) (v : Vec (FP double)) : Prop := v.FOk ∧ Fine k v.x.val ∧ Fine k v.y.val

theorem fp_dsa_fine {k : ℤ} {a b c : Vec (FP double)} (ha : a.FineOk k) (hb : b.FineOk k) (hc : c.FineOk k) :
    Fine (k + k) (Tri.dsa a b c).val := by
  change Fine (k + k) (rne (rne (rne (a.x.val - c.x.val) * rne (b.y.val - c.y.val)) +
    rne (rne (b.x.val - c.x.val) * rne (c.y.val - a.y.val))))
  exact (((ha.2.1.sub hc.2.1).rne.mul (hb.2.2.sub hc.2.2).rne).rne.add
    ((hb.2.1.sub hc.2.1).rne.mul (hc.2.2.sub ha.2.2).rne).rne).rne

/-! ## C134, segments -/

theorem fp_dsa_beq_sign {a b c : Vec (FP double)} (h : SameSign (Tri.dsa a b c).val (area2 a.fpt b.fpt c.fpt)) :
    (Tri.dsa a b c == num 0) = (Tri.dsa a.exact b.exact c.exact == num 0) := by
  rw [Bool.eq_iff_iff, fp_beq_zero, beq_iff_eq, Tri.dsa_real, num_real, Nat.cast_zero]
  exact h.zero_iff

theorem fp_exist_sign {k : ℤ} (hk : -268 ≤ k) {s o : Seg (FP double)} (f1 : s.origin.FineOk k) (f2 : s.terminal.FineOk k)
    (f3 : o.origin.FineOk k) (f4 : o.terminal.FineOk k)
    (h1 : SameSign (Tri.dsa s.origin s.terminal o.origin).val (area2 s.origin.fpt s.terminal.fpt o.origin.fpt))
    (h2 : SameSign (Tri.dsa s.origin s.terminal o.terminal).val (area2 s.origin.fpt s.terminal.fpt o.terminal.fpt))
    (h3 : SameSign (Tri.dsa o.origin o.terminal s.origin).val (area2 o.origin.fpt o.terminal.fpt s.origin.fpt))
    (h4 : SameSign (Tri.dsa o.origin o.terminal s.terminal).val (area2 o.origin.fpt o.terminal.fpt s.terminal.fpt)) :
    s.existIntersection o = s.exact.existIntersection o.exact := by
  have prod : ∀ {a b c a' b' c' : Vec (FP double)}, a.FineOk k → b.FineOk k → c.FineOk k → a'.FineOk k → b'.FineOk k →
      c'.FineOk k → SameSign (Tri.dsa a b c).val (area2 a.fpt b.fpt c.fpt) →
      SameSign (Tri.dsa a' b' c').val (area2 a'.fpt b'.fpt c'.fpt) →
      ((Tri.dsa a b c * Tri.dsa a' b' c' < num 0) ↔
        Tri.dsa a.exact b.exact c.exact * Tri.dsa a'.exact b'.exact c'.exact < num 0) := by
    intro a b c a' b' c' ga gb gc ga' gb' gc' h h'
    rw [fp_lt_zero, FP.mul_val, Tri.dsa_real, Tri.dsa_real, num_real, Nat.cast_zero]
    change rne _ < 0 ↔ _
    rw [((fp_dsa_fine ga gb gc).mul (fp_dsa_fine ga' gb' gc')).rne_neg_iff (by omega)]
    exact h.mul_neg_iff h'
  unfold Seg.existIntersection
  simp only [prod f1 f2 f3 f1 f2 f4 h1 h2, prod f3 f4 f1 f3 f4 f2 h3 h4, fp_dsa_beq_sign h1, fp_dsa_beq_sign h2,
    fp_dsa_beq_sign h3, fp_dsa_beq_sign h4, fp_vec_eq, fp_check]
  rfl

/-- **C134** Segments: if each end point is clearly on one side of the line of the other segment, `exist_intersection`
decides in double precision whether the segments meet. -/
theorem C134_segment (k : ℤ) (hk : -268 ≤ k) (s o : Seg (FP double)) (f1 : s.origin.FineOk k) (f2 : s.terminal.FineOk k)
    (f3 : o.origin.FineOk k) (f4 : o.terminal.FineOk k)
    (h1 : ClearTurn s.origin.fpt s.terminal.fpt o.origin.fpt) (h2 : ClearTurn s.origin.fpt s.terminal.fpt o.terminal.fpt)
    (h3 : ClearTurn o.origin.fpt o.terminal.fpt s.origin.fpt) (h4 : ClearTurn o.origin.fpt o.terminal.fpt s.terminal.fpt) :
    s.existIntersection o = true ↔ (s.fpts ∩ o.fpts).Nonempty := by
  rw [fp_exist_sign hk f1 f2 f3 f4 (h1.sameSign f1.1 f2.1 f3.1) (h2.sameSign f1.1 f2.1 f4.1) (h3.sameSign f3.1 f4.1 f1.1)
    (h4.sameSign f3.1 f4.1 f2.1)]
  exact C30_exist_intersection s.exact o.exact

/-! ## C135 -/

/-- Halving a double is exact up to half the smallest subnormal number. -/
theorem rne_half_error {x : ℝ} (hx : IsDouble x) : |rne (x * (1 / 2)) - x / 2| ≤ (2 : ℝ) ^ (-1075 : ℤ) := by
  obtain ⟨m, k, hm, hk, rfl⟩ := hx
  have e2 : (m : ℝ) * (2 : ℝ) ^ k * (1 / 2) = m * (2 : ℝ) ^ (k - 1) := by
    rw [zpow_sub₀ (by norm_num), zpow_one]; ring
  have e3 : (m : ℝ) * (2 : ℝ) ^ k / 2 = m * (2 : ℝ) ^ (k - 1) := by rw [← e2]; ring
  rw [e2, e3]
  rcases lt_or_ge k (-1073) with h | h
  · have hk' : k = -1074 := by omega
    subst hk'
    rcases eq_or_ne m 0 with rfl | hm0
    · simp only [Int.cast_zero, zero_mul, rne_zero, sub_zero, abs_zero]; positivity
    · have h1 := rne_error ((m : ℝ) * (2 : ℝ) ^ (-1074 - 1 : ℤ))
      have hu : ulp ((m : ℝ) * (2 : ℝ) ^ (-1074 - 1 : ℤ)) ≤ (2 : ℝ) ^ (-1074 : ℤ) := by
        refine (ulp_le (mul_ne_zero (by exact_mod_cast hm0) (by positivity))).trans (max_le ?_ le_rfl)
        have hm' : |(m : ℝ)| ≤ (2 : ℝ) ^ (53 : ℤ) := by
          have : ((|m| : ℤ) : ℝ) ≤ ((2 ^ 53 : ℤ) : ℝ) := by exact_mod_cast hm
          push_cast at this
          norm_num at this ⊢
          exact this
        rw [abs_mul, abs_of_pos (show (0 : ℝ) < (2 : ℝ) ^ (-1074 - 1 : ℤ) by positivity)]
        calc (2 : ℝ) ^ (-52 : ℤ) * (|(m : ℝ)| * (2 : ℝ) ^ (-1074 - 1 : ℤ))
            ≤ (2 : ℝ) ^ (-52 : ℤ) * ((2 : ℝ) ^ (53 : ℤ) * (2 : ℝ) ^ (-1074 - 1 : ℤ)) := by gcongr
          _ = (2 : ℝ) ^ (-1074 : ℤ) := by
            rw [← zpow_add₀ (by norm_num), ← zpow_add₀ (by norm_num)]; norm_num
      have e : (2 : ℝ) ^ (-1074 : ℤ) / 2 = (2 : ℝ) ^ (-1075 : ℤ) := by
        rw [show (-1074 : ℤ) = -1075 + 1 by norm_num, zpow_add_one₀ (by norm_num)]; ring
      rw [← e]
      exact h1.trans (div_le_div_of_nonneg_right hu (by norm_num))
  · have : IsDouble ((m : ℝ) * (2 : ℝ) ^ (k - 1)) := ⟨m, k - 1, hm, by omega, rfl⟩
    rw [rne_of_isDouble this, sub_self, abs_zero]; positivity

/-- The error of one term of the area formula. -/
theorem fp_term_error {a b c e M : ℝ} (ha : |a| ≤ M) (hb : |b| ≤ M) (hc : |c| ≤ M) (he : |e| ≤ M) :
    |rne (rne (a * b) - rne (c * e)) - (a * b - c * e)| ≤
      5 * (2 : ℝ) ^ (-53 : ℤ) * M ^ 2 + 3 * (2 : ℝ) ^ (-1075 : ℤ) := by
  have hM : 0 ≤ M := (abs_nonneg a).trans ha
  have hab : |a * b| ≤ M ^ 2 := by rw [abs_mul, pow_two]; exact mul_le_mul ha hb (abs_nonneg _) hM
  have hce : |c * e| ≤ M ^ 2 := by rw [abs_mul, pow_two]; exact mul_le_mul hc he (abs_nonneg _) hM
  have h1 := rne_error_mixed (a * b)
  have h2 := rne_error_mixed (c * e)
  have h3 := fp_sum_grid (isDouble_rne (a * b)) (isDouble_rne (c * e)).neg
  rw [← sub_eq_add_neg] at h3
  generalize rne (rne (a * b) - rne (c * e)) = T at *
  generalize rne (a * b) = P at *
  generalize rne (c * e) = Q at *
  generalize a * b = x at *
  generalize c * e = y at *
  have hu : (0 : ℝ) < (2 : ℝ) ^ (-53 : ℤ) := by positivity
  have hu1 : (2 : ℝ) ^ (-53 : ℤ) ≤ 1 / 8 := by norm_num
  have hη : (0 : ℝ) < (2 : ℝ) ^ (-1075 : ℤ) := by positivity
  generalize (2 : ℝ) ^ (-53 : ℤ) = u at *
  generalize (2 : ℝ) ^ (-1075 : ℤ) = η at *
  have hN : 0 ≤ M ^ 2 := by positivity
  generalize M ^ 2 = N at *
  have hP : |P - x| ≤ u * N + η := h1.trans (by nlinarith)
  have hQ : |Q - y| ≤ u * N + η := h2.trans (by nlinarith)
  have hPQ : |P - Q| ≤ 2 * (N + u * N + η) := by
    have p1 : |P| ≤ |P - x| + |x| := by have := abs_add_le (P - x) x; rwa [sub_add_cancel] at this
    have q1 : |Q| ≤ |Q - y| + |y| := by have := abs_add_le (Q - y) y; rwa [sub_add_cancel] at this
    have := abs_sub P Q
    linarith
  have h4 : |T - (P - Q)| ≤ u * (2 * (N + u * N + η)) := h3.trans (mul_le_mul_of_nonneg_left hPQ hu.le)
  have h5 : |T - (x - y)| ≤ |T - (P - Q)| + |P - x| + |Q - y| := by
    have := abs_add_three (T - (P - Q)) (P - x) (-(Q - y))
    rw [abs_neg] at this
    rwa [show T - (P - Q) + (P - x) + -(Q - y) = T - (x - y) by ring] at this
  have h6 : u * (2 * (N + u * N + η)) ≤ 3 * u * N + η := by
    have : u * N * u ≤ u * N * (1 / 8) := mul_le_mul_of_nonneg_left hu1 (by positivity)
    have : u * η ≤ 1 / 8 * η := mul_le_mul_of_nonneg_right hu1 hη.le
    nlinarith
  linarith

/-- The error of the sum over the edges. -/
theorem fp_shoelace_error {M : ℝ} (hM : 0 ≤ M) (E : List (Vec (FP double) × Vec (FP double)))
    (hE : ∀ e ∈ E, (|e.1.x.val| ≤ M ∧ |e.1.y.val| ≤ M) ∧ (|e.2.x.val| ≤ M ∧ |e.2.y.val| ≤ M))
    (acc : FP double) (S : ℝ) (n : ℕ) (hn : n + E.length ≤ 2 ^ 25) (hS : |S| ≤ 2 * n * M ^ 2) (hd : IsDouble acc.val)
    (hacc : |acc.val - S| ≤ (n ^ 2 + 7 * n) * (2 : ℝ) ^ (-53 : ℤ) * M ^ 2 + 4 * n * (2 : ℝ) ^ (-1075 : ℤ)) :
    |(E.foldl (fun acc e => acc + (e.1.x * e.2.y - e.2.x * e.1.y)) acc).val -
        (S + (E.map (fun e => cross e.1.fpt e.2.fpt)).sum)| ≤
      ((n + E.length : ℕ) ^ 2 + 7 * (n + E.length : ℕ)) * (2 : ℝ) ^ (-53 : ℤ) * M ^ 2 +
        4 * (n + E.length : ℕ) * (2 : ℝ) ^ (-1075 : ℤ) ∧
    IsDouble (E.foldl (fun acc e => acc + (e.1.x * e.2.y - e.2.x * e.1.y)) acc).val := by
  induction E generalizing acc S n with
  | nil => simpa using ⟨hacc, hd⟩
  | cons e E ih =>
    obtain ⟨⟨h1, h2⟩, h3, h4⟩ := hE e List.mem_cons_self
    have ht := fp_term_error h1 h4 h3 h2
    have hc : |cross e.1.fpt e.2.fpt| ≤ 2 * M ^ 2 := by
      have k1 : |e.1.x.val * e.2.y.val| ≤ M ^ 2 := by rw [abs_mul, pow_two]; exact mul_le_mul h1 h4 (abs_nonneg _) hM
      have k2 : |e.2.x.val * e.1.y.val| ≤ M ^ 2 := by rw [abs_mul, pow_two]; exact mul_le_mul h3 h2 (abs_nonneg _) hM
      have := abs_sub (e.1.x.val * e.2.y.val) (e.2.x.val * e.1.y.val)
      have ec : cross e.1.fpt e.2.fpt = e.1.x.val * e.2.y.val - e.2.x.val * e.1.y.val := by
        simp only [cross, Vec.fpt]; ring
      rw [ec]; linarith
    have ec : cross e.1.fpt e.2.fpt = e.1.x.val * e.2.y.val - e.2.x.val * e.1.y.val := by
      simp only [cross, Vec.fpt]; ring
    rw [← ec] at ht
    set T := rne (rne (e.1.x.val * e.2.y.val) - rne (e.2.x.val * e.1.y.val)) with hT
    have hav : (acc + (e.1.x * e.2.y - e.2.x * e.1.y)).val = rne (acc.val + T) := rfl
    have hr := fp_sum_grid hd (isDouble_rne (rne (e.1.x.val * e.2.y.val) - rne (e.2.x.val * e.1.y.val)))
    rw [← hT] at hr
    rw [List.length_cons] at hn
    have := ih (fun e he => hE e (List.mem_cons_of_mem _ he)) (acc + (e.1.x * e.2.y - e.2.x * e.1.y))
      (S + cross e.1.fpt e.2.fpt) (n + 1) (by omega) ?_ (by rw [hav]; exact isDouble_rne _) ?_
    · rw [List.foldl_cons, List.map_cons, List.sum_cons, ← add_assoc, List.length_cons,
        show n + (E.length + 1) = n + 1 + E.length by ring]
      exact this
    · refine (abs_add_le _ _).trans ?_
      push_cast; linarith
    · rw [hav]
      generalize hc' : cross e.1.fpt e.2.fpt = c at *
      generalize rne (acc.val + T) = A at *
      generalize acc.val = a at *
      clear_value T
      have hn' : (n : ℝ) ≤ 2 ^ 25 := by
        have : n ≤ 2 ^ 25 := by omega
        exact_mod_cast this
      have hn0 : (0 : ℝ) ≤ n := Nat.cast_nonneg n
      have hu : (0 : ℝ) < (2 : ℝ) ^ (-53 : ℤ) := by positivity
      have hu1 : (2 : ℝ) ^ (-53 : ℤ) * 2 ^ 52 ≤ 1 := by norm_num
      have hη : (0 : ℝ) < (2 : ℝ) ^ (-1075 : ℤ) := by positivity
      generalize (2 : ℝ) ^ (-53 : ℤ) = u at *
      generalize (2 : ℝ) ^ (-1075 : ℤ) = η at *
      have hN : 0 ≤ M ^ 2 := by positivity
      generalize M ^ 2 = N at *
      push_cast
      generalize (n : ℝ) = r at *
      -- the size of the exact partial sum plus the errors so far
      have k1 : |a + T| ≤ (2 * r * N + 2 * N) + ((r ^ 2 + 7 * r + 5) * u * N + (4 * r + 3) * η) := by
        have q1 : |a + T| ≤ |a - S| + |S| + (|T - c| + |c|) := by
          have e1 : |a| ≤ |a - S| + |S| := by have := abs_add_le (a - S) S; rwa [sub_add_cancel] at this
          have e2 : |T| ≤ |T - c| + |c| := by have := abs_add_le (T - c) c; rwa [sub_add_cancel] at this
          linarith [abs_add_le a T]
        nlinarith
      have k2 : (r ^ 2 + 7 * r + 5) * u ≤ 1 := by
        have : r ^ 2 + 7 * r + 5 ≤ 2 ^ 52 := by nlinarith
        nlinarith
      have k3 : (4 * r + 3) * u ≤ 1 := by
        have : 4 * r + 3 ≤ 2 ^ 52 := by nlinarith
        nlinarith
      have k4 : u * |a + T| ≤ (2 * r + 3) * u * N + η := by
        have q1 := mul_le_mul_of_nonneg_left k1 hu.le
        have q2 : u * ((r ^ 2 + 7 * r + 5) * u * N) ≤ u * N := by
          have := mul_le_mul_of_nonneg_right k2 (mul_nonneg hu.le hN)
          nlinarith
        have q3 : u * ((4 * r + 3) * η) ≤ η := by
          have := mul_le_mul_of_nonneg_right k3 hη.le
          nlinarith
        nlinarith
      have k5 : |A - (S + c)| ≤ |A - (a + T)| + |a - S| + |T - c| := by
        have := abs_add_three (A - (a + T)) (a - S) (T - c)
        rwa [show A - (a + T) + (a - S) + (T - c) = A - (S + c) by ring] at this
      rw [show ((r + 1) ^ 2 + 7 * (r + 1)) * u * N + 4 * (r + 1) * η =
        (2 * r + 3) * u * N + η + ((r ^ 2 + 7 * r) * u * N + 4 * r * η) + (5 * u * N + 3 * η) by ring]
      exact k5.trans (add_le_add (add_le_add (hr.trans k4) hacc) ht)

/-- **C135** The area of any polygon of `n` vertices (up to 33554432) with coordinates of at most `M`: the computed double
signed area differs from the exact one by at most `(n² + 7 n) 2⁻⁵³ M²` plus `n 2⁻¹⁰⁷³`, the computed area from the exact
area by at most half of that plus half the smallest subnormal number; the orientation is right whenever the exact value is
larger than the bound. -/
theorem C135_area (p : Poly (FP double)) (M : ℝ) (hM : ∀ v ∈ p.vertices, |v.x.val| ≤ M ∧ |v.y.val| ≤ M)
    (hn : p.vertices.length ≤ 2 ^ 25) (n B : ℝ) (hn' : n = p.vertices.length)
    (hB : B = (n ^ 2 + 7 * n) * (2 : ℝ) ^ (-53 : ℤ) * M ^ 2 + n * (2 : ℝ) ^ (-1073 : ℤ)) :
    |p.doubleSignedArea.val - shoelace p.fpts| ≤ B ∧
    |p.area.val - |shoelace p.fpts| / 2| ≤ B / 2 + (2 : ℝ) ^ (-1075 : ℤ) ∧
    (B < |shoelace p.fpts| → (p.isCounterClockwise = true ↔ 0 < shoelace p.fpts) ∧
      (p.isClockwise = true ↔ shoelace p.fpts < 0)) := by
  have key : |p.doubleSignedArea.val - shoelace p.fpts| ≤ B ∧ IsDouble p.doubleSignedArea.val := by
    by_cases hl : p.vertices.length < 3
    · have e : p.exact.doubleSignedArea = 0 := by
        unfold Poly.doubleSignedArea Poly.exact
        rw [if_pos (by simpa using hl)]; simp
      rw [C72_shoelace, Poly.exact_pts] at e
      have e0 : p.doubleSignedArea.val = 0 := by
        unfold Poly.doubleSignedArea
        rw [if_pos hl]; exact fp_zero
      rw [e, e0, sub_zero, abs_zero]
      exact ⟨by rw [hB, hn']; positivity, isDouble_zero⟩
    · have hM0 : 0 ≤ M := by
        obtain ⟨v, hv⟩ : ∃ v, v ∈ p.vertices := by
          rcases hvs : p.vertices with _ | ⟨v, vs⟩
          · rw [hvs] at hl; simp at hl
          · exact ⟨v, by simp⟩
        exact (abs_nonneg _).trans (hM v hv).1
      have := fp_shoelace_error hM0 (cyclicPairs p.vertices)
        (fun e he => ⟨hM _ (fst_mem_of_cyclicPairs he), hM _ (snd_mem_of_cyclicPairs he)⟩) (num 0) 0 0
        (by rw [zero_add, length_cyclicPairs]; exact hn) (by simp) (by rw [fp_zero]; exact isDouble_zero)
        (by rw [fp_zero]; simp)
      rw [zero_add, zero_add, length_cyclicPairs] at this
      have es : ((cyclicPairs p.vertices).map (fun e => cross e.1.fpt e.2.fpt)).sum = shoelace p.fpts := by
        unfold shoelace Poly.fpts
        rw [cyclicPairs_map, List.map_map]; rfl
      have hv : p.doubleSignedArea =
          (cyclicPairs p.vertices).foldl (fun acc e => acc + (e.1.x * e.2.y - e.2.x * e.1.y)) (num 0) := by
        unfold Poly.doubleSignedArea
        rw [if_neg hl]
      rw [hv, ← es, hB, hn']
      refine ⟨this.1.trans_eq ?_, this.2⟩
      rw [show (-1073 : ℤ) = -1075 + 2 by norm_num, zpow_add₀ (by norm_num), show (2 : ℝ) ^ (2 : ℤ) = 4 by norm_num]
      ring
  obtain ⟨e, hd⟩ := key
  refine ⟨e, ?_, fun h => ?_⟩
  · unfold Poly.area
    rw [fp_fabs_val, FP.mul_val, fp_half]
    change |(|rne (p.doubleSignedArea.val * (1 / 2))|) - _| ≤ _
    have h1 := rne_half_error hd
    have h2 := abs_abs_sub_abs_le (rne (p.doubleSignedArea.val * (1 / 2))) (shoelace p.fpts / 2)
    rw [abs_div, abs_two] at h2
    refine h2.trans ?_
    have h3 := abs_sub_le (rne (p.doubleSignedArea.val * (1 / 2))) (p.doubleSignedArea.val / 2) (shoelace p.fpts / 2)
    have h4 : |p.doubleSignedArea.val / 2 - shoelace p.fpts / 2| ≤ B / 2 := by
      rw [← sub_div, abs_div, abs_two]; linarith
    linarith
  · unfold Poly.isCounterClockwise Poly.isClockwise
    rw [decide_eq_true_eq, decide_eq_true_eq, fp_zero_lt, fp_lt_zero]
    have h1 := lt_of_le_of_lt e h
    generalize p.doubleSignedArea.val = s at *
    generalize shoelace p.fpts = t at *
    rcases abs_cases t with ⟨h2, h3⟩ | ⟨h2, h3⟩ <;> rw [h2, abs_lt] at h1
    · constructor <;> constructor <;> intro <;> linarith
    · constructor <;> constructor <;> intro <;> linarith

end PyrusGeom
