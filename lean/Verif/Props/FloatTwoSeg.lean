import Verif.Props.FloatSegDist

/-! # C181: the distance of two segments in double precision -/

namespace PyrusGeom
open Spec

/-! ## Exact geometry -/

/-- Two points with the same foot on the line through `a` and `b`: their distance is the difference of their heights. -/
theorem d_same_foot {a b p q : Pt} {δ : ℝ} (hL : 0 < d a b)
    (hP : (b.1 - a.1) * (p.1 - q.1) + (b.2 - a.2) * (p.2 - q.2) = 0)
    (hH : |area2 a b p - area2 a b q| ≤ δ * d a b) : d p q ≤ δ := by
  have e : d a b * d p q = |area2 a b p - area2 a b q| := by
    rw [← abs_of_nonneg (mul_nonneg hL.le (d_nonneg p q)), ← sq_eq_sq_iff_abs_eq_abs, mul_pow, d_sq, d_sq]
    simp only [area2]
    have : ((b.1 - a.1) * (p.1 - q.1) + (b.2 - a.2) * (p.2 - q.2)) ^ 2 = 0 := by rw [hP]; ring
    linear_combination this
  rw [← e, mul_comm δ] at hH
  exact le_of_mul_le_mul_left hH hL

/-- If two segments meet and an end of one is close to the line of the other, then an end of one of them is as close to the
other segment. -/
theorem meet_near_end {a b c e x : Pt} {δ : ℝ} (hL : 0 < d a b) (h1 : x ∈ segment ℝ a b) (h2 : x ∈ segment ℝ c e)
    (hδ : |area2 a b c| ≤ δ * d a b) :
    (∃ q ∈ segment ℝ a b, d c q ≤ δ) ∨ (∃ q ∈ segment ℝ c e, d a q ≤ δ) ∨ (∃ q ∈ segment ℝ c e, d b q ≤ δ) := by
  have hδ0 : 0 ≤ δ := by
    have := (abs_nonneg _).trans hδ
    exact nonneg_of_mul_nonneg_left this hL
  have hsq := d_sq a b
  have hL2 : 0 < (a.1 - b.1) ^ 2 + (a.2 - b.2) ^ 2 := by rw [← hsq]; positivity
  obtain ⟨u, v, hu, hv, huv, rfl⟩ := h1
  obtain ⟨s, t, hs, ht, hst, hx⟩ := h2
  set x : Pt := u • a + v • b with hxd
  have hxm : x ∈ segment ℝ c e := ⟨s, t, hs, ht, hst, hx⟩
  have hx1 : x.1 = u * a.1 + v * b.1 := by simp [hxd]
  have hx2 : x.2 = u * a.2 + v * b.2 := by simp [hxd]
  have eu : u = 1 - v := by linarith
  set N := (a.1 - b.1) ^ 2 + (a.2 - b.2) ^ 2 with hN
  set P := (b.1 - a.1) * (c.1 - a.1) + (b.2 - a.2) * (c.2 - a.2) with hPd
  have PX : (b.1 - a.1) * (x.1 - a.1) + (b.2 - a.2) * (x.2 - a.2) = v * N := by rw [hx1, hx2, eu]; ring
  have HX : area2 a b x = 0 := by simp only [area2]; rw [hx1, hx2, eu]; ring
  have hv1 : v ≤ 1 := by linarith
  have onto : ∀ τ, 0 ≤ τ → τ ≤ 1 → (((1 - τ) * c.1 + τ * x.1, (1 - τ) * c.2 + τ * x.2) : Pt) ∈ segment ℝ c e := by
    intro τ h0 h1
    refine (convex_segment c e).segment_subset (left_mem_segment ℝ _ _) hxm ⟨1 - τ, τ, by linarith, h0, by ring, ?_⟩
    ext <;> simp
  have hH : ∀ τ, area2 a b (((1 - τ) * c.1 + τ * x.1, (1 - τ) * c.2 + τ * x.2) : Pt) = (1 - τ) * area2 a b c := by
    intro τ
    have : area2 a b (((1 - τ) * c.1 + τ * x.1, (1 - τ) * c.2 + τ * x.2) : Pt) = (1 - τ) * area2 a b c + τ * area2 a b x := by
      simp only [area2]; ring
    rw [this, HX]; ring
  have small : ∀ τ, 0 ≤ τ → τ ≤ 1 → |0 - (1 - τ) * area2 a b c| ≤ δ * d a b := by
    intro τ h0 h1
    rw [zero_sub, abs_neg, abs_mul, abs_of_nonneg (by linarith : (0 : ℝ) ≤ 1 - τ)]
    exact (mul_le_of_le_one_left (abs_nonneg _) (by linarith)).trans hδ
  rcases lt_or_ge P 0 with hneg | hpos
  · right; left
    have hden : 0 < v * N - P := by have := mul_nonneg hv hL2.le; linarith
    have t0 : 0 ≤ -P / (v * N - P) := div_nonneg (by linarith) hden.le
    have t1 : -P / (v * N - P) ≤ 1 := by rw [div_le_one hden]; have := mul_nonneg hv hL2.le; linarith
    have te : -P / (v * N - P) * (v * N - P) = -P := div_mul_cancel₀ _ hden.ne'
    refine ⟨_, onto _ t0 t1, d_same_foot hL ?_ ?_⟩
    · generalize -P / (v * N - P) = τ at *
      dsimp only
      linear_combination (-τ) * PX - (1 - τ) * hPd.symm - te
    · rw [hH, show area2 a b a = 0 by simp only [area2]; ring]
      exact small _ t0 t1
  · rcases lt_or_ge N P with hgt | hle
    · right; right
      have hvN : v * N ≤ N := mul_le_of_le_one_left hL2.le hv1
      have hden : 0 < P - v * N := by linarith
      have t0 : 0 ≤ (P - N) / (P - v * N) := div_nonneg (by linarith) hden.le
      have t1 : (P - N) / (P - v * N) ≤ 1 := by rw [div_le_one hden]; linarith
      have te : (P - N) / (P - v * N) * (P - v * N) = P - N := div_mul_cancel₀ _ hden.ne'
      refine ⟨_, onto _ t0 t1, d_same_foot hL ?_ ?_⟩
      · generalize (P - N) / (P - v * N) = τ at *
        dsimp only
        linear_combination (-τ) * PX - (1 - τ) * hPd.symm + te - hN.symm
      · rw [hH, show area2 a b b = 0 by simp only [area2]; ring]
        exact small _ t0 t1
    · left
      have t0 : 0 ≤ P / N := div_nonneg hpos hL2.le
      have t1 : P / N ≤ 1 := by rw [div_le_one hL2]; exact hle
      have te : P / N * N = P := div_mul_cancel₀ _ hL2.ne'
      refine ⟨(((1 - P / N) * a.1 + P / N * b.1, (1 - P / N) * a.2 + P / N * b.2) : Pt), ?_, d_same_foot hL ?_ ?_⟩
      · refine ⟨1 - P / N, P / N, by linarith, t0, by ring, ?_⟩
        ext <;> simp
      · generalize P / N = τ at *
        dsimp only
        linear_combination hPd.symm - te - τ * hN.symm
      · rw [show area2 a b (((1 - P / N) * a.1 + P / N * b.1, (1 - P / N) * a.2 + P / N * b.2) : Pt) = 0 by
          simp only [area2]; ring, sub_zero]
        exact hδ

/-! ## C181 -/

/-- The square of the sum of the distances of `c` from the ends of the segment, divided by its length: the scale of the
rounding error of the distance of `c` from the segment. -/
noncomputable def Spec.spread (a b c : Pt) : ℝ := (d a c + d b c) ^ 2 / d a b

theorem area2_small {a b c : Pt} {M : ℝ} (hL : (2 : ℝ) ^ (-400 : ℤ) ≤ d a b) (hM : spread a b c ≤ M) (h : ¬ ClearTurn a b c) :
    |area2 a b c| ≤ (2 : ℝ) ^ (-49 : ℤ) * M * d a b := by
  have hT : (0 : ℝ) < (2 : ℝ) ^ (-400 : ℤ) := by positivity
  have hL0 : 0 < d a b := lt_of_lt_of_le hT hL
  have tri : d a b ≤ d a c + d b c := by
    rw [d_comm b]; exact d_triangle _ _ _
  have hA := d_nonneg a c
  have hB := d_nonneg b c
  have c4 := cs_abs (a := a.1 - c.1) (c := a.2 - c.2) (b := b.2 - c.2) (e := b.1 - c.1)
    hA hB (by rw [d_sq]) (by rw [d_sq]; ring)
  rw [show (a.2 - c.2) * (b.1 - c.1) = -((b.1 - c.1) * (c.2 - a.2)) by ring, abs_neg] at c4
  unfold ClearTurn at h
  push Not at h
  have e : cross (b - a) (c - a) = area2 a b c := by simp [cross, area2]
  rw [e] at h
  unfold spread at hM
  rw [div_le_iff₀ hL0] at hM
  have e1 : (2 : ℝ) ^ (-1073 : ℤ) ≤ (2 : ℝ) ^ (-50 : ℤ) * ((2 : ℝ) ^ (-400 : ℤ) * (2 : ℝ) ^ (-400 : ℤ)) := by
    rw [← zpow_add₀ two_ne_zero, ← zpow_add₀ two_ne_zero]
    exact zpow_le_zpow_right₀ one_le_two (by norm_num)
  have e2 : (2 : ℝ) ^ (-400 : ℤ) * (2 : ℝ) ^ (-400 : ℤ) ≤ (d a c + d b c) ^ 2 := by
    rw [pow_two]; exact mul_le_mul (hL.trans tri) (hL.trans tri) hT.le (by linarith)
  have e3 : (2 : ℝ) ^ (-49 : ℤ) = 2 * (2 : ℝ) ^ (-50 : ℤ) := by norm_num
  have e4 : (0 : ℝ) < (2 : ℝ) ^ (-50 : ℤ) := by positivity
  rw [e3]
  generalize (2 : ℝ) ^ (-50 : ℤ) = ε at *
  generalize (2 : ℝ) ^ (-1073 : ℤ) = η at *
  generalize (2 : ℝ) ^ (-400 : ℤ) * (2 : ℝ) ^ (-400 : ℤ) = T at *
  have w1 := mul_le_mul_of_nonneg_left c4 e4.le
  have w2 : d a c * d b c ≤ (d a c + d b c) ^ 2 := by nlinarith
  have w3 := mul_le_mul_of_nonneg_left w2 e4.le
  have w4 := mul_le_mul_of_nonneg_left e2 e4.le
  have w5 := mul_le_mul_of_nonneg_left hM e4.le
  nlinarith

/-- **C181** The distance of two segments in double precision: unless disjoint segments are taken for intersecting ones, the
error is at most `2 ^ -44` times the largest of the four spreads, also for segments which meet but are not found to. -/
theorem C181_dist_partial (k : ℤ) (hk : -268 ≤ k) (s o : Seg (FP double)) (f1 : s.origin.FineOk k) (f2 : s.terminal.FineOk k)
    (f3 : o.origin.FineOk k) (f4 : o.terminal.FineOk k) (hs : (2 : ℝ) ^ (-400 : ℤ) ≤ d s.origin.fpt s.terminal.fpt)
    (ho : (2 : ℝ) ^ (-400 : ℤ) ≤ d o.origin.fpt o.terminal.fpt) (M : ℝ)
    (m1 : spread s.origin.fpt s.terminal.fpt o.origin.fpt ≤ M) (m2 : spread s.origin.fpt s.terminal.fpt o.terminal.fpt ≤ M)
    (m3 : spread o.origin.fpt o.terminal.fpt s.origin.fpt ≤ M) (m4 : spread o.origin.fpt o.terminal.fpt s.terminal.fpt ≤ M)
    (hno : s.existIntersection o = true → (s.fpts ∩ o.fpts).Nonempty) (D : ℝ) (hD : IsMinDistSets s.fpts o.fpts D) :
    |(s.distSeg o).val - D| ≤ (2 : ℝ) ^ (-44 : ℤ) * M := by
  have hT : (0 : ℝ) < (2 : ℝ) ^ (-400 : ℤ) := by positivity
  have hM0 : 0 ≤ M := le_trans (by unfold spread; have := d_nonneg s.origin.fpt s.terminal.fpt; positivity) m1
  have hmeet : (s.fpts ∩ o.fpts).Nonempty → D = 0 := by
    rintro ⟨z, z1, z2⟩
    exact IsMinDistSets.unique hD ⟨⟨z, z1, z, z2, d_eq_zero.mpr rfl⟩, fun p _ q _ => d_nonneg p q⟩
  have hP : (0 : ℝ) < (2 : ℝ) ^ (-49 : ℤ) := by positivity
  have e44 : (2 : ℝ) ^ (-44 : ℤ) = 32 * (2 : ℝ) ^ (-49 : ℤ) := by norm_num
  have e45 : (2 : ℝ) ^ (-45 : ℤ) = 16 * (2 : ℝ) ^ (-49 : ℤ) := by norm_num
  by_cases hx : s.existIntersection o = true
  · unfold Seg.distSeg
    rw [if_pos hx, hmeet (hno hx), show ((num 0 : FP double)).val = 0 from fp_zero, sub_zero, abs_zero]
    positivity
  · have y1 : IsMinDist s.fpts o.origin.fpt (s.exact.distPoint o.origin.exact) := (C34_dist_point s.exact o.origin.exact).1
    have y2 : IsMinDist s.fpts o.terminal.fpt (s.exact.distPoint o.terminal.exact) := (C34_dist_point s.exact o.terminal.exact).1
    have y3 : IsMinDist o.fpts s.origin.fpt (o.exact.distPoint s.origin.exact) := (C34_dist_point o.exact s.origin.exact).1
    have y4 : IsMinDist o.fpts s.terminal.fpt (o.exact.distPoint s.terminal.exact) := (C34_dist_point o.exact s.terminal.exact).1
    have b1 := C165_segment_partial s o.origin f1.1 f2.1 f3.1 hs _ y1
    have b2 := C165_segment_partial s o.terminal f1.1 f2.1 f4.1 hs _ y2
    have b3 := C165_segment_partial o s.origin f3.1 f4.1 f1.1 ho _ y3
    have b4 := C165_segment_partial o s.terminal f3.1 f4.1 f2.1 ho _ y4
    have hp45 : (0 : ℝ) ≤ (2 : ℝ) ^ (-45 : ℤ) := by positivity
    replace b1 := b1.trans (mul_le_mul_of_nonneg_left m1 hp45)
    replace b2 := b2.trans (mul_le_mul_of_nonneg_left m2 hp45)
    replace b3 := b3.trans (mul_le_mul_of_nonneg_left m3 hp45)
    replace b4 := b4.trans (mul_le_mul_of_nonneg_left m4 hp45)
    have hv : (s.distSeg o).val = min (min (min (s.distPoint o.origin).val (s.distPoint o.terminal).val)
        (o.distPoint s.origin).val) (o.distPoint s.terminal).val := by
      unfold Seg.distSeg
      rw [if_neg hx]
      simp only [fp_pyMin_val]
    rw [hv]
    rw [e45] at b1 b2 b3 b4
    rw [e44]
    by_cases hm : (s.fpts ∩ o.fpts).Nonempty
    · rw [hmeet hm, sub_zero]
      have hnc : ¬ (ClearTurn s.origin.fpt s.terminal.fpt o.origin.fpt ∧ ClearTurn s.origin.fpt s.terminal.fpt o.terminal.fpt ∧
          ClearTurn o.origin.fpt o.terminal.fpt s.origin.fpt ∧ ClearTurn o.origin.fpt o.terminal.fpt s.terminal.fpt) :=
        fun ⟨h1, h2, h3, h4⟩ => hx ((C134_segment k hk s o f1 f2 f3 f4 h1 h2 h3 h4).mpr hm)
      obtain ⟨z, z1, z2⟩ := hm
      have hs0 : 0 < d s.origin.fpt s.terminal.fpt := lt_of_lt_of_le hT hs
      have ho0 : 0 < d o.origin.fpt o.terminal.fpt := lt_of_lt_of_le hT ho
      have z1' : z ∈ segment ℝ s.terminal.fpt s.origin.fpt := by rw [segment_symm]; exact z1
      have z2' : z ∈ segment ℝ o.terminal.fpt o.origin.fpt := by rw [segment_symm]; exact z2
      have key : (s.exact.distPoint o.origin.exact ≤ (2 : ℝ) ^ (-49 : ℤ) * M) ∨ (s.exact.distPoint o.terminal.exact ≤ (2 : ℝ) ^ (-49 : ℤ) * M) ∨
          (o.exact.distPoint s.origin.exact ≤ (2 : ℝ) ^ (-49 : ℤ) * M) ∨ (o.exact.distPoint s.terminal.exact ≤ (2 : ℝ) ^ (-49 : ℤ) * M) := by
        have l1 : ∀ q ∈ segment ℝ s.origin.fpt s.terminal.fpt, d o.origin.fpt q ≤ (2 : ℝ) ^ (-49 : ℤ) * M → _ := fun q hq h => (y1.2 q hq).trans h
        have l2 : ∀ q ∈ segment ℝ s.origin.fpt s.terminal.fpt, d o.terminal.fpt q ≤ (2 : ℝ) ^ (-49 : ℤ) * M → _ := fun q hq h => (y2.2 q hq).trans h
        have l3 : ∀ q ∈ segment ℝ o.origin.fpt o.terminal.fpt, d s.origin.fpt q ≤ (2 : ℝ) ^ (-49 : ℤ) * M → _ := fun q hq h => (y3.2 q hq).trans h
        have l4 : ∀ q ∈ segment ℝ o.origin.fpt o.terminal.fpt, d s.terminal.fpt q ≤ (2 : ℝ) ^ (-49 : ℤ) * M → _ := fun q hq h => (y4.2 q hq).trans h
        by_cases h1 : ClearTurn s.origin.fpt s.terminal.fpt o.origin.fpt
        · by_cases h2 : ClearTurn s.origin.fpt s.terminal.fpt o.terminal.fpt
          · by_cases h3 : ClearTurn o.origin.fpt o.terminal.fpt s.origin.fpt
            · have h4 : ¬ ClearTurn o.origin.fpt o.terminal.fpt s.terminal.fpt := fun h4 => hnc ⟨h1, h2, h3, h4⟩
              rcases meet_near_end ho0 z2 z1' (area2_small ho m4 h4) with ⟨q, hq, h⟩ | ⟨q, hq, h⟩ | ⟨q, hq, h⟩
              · exact Or.inr (Or.inr (Or.inr (l4 q hq h)))
              · exact Or.inl (l1 q (by rw [segment_symm]; exact hq) h)
              · exact Or.inr (Or.inl (l2 q (by rw [segment_symm]; exact hq) h))
            · rcases meet_near_end ho0 z2 z1 (area2_small ho m3 h3) with ⟨q, hq, h⟩ | ⟨q, hq, h⟩ | ⟨q, hq, h⟩
              · exact Or.inr (Or.inr (Or.inl (l3 q hq h)))
              · exact Or.inl (l1 q hq h)
              · exact Or.inr (Or.inl (l2 q hq h))
          · rcases meet_near_end hs0 z1 z2' (area2_small hs m2 h2) with ⟨q, hq, h⟩ | ⟨q, hq, h⟩ | ⟨q, hq, h⟩
            · exact Or.inr (Or.inl (l2 q hq h))
            · exact Or.inr (Or.inr (Or.inl (l3 q (by rw [segment_symm]; exact hq) h)))
            · exact Or.inr (Or.inr (Or.inr (l4 q (by rw [segment_symm]; exact hq) h)))
        · rcases meet_near_end hs0 z1 z2 (area2_small hs m1 h1) with ⟨q, hq, h⟩ | ⟨q, hq, h⟩ | ⟨q, hq, h⟩
          · exact Or.inl (l1 q hq h)
          · exact Or.inr (Or.inr (Or.inl (l3 q hq h)))
          · exact Or.inr (Or.inr (Or.inr (l4 q hq h)))
      have n1 : 0 ≤ s.exact.distPoint o.origin.exact := by obtain ⟨⟨q, _, e⟩, _⟩ := y1; rw [← e]; exact d_nonneg _ _
      have n2 : 0 ≤ s.exact.distPoint o.terminal.exact := by obtain ⟨⟨q, _, e⟩, _⟩ := y2; rw [← e]; exact d_nonneg _ _
      have n3 : 0 ≤ o.exact.distPoint s.origin.exact := by obtain ⟨⟨q, _, e⟩, _⟩ := y3; rw [← e]; exact d_nonneg _ _
      have n4 : 0 ≤ o.exact.distPoint s.terminal.exact := by obtain ⟨⟨q, _, e⟩, _⟩ := y4; rw [← e]; exact d_nonneg _ _
      rw [abs_le] at b1 b2 b3 b4 ⊢
      have hεM : 0 ≤ (2 : ℝ) ^ (-49 : ℤ) * M := by positivity
      simp only [mul_assoc] at b1 b2 b3 b4 ⊢
      generalize (2 : ℝ) ^ (-49 : ℤ) * M = η at *
      constructor
      · refine le_min (le_min (le_min ?_ ?_) ?_) ?_ <;> linarith
      · simp only [min_le_iff]
        rcases key with h | h | h | h
        · exact Or.inl (Or.inl (Or.inl (by linarith)))
        · exact Or.inl (Or.inl (Or.inr (by linarith)))
        · exact Or.inl (Or.inr (by linarith))
        · exact Or.inr (by linarith)
    · have hxe : s.exact.existIntersection o.exact = false := by
        rw [Bool.eq_false_iff]
        exact fun h => hm ((C30_exist_intersection s.exact o.exact).mp h)
      have hDe : D = min (min (min (s.exact.distPoint o.origin.exact) (s.exact.distPoint o.terminal.exact))
          (o.exact.distPoint s.origin.exact)) (o.exact.distPoint s.terminal.exact) := by
        rw [IsMinDistSets.unique hD (C35_dist_segment s.exact o.exact)]
        unfold Seg.distSeg
        rw [hxe]
        simp only [pyMin_real]
        rfl
      rw [hDe]
      refine (abs_min_sub_min_le_max _ _ _ _).trans (max_le ((abs_min_sub_min_le_max _ _ _ _).trans
        (max_le ((abs_min_sub_min_le_max _ _ _ _).trans (max_le ?_ ?_)) ?_)) ?_)
      all_goals
        have hεM : 0 ≤ (2 : ℝ) ^ (-49 : ℤ) * M := by positivity
        simp only [mul_assoc] at b1 b2 b3 b4 ⊢
        linarith

/-- **C181** Segments which meet: the computed distance is at most `2 ^ -44` times the largest of the four spreads. -/
theorem C181_meet (k : ℤ) (hk : -268 ≤ k) (s o : Seg (FP double)) (f1 : s.origin.FineOk k) (f2 : s.terminal.FineOk k)
    (f3 : o.origin.FineOk k) (f4 : o.terminal.FineOk k) (hs : (2 : ℝ) ^ (-400 : ℤ) ≤ d s.origin.fpt s.terminal.fpt)
    (ho : (2 : ℝ) ^ (-400 : ℤ) ≤ d o.origin.fpt o.terminal.fpt) (M : ℝ)
    (m1 : spread s.origin.fpt s.terminal.fpt o.origin.fpt ≤ M) (m2 : spread s.origin.fpt s.terminal.fpt o.terminal.fpt ≤ M)
    (m3 : spread o.origin.fpt o.terminal.fpt s.origin.fpt ≤ M) (m4 : spread o.origin.fpt o.terminal.fpt s.terminal.fpt ≤ M)
    (h : (s.fpts ∩ o.fpts).Nonempty) : |(s.distSeg o).val| ≤ (2 : ℝ) ^ (-44 : ℤ) * M := by
  obtain ⟨z, z1, z2⟩ := id h
  have := C181_dist_partial k hk s o f1 f2 f3 f4 hs ho M m1 m2 m3 m4 (fun _ => h) 0
    ⟨⟨z, z1, z, z2, d_eq_zero.mpr rfl⟩, fun p _ q _ => d_nonneg p q⟩
  rwa [sub_zero] at this

/-- **C181** The hypothesis of `C181_dist_partial` holds if each end is clearly on one side of the line of the other segment. -/
theorem C181_clear (k : ℤ) (hk : -268 ≤ k) (s o : Seg (FP double)) (f1 : s.origin.FineOk k) (f2 : s.terminal.FineOk k)
    (f3 : o.origin.FineOk k) (f4 : o.terminal.FineOk k) (hs : (2 : ℝ) ^ (-400 : ℤ) ≤ d s.origin.fpt s.terminal.fpt)
    (ho : (2 : ℝ) ^ (-400 : ℤ) ≤ d o.origin.fpt o.terminal.fpt) (M : ℝ)
    (m1 : spread s.origin.fpt s.terminal.fpt o.origin.fpt ≤ M) (m2 : spread s.origin.fpt s.terminal.fpt o.terminal.fpt ≤ M)
    (m3 : spread o.origin.fpt o.terminal.fpt s.origin.fpt ≤ M) (m4 : spread o.origin.fpt o.terminal.fpt s.terminal.fpt ≤ M)
    (h1 : ClearTurn s.origin.fpt s.terminal.fpt o.origin.fpt) (h2 : ClearTurn s.origin.fpt s.terminal.fpt o.terminal.fpt)
    (h3 : ClearTurn o.origin.fpt o.terminal.fpt s.origin.fpt) (h4 : ClearTurn o.origin.fpt o.terminal.fpt s.terminal.fpt)
    (D : ℝ) (hD : IsMinDistSets s.fpts o.fpts D) : |(s.distSeg o).val - D| ≤ (2 : ℝ) ^ (-44 : ℤ) * M :=
  C181_dist_partial k hk s o f1 f2 f3 f4 hs ho M m1 m2 m3 m4 (C134_segment k hk s o f1 f2 f3 f4 h1 h2 h3 h4).mp D hD

/-- The hypotheses are met: crossing diagonals of a square of side 1; every spread is at most 4. -/
example : |(Seg.distSeg ⟨Vec.ofXY ⟨0⟩ ⟨0⟩, Vec.ofXY ⟨1⟩ ⟨1⟩⟩ (⟨Vec.ofXY ⟨0⟩ ⟨1⟩, Vec.ofXY ⟨1⟩ ⟨0⟩⟩ : Seg (FP double))).val| ≤
    (2 : ℝ) ^ (-44 : ℤ) * 4 := by
  have f0 : Fine 0 (0 : ℝ) := ⟨0, by norm_num⟩
  have f1 : Fine 0 (1 : ℝ) := ⟨1, by norm_num⟩
  have h2 : d (0, 0) (1, 1) = √2 := by unfold d; norm_num
  have h3 : d (0, 1) (1, 0) = √2 := by unfold d; norm_num
  have hu : ∀ x y : ℝ, x ^ 2 + y ^ 2 = 1 → ∀ p q : Pt, p.1 - q.1 = x → p.2 - q.2 = y → d p q = 1 := by
    intro x y h p q e1 e2; unfold d; rw [e1, e2, h, Real.sqrt_one]
  have lt2 : (1 : ℝ) ≤ √2 := Real.one_le_sqrt.mpr (by norm_num)
  have sp : ((1 : ℝ) + 1) ^ 2 / √2 ≤ 4 := by rw [div_le_iff₀ (by linarith)]; linarith
  have sm : (2 : ℝ) ^ (-400 : ℤ) ≤ √2 := le_trans (by
    have := zpow_le_zpow_right₀ (a := (2 : ℝ)) one_le_two (show (-400 : ℤ) ≤ 0 by norm_num); rwa [zpow_zero] at this) lt2
  refine C181_meet 0 (by norm_num) _ _ ⟨⟨isDouble_zero, isDouble_zero⟩, f0, f0⟩ ⟨⟨isDouble_one, isDouble_one⟩, f1, f1⟩
    ⟨⟨isDouble_zero, isDouble_one⟩, f0, f1⟩ ⟨⟨isDouble_one, isDouble_zero⟩, f1, f0⟩ ?_ ?_ 4 ?_ ?_ ?_ ?_ ?_
  · change _ ≤ d (0, 0) (1, 1); rw [h2]; exact sm
  · change _ ≤ d (0, 1) (1, 0); rw [h3]; exact sm
  · change (d (0, 0) (0, 1) + d (1, 1) (0, 1)) ^ 2 / d (0, 0) (1, 1) ≤ 4
    rw [h2, hu 0 (-1) (by norm_num) (0, 0) (0, 1) (by norm_num) (by norm_num), hu 1 0 (by norm_num) (1, 1) (0, 1) (by norm_num) (by norm_num)]; exact sp
  · change (d (0, 0) (1, 0) + d (1, 1) (1, 0)) ^ 2 / d (0, 0) (1, 1) ≤ 4
    rw [h2, hu (-1) 0 (by norm_num) (0, 0) (1, 0) (by norm_num) (by norm_num), hu 0 1 (by norm_num) (1, 1) (1, 0) (by norm_num) (by norm_num)]; exact sp
  · change (d (0, 1) (0, 0) + d (1, 0) (0, 0)) ^ 2 / d (0, 1) (1, 0) ≤ 4
    rw [h3, hu 0 1 (by norm_num) (0, 1) (0, 0) (by norm_num) (by norm_num), hu 1 0 (by norm_num) (1, 0) (0, 0) (by norm_num) (by norm_num)]; exact sp
  · change (d (0, 1) (1, 1) + d (1, 0) (1, 1)) ^ 2 / d (0, 1) (1, 0) ≤ 4
    rw [h3, hu (-1) 0 (by norm_num) (0, 1) (1, 1) (by norm_num) (by norm_num), hu 0 (-1) (by norm_num) (1, 0) (1, 1) (by norm_num) (by norm_num)]; exact sp
  · refine ⟨(1 / 2, 1 / 2), ⟨1 / 2, 1 / 2, by norm_num, by norm_num, by norm_num, ?_⟩, ⟨1 / 2, 1 / 2, by norm_num, by norm_num, by norm_num, ?_⟩⟩
    · ext <;> norm_num [Vec.fpt, Vec.ofXY]
    · ext <;> norm_num [Vec.fpt, Vec.ofXY]

/-- The steps of `double_signed_area`. -/
theorem fp_dsa_steps {a b c : Vec (FP double)} {y1 y2 y3 y4 p q r : ℝ} (h1 : rne (a.x.val - c.x.val) = y1)
    (h2 : rne (b.y.val - c.y.val) = y2) (h3 : rne (b.x.val - c.x.val) = y3) (h4 : rne (c.y.val - a.y.val) = y4)
    (h5 : rne (y1 * y2) = p) (h6 : rne (y3 * y4) = q) (h7 : rne (p + q) = r) : (Tri.dsa a b c).val = r := by
  rw [← h7, ← h6, ← h5, ← h4, ← h3, ← h2, ← h1]; rfl

/-- **C181 is false without the hypothesis on false intersections**: the segments from `(-4, -8 + 2 ^ -50)` to `(-3, -6)` and from
`(-2, -4)` to `(2 + 2 ^ -50, 4)` are more than 2 apart; they are nearly on one line, the computed areas all have the wrong sign,
`exist_intersection` answers `True` and the computed distance is zero. -/
theorem C181_refuted : ∃ s o : Seg (FP double), (s.origin.FOk ∧ s.terminal.FOk ∧ o.origin.FOk ∧ o.terminal.FOk) ∧
    (∀ p ∈ s.fpts, ∀ q ∈ o.fpts, 2 ≤ d p q) ∧ s.existIntersection o = true ∧ (s.distSeg o).val = 0 ∧
    s.existIntersectionExceptEndpoint o = true := by
  have q0 : ∀ x : ℝ, x = ((-2) : ℝ) → rne x = ((-2) : ℝ) := by
    rintro _ rfl
    rw [rne_eq (1) (-4503599627370496) (by norm_num) (by norm_num [abs_of_pos, abs_of_neg]) (by norm_num [abs_of_pos, abs_of_neg])
      (by norm_num [abs_of_pos, abs_of_neg])]
    norm_num
  have q1 : ∀ x : ℝ, x = ((-1) : ℝ) → rne x = ((-1) : ℝ) := by
    rintro _ rfl
    rw [rne_eq (0) (-4503599627370496) (by norm_num) (by norm_num [abs_of_pos, abs_of_neg]) (by norm_num [abs_of_pos, abs_of_neg])
      (by norm_num [abs_of_pos, abs_of_neg])]
    norm_num
  have q2 : ∀ x : ℝ, x = ((4503599627370495 / 1125899906842624) : ℝ) → rne x = ((4503599627370495 / 1125899906842624) : ℝ) := by
    rintro _ rfl
    rw [rne_eq (1) (9007199254740990) (by norm_num) (by norm_num [abs_of_pos, abs_of_neg]) (by norm_num [abs_of_pos, abs_of_neg])
      (by norm_num [abs_of_pos, abs_of_neg])]
    norm_num
  have q3 : ∀ x : ℝ, x = ((4) : ℝ) → rne x = ((4) : ℝ) := by
    rintro _ rfl
    rw [rne_eq (2) (4503599627370496) (by norm_num) (by norm_num [abs_of_pos, abs_of_neg]) (by norm_num [abs_of_pos, abs_of_neg])
      (by norm_num [abs_of_pos, abs_of_neg])]
    norm_num
  have q4 : ∀ x : ℝ, x = ((-4503599627370495 / 1125899906842624) : ℝ) → rne x = ((-4503599627370495 / 1125899906842624) : ℝ) := by
    rintro _ rfl
    rw [rne_eq (1) (-9007199254740990) (by norm_num) (by norm_num [abs_of_pos, abs_of_neg]) (by norm_num [abs_of_pos, abs_of_neg])
      (by norm_num [abs_of_pos, abs_of_neg])]
    norm_num
  have q5 : ∀ x : ℝ, x = ((1 / 1125899906842624) : ℝ) → rne x = ((1 / 1125899906842624) : ℝ) := by
    rintro _ rfl
    rw [rne_eq (-50) (4503599627370496) (by norm_num) (by norm_num [abs_of_pos, abs_of_neg]) (by norm_num [abs_of_pos, abs_of_neg])
      (by norm_num [abs_of_pos, abs_of_neg])]
    norm_num
  have q6 : ∀ x : ℝ, x = ((-6755399441055745 / 1125899906842624) : ℝ) → rne x = ((-6755399441055745 / 1125899906842624) : ℝ) := by
    rintro _ rfl
    rw [rne_eq (2) (-6755399441055745) (by norm_num) (by norm_num [abs_of_pos, abs_of_neg]) (by norm_num [abs_of_pos, abs_of_neg])
      (by norm_num [abs_of_pos, abs_of_neg])]
    norm_num
  have q7 : ∀ x : ℝ, x = ((-10) : ℝ) → rne x = ((-10) : ℝ) := by
    rintro _ rfl
    rw [rne_eq (3) (-5629499534213120) (by norm_num) (by norm_num [abs_of_pos, abs_of_neg]) (by norm_num [abs_of_pos, abs_of_neg])
      (by norm_num [abs_of_pos, abs_of_neg])]
    norm_num
  have q8 : ∀ x : ℝ, x = ((-5629499534213121 / 1125899906842624) : ℝ) → rne x = ((-5629499534213121 / 1125899906842624) : ℝ) := by
    rintro _ rfl
    rw [rne_eq (2) (-5629499534213121) (by norm_num) (by norm_num [abs_of_pos, abs_of_neg]) (by norm_num [abs_of_pos, abs_of_neg])
      (by norm_num [abs_of_pos, abs_of_neg])]
    norm_num
  have q9 : ∀ x : ℝ, x = ((13510798882111487 / 1125899906842624) : ℝ) → rne x = ((12) : ℝ) := by
    rintro _ rfl
    rw [rne_eq_even (3) (6755399441055744) (by norm_num) (by norm_num [abs_of_pos, abs_of_neg]) (by norm_num [abs_of_pos, abs_of_neg])
      (by norm_num [abs_of_pos, abs_of_neg]) (by decide)]
    norm_num
  have q10 : ∀ x : ℝ, x = ((33776997205278725 / 562949953421312) : ℝ) → rne x = ((8444249301319681 / 140737488355328) : ℝ) := by
    rintro _ rfl
    rw [rne_eq (5) (8444249301319681) (by norm_num) (by norm_num [abs_of_pos, abs_of_neg]) (by norm_num [abs_of_pos, abs_of_neg])
      (by norm_num [abs_of_pos, abs_of_neg])]
    norm_num
  have q11 : ∀ x : ℝ, x = ((-16888498602639363 / 281474976710656) : ℝ) → rne x = ((-4222124650659841 / 70368744177664) : ℝ) := by
    rintro _ rfl
    rw [rne_eq_even (5) (-8444249301319682) (by norm_num) (by norm_num [abs_of_pos, abs_of_neg]) (by norm_num [abs_of_pos, abs_of_neg])
      (by norm_num [abs_of_pos, abs_of_neg]) (by decide)]
    norm_num
  have q12 : ∀ x : ℝ, x = ((-1 / 140737488355328) : ℝ) → rne x = ((-1 / 140737488355328) : ℝ) := by
    rintro _ rfl
    rw [rne_eq (-47) (-4503599627370496) (by norm_num) (by norm_num [abs_of_pos, abs_of_neg]) (by norm_num [abs_of_pos, abs_of_neg])
      (by norm_num [abs_of_pos, abs_of_neg])]
    norm_num
  have q13 : ∀ x : ℝ, x = ((2) : ℝ) → rne x = ((2) : ℝ) := by
    rintro _ rfl
    rw [rne_eq (1) (4503599627370496) (by norm_num) (by norm_num [abs_of_pos, abs_of_neg]) (by norm_num [abs_of_pos, abs_of_neg])
      (by norm_num [abs_of_pos, abs_of_neg])]
    norm_num
  have q14 : ∀ x : ℝ, x = ((6755399441055745 / 1125899906842624) : ℝ) → rne x = ((6755399441055745 / 1125899906842624) : ℝ) := by
    rintro _ rfl
    rw [rne_eq (2) (6755399441055745) (by norm_num) (by norm_num [abs_of_pos, abs_of_neg]) (by norm_num [abs_of_pos, abs_of_neg])
      (by norm_num [abs_of_pos, abs_of_neg])]
    norm_num
  have q15 : ∀ x : ℝ, x = ((24) : ℝ) → rne x = ((24) : ℝ) := by
    rintro _ rfl
    rw [rne_eq (4) (6755399441055744) (by norm_num) (by norm_num [abs_of_pos, abs_of_neg]) (by norm_num [abs_of_pos, abs_of_neg])
      (by norm_num [abs_of_pos, abs_of_neg])]
    norm_num
  have q16 : ∀ x : ℝ, x = ((-30423614405477503384121063243775 / 1267650600228229401496703205376) : ℝ) → rne x = ((-6755399441055743 / 281474976710656) : ℝ) := by
    rintro _ rfl
    rw [rne_eq (4) (-6755399441055743) (by norm_num) (by norm_num [abs_of_pos, abs_of_neg]) (by norm_num [abs_of_pos, abs_of_neg])
      (by norm_num [abs_of_pos, abs_of_neg])]
    norm_num
  have q17 : ∀ x : ℝ, x = ((1 / 281474976710656) : ℝ) → rne x = ((1 / 281474976710656) : ℝ) := by
    rintro _ rfl
    rw [rne_eq (-48) (4503599627370496) (by norm_num) (by norm_num [abs_of_pos, abs_of_neg]) (by norm_num [abs_of_pos, abs_of_neg])
      (by norm_num [abs_of_pos, abs_of_neg])]
    norm_num
  have q18 : ∀ x : ℝ, x = ((1) : ℝ) → rne x = ((1) : ℝ) := by
    rintro _ rfl
    rw [rne_eq (0) (4503599627370496) (by norm_num) (by norm_num [abs_of_pos, abs_of_neg]) (by norm_num [abs_of_pos, abs_of_neg])
      (by norm_num [abs_of_pos, abs_of_neg])]
    norm_num
  have q19 : ∀ x : ℝ, x = ((10) : ℝ) → rne x = ((10) : ℝ) := by
    rintro _ rfl
    rw [rne_eq (3) (5629499534213120) (by norm_num) (by norm_num [abs_of_pos, abs_of_neg]) (by norm_num [abs_of_pos, abs_of_neg])
      (by norm_num [abs_of_pos, abs_of_neg])]
    norm_num
  have q20 : ∀ x : ℝ, x = ((5629499534213121 / 1125899906842624) : ℝ) → rne x = ((5629499534213121 / 1125899906842624) : ℝ) := by
    rintro _ rfl
    rw [rne_eq (2) (5629499534213121) (by norm_num) (by norm_num [abs_of_pos, abs_of_neg]) (by norm_num [abs_of_pos, abs_of_neg])
      (by norm_num [abs_of_pos, abs_of_neg])]
    norm_num
  have q21 : ∀ x : ℝ, x = ((-5629499534213121 / 562949953421312) : ℝ) → rne x = ((-5629499534213121 / 562949953421312) : ℝ) := by
    rintro _ rfl
    rw [rne_eq (3) (-5629499534213121) (by norm_num) (by norm_num [abs_of_pos, abs_of_neg]) (by norm_num [abs_of_pos, abs_of_neg])
      (by norm_num [abs_of_pos, abs_of_neg])]
    norm_num
  have q22 : ∀ x : ℝ, x = ((-1 / 562949953421312) : ℝ) → rne x = ((-1 / 562949953421312) : ℝ) := by
    rintro _ rfl
    rw [rne_eq (-49) (-4503599627370496) (by norm_num) (by norm_num [abs_of_pos, abs_of_neg]) (by norm_num [abs_of_pos, abs_of_neg])
      (by norm_num [abs_of_pos, abs_of_neg])]
    norm_num
  obtain ⟨A, hA⟩ : ∃ v : Vec (FP double), v = Vec.ofXY ⟨-4⟩ ⟨-8 + 1 / 2 ^ 50⟩ := ⟨_, rfl⟩
  obtain ⟨B, hB⟩ : ∃ v : Vec (FP double), v = Vec.ofXY ⟨-3⟩ ⟨-6⟩ := ⟨_, rfl⟩
  obtain ⟨C, hC⟩ : ∃ v : Vec (FP double), v = Vec.ofXY ⟨-2⟩ ⟨-4⟩ := ⟨_, rfl⟩
  obtain ⟨E, hE⟩ : ∃ v : Vec (FP double), v = Vec.ofXY ⟨2 + 1 / 2 ^ 50⟩ ⟨4⟩ := ⟨_, rfl⟩
  have s0 : (Tri.dsa A B C).val = ((1 / 1125899906842624) : ℝ) := by
    subst hA hB hC hE
    exact fp_dsa_steps (q0 _ (by norm_num [Vec.ofXY])) (q0 _ (by norm_num [Vec.ofXY])) (q1 _ (by norm_num [Vec.ofXY])) (q2 _ (by norm_num [Vec.ofXY]))
      (q3 _ (by norm_num [Vec.ofXY])) (q4 _ (by norm_num [Vec.ofXY])) (q5 _ (by norm_num [Vec.ofXY]))
  have s1 : (Tri.dsa A B E).val = ((-1 / 140737488355328) : ℝ) := by
    subst hA hB hC hE
    exact fp_dsa_steps (q6 _ (by norm_num [Vec.ofXY])) (q7 _ (by norm_num [Vec.ofXY])) (q8 _ (by norm_num [Vec.ofXY])) (q9 _ (by norm_num [Vec.ofXY]))
      (q10 _ (by norm_num [Vec.ofXY])) (q11 _ (by norm_num [Vec.ofXY])) (q12 _ (by norm_num [Vec.ofXY]))
  have s2 : (Tri.dsa C E A).val = ((1 / 281474976710656) : ℝ) := by
    subst hA hB hC hE
    exact fp_dsa_steps (q13 _ (by norm_num [Vec.ofXY])) (q9 _ (by norm_num [Vec.ofXY])) (q14 _ (by norm_num [Vec.ofXY])) (q4 _ (by norm_num [Vec.ofXY]))
      (q15 _ (by norm_num [Vec.ofXY])) (q16 _ (by norm_num [Vec.ofXY])) (q17 _ (by norm_num [Vec.ofXY]))
  have s3 : (Tri.dsa C E B).val = ((-1 / 562949953421312) : ℝ) := by
    subst hA hB hC hE
    exact fp_dsa_steps (q18 _ (by norm_num [Vec.ofXY])) (q19 _ (by norm_num [Vec.ofXY])) (q20 _ (by norm_num [Vec.ofXY])) (q0 _ (by norm_num [Vec.ofXY]))
      (q19 _ (by norm_num [Vec.ofXY])) (q21 _ (by norm_num [Vec.ofXY])) (q22 _ (by norm_num [Vec.ofXY]))
  have neg : ∀ {x y : FP double} {r t : ℝ}, x.val = r → y.val = t → r * t < 0 → (2 : ℝ) ^ (-1000 : ℤ) ≤ |r * t| → x * y < num 0 := by
    intro x y r t hx hy h h'
    rw [fp_lt_zero, FP.mul_val, hx, hy]
    change rne _ < 0
    have e : rne (-(2 : ℝ) ^ (-1000 : ℤ)) = -(2 : ℝ) ^ (-1000 : ℤ) := by
      rw [rne_neg, rne_of_isDouble (isDouble_pow _ (by norm_num))]
    have m := rne_mono (show r * t ≤ -(2 : ℝ) ^ (-1000 : ℤ) by rw [abs_of_neg h] at h'; linarith)
    rw [e] at m
    have : (0 : ℝ) < (2 : ℝ) ^ (-1000 : ℤ) := by positivity
    linarith
  have sm : ∀ n : ℝ, (2 : ℝ) ^ (-200 : ℤ) ≤ n → (2 : ℝ) ^ (-1000 : ℤ) ≤ n := fun n h =>
    (zpow_le_zpow_right₀ one_le_two (by norm_num)).trans h
  have t1 : Tri.dsa A B C * Tri.dsa A B E < num 0 := neg s0 s1 (by norm_num) (sm _ (by norm_num [abs_of_pos, abs_of_neg]))
  have t2 : Tri.dsa C E A * Tri.dsa C E B < num 0 := neg s2 s3 (by norm_num) (sm _ (by norm_num [abs_of_pos, abs_of_neg]))
  have hx : (⟨A, B⟩ : Seg (FP double)).existIntersection ⟨C, E⟩ = true := by
    unfold Seg.existIntersection
    dsimp only
    rw [if_pos ⟨t1, t2⟩]
  have dI : ∀ n : ℤ, |n| ≤ 100 → IsDouble (n : ℝ) := fun n h => isDouble_int (by omega)
  refine ⟨⟨A, B⟩, ⟨C, E⟩, ⟨?_, ?_, ?_, ?_⟩, ?_, hx, ?_, ?_⟩
  · subst hA; exact ⟨by simpa [Vec.ofXY] using dI (-4) (by norm_num), ⟨-9007199254740991, -50, by norm_num, by norm_num, by norm_num [Vec.ofXY]⟩⟩
  · subst hB; exact ⟨by simpa [Vec.ofXY] using dI (-3) (by norm_num), by simpa [Vec.ofXY] using dI (-6) (by norm_num)⟩
  · subst hC; exact ⟨by simpa [Vec.ofXY] using dI (-2) (by norm_num), by simpa [Vec.ofXY] using dI (-4) (by norm_num)⟩
  · subst hE; exact ⟨⟨2251799813685249, -50, by norm_num, by norm_num, by norm_num [Vec.ofXY]⟩, by simpa [Vec.ofXY] using dI 4 (by norm_num)⟩
  · rintro p ⟨u, v, hu, hv, huv, rfl⟩ q ⟨g, h, hg, hh, hgh, rfl⟩
    subst hA hB hC hE
    simp only [d, Vec.fpt, Vec.ofXY, Prod.smul_mk, Prod.mk_add_mk, smul_eq_mul]
    refine Real.le_sqrt_of_sq_le ?_
    have k1 : 2 ≤ (g * -4 + h * 4) - (u * (-8 + 1 / 2 ^ 50) + v * -6) := by
      have : u = 1 - v := by linarith
      have : g = 1 - h := by linarith
      subst_vars
      norm_num
      nlinarith
    generalize g * -4 + h * 4 = y at *
    generalize u * (-8 + 1 / 2 ^ 50) + v * -6 = z at *
    nlinarith [sq_nonneg (u * -4 + v * -3 - (g * -2 + h * (2 + 1 / 2 ^ 50)))]
  · unfold Seg.distSeg
    rw [if_pos hx]; exact fp_zero
  · unfold Seg.existIntersectionExceptEndpoint
    rw [decide_eq_true t1, decide_eq_true t2]; rfl

end PyrusGeom
