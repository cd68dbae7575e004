import Verif.Props.FloatRobust

/-! # Property C136: polygon containment for arbitrary doubles -/

namespace PyrusGeom
open Spec

theorem rne_pow_le {k : ℤ} (hk : -1074 ≤ k) {x : ℝ} (h : (2 : ℝ) ^ k ≤ x) : (2 : ℝ) ^ k ≤ rne x := by
  rw [← rne_of_isDouble (isDouble_pow k hk)]; exact rne_mono h

theorem rne_le_neg_pow {k : ℤ} (hk : -1074 ≤ k) {x : ℝ} (h : x ≤ -(2 : ℝ) ^ k) : rne x ≤ -(2 : ℝ) ^ k := by
  rw [← rne_of_isDouble (isDouble_pow k hk).neg]; exact rne_mono h

/-- The computed area of `p`, a far point at the height of `p`, and another point: `X` and `T` are the rounded horizontal
distances, `Y` the rounded height of `p` over the other point. The sign is opposite to that of `Y`. -/
theorem fp_far_area_fine {k : ℤ} (hk : -240 ≤ k) {X T Y : ℝ} (hX : Fine k X) (hY : Fine k Y) (hT : (2 : ℝ) ^ k ≤ T)
    (hXT : X * (1 + (2 : ℝ) ^ (-42 : ℤ)) ≤ T) :
    (0 < Y → rne (rne (X * Y) + rne (T * -Y)) ≤ -(2 : ℝ) ^ (k + k - 43)) ∧
    (Y < 0 → (2 : ℝ) ^ (k + k - 43) ≤ rne (rne (X * Y) + rne (T * -Y))) ∧
    (Y = 0 → rne (rne (X * Y) + rne (T * -Y)) = 0) := by
  have e2 : (2 : ℝ) ^ (k + k) = (2 : ℝ) ^ k * (2 : ℝ) ^ k := zpow_add₀ (by norm_num) _ _
  have ew : (2 : ℝ) ^ (k + k - 43) = (2 : ℝ) ^ (k + k) * (2 : ℝ) ^ (-43 : ℤ) := by
    rw [sub_eq_add_neg, zpow_add₀ (by norm_num)]
  have hp : (0 : ℝ) < (2 : ℝ) ^ k := by positivity
  have hpp : (0 : ℝ) < (2 : ℝ) ^ (k + k) := by positivity
  have hw1 : (2 : ℝ) ^ (k + k - 43) ≤ (2 : ℝ) ^ (k + k) := zpow_le_zpow_right₀ (by norm_num) (by omega)
  have key : ∀ {Y : ℝ}, Fine k Y → 0 < Y → (2 : ℝ) ^ (k + k - 43) ≤ rne (T * Y) - rne (X * Y) := by
    intro Y hY h0
    have hu := hY.unit_le h0
    have hTY : (2 : ℝ) ^ (k + k) ≤ T * Y := by
      rw [e2]; exact mul_le_mul hT hu hp.le (hp.le.trans hT)
    rcases le_or_gt X 0 with hx | hx
    · have h1 : rne (X * Y) ≤ 0 := by
        have := rne_mono (mul_nonpos_of_nonpos_of_nonneg hx h0.le)
        rwa [rne_zero] at this
      have h2 := rne_pow_le (by omega) hTY
      linarith
    · have hXY : (2 : ℝ) ^ (k + k) ≤ X * Y := by
        rw [e2]; exact mul_le_mul (hX.unit_le hx) hu hp.le hx.le
      have h1 := (hX.mul hY).rne_error (by omega)
      have h2 : |rne (T * Y) - T * Y| ≤ (2 : ℝ) ^ (-53 : ℤ) * |T * Y| := by
        refine rne_rel_error ?_
        rw [abs_of_pos (hpp.trans_le hTY)]
        exact le_trans (zpow_le_zpow_right₀ (by norm_num) (by omega)) hTY
      rw [abs_of_pos (hpp.trans_le hTY)] at h2
      rw [abs_of_pos (hpp.trans_le hXY)] at h1
      have h3 : X * Y * (1 + (2 : ℝ) ^ (-42 : ℤ)) ≤ T * Y := by
        have := mul_le_mul_of_nonneg_right hXT h0.le
        linarith
      have a1 := (abs_le.mp h1).2
      have a2 := (abs_le.mp h2).1
      rw [ew]
      generalize X * Y = x at *
      generalize T * Y = t at *
      generalize rne x = rx at *
      generalize rne t = rt at *
      generalize (2 : ℝ) ^ (k + k) = v at *
      norm_num at a1 a2 h3 ⊢
      linarith
  have hD : -1074 ≤ k + k - 43 := by omega
  refine ⟨fun h0 => ?_, fun h0 => ?_, fun h0 => ?_⟩
  · refine rne_le_neg_pow hD ?_
    rw [mul_neg, rne_neg]
    linarith [key hY h0]
  · refine rne_pow_le hD ?_
    have := key hY.neg (by linarith)
    rw [mul_neg, mul_neg, rne_neg, rne_neg] at this
    rw [mul_neg, rne_neg]
    linarith
  · rw [h0]; simp [rne_zero]

/-- Sums of two products with factors of equal sign. -/
theorem fp_near_area_fine {k : ℤ} (hk : -240 ≤ k) {U V α β : ℝ} (hU : U ≤ -(2 : ℝ) ^ k) (hV : V ≤ -(2 : ℝ) ^ k)
    (hα : Fine k α) (hβ : Fine k β) :
    (0 ≤ α → 0 ≤ β → (α ≠ 0 ∨ β ≠ 0) → rne (rne (U * α) + rne (V * β)) ≤ -(2 : ℝ) ^ (k + k)) ∧
    (α ≤ 0 → β ≤ 0 → (α ≠ 0 ∨ β ≠ 0) → (2 : ℝ) ^ (k + k) ≤ rne (rne (U * α) + rne (V * β))) ∧
    (α = 0 → β = 0 → rne (rne (U * α) + rne (V * β)) = 0) := by
  have e2 : (2 : ℝ) ^ (k + k) = (2 : ℝ) ^ k * (2 : ℝ) ^ k := zpow_add₀ (by norm_num) _ _
  have hp : (0 : ℝ) < (2 : ℝ) ^ k := by positivity
  have key : ∀ {U α : ℝ}, U ≤ -(2 : ℝ) ^ k → Fine k α → 0 < α → rne (U * α) ≤ -(2 : ℝ) ^ (k + k) := by
    intro U α hU hα h0
    refine rne_le_neg_pow (by omega) ?_
    have hu := hα.unit_le h0
    rw [e2]; nlinarith
  have main : ∀ {α β : ℝ}, Fine k α → Fine k β → 0 ≤ α → 0 ≤ β → (α ≠ 0 ∨ β ≠ 0) →
      rne (U * α) + rne (V * β) ≤ -(2 : ℝ) ^ (k + k) := by
    intro α β hα hβ h1 h2 h3
    have hpp : (0 : ℝ) < (2 : ℝ) ^ (k + k) := by positivity
    rcases eq_or_lt_of_le h1 with h1 | h1
    · rcases eq_or_lt_of_le h2 with h2 | h2
      · rcases h3 with h3 | h3
        · exact absurd h1.symm h3
        · exact absurd h2.symm h3
      · rw [← h1, mul_zero, rne_zero]; linarith [key hV hβ h2]
    · rcases eq_or_lt_of_le h2 with h2 | h2
      · rw [← h2, mul_zero, rne_zero]; linarith [key hU hα h1]
      · linarith [key hU hα h1, key hV hβ h2]
  refine ⟨fun h1 h2 h3 => ?_, fun h1 h2 h3 => ?_, fun h1 h2 => ?_⟩
  · exact rne_le_neg_pow (by omega) (main hα hβ h1 h2 h3)
  · refine rne_pow_le (by omega) ?_
    have := main hα.neg hβ.neg (by linarith) (by linarith) (by rwa [neg_ne_zero, neg_ne_zero])
    rw [mul_neg, mul_neg, rne_neg, rne_neg] at this
    linarith
  · rw [h1, h2]; simp [rne_zero]

theorem fp_far_exist_fine {k : ℤ} (hk : -240 ≤ k) {p t c e : Vec (FP double)} (hp : p.FineOk k) (hc : c.FineOk k)
    (he : e.FineOk k) (hy : t.y = p.y) (tp : p.x.val < t.x.val) (tc : c.x.val + (2 : ℝ) ^ k ≤ t.x.val)
    (te : e.x.val + (2 : ℝ) ^ k ≤ t.x.val)
    (sc : rne (p.x.val - c.x.val) * (1 + (2 : ℝ) ^ (-42 : ℤ)) ≤ rne (t.x.val - c.x.val))
    (se : rne (p.x.val - e.x.val) * (1 + (2 : ℝ) ^ (-42 : ℤ)) ≤ rne (t.x.val - e.x.val))
    (sb : SameSign (Tri.dsa c e p).val (area2 c.fpt e.fpt p.fpt)) :
    (⟨p, t⟩ : Seg (FP double)).existIntersection ⟨c, e⟩ =
      (⟨p.exact, t.exact⟩ : Seg ℝ).existIntersection ⟨c.exact, e.exact⟩ := by
  have up : (0 : ℝ) < (2 : ℝ) ^ k := by positivity
  set w : ℝ := (2 : ℝ) ^ (k + k - 43) with hw
  have wp : 0 < w := by positivity
  have hw1 : w ≤ (2 : ℝ) ^ (k + k) := zpow_le_zpow_right₀ (by norm_num) (by omega)
  have hww : IsDouble (w * w) := by
    rw [hw, ← zpow_add₀ (by norm_num)]; exact isDouble_pow _ (by omega)
  have hy' : t.y.val = p.y.val := by rw [hy]
  -- areas over the horizontal segment
  have area : ∀ v : Vec (FP double), v.FineOk k → v.x.val + (2 : ℝ) ^ k ≤ t.x.val →
      rne (p.x.val - v.x.val) * (1 + (2 : ℝ) ^ (-42 : ℤ)) ≤ rne (t.x.val - v.x.val) →
      (0 < p.y.val - v.y.val → (Tri.dsa p t v).val ≤ -w) ∧ (p.y.val - v.y.val < 0 → w ≤ (Tri.dsa p t v).val) ∧
      (p.y.val - v.y.val = 0 → (Tri.dsa p t v).val = 0) := by
    intro v hv tv sv
    have fX := (hp.2.1.sub hv.2.1).rne
    have fY := (hp.2.2.sub hv.2.2)
    have hT : (2 : ℝ) ^ k ≤ rne (t.x.val - v.x.val) := rne_pow_le (by omega) (by linarith)
    obtain ⟨a1, a2, a3⟩ := fp_far_area_fine hk fX fY.rne hT sv
    have ev : (Tri.dsa p t v).val = rne (rne (rne (p.x.val - v.x.val) * rne (p.y.val - v.y.val)) +
        rne (rne (t.x.val - v.x.val) * -rne (p.y.val - v.y.val))) := by
      change rne (rne (rne (p.x.val - v.x.val) * rne (t.y.val - v.y.val)) +
        rne (rne (t.x.val - v.x.val) * rne (v.y.val - p.y.val))) = _
      rw [hy', ← neg_sub p.y.val, rne_neg]
    rw [ev]
    exact ⟨fun h => a1 ((fY.rne_pos_iff (by omega)).mpr h), fun h => a2 ((fY.rne_neg_iff (by omega)).mpr h),
      fun h => a3 (by rw [h, rne_zero])⟩
  have areaR : ∀ v : Vec (FP double), Tri.dsa p.exact t.exact v.exact = (p.x.val - t.x.val) * (p.y.val - v.y.val) := by
    intro v
    simp only [Tri.dsa, Vec.exact_x, Vec.exact_y, hy']; ring
  obtain ⟨c1, c2, c3⟩ := area c hc tc sc
  obtain ⟨e1, e2, e3⟩ := area e he te se
  have trich : ∀ {v : Vec (FP double)} {h : ℝ}, (0 < h → (Tri.dsa p t v).val ≤ -w) →
      (h < 0 → w ≤ (Tri.dsa p t v).val) → (h = 0 → (Tri.dsa p t v).val = 0) →
      ((Tri.dsa p t v).val ≤ -w ∨ (Tri.dsa p t v).val = 0 ∨ w ≤ (Tri.dsa p t v).val) := by
    intro v h h1 h2 h3
    rcases lt_trichotomy h 0 with h | h | h
    · exact .inr (.inr (h2 h))
    · exact .inr (.inl (h3 h))
    · exact .inl (h1 h)
  have zero : ∀ {v : Vec (FP double)}, (0 < p.y.val - v.y.val → (Tri.dsa p t v).val ≤ -w) →
      (p.y.val - v.y.val < 0 → w ≤ (Tri.dsa p t v).val) → (p.y.val - v.y.val = 0 → (Tri.dsa p t v).val = 0) →
      (Tri.dsa p t v == num 0) = (Tri.dsa p.exact t.exact v.exact == num 0) := by
    intro v h1 h2 h3
    rw [Bool.eq_iff_iff, fp_beq_zero, beq_iff_eq, areaR, num_real, Nat.cast_zero, mul_eq_zero,
      or_iff_right (by intro h; linarith)]
    constructor
    · intro h
      rcases lt_trichotomy (p.y.val - v.y.val) 0 with h' | h' | h'
      · linarith [h2 h']
      · exact h'
      · linarith [h1 h']
    · exact h3
  -- areas over the edge
  have tb0 : (Tri.dsa c e p).val ≤ -w ∨ (Tri.dsa c e p).val = 0 ∨ w ≤ (Tri.dsa c e p).val := by
    have fb := fp_dsa_fine hc he hp
    rcases lt_trichotomy (Tri.dsa c e p).val 0 with h | h | h
    · have := fb.neg.unit_le (by linarith); exact .inl (by linarith)
    · exact .inr (.inl h)
    · exact .inr (.inr (hw1.trans (fb.unit_le h)))
  have fα := he.2.2.sub hp.2.2
  have fβ := hp.2.2.sub hc.2.2
  have hU : rne (c.x.val - t.x.val) ≤ -(2 : ℝ) ^ k := rne_le_neg_pow (by omega) (by linarith)
  have hV : rne (e.x.val - t.x.val) ≤ -(2 : ℝ) ^ k := rne_le_neg_pow (by omega) (by linarith)
  obtain ⟨n1, n2, n3⟩ := fp_near_area_fine hk hU hV fα.rne fβ.rne
  have eb1 : (Tri.dsa c e t).val = rne (rne (rne (c.x.val - t.x.val) * rne (e.y.val - p.y.val)) +
      rne (rne (e.x.val - t.x.val) * rne (p.y.val - c.y.val))) := by
    change rne (rne (rne (c.x.val - t.x.val) * rne (e.y.val - t.y.val)) +
        rne (rne (e.x.val - t.x.val) * rne (t.y.val - c.y.val))) = _
    rw [hy']
  rw [← eb1] at n1 n2 n3
  have zα : rne (e.y.val - p.y.val) ≠ 0 ↔ e.y.val - p.y.val ≠ 0 :=
    not_congr (SameSign.zero_iff ⟨fα.rne_pos_iff (by omega), fα.rne_neg_iff (by omega)⟩)
  have zβ : rne (p.y.val - c.y.val) ≠ 0 ↔ p.y.val - c.y.val ≠ 0 :=
    not_congr (SameSign.zero_iff ⟨fβ.rne_pos_iff (by omega), fβ.rne_neg_iff (by omega)⟩)
  have m1 : 0 ≤ e.y.val - p.y.val → 0 ≤ p.y.val - c.y.val → (e.y.val - p.y.val ≠ 0 ∨ p.y.val - c.y.val ≠ 0) →
      (Tri.dsa c e t).val ≤ -w := fun h1 h2 h3 => by
    have := n1 (rne_nonneg h1) (rne_nonneg h2) (by rwa [zα, zβ])
    linarith
  have m2 : e.y.val - p.y.val ≤ 0 → p.y.val - c.y.val ≤ 0 → (e.y.val - p.y.val ≠ 0 ∨ p.y.val - c.y.val ≠ 0) →
      w ≤ (Tri.dsa c e t).val := fun h1 h2 h3 => by
    have h1' := rne_mono h1
    have h2' := rne_mono h2
    rw [rne_zero] at h1' h2'
    have := n2 h1' h2' (by rwa [zα, zβ])
    linarith
  have m3 : e.y.val - p.y.val = 0 → p.y.val - c.y.val = 0 → (Tri.dsa c e t).val = 0 := fun h1 h2 =>
    n3 (by rw [h1, rne_zero]) (by rw [h2, rne_zero])
  have eb1R : Tri.dsa c.exact e.exact t.exact = (c.x.val - t.x.val) * (e.y.val - p.y.val) +
      (e.x.val - t.x.val) * (p.y.val - c.y.val) := by
    simp only [Tri.dsa, Vec.exact_x, Vec.exact_y, hy']
  have cond : (Tri.dsa p t c * Tri.dsa p t e < num 0 ∧ Tri.dsa c e p * Tri.dsa c e t < num 0) ↔
      (Tri.dsa p.exact t.exact c.exact * Tri.dsa p.exact t.exact e.exact < num 0 ∧
        Tri.dsa c.exact e.exact p.exact * Tri.dsa c.exact e.exact t.exact < num 0) := by
    have hb0R : Tri.dsa c.exact e.exact p.exact = area2 c.fpt e.fpt p.fpt := by rw [Tri.dsa_real]; rfl
    rw [fp_lt_zero, fp_lt_zero, FP.mul_val, FP.mul_val, num_real, Nat.cast_zero, areaR, areaR, hb0R]
    change (rne _ < 0 ∧ rne _ < 0) ↔ _
    rw [rne_mul_neg_iff wp hww (trich c1 c2 c3) (trich e1 e2 e3)]
    have hX : p.x.val - t.x.val < 0 := by linarith
    have hRR : (p.x.val - t.x.val) * (p.y.val - c.y.val) * ((p.x.val - t.x.val) * (p.y.val - e.y.val)) < 0 ↔
        (p.y.val - c.y.val) * (p.y.val - e.y.val) < 0 := by
      rw [show (p.x.val - t.x.val) * (p.y.val - c.y.val) * ((p.x.val - t.x.val) * (p.y.val - e.y.val)) =
        ((p.y.val - c.y.val) * (p.y.val - e.y.val)) * ((p.x.val - t.x.val) * (p.x.val - t.x.val)) by ring]
      exact mul_neg_of_pos_iff (mul_pos_of_neg_of_neg hX hX)
    have hFF : (Tri.dsa p t c).val * (Tri.dsa p t e).val < 0 ↔ (p.y.val - c.y.val) * (p.y.val - e.y.val) < 0 :=
      mul_neg_opposite wp c1 c2 c3 e1 e2 e3
    rw [hFF, hRR]
    refine and_congr_right fun hne => ?_
    rw [eb1R]
    rcases mul_neg_iff.mp hne with ⟨hc', he'⟩ | ⟨hc', he'⟩
    · have k1 := m1 (by linarith) (by linarith) (.inr (by linarith))
      rw [rne_mul_neg_iff wp hww tb0 (.inl k1)]
      rw [mul_neg_of_neg_iff (lt_of_le_of_lt k1 (by linarith)),
        mul_neg_of_neg_iff (sum_neg (by linarith) (by linarith) (by linarith) (by linarith))]
      exact sb.1
    · have k1 := m2 (by linarith) (by linarith) (.inr (by linarith))
      rw [rne_mul_neg_iff wp hww tb0 (.inr (.inr k1))]
      rw [mul_neg_of_pos_iff (wp.trans_le k1),
        mul_neg_of_pos_iff (sum_pos (by linarith) (by linarith) (by linarith) (by linarith))]
      exact sb.2
  have last : (Tri.dsa c e t == num 0 && (⟨c.exact, e.exact⟩ : Seg ℝ).checkIntersectsOnLine t.exact) =
      (Tri.dsa c.exact e.exact t.exact == num 0 && (⟨c.exact, e.exact⟩ : Seg ℝ).checkIntersectsOnLine t.exact) := by
    by_cases hchk : (⟨c.exact, e.exact⟩ : Seg ℝ).checkIntersectsOnLine t.exact = true
    · rw [hchk, Bool.and_true, Bool.and_true, Bool.eq_iff_iff, fp_beq_zero, beq_iff_eq, eb1R, num_real, Nat.cast_zero]
      rw [Seg.checkIntersectsOnLine_iff] at hchk
      simp only [Vec.exact_x, Vec.exact_y, hy'] at hchk
      split_ifs at hchk with hx
      · by_cases hz : e.y.val - p.y.val = 0 ∧ p.y.val - c.y.val = 0
        · rw [m3 hz.1 hz.2, hz.1, hz.2]; simp
        · have hz' : e.y.val - p.y.val ≠ 0 ∨ p.y.val - c.y.val ≠ 0 := by rwa [not_and_or] at hz
          rcases hchk with ⟨h1, h2⟩ | ⟨h1, h2⟩
          · have k1 := m1 (by linarith) (by linarith) hz'
            refine ⟨fun h => by linarith, fun h => ?_⟩
            have a1 := mul_nonneg (show 0 ≤ t.x.val - c.x.val by linarith) (show 0 ≤ e.y.val - p.y.val by linarith)
            have a2 := mul_nonneg (show 0 ≤ t.x.val - e.x.val by linarith) (show 0 ≤ p.y.val - c.y.val by linarith)
            exfalso
            rcases hz' with k2 | k2
            · have := mul_pos (show 0 < t.x.val - c.x.val by linarith)
                (lt_of_le_of_ne (show 0 ≤ e.y.val - p.y.val by linarith) (Ne.symm k2))
              linarith
            · have := mul_pos (show 0 < t.x.val - e.x.val by linarith)
                (lt_of_le_of_ne (show 0 ≤ p.y.val - c.y.val by linarith) (Ne.symm k2))
              linarith
          · have k1 := m2 (by linarith) (by linarith) hz'
            refine ⟨fun h => by linarith, fun h => ?_⟩
            have a1 := mul_nonneg (show 0 ≤ t.x.val - c.x.val by linarith) (show 0 ≤ p.y.val - e.y.val by linarith)
            have a2 := mul_nonneg (show 0 ≤ t.x.val - e.x.val by linarith) (show 0 ≤ c.y.val - p.y.val by linarith)
            exfalso
            rcases hz' with k2 | k2
            · have := mul_neg_of_pos_of_neg (show 0 < t.x.val - c.x.val by linarith)
                (lt_of_le_of_ne (show e.y.val - p.y.val ≤ 0 by linarith) k2)
              linarith
            · have := mul_neg_of_pos_of_neg (show 0 < t.x.val - e.x.val by linarith)
                (lt_of_le_of_ne (show p.y.val - c.y.val ≤ 0 by linarith) k2)
              linarith
      · rcases hchk with ⟨h1, h2⟩ | ⟨h1, h2⟩ <;> linarith
    · rw [Bool.not_eq_true] at hchk
      rw [hchk, Bool.and_false, Bool.and_false]
  unfold Seg.existIntersection
  simp only [cond, zero c1 c2 c3, zero e1 e2 e3, fp_dsa_beq_sign sb, fp_vec_eq, fp_check, Seg.exact]
  rw [last]

theorem fp_containsLoop_fine {k : ℤ} (hk : -240 ≤ k) {p t : Vec (FP double)} {t' : Vec ℝ} (hp : p.FineOk k)
    (hy : t.y = p.y) (hy' : t'.y = p.y.val) (tp : p.x.val < t.x.val) (tp' : p.x.val ≤ t'.x) (allow : Bool)
    (E : List (Vec (FP double) × Vec (FP double)))
    (hE : ∀ e ∈ E, ∀ v, v = e.1 ∨ v = e.2 → v.FineOk k ∧ v.x.val + (2 : ℝ) ^ k ≤ t.x.val ∧ v.x.val ≤ t'.x ∧
      rne (p.x.val - v.x.val) * (1 + (2 : ℝ) ^ (-42 : ℤ)) ≤ rne (t.x.val - v.x.val))
    (hs : ∀ e ∈ E, SameSign (Tri.dsa e.1 e.2 p).val (area2 e.1.fpt e.2.fpt p.fpt)) (inside : Bool) :
    Poly.containsLoop p allow (Seg.ofPoints p t) E inside =
      Poly.containsLoop p.exact allow (Seg.ofPoints p.exact t') (E.map (Prod.map Vec.exact Vec.exact)) inside := by
  induction E generalizing inside with
  | nil => rfl
  | cons e E ih =>
    have ih := ih (fun e he => hE e (List.mem_cons_of_mem _ he)) (fun e he => hs e (List.mem_cons_of_mem _ he))
    obtain ⟨g0, r0, l0, s0⟩ := hE e List.mem_cons_self e.1 (.inl rfl)
    obtain ⟨g1, r1, l1, s1⟩ := hE e List.mem_cons_self e.2 (.inr rfl)
    have sb := hs e List.mem_cons_self
    obtain ⟨p0, p1⟩ := e
    have e1 : (Seg.ofPoints p0 p1).onSegment p = (Seg.ofPoints p0.exact p1.exact).onSegment p.exact := by
      unfold Seg.onSegment
      have : (Tri.dsa (Seg.ofPoints p0 p1).origin (Seg.ofPoints p0 p1).terminal p == num 0) =
          (Tri.dsa (Seg.ofPoints p0.exact p1.exact).origin (Seg.ofPoints p0.exact p1.exact).terminal p.exact == num 0) :=
        fp_dsa_beq_sign sb
      rw [this, fp_check]
      rfl
    have e2 : (Seg.ofPoints p t).existIntersection (Seg.ofPoints p0 p1) =
        (Seg.ofPoints p.exact t').existIntersection (Seg.ofPoints p0.exact p1.exact) := by
      have h1 := fp_far_exist_fine hk (p := Vec.ofVec p) (t := Vec.ofVec t) (c := Vec.ofVec p0) (e := Vec.ofVec p1)
        hp g0 g1 hy tp r0 r1 s0 s1 sb
      refine h1.trans ?_
      have u0 : (0 : ℝ) < (2 : ℝ) ^ k := by positivity
      have r0' : p0.x.val + (2 : ℝ) ^ k ≤ t.x.val := r0
      have r1' : p1.x.val + (2 : ℝ) ^ k ≤ t.x.val := r1
      rw [Bool.eq_iff_iff, Poly.ray_exist (show t.y.val = p.y.val by rw [hy]) (show p.x.val ≤ t.x.val from tp.le)
        (show p0.x.val ≤ t.x.val by linarith) (show p1.x.val ≤ t.x.val by linarith)]
      exact (Poly.ray_exist (p := Vec.ofVec p.exact) (t := Vec.ofVec t') (p0 := Vec.ofVec p0.exact)
        (p1 := Vec.ofVec p1.exact) hy' tp' l0 l1).symm
    simp only [List.map_cons, Prod.map_apply, Poly.containsLoop]
    rw [e1, e2, fp_vec_eq p p0, ih, ih]
    simp only [fp_beq_exact, FP.lt_def]
    rfl

/-- The loop with the half line of any box around the vertices and the point follows the crossing rule. -/
theorem Poly.contains_eq_loop (poly : Poly ℝ) (p v0 : Vec ℝ) (hl : 2 ≤ poly.vertices.length) {bb : Rect ℝ} (hok : bb.Ok)
    (hp : p.pt ∈ bb.pts) (hv : ∀ v ∈ poly.vertices, v.pt ∈ bb.pts) (allow : Bool) :
    Poly.containsLoop p allow (Poly.halfLine bb v0 p) (cyclicPairs poly.vertices) false = poly.contains p allow := by
  have hE : ∀ e ∈ cyclicPairs poly.vertices, e.1.pt ∈ bb.pts ∧ e.2.pt ∈ bb.pts := fun e he =>
    ⟨hv _ (fst_mem_of_cyclicPairs he), hv _ (snd_mem_of_cyclicPairs he)⟩
  cases allow with
  | true =>
    rw [Bool.eq_iff_iff, C73_parity]
    by_cases hx : p.pt ∈ poly.pts
    · simp only [hx, true_or, iff_true]
      apply Poly.containsLoop_vertex
      obtain ⟨v, hvm, hve⟩ := List.mem_map.mp hx
      rw [← map_fst_cyclicPairs poly.vertices] at hvm
      obtain ⟨e, he, rfl⟩ := List.mem_map.mp hvm
      exact ⟨e, he, Vec.eq_iff_pt.mpr hve.symm⟩
    · rw [Poly.containsLoop_parity hok hp _ hE (by simp), poly.crossings_eq]
      · simp [hx]
      · intro _ e he
        rw [← Bool.not_eq_true, Vec.eq_iff_pt]
        intro h; apply hx; rw [h]
        exact List.mem_map_of_mem (fst_mem_of_cyclicPairs he)
  | false =>
    rw [Bool.eq_iff_iff, C73_parity_strict]
    by_cases hx : ∀ e ∈ cyclicPairs poly.vertices, (Seg.ofPoints e.1 e.2).onSegment p = false
    · rw [Poly.containsLoop_parity hok hp _ hE (fun _ => hx) (by simp), poly.crossings_eq]
      simp only [Bool.false_xor, decide_eq_true_eq]
      exact ⟨fun h => ⟨hx, h⟩, fun h => h.2⟩
    · rw [Poly.containsLoop_on _ (by push Not at hx; simpa using hx)]
      simp only [Bool.false_eq_true, false_iff, not_and]
      intro h; exact absurd h hx

theorem abs_le_of_sub {a b e f : ℝ} (h : |a - b| ≤ e) (hb : |b| ≤ f) : |a| ≤ f + e := by
  have := abs_add_le (a - b) b
  rw [sub_add_cancel] at this
  linarith

/-- The right end of the half line of the code is far enough to the right. -/
theorem fp_halfLine_far {M x0 x1 y0 y1 px R B r : ℝ} (hM : 0 < M) (dx0 : IsDouble x0) (dx1 : IsDouble x1)
    (dy0 : IsDouble y0) (dy1 : IsDouble y1) (dp : IsDouble px) (bx0 : |x0| ≤ M) (bx1 : |x1| ≤ M) (by0 : |y0| ≤ M)
    (by1 : |y1| ≤ M) (bp : |px| ≤ M) (dR : IsDouble R) (dB : IsDouble B)
    (hR : |R - x1| ≤ (2 : ℝ) ^ (-50 : ℤ) * M) (hB : |B - y1| ≤ (2 : ℝ) ^ (-50 : ℤ) * M)
    (hG : M ≤ 2 ^ 40 * (x1 - x0 + (y1 - y0))) (hr : 0 ≤ r) :
    px + 5 / 2 * (x1 - x0 + (y1 - y0)) ≤ rne (px + rne (rne (rne (rne (rne (R - x0) + B) - y0) + r) * 3)) := by
  have err : ∀ {a b : ℝ}, IsDouble a → IsDouble b → |rne (a + b) - (a + b)| ≤ (2 : ℝ) ^ (-53 : ℤ) * (|a| + |b|) :=
    fun ha hb => (fp_sum_grid ha hb).trans (mul_le_mul_of_nonneg_left (abs_add_le _ _) (by positivity))
  have errs : ∀ {a b : ℝ}, IsDouble a → IsDouble b → |rne (a - b) - (a - b)| ≤ (2 : ℝ) ^ (-53 : ℤ) * (|a| + |b|) := by
    intro a b ha hb
    have := err ha hb.neg
    rwa [abs_neg, ← sub_eq_add_neg] at this
  have b50 : (2 : ℝ) ^ (-50 : ℤ) * M ≤ M := by
    have : (2 : ℝ) ^ (-50 : ℤ) ≤ 1 := by norm_num
    nlinarith
  have aR := abs_le_of_sub hR bx1
  have aB := abs_le_of_sub hB by1
  have h1 := errs dR dx0
  have d1 := isDouble_rne (R - x0)
  generalize rne (R - x0) = D1 at *
  have h2 := err d1 dB
  have d2 := isDouble_rne (D1 + B)
  generalize rne (D1 + B) = D2 at *
  have h3 := errs d2 dy0
  have d3 := isDouble_rne (D2 - y0)
  generalize rne (D2 - y0) = D3 at *
  have h4 : D3 ≤ rne (D3 + r) := by
    have := rne_mono (show D3 ≤ D3 + r by linarith)
    rwa [rne_of_isDouble d3] at this
  have h5 : rne (D3 * 3) ≤ rne (rne (D3 + r) * 3) := rne_mono (by linarith)
  have h6 : |rne (D3 * 3) - D3 * 3| ≤ (2 : ℝ) ^ (-53 : ℤ) * |D3 * 3| := by
    refine rne_grid_error ?_
    obtain ⟨m, hm⟩ := d3.grid
    exact ⟨m * 3, by rw [hm]; push_cast; ring⟩
  have d4 := isDouble_rne (D3 * 3)
  have h7 : rne (px + rne (D3 * 3)) ≤ rne (px + rne (rne (D3 + r) * 3)) := rne_mono (by linarith)
  have h8 := err dp d4
  generalize rne (px + rne (rne (D3 + r) * 3)) = F at *
  generalize rne (px + rne (D3 * 3)) = F' at *
  generalize rne (D3 * 3) = D4 at *
  clear h5 h4
  rw [abs_mul, abs_of_pos (show (0 : ℝ) < 3 by norm_num)] at h6
  have hu : (2 : ℝ) ^ (-53 : ℤ) = 1 / 9007199254740992 := by norm_num
  have hu' : (2 : ℝ) ^ (-50 : ℤ) = 8 / 9007199254740992 := by norm_num
  rw [hu] at h1 h2 h3 h6 h8
  rw [hu'] at hR hB
  have s1 : |R - x0| ≤ |R| + |x0| := abs_sub _ _
  have k1 : |D1| ≤ 4 * M := by
    have := abs_le_of_sub h1 s1
    linarith
  have s2 : |D1 + B| ≤ |D1| + |B| := abs_add_le _ _
  have k2 : |D2| ≤ 7 * M := by
    have := abs_le_of_sub h2 s2
    linarith
  have s3 : |D2 - y0| ≤ |D2| + |y0| := abs_sub _ _
  have k3 : |D3| ≤ 9 * M := by
    have := abs_le_of_sub h3 s3
    linarith
  have k4 : |D4| ≤ 28 * M := by
    have := abs_le_of_sub h6 (le_refl |D3 * 3|)
    rw [abs_mul, abs_of_pos (show (0 : ℝ) < 3 by norm_num)] at this
    linarith
  have l1 := (abs_le.mp h1).1
  have l2 := (abs_le.mp h2).1
  have l3 := (abs_le.mp h3).1
  have l6 := (abs_le.mp h6).1
  have l8 := (abs_le.mp h8).1
  have lR := (abs_le.mp hR).1
  have lB := (abs_le.mp hB).1
  norm_num at hG
  linarith

/-- The rounded horizontal distances to the far end and to the point are clearly different. -/
theorem fp_halfLine_sep {M G t px v : ℝ} (dt : IsDouble t) (dp : IsDouble px) (dv : IsDouble v) (bp : |px| ≤ M)
    (bv : |v| ≤ M) (hG : M ≤ 2 ^ 40 * G) (h : px + 5 / 2 * G ≤ t) (hv : v ≤ t) :
    rne (px - v) * (1 + (2 : ℝ) ^ (-42 : ℤ)) ≤ rne (t - v) := by
  have hT : 0 ≤ rne (t - v) := rne_nonneg (by linarith)
  rcases le_or_gt (px - v) 0 with hz | hz
  · have h1 : rne (px - v) ≤ 0 := by
      have := rne_mono hz
      rwa [rne_zero] at this
    exact (mul_nonpos_of_nonpos_of_nonneg h1 (by positivity)).trans hT
  · have h1 := fp_sum_grid dp dv.neg
    have h2 := fp_sum_grid dt dv.neg
    rw [← sub_eq_add_neg] at h1 h2
    have hM := (abs_nonneg px).trans bp
    have hz2 : px - v ≤ 2 * M := by linarith [(abs_le.mp bp).2, (abs_le.mp bv).1]
    have hG0 : 0 ≤ G := by nlinarith
    rw [abs_of_pos hz] at h1
    rw [abs_of_pos (show 0 < t - v by linarith)] at h2
    have l1 := (abs_le.mp h1).2
    have l2 := (abs_le.mp h2).1
    generalize rne (px - v) = X at *
    generalize rne (t - v) = T at *
    norm_num at l1 l2 hG ⊢
    linarith

/-- `p` is an end point of the edge or clearly on one side of its line. -/
def Spec.ClearOf (p a b : Pt) : Prop := p = a ∨ p = b ∨ ClearTurn a b p

theorem Spec.ClearOf.sameSign {p a b : Vec (FP double)} (hp : p.FOk) (ha : a.FOk) (hb : b.FOk)
    (h : ClearOf p.fpt a.fpt b.fpt) : SameSign (Tri.dsa a b p).val (area2 a.fpt b.fpt p.fpt) := by
  have ev : (Tri.dsa a b p).val = rne (rne (rne (a.x.val - p.x.val) * rne (b.y.val - p.y.val)) +
      rne (rne (b.x.val - p.x.val) * rne (p.y.val - a.y.val))) := rfl
  rcases h with h | h | h
  · have h1 : p.x.val = a.x.val := congrArg Prod.fst h
    have h2 : p.y.val = a.y.val := congrArg Prod.snd h
    have e : area2 a.fpt b.fpt p.fpt = 0 := by rw [h]; simp only [area2]; ring
    rw [e, ev, h1, h2]
    simp [rne_zero, SameSign]
  · have h1 : p.x.val = b.x.val := congrArg Prod.fst h
    have h2 : p.y.val = b.y.val := congrArg Prod.snd h
    have e : area2 a.fpt b.fpt p.fpt = 0 := by rw [h]; simp only [area2]; ring
    rw [e, ev, h1, h2]
    simp [rne_zero, SameSign]
  · exact h.sameSign ha hb hp

/-- Containment does not depend on rounding for a point that is clear of all edges and of the right and bottom sides of the
bounding box. -/
theorem fp_contains_clear {k : ℤ} (hk : -240 ≤ k) {M : ℝ} (hM : 0 < M) (poly : Poly (FP double)) (p : Vec (FP double))
    (hv : ∀ v ∈ poly.vertices, v.FineOk k ∧ |v.x.val| ≤ M ∧ |v.y.val| ≤ M) (hp : p.FineOk k ∧ |p.x.val| ≤ M ∧ |p.y.val| ≤ M)
    (hG : ∃ u ∈ poly.vertices, ∃ v ∈ poly.vertices, M ≤ 2 ^ 40 * (|u.x.val - v.x.val| + |u.y.val - v.y.val|))
    (hc : ∀ e ∈ cyclicPairs poly.vertices, ClearOf p.fpt e.1.fpt e.2.fpt)
    (hr : (∀ v ∈ poly.vertices, v.x.val < p.x.val) ∨ ∃ v ∈ poly.vertices, p.x.val + (2 : ℝ) ^ (-50 : ℤ) * M ≤ v.x.val)
    (hb : (∀ v ∈ poly.vertices, v.y.val < p.y.val) ∨ ∃ v ∈ poly.vertices, p.y.val + (2 : ℝ) ^ (-50 : ℤ) * M ≤ v.y.val)
    (allow : Bool) : poly.contains p allow = poly.exact.contains p.exact allow := by
  obtain ⟨vs⟩ := poly
  rcases vs with _ | ⟨v0, _ | ⟨v1, vs⟩⟩
  · rfl
  · simp only [Poly.contains, Poly.exact, List.map_cons, List.map_nil, fp_vec_eq]
  · set poly : Poly (FP double) := ⟨v0 :: v1 :: vs⟩ with hpoly
    obtain ⟨bb, x0, x1, y0, y1, hbb, lx0, gx1, ly0, gy1, eL, eT, eR, eB⟩ := fp_boundingBox poly (by simp [hpoly])
    have hxs : ∀ x ∈ poly.xs, IsDouble x ∧ Fine k x ∧ |x| ≤ M := by
      rintro x ⟨v, h, rfl⟩; exact ⟨(hv v h).1.1.1, (hv v h).1.2.1, (hv v h).2.1⟩
    have hys : ∀ y ∈ poly.ys, IsDouble y ∧ Fine k y ∧ |y| ≤ M := by
      rintro x ⟨v, h, rfl⟩; exact ⟨(hv v h).1.1.2, (hv v h).1.2.2, (hv v h).2.2⟩
    obtain ⟨dx0, fx0, bx0⟩ := hxs _ lx0.1
    obtain ⟨dx1, fx1, bx1⟩ := hxs _ gx1.1
    obtain ⟨dy0, fy0, by0⟩ := hys _ ly0.1
    obtain ⟨dy1, fy1, by1⟩ := hys _ gy1.1
    have hex : ∀ v ∈ poly.vertices, x0 ≤ v.x.val ∧ v.x.val ≤ x1 ∧ y0 ≤ v.y.val ∧ v.y.val ≤ y1 := fun v h =>
      ⟨lx0.2 ⟨v, h, rfl⟩, gx1.2 ⟨v, h, rfl⟩, ly0.2 ⟨v, h, rfl⟩, gy1.2 ⟨v, h, rfl⟩⟩
    have hG' : M ≤ 2 ^ 40 * (x1 - x0 + (y1 - y0)) := by
      obtain ⟨u, hu, v, hv', h⟩ := hG
      obtain ⟨a1, a2, a3, a4⟩ := hex u hu
      obtain ⟨b1, b2, b3, b4⟩ := hex v hv'
      have k1 : |u.x.val - v.x.val| ≤ x1 - x0 := abs_le.mpr ⟨by linarith, by linarith⟩
      have k2 : |u.y.val - v.y.val| ≤ y1 - y0 := abs_le.mpr ⟨by linarith, by linarith⟩
      refine h.trans (mul_le_mul_of_nonneg_left (add_le_add k1 k2) (by positivity))
    have dR : IsDouble bb.right.val := by rw [eR]; exact isDouble_rne _
    have dB : IsDouble bb.bottom.val := by rw [eB]; exact isDouble_rne _
    have box_err : ∀ {a b : ℝ}, IsDouble a → IsDouble b → |a| ≤ M → |b| ≤ M →
        |rne (a + rne (b - a)) - b| ≤ (2 : ℝ) ^ (-50 : ℤ) * M := by
      intro a b da db ha hb
      have h := rne_sub_add_error db da
      rw [add_comm (rne (b - a))] at h
      have e : (2 : ℝ) ^ (-50 : ℤ) = (2 : ℝ) ^ (-51 : ℤ) * 2 := by norm_num
      rw [e]
      have : (0 : ℝ) < (2 : ℝ) ^ (-51 : ℤ) := by positivity
      nlinarith
    have hR : |bb.right.val - x1| ≤ (2 : ℝ) ^ (-50 : ℤ) * M := by rw [eR]; exact box_err dx0 dx1 bx0 bx1
    have hB : |bb.bottom.val - y1| ≤ (2 : ℝ) ^ (-50 : ℤ) * M := by rw [eB]; exact box_err dy0 dy1 by0 by1
    -- the box around everything
    set big : Rect ℝ := ⟨Vec.ofXY (-M) (-M), ⟨2 * M, 2 * M⟩⟩ with hbig
    have hbok : big.Ok := ⟨by change 0 ≤ 2 * M; linarith, by change 0 ≤ 2 * M; linarith⟩
    have b1 : big.left = -M := rfl
    have b2 : big.top = -M := rfl
    have b3 : big.right = -M + 2 * M := rfl
    have b4 : big.bottom = -M + 2 * M := rfl
    have hmem : ∀ x y : ℝ, |x| ≤ M → |y| ≤ M → (x, y) ∈ big.pts := by
      intro x y hx hy
      rw [abs_le] at hx hy
      rw [Rect.mem_pts, b1, b2, b3, b4]
      exact ⟨hx.1, by linarith [hx.2], hy.1, by linarith [hy.2]⟩
    have hvb : ∀ v ∈ poly.exact.vertices, v.pt ∈ big.pts := by
      intro w hw
      obtain ⟨v, h, rfl⟩ := List.mem_map.mp hw
      exact hmem _ _ (hv v h).2.1 (hv v h).2.2
    have hloop := Poly.contains_eq_loop poly.exact p.exact v0.exact (by simp [Poly.exact, hpoly]) hbok
      (hmem _ _ hp.2.1 hp.2.2) hvb allow
    have c1 : poly.contains p allow = if !bb.contains p then false else
        Poly.containsLoop p allow (Poly.halfLine bb v0 p) (cyclicPairs (v0 :: v1 :: vs)) false := by
      simp only [hpoly, Poly.contains]
      rw [← hpoly, hbb]
    rw [c1]
    by_cases hin : bb.contains p = true
    swap
    · -- outside of the computed box: outside of the exact box
      rw [Bool.not_eq_true] at hin
      rw [hin]
      simp only [Bool.not_false, if_true]
      rw [← Bool.not_eq_true, fp_contains, eL, eT] at hin
      have hout : p.fpt ∉ box x0 x1 y0 y1 := by
        rintro ⟨q1, q2, q3, q4⟩
        refine hin ⟨q1, ?_, q3, ?_⟩
        · rcases hr with hr | ⟨v, hv1, hr⟩
          · obtain ⟨v, h, e⟩ := gx1.1
            have := hr v h
            rw [e] at this
            exact absurd this (not_lt.mpr q2)
          · have := (hex v hv1).2.1
            have := (abs_le.mp hR).1
            linarith
        · rcases hb with hb | ⟨v, hv1, hb⟩
          · obtain ⟨v, h, e⟩ := gy1.1
            have := hb v h
            rw [e] at this
            exact absurd this (not_lt.mpr q4)
          · have := (hex v hv1).2.2.2
            have := (abs_le.mp hB).1
            linarith
      have hbx : ∀ z ∈ poly.exact.pts, z ∈ box x0 x1 y0 y1 := by
        intro z hz
        rw [Poly.exact_pts] at hz
        obtain ⟨v, hvm, rfl⟩ := List.mem_map.mp hz
        exact hex v hvm
      have hev := even_outside (l := poly.exact.pts) hbx hout
      symm
      rw [← Bool.not_eq_true]
      cases allow with
      | true =>
        rw [C73_parity]
        rintro (h | h)
        · exact hout (hbx _ h)
        · exact hev h
      | false =>
        rw [C73_parity_strict]
        rintro ⟨_, h⟩
        exact hev h
    rw [hin, ← hloop]
    simp only [Bool.not_true, Bool.false_eq_true, if_false]
    rw [fp_contains, eL, eT] at hin
    have hG0 : 0 < x1 - x0 + (y1 - y0) := by nlinarith
    have hunit : (2 : ℝ) ^ k ≤ x1 - x0 + (y1 - y0) := ((fx1.sub fx0).add (fy1.sub fy0)).unit_le hG0
    have hfar := fp_halfLine_far (px := p.x.val) (r := (v0.sub p).r.val) hM dx0 dx1 dy0 dy1 hp.1.1.1 bx0 bx1 by0 by1 hp.2.1
      dR dB hR hB hG' (rne_nonneg (Real.sqrt_nonneg _))
    have e3 : (num 3 : FP double).val = 3 := by
      change rne ((3 : ℕ) : ℝ) = 3
      rw [rne_of_isDouble (isDouble_nat (n := 3) (by norm_num))]; norm_num
    set t : Vec (FP double) :=
      Vec.ofXY (p.x + ((bb.right - bb.left + bb.bottom - bb.top) + (v0.sub p).r) * num 3) p.y with ht
    have htx : t.x.val = rne (p.x.val + rne (rne (rne (rne (rne (bb.right.val - x0) + bb.bottom.val) - y0) +
        (v0.sub p).r.val) * 3)) := by
      rw [← eL, ← eT, ← e3]; rfl
    rw [← htx] at hfar
    have dt : IsDouble t.x.val := by rw [htx]; exact isDouble_rne _
    set t' : Vec ℝ := Vec.ofXY (p.exact.x + ((big.right - big.left + big.bottom - big.top) +
      (v0.exact.sub p.exact).r) * num 3) p.exact.y with ht'
    have ht'M : p.x.val + 12 * M ≤ t'.x := by
      have hr' : 0 ≤ (v0.exact.sub p.exact).r := by rw [Vec.r_real]; exact Real.sqrt_nonneg _
      have : t'.x = p.x.val + ((-M + 2 * M - -M + (-M + 2 * M) - -M) + (v0.exact.sub p.exact).r) * 3 := by
        rw [ht', b1, b2, b3, b4]; simp [Vec.ofXY]
      rw [this]; linarith
    have hmap : cyclicPairs poly.exact.vertices = (cyclicPairs (v0 :: v1 :: vs)).map (Prod.map Vec.exact Vec.exact) := by
      rw [← cyclicPairs_map]; rfl
    rw [hmap]
    have hG1 : x0 ≤ x1 := lx0.2 gx1.1
    have hG2 : y0 ≤ y1 := ly0.2 gy1.1
    refine fp_containsLoop_fine hk (t := t) (t' := t') hp.1 rfl rfl (by linarith) (by linarith) allow _ ?_ ?_ false
    · intro e he v hve
      have hvm : v ∈ poly.vertices := by
        rcases hve with rfl | rfl
        · exact fst_mem_of_cyclicPairs he
        · exact snd_mem_of_cyclicPairs he
      obtain ⟨q1, q2, q3, q4⟩ := hex v hvm
      obtain ⟨o1, o2, o3⟩ := hv v hvm
      have hvt : v.x.val + (2 : ℝ) ^ k ≤ t.x.val := by linarith [hin.1]
      refine ⟨o1, hvt, ?_, ?_⟩
      · linarith [(abs_le.mp o2).2, (abs_le.mp hp.2.1).1]
      · exact fp_halfLine_sep dt hp.1.1.1 o1.1.1 hp.2.1 o2 hG' hfar (by linarith [show (0 : ℝ) < (2 : ℝ) ^ k by positivity])
    · intro e he
      exact (hc e he).sameSign hp.1.1 (hv _ (fst_mem_of_cyclicPairs he)).1.1 (hv _ (snd_mem_of_cyclicPairs he)).1.1

/-- **C136** `Polygon2D.contains(p, True)` in double precision, for any polygon and any point with doubles as coordinates
(multiples of `2 ** -240`, of size at most `M`): if the polygon is not smaller than `2 ** -40` of its coordinates, the point
is clear of all edges, and it is not within `2 ** -50 M` to the inside of the right and bottom sides of the bounding box,
then the point is contained exactly if it is a vertex or the half line to the right crosses an odd number of edges. -/
theorem C136_parity (k : ℤ) (hk : -240 ≤ k) (M : ℝ) (hM : 0 < M) (poly : Poly (FP double)) (p : Vec (FP double))
    (hv : ∀ v ∈ poly.vertices, v.FineOk k ∧ |v.x.val| ≤ M ∧ |v.y.val| ≤ M) (hp : p.FineOk k ∧ |p.x.val| ≤ M ∧ |p.y.val| ≤ M)
    (hG : ∃ u ∈ poly.vertices, ∃ v ∈ poly.vertices, M ≤ 2 ^ 40 * (|u.x.val - v.x.val| + |u.y.val - v.y.val|))
    (hc : ∀ e ∈ cyclicPairs poly.vertices, ClearOf p.fpt e.1.fpt e.2.fpt)
    (hr : (∀ v ∈ poly.vertices, v.x.val < p.x.val) ∨ ∃ v ∈ poly.vertices, p.x.val + (2 : ℝ) ^ (-50 : ℤ) * M ≤ v.x.val)
    (hb : (∀ v ∈ poly.vertices, v.y.val < p.y.val) ∨ ∃ v ∈ poly.vertices, p.y.val + (2 : ℝ) ^ (-50 : ℤ) * M ≤ v.y.val) :
    poly.contains p true = true ↔
      p.fpt ∈ poly.fpts ∨ Odd (Spec.count (fun e : Pt × Pt => Crosses p.fpt e.1 e.2) (cyclicPairs poly.fpts)) := by
  rw [fp_contains_clear hk hM poly p hv hp hG hc hr hb, C73_parity, Poly.crossings, Poly.exact_pts]
  rfl

/-- **C136** For a convex polygon, under the same conditions: a point off the outline is contained exactly if it is an
interior point, with and without `allow_on_segment`. -/
theorem C136_convex (k : ℤ) (hk : -240 ≤ k) (M : ℝ) (hM : 0 < M) (poly : Poly (FP double)) (p : Vec (FP double))
    (hv : ∀ v ∈ poly.vertices, v.FineOk k ∧ |v.x.val| ≤ M ∧ |v.y.val| ≤ M) (hp : p.FineOk k ∧ |p.x.val| ≤ M ∧ |p.y.val| ≤ M)
    (hG : ∃ u ∈ poly.vertices, ∃ v ∈ poly.vertices, M ≤ 2 ^ 40 * (|u.x.val - v.x.val| + |u.y.val - v.y.val|))
    (hc : ∀ e ∈ cyclicPairs poly.vertices, ClearOf p.fpt e.1.fpt e.2.fpt)
    (hr : (∀ v ∈ poly.vertices, v.x.val < p.x.val) ∨ ∃ v ∈ poly.vertices, p.x.val + (2 : ℝ) ^ (-50 : ℤ) * M ≤ v.x.val)
    (hb : (∀ v ∈ poly.vertices, v.y.val < p.y.val) ∨ ∃ v ∈ poly.vertices, p.y.val + (2 : ℝ) ^ (-50 : ℤ) * M ≤ v.y.val)
    (H : StrictConvex poly.fpts) :
    (p.fpt ∉ outline poly.fpts →
      (poly.contains p true = true ↔ p.fpt ∈ interior (convexHull ℝ {z | z ∈ poly.fpts}))) ∧
    (poly.contains p false = true ↔ p.fpt ∈ interior (convexHull ℝ {z | z ∈ poly.fpts})) := by
  have h := C73_convex poly.exact (by rw [Poly.exact_pts]; exact H) p.exact
  rw [Poly.exact_pts] at h
  rw [fp_contains_clear hk hM poly p hv hp hG hc hr hb, fp_contains_clear hk hM poly p hv hp hG hc hr hb]
  exact h

/-- **C136** Off the outline, under the same conditions: for all sufficiently small `ε` the half line to the right of the
point moved up by `ε` meets an odd number of edges. -/
theorem C136_even_odd (k : ℤ) (hk : -240 ≤ k) (M : ℝ) (hM : 0 < M) (poly : Poly (FP double)) (p : Vec (FP double))
    (hv : ∀ v ∈ poly.vertices, v.FineOk k ∧ |v.x.val| ≤ M ∧ |v.y.val| ≤ M) (hp : p.FineOk k ∧ |p.x.val| ≤ M ∧ |p.y.val| ≤ M)
    (hG : ∃ u ∈ poly.vertices, ∃ v ∈ poly.vertices, M ≤ 2 ^ 40 * (|u.x.val - v.x.val| + |u.y.val - v.y.val|))
    (hc : ∀ e ∈ cyclicPairs poly.vertices, ClearOf p.fpt e.1.fpt e.2.fpt)
    (hr : (∀ v ∈ poly.vertices, v.x.val < p.x.val) ∨ ∃ v ∈ poly.vertices, p.x.val + (2 : ℝ) ^ (-50 : ℤ) * M ≤ v.x.val)
    (hb : (∀ v ∈ poly.vertices, v.y.val < p.y.val) ∨ ∃ v ∈ poly.vertices, p.y.val + (2 : ℝ) ^ (-50 : ℤ) * M ≤ v.y.val)
    (h : p.fpt ∉ outline poly.fpts) :
    poly.contains p true = true ↔ ∀ᶠ ε : ℝ in nhdsWithin 0 (Set.Ioi 0), Odd (Spec.count
      (fun e : Pt × Pt => (segment ℝ e.1 e.2 ∩ rayRight (p.x.val, p.y.val + ε)).Nonempty) (cyclicPairs poly.fpts)) := by
  rw [fp_contains_clear hk hM poly p hv hp hG hc hr hb, C73_even_odd _ _ (by rw [Poly.exact_pts]; exact h), Poly.exact_pts]
  rfl

/-! ## Examples -/

theorem tiny_le : (2 : ℝ) ^ (-1073 : ℤ) ≤ (2 : ℝ) ^ (-60 : ℤ) := zpow_le_zpow_right₀ (by norm_num) (by norm_num)

theorem clearTurn_of {a b c : Pt} (h : (2 : ℝ) ^ (-50 : ℤ) * (|(a.1 - c.1) * (b.2 - c.2)| + |(b.1 - c.1) * (c.2 - a.2)|) +
    (2 : ℝ) ^ (-60 : ℤ) < |cross (b - a) (c - a)|) : ClearTurn a b c :=
  lt_of_le_of_lt (by linarith [tiny_le]) h

/-- The point (0.1, 0.1) in double precision. -/
noncomputable def tenthVec : Vec (FP double) := Vec.ofXY ⟨rne (1 / 10)⟩ ⟨rne (1 / 10)⟩

theorem tenthVec_fineOk : tenthVec.FineOk (-240) := by
  have : Fine (-240) (rne (1 / 10)) := by
    rw [rne_tenth]
    exact Fine.coarsen (k := -55) ⟨3602879701896397, by norm_num⟩ (by norm_num)
  exact ⟨⟨isDouble_rne _, isDouble_rne _⟩, this, this⟩

theorem gridVec_fineOk {m n : ℤ} (hm : |m| ≤ 2 ^ 25) (hn : |n| ≤ 2 ^ 25) : (gridVec m n).FineOk (-240) := by
  obtain ⟨⟨a, ha, ea⟩, b, hb, eb⟩ := gridVec_onGrid hm hn
  refine ⟨⟨⟨a, 0, ha.trans (by norm_num), by norm_num, ea⟩, ⟨b, 0, hb.trans (by norm_num), by norm_num, eb⟩⟩, ?_, ?_⟩
  · exact Fine.coarsen (k := 0) ⟨a, ea⟩ (by norm_num)
  · exact Fine.coarsen (k := 0) ⟨b, eb⟩ (by norm_num)

theorem tenthVec_fpt : tenthVec.fpt = (3602879701896397 / 2 ^ 55, 3602879701896397 / 2 ^ 55) := by
  simp only [tenthVec, Vec.fpt, Vec.ofXY, rne_tenth]

theorem gridVec_fpt (m n : ℤ) : (gridVec m n).fpt = ((m : ℝ), (n : ℝ)) := rfl

/-- C134: (0.1, 0.1) is in the triangle (0, 0), (1, 0), (0, 1). -/
example : Tri.triContains (gridVec 0 0) (gridVec 1 0) (gridVec 0 1) tenthVec = true := by
  refine (C134_triangle _ _ _ _ (gridVec_fineOk (by norm_num) (by norm_num)).1 (gridVec_fineOk (by norm_num) (by norm_num)).1
    (gridVec_fineOk (by norm_num) (by norm_num)).1 tenthVec_fineOk.1 ?_ ?_ ?_).1.mpr ?_
  · refine clearTurn_of ?_
    rw [tenthVec_fpt, gridVec_fpt, gridVec_fpt]; norm_num [cross, abs_of_neg, abs_of_pos]
  · refine clearTurn_of ?_
    rw [tenthVec_fpt, gridVec_fpt, gridVec_fpt]; norm_num [cross, abs_of_neg, abs_of_pos]
  · refine clearTurn_of ?_
    rw [tenthVec_fpt, gridVec_fpt, gridVec_fpt]; norm_num [cross, abs_of_neg, abs_of_pos]
  · rw [tenthVec_fpt, gridVec_fpt, gridVec_fpt, gridVec_fpt]
    rw [inTriangle_iff_area (by norm_num [area2])]
    left; norm_num [area2]

/-- C134: the segments from (0, 0) to (0.1, 0.1) and from (0, 1) to (1, -1) do not meet. -/
example : (⟨gridVec 0 0, tenthVec⟩ : Seg (FP double)).existIntersection ⟨gridVec 0 1, gridVec 1 (-1)⟩ = false := by
  rw [← Bool.not_eq_true, C134_segment (-240) (by norm_num) _ _ (gridVec_fineOk (by norm_num) (by norm_num)) tenthVec_fineOk
    (gridVec_fineOk (by norm_num) (by norm_num)) (gridVec_fineOk (by norm_num) (by norm_num))]
  · rintro ⟨z, h1, h2⟩
    obtain ⟨u, u0, u1, hx, hy⟩ := mem_seg.mp h1
    obtain ⟨t, t0, t1, hx', hy'⟩ := mem_seg.mp h2
    rw [tenthVec_fpt, gridVec_fpt] at hx hy
    rw [gridVec_fpt, gridVec_fpt] at hx' hy'
    norm_num at hx hy hx' hy'
    linarith
  · refine clearTurn_of ?_
    simp only
    rw [tenthVec_fpt, gridVec_fpt, gridVec_fpt]; norm_num [cross, abs_of_neg, abs_of_pos]
  · refine clearTurn_of ?_
    simp only
    rw [tenthVec_fpt, gridVec_fpt, gridVec_fpt]; norm_num [cross, abs_of_neg, abs_of_pos]
  · refine clearTurn_of ?_
    simp only
    rw [gridVec_fpt, gridVec_fpt, gridVec_fpt]; norm_num [cross, abs_of_neg, abs_of_pos]
  · refine clearTurn_of ?_
    simp only
    rw [tenthVec_fpt, gridVec_fpt, gridVec_fpt]; norm_num [cross, abs_of_neg, abs_of_pos]

/-- C135: the triangle (0, 0), (1, 0), (0.1, 0.1) is counterclockwise. -/
example : (⟨[gridVec 0 0, gridVec 1 0, tenthVec]⟩ : Poly (FP double)).isCounterClockwise = true := by
  have hs : shoelace (⟨[gridVec 0 0, gridVec 1 0, tenthVec]⟩ : Poly (FP double)).fpts = 3602879701896397 / 2 ^ 55 := by
    simp only [shoelace, Poly.fpts, cyclicPairs, List.map_cons, List.map_nil, tenthVec_fpt, gridVec_fpt]
    norm_num [cross]
  refine ((C135_area _ 1 ?_ (by norm_num) _ _ rfl rfl).2.2 ?_).1.mpr (by rw [hs]; norm_num)
  · intro v hv
    simp only [List.mem_cons, List.not_mem_nil, or_false] at hv
    rcases hv with rfl | rfl | rfl
    · simp [gridVec, Vec.ofXY]
    · simp [gridVec, Vec.ofXY]
    · rw [show tenthVec.x.val = 3602879701896397 / 2 ^ 55 from congrArg Prod.fst tenthVec_fpt,
        show tenthVec.y.val = 3602879701896397 / 2 ^ 55 from congrArg Prod.snd tenthVec_fpt]
      norm_num [abs_of_pos]
  · rw [hs]
    have : ((3 : ℕ) : ℝ) * (2 : ℝ) ^ (-1073 : ℤ) ≤ 3 * (2 : ℝ) ^ (-60 : ℤ) := by
      push_cast; linarith [tiny_le]
    refine lt_of_le_of_lt (add_le_add le_rfl this) ?_
    norm_num [abs_of_pos]

/-- C136: (0.1, 0.1) is in the square (0, 0), (1, 0), (1, 1), (0, 1). -/
example : (⟨[gridVec 0 0, gridVec 1 0, gridVec 1 1, gridVec 0 1]⟩ : Poly (FP double)).contains tenthVec true = true := by
  have hx : tenthVec.x.val = 3602879701896397 / 2 ^ 55 := congrArg Prod.fst tenthVec_fpt
  have hy : tenthVec.y.val = 3602879701896397 / 2 ^ 55 := congrArg Prod.snd tenthVec_fpt
  refine (C136_parity (-240) (by norm_num) 1 one_pos _ _ ?_ ?_ ?_ ?_ ?_ ?_).mpr (.inr ?_)
  · intro v hv
    simp only [List.mem_cons, List.not_mem_nil, or_false] at hv
    rcases hv with rfl | rfl | rfl | rfl <;>
      exact ⟨gridVec_fineOk (by norm_num) (by norm_num), by simp [gridVec, Vec.ofXY], by simp [gridVec, Vec.ofXY]⟩
  · rw [hx, hy]
    exact ⟨tenthVec_fineOk, by norm_num [abs_of_pos], by norm_num [abs_of_pos]⟩
  · refine ⟨gridVec 0 0, by simp, gridVec 1 0, by simp, ?_⟩
    norm_num [gridVec, Vec.ofXY]
  · intro e he
    simp only [cyclicPairs, List.zip, List.zipWith_cons_cons, List.zipWith_nil_left, List.cons_append, List.nil_append,
      List.mem_cons, List.not_mem_nil, or_false] at he
    rcases he with rfl | rfl | rfl | rfl <;> refine .inr (.inr (clearTurn_of ?_)) <;>
      rw [tenthVec_fpt, gridVec_fpt, gridVec_fpt] <;> norm_num [cross, abs_of_neg, abs_of_pos]
  · refine .inr ⟨gridVec 1 0, by simp, ?_⟩
    rw [hx]; norm_num [gridVec, Vec.ofXY]
  · refine .inr ⟨gridVec 1 1, by simp, ?_⟩
    rw [hy]; norm_num [gridVec, Vec.ofXY]
  · simp only [Poly.fpts, List.map_cons, List.map_nil, tenthVec_fpt, gridVec_fpt, cyclicPairs, List.zip,
      List.zipWith_cons_cons, List.zipWith_nil_left, List.cons_append, List.nil_append, count_cons, crosses_iff, area2,
      count_nil]
    norm_num

end PyrusGeom
