import Verif.Props.Scale
import Verif.Props.CheckedIeee
import Verif.Props.FloatVec
import Verif.Props.FloatHull
import Verif.Props.FloatRange

/-! # C192: limits of the claim -/

namespace PyrusGeom

/-- The hypothesis is needed: `(2 ^ (-600), 0)` has rounded length 0, in units `2 ^ (-600)` it has length 1. -/
theorem C192_coarse_needed : ∃ v : Vec (FP double), IsDouble v.x.val ∧ IsDouble v.y.val ∧ (v.shift 600).r ≠ v.r.shift 600 := by
  refine ⟨⟨⟨(2 : ℝ) ^ (-600 : ℤ)⟩, ⟨0⟩, true⟩, ⟨1, -600, by norm_num, by norm_num, by norm_num⟩, ⟨0, 0, by norm_num, by norm_num, by norm_num⟩, fun h => ?_⟩
  have h1 : rne ((2 : ℝ) ^ (-600 : ℤ) * (2 : ℝ) ^ (-600 : ℤ)) = 0 := by
    rw [rne_eq_zero_iff (by positivity), ← zpow_add₀ two_ne_zero]
    exact zpow_le_zpow_right₀ (by norm_num) (by norm_num)
  have h2 : (2 : ℝ) ^ (600 : ℤ) * (2 : ℝ) ^ (-600 : ℤ) = 1 := by rw [← zpow_add₀ two_ne_zero]; norm_num
  have h3 : rne 1 = 1 := by simpa using rne_of_isDouble (isDouble_nat (n := 1) (by norm_num))
  have := congrArg FP.val h
  change rne (√(rne (rne (((2 : ℝ) ^ (600 : ℤ) * (2 : ℝ) ^ (-600 : ℤ)) * ((2 : ℝ) ^ (600 : ℤ) * (2 : ℝ) ^ (-600 : ℤ))) +
    rne (((2 : ℝ) ^ (600 : ℤ) * 0) * ((2 : ℝ) ^ (600 : ℤ) * 0))))) =
    (2 : ℝ) ^ (600 : ℤ) * rne (√(rne (rne ((2 : ℝ) ^ (-600 : ℤ) * (2 : ℝ) ^ (-600 : ℤ)) + rne (0 * 0)))) at this
  rw [h1, h2] at this
  simp [rne_zero, h3] at this

/-- Comparisons with a fixed tolerance do depend on the unit: `(0, 0)` and `(1, 0)` are weakly equal when measured in units of
`2 ^ 40` and are not in their own. -/
theorem C192_tolerance : ∃ v w : Vec (FP double), Spec.CoarseVec (-40) v ∧ Spec.CoarseVec (-40) w ∧ v.equalsWeakly w = false ∧
    (v.shift (-40)).equalsWeakly (w.shift (-40)) = true := by
  have c : ∀ n : ℕ, n ≤ 3 → Spec.Coarse (-40) (⟨n⟩ : FP double) := fun n hn => coarse_int (by norm_num) (by omega)
  have z : Spec.Coarse (-40) (⟨0⟩ : FP double) := by simpa using c 0 (by norm_num)
  have o : Spec.Coarse (-40) (⟨1⟩ : FP double) := by simpa using c 1 (by norm_num)
  have h3 : rne (-1) = -1 := by simpa using rne_of_isDouble (isDouble_int (n := -1) (by norm_num))
  refine ⟨⟨⟨0⟩, ⟨0⟩, true⟩, ⟨⟨1⟩, ⟨0⟩, true⟩, ⟨z, z⟩, ⟨o, z⟩, ?_, ?_⟩
  · refine Bool.eq_false_iff.mpr fun h => ?_
    have h := of_decide_eq_true ((Bool.and_eq_true _ _).mp h).1
    change (fabs _ : FP double).val < (EPSILON : FP double).val at h
    rw [fp_fabs_val] at h
    change |rne (0 - 1)| < (EPSILON : FP double).val at h
    rw [zero_sub, h3] at h
    have := fp_EPSILON.2
    norm_num at h this
    linarith
  · have e := fp_EPSILON_ge
    have h4 : rne (-(2 : ℝ) ^ (-40 : ℤ)) = -(2 : ℝ) ^ (-40 : ℤ) :=
      rne_of_isDouble ⟨-1, -40, by norm_num, by norm_num, by norm_num⟩
    refine (Bool.and_eq_true _ _).mpr ⟨decide_eq_true ?_, decide_eq_true ?_⟩
    · change (fabs _ : FP double).val < (EPSILON : FP double).val
      rw [fp_fabs_val]
      change |rne ((2 : ℝ) ^ (-40 : ℤ) * 0 - (2 : ℝ) ^ (-40 : ℤ) * 1)| < (EPSILON : FP double).val
      rw [mul_zero, mul_one, zero_sub, h4, abs_neg, abs_of_pos (by positivity)]
      exact lt_of_lt_of_le (zpow_lt_zpow_right₀ (by norm_num) (by norm_num)) e
    · change (fabs _ : FP double).val < (EPSILON : FP double).val
      rw [fp_fabs_val]
      change |rne ((2 : ℝ) ^ (-40 : ℤ) * 0 - (2 : ℝ) ^ (-40 : ℤ) * 0)| < (EPSILON : FP double).val
      rw [sub_self, rne_zero, abs_zero]
      exact fp_EPSILON.1

end PyrusGeom
