import Verif.Props.FloatIncenter

/-! # C190: rays meeting lines and rays in double precision -/

namespace PyrusGeom
open Spec

/-- Intersection of a computed line with nearly unit normal and a line with coefficients of size `M`: the exact point `(ix, iy)` nearly
satisfies both equations, the angle between them has sine `κ`. -/
theorem meet_core {l o : Line (FP double)} {M W κ ix iy Δ : ℝ} (hM : (2 : ℝ) ^ (-100 : ℤ) ≤ M) (hM1 : M ≤ (2 : ℝ) ^ (100 : ℤ)) (hW : 1 ≤ W)
    (hκ : (2 : ℝ) ^ (-18 : ℤ) ≤ κ) (hκ1 : κ ≤ 2) (hE : 2 * (EPSILON : FP double).val ≤ κ * M)
    (la : |l.a.val| ≤ 101 / 100) (lb : |l.b.val| ≤ 101 / 100) (oa : |o.a.val| ≤ 101 / 100 * M) (ob : |o.b.val| ≤ 101 / 100 * M)
    (lc : |l.c.val| ≤ 3 * W) (oc : |o.c.val| ≤ 3 * (W * M)) (hd : |l.fdet o - Δ| ≤ 5 * (2 : ℝ) ^ (-46 : ℤ) * M) (hΔ : |Δ| = κ * M)
    (h1 : |l.a.val * ix + l.b.val * iy + l.c.val| ≤ (2 : ℝ) ^ (-43 : ℤ) * W)
    (h2 : |o.a.val * ix + o.b.val * iy + o.c.val| ≤ (2 : ℝ) ^ (-43 : ℤ) * W * M) :
    (l.intersection o).valid = true ∧ |(l.intersection o).x.val - ix| ≤ (2 : ℝ) ^ (-39 : ℤ) * (W / κ ^ 2) ∧
    |(l.intersection o).y.val - iy| ≤ (2 : ℝ) ^ (-39 : ℤ) * (W / κ ^ 2) := by
  have κ0 : 0 < κ := lt_of_lt_of_le (by positivity) hκ
  have M0 : 0 < M := lt_of_lt_of_le (by positivity) hM
  have κM : 0 < κ * M := mul_pos κ0 M0
  have W0' : 0 < W := by linarith
  have WM : M ≤ W * M := le_mul_of_one_le_left M0.le hW
  have tiny : (2 : ℝ) ^ (-200 : ℤ) ≤ 1 / 100 := (zpow_le_zpow_right₀ one_le_two (show (-200 : ℤ) ≤ -10 by norm_num)).trans (by norm_num)
  have tinyM : (2 : ℝ) ^ (-200 : ℤ) ≤ 1 / 100 * M := by
    have : (2 : ℝ) ^ (-200 : ℤ) = (2 : ℝ) ^ (-100 : ℤ) * (2 : ℝ) ^ (-100 : ℤ) := by rw [← zpow_add₀ two_ne_zero]; norm_num
    rw [this]
    exact mul_le_mul ((zpow_le_zpow_right₀ one_le_two (show (-100 : ℤ) ≤ -10 by norm_num)).trans (by norm_num)) hM (by positivity) (by norm_num)
  have mg : ∀ {x B : ℝ}, |x| ≤ B → mag x ≤ B + 1 / 100 := fun h => add_le_add h tiny
  have mgM : ∀ {x B : ℝ}, |x| ≤ B → mag x ≤ B + 1 / 100 * M := fun h => add_le_add h tinyM
  have ma : mag l.a.val ≤ 51 / 50 := (mg la).trans (by norm_num)
  have mb : mag l.b.val ≤ 51 / 50 := (mg lb).trans (by norm_num)
  have na : mag o.a.val ≤ 51 / 50 * M := (mgM oa).trans (le_of_eq (by ring))
  have nb : mag o.b.val ≤ 51 / 50 * M := (mgM ob).trans (le_of_eq (by ring))
  have mc : mag l.c.val ≤ 4 * W := (mg lc).trans (by linarith)
  have nc : mag o.c.val ≤ 4 * (W * M) := (mgM oc).trans (by linarith)
  have pr : ∀ {x y X Y : ℝ}, mag x ≤ X → mag y ≤ Y → mag x * mag y ≤ X * Y := fun h1 h2 =>
    mul_le_mul h1 h2 (mag_pos _).le ((mag_pos _).le.trans h1)
  have tT : l.magT o ≤ 3 * M := by
    have i1 := pr ma nb
    have i2 := pr mb na
    unfold Line.magT
    linarith
  have tU : l.magU o ≤ 9 * (W * M) := by
    have i1 := pr mb nc
    have i2 := pr nb mc
    rw [show 51 / 50 * M * (4 * W) = 51 / 50 * 4 * (W * M) by ring] at i2
    unfold Line.magU
    have : 0 < W * M := by positivity
    linarith
  have tV : l.magV o ≤ 9 * (W * M) := by
    have i1 := pr na mc
    have i2 := pr ma nc
    rw [show 51 / 50 * M * (4 * W) = 51 / 50 * 4 * (W * M) by ring] at i1
    unfold Line.magV
    have : 0 < W * M := by positivity
    linarith
  have sub : Rounded 5 (l.cdet o) (l.fdet o) (l.magT o) :=
    ((rounded_prod _ _).sub (rounded_prod _ _) (by norm_num) (by norm_num) (by norm_num)).mono (by norm_num) (by norm_num) le_rfl
  have hT : |l.cdet o - l.fdet o| ≤ 15 * (2 : ℝ) ^ (-53 : ℤ) * M := by
    refine sub.err.trans ?_
    have := mul_le_mul_of_nonneg_left tT (show (0 : ℝ) ≤ 5 * (2 : ℝ) ^ (-53 : ℤ) by positivity)
    linarith
  have hf1 := abs_sub_abs_le_abs_sub Δ (l.fdet o)
  have hf2 := abs_sub_abs_le_abs_sub (l.fdet o) (l.cdet o)
  have hf3 := abs_sub_abs_le_abs_sub (l.cdet o) (l.fdet o)
  have hf4 := abs_sub_abs_le_abs_sub (l.fdet o) Δ
  rw [abs_sub_comm] at hf1 hf2
  have hκM := mul_le_mul_of_nonneg_right hκ M0.le
  have hκM1 := mul_le_mul_of_nonneg_right hκ1 M0.le
  have F : κ * M * (3 / 4) ≤ |l.fdet o| := by
    norm_num at hd hκM
    linarith
  have T1 : κ * M * (1 / 2) ≤ |l.cdet o| := by
    norm_num at hT hd hκM
    linarith
  have T2 : |l.cdet o| ≤ 3 * M := by
    norm_num at hT hd
    linarith
  have hv : (l.intersection o).valid = true := by
    rw [fp_intersection_valid]
    linarith
  refine ⟨hv, ?_⟩
  obtain ⟨r1, r2⟩ := C186_residual l o hv (T2.trans (by
    calc 3 * M ≤ (2 : ℝ) ^ (2 : ℤ) * (2 : ℝ) ^ (100 : ℤ) := by norm_num at hM1 ⊢; linarith
      _ = (2 : ℝ) ^ (102 : ℤ) := by rw [← zpow_add₀ two_ne_zero]; norm_num
      _ ≤ _ := zpow_le_zpow_right₀ one_le_two (by norm_num)))
  have T0 : 0 < |l.cdet o| := lt_of_lt_of_le (by positivity) T1
  have rb : ∀ {p q r N : ℝ}, 0 < N → mag p ≤ 51 / 50 * N → mag q ≤ 51 / 50 * N → mag r ≤ 4 * (W * N) →
      (2 : ℝ) ^ (-50 : ℤ) * ((mag p * l.magU o + mag q * l.magV o + mag r * l.magT o) / |l.cdet o|) ≤ (2 : ℝ) ^ (-44 : ℤ) * (W / κ) * N := by
    intro p q r N hN hp hq hr
    have U0 : 0 ≤ l.magU o := by unfold Line.magU; exact add_nonneg (mul_nonneg (mag_pos _).le (mag_pos _).le) (mul_nonneg (mag_pos _).le (mag_pos _).le)
    have V0 : 0 ≤ l.magV o := by unfold Line.magV; exact add_nonneg (mul_nonneg (mag_pos _).le (mag_pos _).le) (mul_nonneg (mag_pos _).le (mag_pos _).le)
    have T0' : 0 ≤ l.magT o := by unfold Line.magT; exact add_nonneg (mul_nonneg (mag_pos _).le (mag_pos _).le) (mul_nonneg (mag_pos _).le (mag_pos _).le)
    have i1 := mul_le_mul hp tU U0 (by positivity)
    have i2 := mul_le_mul hq tV V0 (by positivity)
    have i3 := mul_le_mul hr tT T0' (by positivity)
    have i4 : (mag p * l.magU o + mag q * l.magV o + mag r * l.magT o) / |l.cdet o| ≤ (32 * (W * M * N)) / (κ * M * (1 / 2)) := by
      refine div_le_div₀ (by positivity) ?_ (by positivity) T1
      have : 0 < W * M * N := by positivity
      rw [show 51 / 50 * N * (9 * (W * M)) = 51 / 50 * 9 * (W * M * N) by ring] at i1 i2
      rw [show 4 * (W * N) * (3 * M) = 12 * (W * M * N) by ring] at i3
      linarith
    refine (mul_le_mul_of_nonneg_left i4 (by positivity)).trans (le_of_eq ?_)
    rw [show (2 : ℝ) ^ (-44 : ℤ) = 64 * (2 : ℝ) ^ (-50 : ℤ) by norm_num]
    field_simp
    norm_num
  have q1 := r1.trans (rb one_pos (by rw [mul_one]; exact ma) (by rw [mul_one]; exact mb) (by rw [mul_one]; exact mc))
  have q2 := r2.trans (rb M0 na nb nc)
  rw [mul_one] at q1
  generalize (l.intersection o).x.val = X at *
  generalize (l.intersection o).y.val = Y at *
  have hWκ : W ≤ 2 * (W / κ) := by rw [← mul_div_assoc, le_div_iff₀ κ0]; nlinarith
  have W0 : 0 < W / κ := by positivity
  have e43 : (2 : ℝ) ^ (-43 : ℤ) = 2 * (2 : ℝ) ^ (-44 : ℤ) := by norm_num
  have w0 : (0 : ℝ) < (2 : ℝ) ^ (-44 : ℤ) := by positivity
  have s1 : |l.a.val * (X - ix) + l.b.val * (Y - iy)| ≤ 5 * ((2 : ℝ) ^ (-44 : ℤ) * (W / κ)) := by
    rw [show l.a.val * (X - ix) + l.b.val * (Y - iy) = (l.a.val * X + l.b.val * Y + l.c.val) - (l.a.val * ix + l.b.val * iy + l.c.val) by ring]
    refine (abs_sub _ _).trans ?_
    rw [e43] at h1
    have := mul_le_mul_of_nonneg_left hWκ w0.le
    generalize (2 : ℝ) ^ (-44 : ℤ) = w at *
    linarith
  have s2 : |o.a.val * (X - ix) + o.b.val * (Y - iy)| ≤ 5 * ((2 : ℝ) ^ (-44 : ℤ) * (W / κ)) * M := by
    rw [show o.a.val * (X - ix) + o.b.val * (Y - iy) = (o.a.val * X + o.b.val * Y + o.c.val) - (o.a.val * ix + o.b.val * iy + o.c.val) by ring]
    refine (abs_sub _ _).trans ?_
    rw [e43] at h2
    have := mul_le_mul_of_nonneg_right (mul_le_mul_of_nonneg_left hWκ w0.le) M0.le
    generalize (2 : ℝ) ^ (-44 : ℤ) = w at *
    generalize W / κ = v at *
    linarith
  have fin : ∀ {p q P Q D : ℝ}, l.fdet o * D = p * P - q * Q → |p| * |P| ≤ 101 / 20 * ((2 : ℝ) ^ (-44 : ℤ) * (W / κ)) * M →
      |q| * |Q| ≤ 101 / 20 * ((2 : ℝ) ^ (-44 : ℤ) * (W / κ)) * M → |D| ≤ (2 : ℝ) ^ (-39 : ℤ) * (W / κ ^ 2) := by
    intro p q P Q D e i1 i2
    rw [← abs_mul] at i1 i2
    have i3 : |l.fdet o| * |D| ≤ 11 * ((2 : ℝ) ^ (-44 : ℤ) * (W / κ)) * M := by
      rw [← abs_mul, e]
      refine (abs_sub _ _).trans ?_
      have : 0 < (2 : ℝ) ^ (-44 : ℤ) * (W / κ) * M := by positivity
      linarith
    have i4 : κ * M * (3 / 4) * |D| ≤ 11 * ((2 : ℝ) ^ (-44 : ℤ) * (W / κ)) * M := (mul_le_mul_of_nonneg_right F (abs_nonneg _)).trans i3
    have i5 : |D| ≤ 44 / 3 * ((2 : ℝ) ^ (-44 : ℤ) * (W / κ)) / κ := by
      rw [le_div_iff₀ κ0]
      refine le_of_mul_le_mul_right ?_ M0
      linarith
    refine i5.trans ?_
    rw [show 44 / 3 * ((2 : ℝ) ^ (-44 : ℤ) * (W / κ)) / κ = 44 / 3 * (2 : ℝ) ^ (-44 : ℤ) * (W / κ ^ 2) by field_simp]
    refine mul_le_mul_of_nonneg_right ?_ (by positivity)
    norm_num
  have pA : ∀ {p P : ℝ}, |p| ≤ 101 / 100 * M → |P| ≤ 5 * ((2 : ℝ) ^ (-44 : ℤ) * (W / κ)) → |p| * |P| ≤ 101 / 20 * ((2 : ℝ) ^ (-44 : ℤ) * (W / κ)) * M :=
    fun hp hP => (mul_le_mul hp hP (abs_nonneg _) (by positivity)).trans (le_of_eq (by ring))
  have pB : ∀ {p P : ℝ}, |p| ≤ 101 / 100 → |P| ≤ 5 * ((2 : ℝ) ^ (-44 : ℤ) * (W / κ)) * M → |p| * |P| ≤ 101 / 20 * ((2 : ℝ) ^ (-44 : ℤ) * (W / κ)) * M :=
    fun hp hP => (mul_le_mul hp hP (abs_nonneg _) (by positivity)).trans (le_of_eq (by ring))
  constructor
  · exact fin (p := o.b.val) (q := l.b.val) (by unfold Line.fdet; ring) (pA ob s1) (pB lb s2)
  · exact fin (p := l.a.val) (q := o.a.val) (by unfold Line.fdet; ring) (pB la s2) (pA oa s1)

/-! ## Directions -/

/-- A point near a point of the ray, seen from the origin of the ray. -/
theorem near_dir {θ φ ρ s e : ℝ} {δ : Pt} (h : ρ • unit φ = s • unit θ + δ) (hx : |δ.1| ≤ e) (hy : |δ.2| ≤ e) (hρ : 0 ≤ ρ) (hs : 16 * e ≤ |s|) (hs0 : s ≠ 0) :
    7 / 8 * |s| ≤ ρ ∧ ∃ G, 0 ≤ G ∧ G ≤ 180 ∧ (AngleEq φ (θ + G) ∨ AngleEq φ (θ - G)) ∧ (0 < s → G ≤ 9) ∧ (s < 0 → 90 ≤ G) := by
  have e0 : 0 ≤ e := (abs_nonneg _).trans hx
  have sp : 0 < |s| := abs_pos.mpr hs0
  have hp := Real.pi_gt_d2
  have hp4 := Real.pi_lt_d2
  obtain ⟨hr, ⟨k, hk⟩, -⟩ := AngleDeg.normalDeg_spec (φ - θ)
  generalize AngleDeg.normalDeg (φ - θ) = n at *
  have hG : AngleEq φ (θ + n) := ⟨-k, by push_cast; linarith⟩
  rw [unit_congr hG] at h
  have h1 := congrArg Prod.fst h
  have h2 := congrArg Prod.snd h
  simp only [Prod.smul_fst, Prod.smul_snd, Prod.fst_add, Prod.snd_add, smul_eq_mul, unit, add_mul, Real.cos_add, Real.sin_add] at h1 h2
  have ht := Real.sin_sq_add_cos_sq (θ * (Real.pi / 180))
  have hc1 := Real.abs_cos_le_one (θ * (Real.pi / 180))
  have hs1 := Real.abs_sin_le_one (θ * (Real.pi / 180))
  generalize Real.cos (θ * (Real.pi / 180)) = c at *
  generalize Real.sin (θ * (Real.pi / 180)) = t at *
  have C : ρ * Real.cos (n * (Real.pi / 180)) = s + (c * δ.1 + t * δ.2) := by
    linear_combination c * h1 + t * h2 - (ρ * Real.cos (n * (Real.pi / 180)) - s) * ht
  have S : ρ * Real.sin (n * (Real.pi / 180)) = c * δ.2 - t * δ.1 := by
    linear_combination c * h2 - t * h1 - (ρ * Real.sin (n * (Real.pi / 180))) * ht
  have b1 : |c * δ.1 + t * δ.2| ≤ 2 * e := by
    refine (abs_add_le _ _).trans ?_
    rw [abs_mul, abs_mul]
    have := mul_le_mul hc1 hx (abs_nonneg _) zero_le_one
    have := mul_le_mul hs1 hy (abs_nonneg _) zero_le_one
    linarith
  have b2 : |c * δ.2 - t * δ.1| ≤ 2 * e := by
    refine (abs_sub _ _).trans ?_
    rw [abs_mul, abs_mul]
    have := mul_le_mul hc1 hy (abs_nonneg _) zero_le_one
    have := mul_le_mul hs1 hx (abs_nonneg _) zero_le_one
    linarith
  have hρs : 7 / 8 * |s| ≤ ρ := by
    have i1 : |ρ * Real.cos (n * (Real.pi / 180))| ≤ ρ := by
      rw [abs_mul, abs_of_nonneg hρ]
      exact mul_le_of_le_one_right hρ (Real.abs_cos_le_one _)
    have i2 := abs_sub_abs_le_abs_sub s (-(c * δ.1 + t * δ.2))
    rw [abs_neg, sub_neg_eq_add, ← C] at i2
    linarith
  have ρ0 : 0 < ρ := lt_of_lt_of_le (by positivity) hρs
  refine ⟨hρs, |n|, abs_nonneg _, abs_le.mpr hr, ?_, ?_, ?_⟩
  · rcases abs_choice n with h | h <;> rw [h]
    · exact Or.inl hG
    · right; rwa [sub_neg_eq_add]
  · intro s0
    rw [abs_of_pos s0] at hs
    by_contra hn
    have hn : 9 < |n| := not_le.mp hn
    have hcos : Real.cos (|n| * (Real.pi / 180)) = Real.cos (n * (Real.pi / 180)) := by
      rcases abs_choice n with h | h <;> rw [h]
      rw [neg_mul, Real.cos_neg]
    have hsin : |Real.sin (n * (Real.pi / 180))| = |Real.sin (|n| * (Real.pi / 180))| := by
      rcases abs_choice n with h | h <;> rw [h]
      rw [neg_mul, Real.sin_neg, abs_neg]
    rw [← hcos] at C
    have cpos : 0 < Real.cos (|n| * (Real.pi / 180)) := by
      refine (mul_pos_iff_of_pos_left ρ0).mp ?_
      rw [C]
      linarith [(abs_le.mp b1).1]
    have n90 : |n| < 90 := by
      by_contra h90
      have := Real.cos_nonpos_of_pi_div_two_le_of_le (x := |n| * (Real.pi / 180))
        (by have := mul_le_mul_of_nonneg_right (not_lt.mp h90) (show 0 ≤ Real.pi / 180 by positivity); linarith)
        (by have := mul_le_mul_of_nonneg_right (abs_le.mpr hr) (show 0 ≤ Real.pi / 180 by positivity); linarith)
      linarith
    have s9 : Real.sin (9 * (Real.pi / 180)) ≤ Real.sin (|n| * (Real.pi / 180)) :=
      Real.sin_le_sin_of_le_of_le_pi_div_two (by linarith)
        (by have := mul_le_mul_of_nonneg_right n90.le (show 0 ≤ Real.pi / 180 by positivity); linarith)
        (mul_le_mul_of_nonneg_right hn.le (by positivity))
    have s9' : (1 : ℝ) / 7 < Real.sin (9 * (Real.pi / 180)) := by
      have := Real.sin_gt_sub_cube (x := 9 * (Real.pi / 180)) (by positivity)
      have i1 : (0.157 : ℝ) < 9 * (Real.pi / 180) := by linarith
      have i2 : 9 * (Real.pi / 180) < (0.158 : ℝ) := by linarith
      generalize 9 * (Real.pi / 180) = y at *
      have : y ^ 3 ≤ (0.158 : ℝ) ^ 3 := pow_le_pow_left₀ (by linarith) i2.le 3
      norm_num at *
      linarith
    have q : ρ * |Real.sin (n * (Real.pi / 180))| ≤ 2 * e := by
      have i := b2
      rwa [← S, abs_mul, abs_of_pos ρ0] at i
    rw [hsin, abs_of_pos (by linarith)] at q
    have := mul_lt_mul_of_pos_left (s9'.trans_le s9) ρ0
    have : ρ * Real.cos (|n| * (Real.pi / 180)) ≤ ρ := mul_le_of_le_one_right hρ (Real.cos_le_one _)
    linarith [(abs_le.mp b1).1]
  · intro s0
    by_contra hn
    have hn : |n| < 90 := not_le.mp hn
    have hn' := abs_lt.mp hn
    have := Real.cos_pos_of_mem_Ioo (x := n * (Real.pi / 180)) (by
      have i1 := mul_lt_mul_of_pos_right hn'.1 (show 0 < Real.pi / 180 by positivity)
      have i2 := mul_lt_mul_of_pos_right hn'.2 (show 0 < Real.pi / 180 by positivity)
      constructor <;> linarith)
    have := mul_pos ρ0 this
    rw [C] at this
    rw [abs_of_neg s0] at hs
    linarith [(abs_le.mp b1).2]

/-! ## The theorems -/

section
variable [m : PyMath (FP double)]

/-- The line of a ray. -/
theorem Spec.Accurate.ray_line (h : Accurate m) (r : Ray (FP double)) (hr : r.dir.FOk) {W : ℝ} (hW : 1 ≤ W) (hx : |r.origin.x.val| ≤ W) (hy : |r.origin.y.val| ≤ W) :
    ∃ σ : ℝ, |σ| = 1 ∧ |r.line.a.val + σ * (unit r.dir.deg.val).2| ≤ (2 : ℝ) ^ (-46 : ℤ) ∧
      |r.line.b.val - σ * (unit r.dir.deg.val).1| ≤ (2 : ℝ) ^ (-46 : ℤ) ∧
      |r.line.c.val + r.line.a.val * r.origin.x.val + r.line.b.val * r.origin.y.val| ≤ (2 : ℝ) ^ (-49 : ℤ) * W :=
  h.line_near r.origin r.dir (abs_le.mpr hr.2) (x := r.dir.deg.val) (k := 0) (by
    rw [sub_self, Int.cast_zero, mul_zero, sub_zero, abs_zero]; positivity) hW hx hy

omit m in
theorem coeff_c {W A B C x y : ℝ} (hW : 1 ≤ W) (hA : |A| ≤ 101 / 100) (hB : |B| ≤ 101 / 100) (hx : |x| ≤ W) (hy : |y| ≤ W)
    (hC : |C + A * x + B * y| ≤ (2 : ℝ) ^ (-49 : ℤ) * W) : |C| ≤ 3 * W := by
  have i1 := mul_le_mul hA hx (abs_nonneg _) (by norm_num)
  have i2 := mul_le_mul hB hy (abs_nonneg _) (by norm_num)
  rw [← abs_mul] at i1 i2
  have e : C = (C + A * x + B * y) - A * x - B * y := by ring
  rw [e]
  refine (abs_sub _ _).trans ((add_le_add (abs_sub _ _) le_rfl).trans ?_)
  have : (2 : ℝ) ^ (-49 : ℤ) * W ≤ 1 / 2 * W := mul_le_mul_of_nonneg_right (by norm_num) (by linarith)
  have := hC.trans this
  linarith

omit m in
theorem coeff_unit {σ η A x : ℝ} (hσ : |σ| = 1) (hx : |x| ≤ 1) (hη : η ≤ 1 / 100) (h : |A - σ * x| ≤ η) : |A| ≤ 101 / 100 := by
  have i := abs_sub_abs_le_abs_sub A (σ * x)
  rw [abs_mul, hσ, one_mul] at i
  linarith

omit m in
theorem unit_abs (x : ℝ) : |(unit x).1| ≤ 1 ∧ |(unit x).2| ≤ 1 := ⟨Real.abs_cos_le_one _, Real.abs_sin_le_one _⟩

omit m in
theorem near_abs {x y W : ℝ} (hx : |x| ≤ W) (hy : |y| ≤ W) : |x - y| ≤ 2 * W := (abs_sub _ _).trans (by linarith)

/-- The intersection of the lines, before the test of the direction. -/
theorem Spec.Accurate.ray_meets_line (h : Accurate m) (r : Ray (FP double)) (hr : r.dir.FOk) (l : Line (FP double)) {M W κ s : ℝ} {P : Pt}
    (hM : (2 : ℝ) ^ (-100 : ℤ) ≤ M) (hM1 : M ≤ (2 : ℝ) ^ (100 : ℤ)) (hW : 1 ≤ W) (hκ : (2 : ℝ) ^ (-18 : ℤ) ≤ κ)
    (hE : 2 * (EPSILON : FP double).val ≤ κ * M) (hox : |r.origin.x.val| ≤ W) (hoy : |r.origin.y.val| ≤ W) (hPx : |P.1| ≤ W) (hPy : |P.2| ≤ W)
    (la : |l.a.val| ≤ M) (lb : |l.b.val| ≤ M) (hP : P = r.origin.fpt + s • unit r.dir.deg.val) (hl : l.a.val * P.1 + l.b.val * P.2 + l.c.val = 0)
    (hd : |l.a.val * (unit r.dir.deg.val).1 + l.b.val * (unit r.dir.deg.val).2| = κ * M) :
    (r.line.intersection l).valid = true ∧ |(r.line.intersection l).x.val - P.1| ≤ (2 : ℝ) ^ (-39 : ℤ) * (W / κ ^ 2) ∧
    |(r.line.intersection l).y.val - P.2| ≤ (2 : ℝ) ^ (-39 : ℤ) * (W / κ ^ 2) := by
  have M0 : 0 < M := lt_of_lt_of_le (by positivity) hM
  have W0 : 0 < W := by linarith
  obtain ⟨σ, hσ, A, B, C⟩ := h.ray_line r hr hW hox hoy
  have s46 : (2 : ℝ) ^ (-46 : ℤ) ≤ 1 / 100 := by norm_num
  obtain ⟨u1, u2⟩ := unit_abs r.dir.deg.val
  have ra : |r.line.a.val| ≤ 101 / 100 := coeff_unit (σ := -σ) (by rw [abs_neg]; exact hσ) u2 s46 (by rw [neg_mul, sub_neg_eq_add]; exact A)
  have rb : |r.line.b.val| ≤ 101 / 100 := coeff_unit hσ u1 s46 B
  have hI : cross (unit r.dir.deg.val) (P.1 - r.origin.x.val, P.2 - r.origin.y.val) = 0 := by
    rw [hP]
    simp only [cross, Prod.fst_add, Prod.snd_add, Prod.smul_fst, Prod.smul_snd, smul_eq_mul, Vec.fpt]
    ring
  have R := on_line_near A B C hI (near_abs hPx hox) (near_abs hPy hoy)
  generalize unit r.dir.deg.val = u at *
  have m1 := mul_le_mul la hPx (abs_nonneg _) M0.le
  have m2 := mul_le_mul lb hPy (abs_nonneg _) M0.le
  rw [← abs_mul] at m1 m2
  have m3 := mul_le_mul la u1 (abs_nonneg _) M0.le
  have m4 := mul_le_mul lb u2 (abs_nonneg _) M0.le
  rw [← abs_mul] at m3 m4
  have WM : 0 < W * M := by positivity
  refine meet_core hM hM1 hW hκ ?_ hE ra rb (la.trans (by linarith)) (lb.trans (by linarith)) (coeff_c hW ra rb hox hoy C) ?_
    (Δ := -σ * (l.a.val * u.1 + l.b.val * u.2)) ?_ (by rw [abs_mul, abs_neg, hσ, one_mul]; exact hd) (R.trans ?_) ?_
  · refine le_of_mul_le_mul_right ?_ M0
    rw [← hd]
    exact (abs_add_le _ _).trans (by linarith)
  · rw [show l.c.val = -(l.a.val * P.1 + l.b.val * P.2) by linarith, abs_neg]
    exact (abs_add_le _ _).trans (by linarith)
  · have e : r.line.fdet l - -σ * (l.a.val * u.1 + l.b.val * u.2) =
        (r.line.a.val + σ * u.2) * l.b.val - (r.line.b.val - σ * u.1) * l.a.val := by unfold Line.fdet; ring
    rw [e]
    refine (abs_sub _ _).trans ?_
    rw [abs_mul, abs_mul]
    have i1 := mul_le_mul A lb (abs_nonneg _) (by positivity)
    have i2 := mul_le_mul B la (abs_nonneg _) (by positivity)
    have : 0 < (2 : ℝ) ^ (-46 : ℤ) * M := by positivity
    linarith
  · exact mul_le_mul_of_nonneg_right (by norm_num) W0.le
  · rw [hl, abs_zero]; positivity

/-- The test of the direction for a point near the point at parameter `s`. -/
theorem Spec.Accurate.right_dir (h : Accurate m) (r : Ray (FP double)) (ho : r.origin.FOk) (hr : r.dir.FOk) {X : Vec (FP double)} (hX : X.FOk) {P : Pt} {s e : ℝ}
    (hP : P = r.origin.fpt + s • unit r.dir.deg.val) (hx : |X.x.val - P.1| ≤ e) (hy : |X.y.val - P.2| ≤ e) (hs : 16 * e ≤ |s|)
    (hs2 : 4 * (EPSILON : FP double).val ≤ |s|) : (0 < s → r.inRightDir X (num 10) = true) ∧ (s < 0 → r.inRightDir X (num 10) = false) := by
  have hE : 0 < (EPSILON : FP double).val := lt_of_lt_of_le (by positivity) fp_EPSILON_ge
  have hpol := fpt_polar X r.origin
  have d0 : 0 ≤ d r.origin.fpt X.fpt := Real.sqrt_nonneg _
  obtain ⟨hρ, G, G0, G1, hG, g1, g2⟩ := near_dir (ρ := d r.origin.fpt X.fpt) (s := s) (e := e) (θ := r.dir.deg.val) (δ := X.fpt - P)
    (φ := direction (X.x.val - r.origin.x.val) (X.y.val - r.origin.y.val)) (by
      rw [hP]
      nth_rewrite 2 [hpol]
      abel) hx hy d0 hs (abs_pos.mp (by linarith))
  obtain ⟨k1, k2⟩ := C180_ray h r X (num 10) hX ho hr (by linarith) G0 G1 hG
  have e10 : (num 10 : FP double).val = 10 := (double.int 10 (by norm_num)).trans (by norm_num)
  rw [e10] at k1 k2
  constructor
  · intro s0
    refine k1 (lt_of_le_of_lt (g1 s0) ?_)
    norm_num
  · intro s0
    refine k2 (le_trans ?_ (g2 s0))
    norm_num

omit m in
theorem intersection_FOk {l o : Line (FP double)} (h : (l.intersection o).valid = true) : (l.intersection o).FOk := by
  unfold Line.intersection at h ⊢
  dsimp only at h ⊢
  split_ifs at h ⊢ with hc
  · exact absurd (show (false : Bool) = true from h) (by decide)
  · exact ⟨isDouble_rne _, isDouble_rne _⟩

/-- **C190** A ray and a line. -/
theorem C190_ray_line (h : Accurate m) (r : Ray (FP double)) (ho : r.origin.FOk) (hr : r.dir.FOk) (l : Line (FP double)) (M W κ s : ℝ) (P : Pt)
    (hM : (2 : ℝ) ^ (-100 : ℤ) ≤ M) (hM1 : M ≤ (2 : ℝ) ^ (100 : ℤ)) (hW : 1 ≤ W) (hκ : (2 : ℝ) ^ (-18 : ℤ) ≤ κ)
    (hE : 2 * (EPSILON : FP double).val ≤ κ * M) (hox : |r.origin.x.val| ≤ W) (hoy : |r.origin.y.val| ≤ W) (hPx : |P.1| ≤ W) (hPy : |P.2| ≤ W)
    (la : |l.a.val| ≤ M) (lb : |l.b.val| ≤ M) (hP : P = r.origin.fpt + s • unit r.dir.deg.val) (hl : P ∈ lineSet l.a.val l.b.val l.c.val)
    (hd : |dot (l.a.val, l.b.val) (unit r.dir.deg.val)| = κ * M)
    (hs : (2 : ℝ) ^ (-35 : ℤ) * (W / κ ^ 2) ≤ |s|) (hs2 : 4 * (EPSILON : FP double).val ≤ |s|) :
    (0 < s → (r.intersectionLine l).valid = true ∧ |(r.intersectionLine l).x.val - P.1| ≤ (2 : ℝ) ^ (-39 : ℤ) * (W / κ ^ 2) ∧
      |(r.intersectionLine l).y.val - P.2| ≤ (2 : ℝ) ^ (-39 : ℤ) * (W / κ ^ 2)) ∧
    (s < 0 → (r.intersectionLine l).valid = false) := by
  obtain ⟨v, x, y⟩ := h.ray_meets_line r hr l hM hM1 hW hκ hE hox hoy hPx hPy la lb hP hl hd
  obtain ⟨d1, d2⟩ := h.right_dir r ho hr (intersection_FOk v) hP x y (by
    refine le_trans (le_of_eq ?_) hs
    rw [← mul_assoc]
    norm_num) hs2
  unfold Ray.intersectionLine
  dsimp only
  rw [v]
  constructor
  · intro s0
    rw [d1 s0]
    exact ⟨v, x, y⟩
  · intro s0
    rw [d2 s0]
    rfl

/-- **C190** Two rays. -/
theorem C190_rays (h : Accurate m) (r o : Ray (FP double)) (hro : r.origin.FOk) (hrd : r.dir.FOk) (hoo : o.origin.FOk) (hod : o.dir.FOk) (W κ s t : ℝ) (P : Pt)
    (hW : 1 ≤ W) (hκ : (2 : ℝ) ^ (-18 : ℤ) ≤ κ) (hrx : |r.origin.x.val| ≤ W) (hry : |r.origin.y.val| ≤ W) (hox : |o.origin.x.val| ≤ W) (hoy : |o.origin.y.val| ≤ W)
    (hPx : |P.1| ≤ W) (hPy : |P.2| ≤ W) (hP : P = r.origin.fpt + s • unit r.dir.deg.val) (hQ : P = o.origin.fpt + t • unit o.dir.deg.val)
    (hd : |cross (unit r.dir.deg.val) (unit o.dir.deg.val)| = κ)
    (hs : (2 : ℝ) ^ (-35 : ℤ) * (W / κ ^ 2) ≤ |s|) (hs2 : 4 * (EPSILON : FP double).val ≤ |s|)
    (ht : (2 : ℝ) ^ (-35 : ℤ) * (W / κ ^ 2) ≤ |t|) (ht2 : 4 * (EPSILON : FP double).val ≤ |t|) :
    (0 < s → 0 < t → (r.intersectionRay o).valid = true ∧ |(r.intersectionRay o).x.val - P.1| ≤ (2 : ℝ) ^ (-39 : ℤ) * (W / κ ^ 2) ∧
      |(r.intersectionRay o).y.val - P.2| ≤ (2 : ℝ) ^ (-39 : ℤ) * (W / κ ^ 2)) ∧
    (s < 0 ∨ t < 0 → (r.intersectionRay o).valid = false) := by
  have W0 : 0 < W := by linarith
  obtain ⟨σ, hσ, A, B, C⟩ := h.ray_line r hrd hW hrx hry
  obtain ⟨τ, hτ, A', B', C'⟩ := h.ray_line o hod hW hox hoy
  have s46 : (2 : ℝ) ^ (-46 : ℤ) ≤ 1 / 100 := by norm_num
  have u := unit_abs r.dir.deg.val
  have v := unit_abs o.dir.deg.val
  obtain ⟨D, ra, rb, oa, ob⟩ := det_units hσ hτ u.1 u.2 v.1 v.2 A B A' B' s46
  have on : ∀ {r : Ray (FP double)} {s : ℝ}, P = r.origin.fpt + s • unit r.dir.deg.val →
      cross (unit r.dir.deg.val) (P.1 - r.origin.x.val, P.2 - r.origin.y.val) = 0 := by
    intro r s hP
    rw [hP]
    simp only [cross, Prod.fst_add, Prod.snd_add, Prod.smul_fst, Prod.smul_snd, smul_eq_mul, Vec.fpt]
    ring
  have R := on_line_near A B C (on hP) (near_abs hPx hrx) (near_abs hPy hry)
  have R' := on_line_near A' B' C' (on hQ) (near_abs hPx hox) (near_abs hPy hoy)
  have e43 : (4 * (2 : ℝ) ^ (-46 : ℤ) + (2 : ℝ) ^ (-49 : ℤ)) * W ≤ (2 : ℝ) ^ (-43 : ℤ) * W :=
    mul_le_mul_of_nonneg_right (by norm_num) (by linarith)
  have hE := fp_EPSILON_le19
  obtain ⟨w, x, y⟩ := meet_core (l := r.line) (o := o.line) (M := 1) (W := W) (κ := κ) (ix := P.1) (iy := P.2)
    (Δ := σ * τ * cross (unit r.dir.deg.val) (unit o.dir.deg.val))
    (zpow_le_one_of_nonpos₀ one_le_two (by norm_num)) (one_le_zpow₀ one_le_two (by norm_num)) hW hκ
    (by rw [← hd, cross_unit]; exact (Real.abs_sin_le_one _).trans one_le_two) (by
      norm_num at hκ hE ⊢
      linarith) ra rb (by rw [mul_one]; exact oa) (by rw [mul_one]; exact ob) (coeff_c hW ra rb hrx hry C)
    (by rw [mul_one]; exact coeff_c hW oa ob hox hoy C') (by rw [mul_one]; exact D)
    (by rw [abs_mul, abs_mul, hσ, hτ, one_mul, one_mul, mul_one]; exact hd) (R.trans e43) (by rw [mul_one]; exact R'.trans e43)
  have e16 : ∀ {s : ℝ}, (2 : ℝ) ^ (-35 : ℤ) * (W / κ ^ 2) ≤ |s| → 16 * ((2 : ℝ) ^ (-39 : ℤ) * (W / κ ^ 2)) ≤ |s| := fun hs => by
    refine le_trans (le_of_eq ?_) hs
    rw [← mul_assoc]
    norm_num
  obtain ⟨d1, d2⟩ := h.right_dir r hro hrd (intersection_FOk w) hP x y (e16 hs) hs2
  obtain ⟨d3, d4⟩ := h.right_dir o hoo hod (intersection_FOk w) hQ x y (e16 ht) ht2
  unfold Ray.intersectionRay
  dsimp only
  rw [w]
  constructor
  · intro s0 t0
    rw [d1 s0, d3 t0]
    exact ⟨w, x, y⟩
  · rintro (s0 | t0)
    · rw [d2 s0]
      rfl
    · rw [d4 t0, Bool.not_false, Bool.or_true]
      rfl

/-- **C190** Nearly parallel rays have no intersection. -/
theorem C190_parallel (h : Accurate m) (r o : Ray (FP double)) (hrd : r.dir.FOk) (hod : o.dir.FOk)
    (hd : |cross (unit r.dir.deg.val) (unit o.dir.deg.val)| ≤ (EPSILON : FP double).val / 2) : (r.intersectionRay o).valid = false := by
  obtain ⟨W, hW⟩ : ∃ W, W = 1 + |r.origin.x.val| + |r.origin.y.val| + |o.origin.x.val| + |o.origin.y.val| := ⟨_, rfl⟩
  have a1 := abs_nonneg r.origin.x.val
  have a2 := abs_nonneg r.origin.y.val
  have a3 := abs_nonneg o.origin.x.val
  have a4 := abs_nonneg o.origin.y.val
  obtain ⟨σ, hσ, A, B, -⟩ := h.ray_line r hrd (W := W) (by linarith) (by linarith) (by linarith)
  obtain ⟨τ, hτ, A', B', -⟩ := h.ray_line o hod (W := W) (by linarith) (by linarith) (by linarith)
  have u := unit_abs r.dir.deg.val
  have v := unit_abs o.dir.deg.val
  obtain ⟨D, ra, rb, oa, ob⟩ := det_units hσ hτ u.1 u.2 v.1 v.2 A B A' B' (by norm_num)
  have tiny : (2 : ℝ) ^ (-200 : ℤ) ≤ 1 / 100 := (zpow_le_zpow_right₀ one_le_two (show (-200 : ℤ) ≤ -10 by norm_num)).trans (by norm_num)
  have mg : ∀ {x : ℝ}, |x| ≤ 101 / 100 → mag x ≤ 51 / 50 := fun h => (add_le_add h tiny).trans (by norm_num)
  have pr : ∀ {x y : ℝ}, |x| ≤ 101 / 100 → |y| ≤ 101 / 100 → mag x * mag y ≤ 51 / 50 * (51 / 50) := fun h1 h2 =>
    mul_le_mul (mg h1) (mg h2) (mag_pos _).le (by norm_num)
  have tT : r.line.magT o.line ≤ 3 := by
    have i1 := pr ra ob
    have i2 := pr rb oa
    unfold Line.magT
    linarith
  have sub : Rounded 5 (r.line.cdet o.line) (r.line.fdet o.line) (r.line.magT o.line) :=
    ((rounded_prod _ _).sub (rounded_prod _ _) (by norm_num) (by norm_num) (by norm_num)).mono (by norm_num) (by norm_num) le_rfl
  have hT : |r.line.cdet o.line - r.line.fdet o.line| ≤ 15 * (2 : ℝ) ^ (-53 : ℤ) := by
    refine sub.err.trans ?_
    have := mul_le_mul_of_nonneg_left tT (show (0 : ℝ) ≤ 5 * (2 : ℝ) ^ (-53 : ℤ) by positivity)
    linarith
  have i1 := abs_sub_abs_le_abs_sub (r.line.cdet o.line) (r.line.fdet o.line)
  have D' : |r.line.fdet o.line - σ * τ * cross (unit r.dir.deg.val) (unit o.dir.deg.val)| ≤ 5 * (2 : ℝ) ^ (-46 : ℤ) := D
  have i2 := abs_sub_abs_le_abs_sub (r.line.fdet o.line) (σ * τ * cross (unit r.dir.deg.val) (unit o.dir.deg.val))
  rw [abs_mul, abs_mul, hσ, hτ, one_mul, one_mul] at i2
  have hE := fp_EPSILON_ge
  have hv : ¬ (r.line.intersection o.line).valid = true := by
    rw [fp_intersection_valid, not_le]
    norm_num at hT D' hE
    linarith
  unfold Ray.intersectionRay
  dsimp only
  rw [Bool.eq_false_of_not_eq_true hv]
  rfl

omit m in
theorem unit_0 : unit 0 = (1, 0) := by unfold unit; rw [zero_mul, Real.cos_zero, Real.sin_zero]

omit m in
theorem unit_90 : unit 90 = (0, 1) := by
  unfold unit
  rw [show (90 : ℝ) * (Real.pi / 180) = Real.pi / 2 by ring, Real.cos_pi_div_two, Real.sin_pi_div_two]

/-- The ray from `(0, 1)` to the right and the ray from `(2, 0)` upwards meet at `(2, 1)`; the ray from `(2, 0)` to the right and the line
`x = 1` do not. -/
example (h : Accurate m) :
    (Ray.intersectionRay ⟨Vec.ofXY (⟨0⟩ : FP double) ⟨1⟩, ⟨⟨0⟩⟩⟩ ⟨Vec.ofXY ⟨2⟩ ⟨0⟩, ⟨⟨90⟩⟩⟩).valid = true ∧
    |(Ray.intersectionRay ⟨Vec.ofXY (⟨0⟩ : FP double) ⟨1⟩, ⟨⟨0⟩⟩⟩ ⟨Vec.ofXY ⟨2⟩ ⟨0⟩, ⟨⟨90⟩⟩⟩).x.val - 2| ≤ (2 : ℝ) ^ (-38 : ℤ) ∧
    (Ray.intersectionLine ⟨Vec.ofXY (⟨2⟩ : FP double) ⟨0⟩, ⟨⟨0⟩⟩⟩ ⟨⟨1⟩, ⟨0⟩, ⟨-1⟩⟩).valid = false := by
  have n : ∀ n : ℕ, n ≤ 180 → IsDouble (n : ℝ) := fun n h => isDouble_nat (h.trans (by norm_num))
  have i0 : IsDouble (0 : ℝ) := isDouble_zero
  have i1 : IsDouble (1 : ℝ) := isDouble_one
  have i2 : IsDouble (2 : ℝ) := by simpa using n 2 (by norm_num)
  have i90 : IsDouble (90 : ℝ) := by simpa using n 90 (by norm_num)
  have f0 : AngleDeg.FOk (⟨⟨0⟩⟩ : AngleDeg (FP double)) := ⟨i0, by norm_num [FNormal]⟩
  have f90 : AngleDeg.FOk (⟨⟨90⟩⟩ : AngleDeg (FP double)) := ⟨i90, by norm_num [FNormal]⟩
  have hE := fp_EPSILON_le19
  have hE1 : 4 * (EPSILON : FP double).val ≤ 1 := by norm_num at hE ⊢; linarith
  have a := (C190_rays h ⟨Vec.ofXY (⟨0⟩ : FP double) ⟨1⟩, ⟨⟨0⟩⟩⟩ ⟨Vec.ofXY ⟨2⟩ ⟨0⟩, ⟨⟨90⟩⟩⟩ ⟨i0, i1⟩ f0 ⟨i2, i0⟩ f90 2 1 2 1 (2, 1) (by norm_num) (by norm_num)
    (by simp [Vec.ofXY]) (by simp [Vec.ofXY]) (by simp [Vec.ofXY]) (by simp [Vec.ofXY]) (by simp) (by simp)
    (by rw [unit_0]; simp [Vec.fpt, Vec.ofXY]) (by rw [unit_90]; simp [Vec.fpt, Vec.ofXY]) (by rw [unit_0, unit_90]; simp [cross])
    (by norm_num) (by rw [abs_of_pos two_pos]; linarith) (by norm_num) (by rw [abs_one]; exact hE1)).1 two_pos one_pos
  refine ⟨a.1, a.2.1.trans (by norm_num), ?_⟩
  exact (C190_ray_line h ⟨Vec.ofXY (⟨2⟩ : FP double) ⟨0⟩, ⟨⟨0⟩⟩⟩ ⟨i2, i0⟩ f0 ⟨⟨1⟩, ⟨0⟩, ⟨-1⟩⟩ 1 2 1 (-1) (1, 0)
    (zpow_le_one_of_nonpos₀ one_le_two (by norm_num)) (one_le_zpow₀ one_le_two (by norm_num)) (by norm_num) (by norm_num)
    (by linarith) (by simp [Vec.ofXY]) (by simp [Vec.ofXY]) (by simp) (by simp) (by simp) (by simp)
    (by rw [unit_0]; simp [Vec.fpt, Vec.ofXY]; norm_num) (by simp [lineSet]) (by rw [unit_0]; simp [dot])
    (by norm_num) (by rw [abs_neg, abs_one]; exact hE1)).2 (by norm_num)

end
end PyrusGeom
