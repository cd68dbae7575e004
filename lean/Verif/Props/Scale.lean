import Verif.Model.ConvexHull
import Verif.Model.Sector
import Verif.Lemmas.Float

/-! # C192: the unit of length does not matter (powers of two, double precision) -/

namespace PyrusGeom

/-- Multiples of `2 ^ g`. -/
def Lattice (g : ℤ) (x : ℝ) : Prop := ∃ n : ℤ, x = n * (2 : ℝ) ^ g

theorem Lattice.mono {g h : ℤ} {x : ℝ} (hx : Lattice g x) (hh : h ≤ g) : Lattice h x := by
  obtain ⟨n, rfl⟩ := hx
  obtain ⟨m, rfl⟩ := Int.exists_add_of_le hh
  refine ⟨n * 2 ^ m, ?_⟩
  rw [zpow_add₀ two_ne_zero, zpow_natCast]
  push_cast
  ring

theorem Lattice.add {g : ℤ} {x y : ℝ} (hx : Lattice g x) (hy : Lattice g y) : Lattice g (x + y) := by
  obtain ⟨n, rfl⟩ := hx
  obtain ⟨m, rfl⟩ := hy
  exact ⟨n + m, by push_cast; ring⟩

theorem Lattice.neg {g : ℤ} {x : ℝ} (hx : Lattice g x) : Lattice g (-x) := by
  obtain ⟨n, rfl⟩ := hx
  exact ⟨-n, by push_cast; ring⟩

theorem Lattice.sub {g : ℤ} {x y : ℝ} (hx : Lattice g x) (hy : Lattice g y) : Lattice g (x - y) := by
  rw [sub_eq_add_neg]; exact hx.add hy.neg

theorem Lattice.mul {g h : ℤ} {x y : ℝ} (hx : Lattice g x) (hy : Lattice h y) : Lattice (g + h) (x * y) := by
  obtain ⟨n, rfl⟩ := hx
  obtain ⟨m, rfl⟩ := hy
  refine ⟨n * m, ?_⟩
  rw [zpow_add₀ two_ne_zero]
  push_cast
  ring

theorem Lattice.shift {g : ℤ} {x : ℝ} (hx : Lattice g x) (j : ℤ) : Lattice (g + j) ((2 : ℝ) ^ j * x) := by
  obtain ⟨n, rfl⟩ := hx
  refine ⟨n, ?_⟩
  rw [zpow_add₀ two_ne_zero]
  ring

theorem log_shift {x : ℝ} (hx : x ≠ 0) (j : ℤ) : Int.log 2 |(2 : ℝ) ^ j * x| = j + Int.log 2 |x| := by
  have h2 : (0 : ℝ) < 2 ^ j := zpow_pos two_pos j
  rw [abs_mul, abs_of_pos h2]
  have hp := abs_pos.mpr hx
  refine eq_of_forall_le_iff fun m => ?_
  rw [← Int.zpow_le_iff_le_log (R := ℝ) one_lt_two (mul_pos h2 hp)]
  have : m ≤ j + Int.log 2 |x| ↔ m - j ≤ Int.log 2 |x| := by omega
  rw [this, ← Int.zpow_le_iff_le_log (R := ℝ) one_lt_two hp]
  push_cast
  rw [zpow_sub₀ two_ne_zero, div_le_iff₀ h2, mul_comm]

theorem le_log_of {x : ℝ} {g : ℤ} (h : (2 : ℝ) ^ g ≤ |x|) : g ≤ Int.log 2 |x| := by
  rw [← Int.zpow_le_iff_le_log (R := ℝ) one_lt_two ((zpow_pos two_pos g).trans_le h)]
  exact_mod_cast h

/-- Rounding commutes with multiplication by a power of two unless a result is subnormal. -/
theorem rne_shift_normal {x : ℝ} (j : ℤ) (h : (2 : ℝ) ^ (-1022 : ℤ) ≤ |x|) (h' : (2 : ℝ) ^ (-1022 : ℤ) ≤ |(2 : ℝ) ^ j * x|) :
    rne ((2 : ℝ) ^ j * x) = (2 : ℝ) ^ j * rne x := by
  have hx : x ≠ 0 := by
    rintro rfl
    rw [abs_zero] at h
    exact absurd h (not_le.mpr (zpow_pos two_pos _))
  have l1 := le_log_of h
  have l2 := le_log_of h'
  have h2 : (2 : ℝ) ^ j ≠ 0 := (zpow_pos two_pos j).ne'
  have hu : ulp ((2 : ℝ) ^ j * x) = (2 : ℝ) ^ j * ulp x := by
    unfold ulp
    rw [max_eq_left l1, max_eq_left l2, log_shift hx, ← zpow_add₀ two_ne_zero]
    congr 1
    ring
  unfold rne
  rw [hu, mul_div_mul_left _ _ h2]
  ring

theorem isDouble_grid {x : ℝ} {g : ℤ} (hg : -1074 ≤ g) (h : Lattice g x) (hx : |x| < (2 : ℝ) ^ (-1022 : ℤ)) (j : ℤ) (hj : -1074 ≤ g + j) :
    IsDouble ((2 : ℝ) ^ j * x) := by
  obtain ⟨n, rfl⟩ := h
  refine ⟨n, g + j, ?_, hj, by rw [zpow_add₀ two_ne_zero]; ring⟩
  rw [abs_mul, abs_of_pos (zpow_pos (two_pos (α := ℝ)) g)] at hx
  have : |(n : ℝ)| < (2 : ℝ) ^ (-1022 - g) := by
    rw [zpow_sub₀ two_ne_zero, lt_div_iff₀ (zpow_pos two_pos g)]
    exact hx
  have h52 : |(n : ℝ)| < (2 : ℝ) ^ (53 : ℤ) := this.trans_le (zpow_le_zpow_right₀ one_le_two (by omega))
  have : |(n : ℝ)| < 2 ^ 53 := by exact_mod_cast h52
  exact_mod_cast this.le

/-- Rounding commutes with multiplication by a power of two on a grid that is not too fine. -/
theorem rne_shift {x : ℝ} {g : ℤ} (j : ℤ) (h : Lattice g x) (hg : -1074 ≤ g) (hj : -1074 ≤ g + j) :
    rne ((2 : ℝ) ^ j * x) = (2 : ℝ) ^ j * rne x := by
  by_cases h1 : (2 : ℝ) ^ (-1022 : ℤ) ≤ |x|
  · by_cases h2 : (2 : ℝ) ^ (-1022 : ℤ) ≤ |(2 : ℝ) ^ j * x|
    · exact rne_shift_normal j h1 h2
    · have d1 := isDouble_grid hj (h.shift j) (not_le.mp h2) 0 (by omega)
      have d2 := isDouble_grid hj (h.shift j) (not_le.mp h2) (-j) (by omega)
      rw [zpow_zero, one_mul] at d1
      rw [← mul_assoc, ← zpow_add₀ two_ne_zero, neg_add_cancel, zpow_zero, one_mul] at d2
      rw [rne_of_isDouble d1, rne_of_isDouble d2]
  · have d1 := isDouble_grid hg h (not_le.mp h1) 0 (by omega)
    have d2 := isDouble_grid hg h (not_le.mp h1) j hj
    rw [zpow_zero, one_mul] at d1
    rw [rne_of_isDouble d1, rne_of_isDouble d2]

theorem lattice_rne {x : ℝ} {g : ℤ} (h : Lattice g x) (hg : -1074 ≤ g) : Lattice g (rne x) := by
  by_cases hu : g ≤ expo x - 52
  · have : Lattice (expo x - 52) (rne x) := ⟨roundEven (x / ulp x), by rw [mul_comm]; rfl⟩
    exact this.mono hu
  · have : IsDouble x := by
      obtain ⟨n, rfl⟩ := h
      refine ⟨n, g, ?_, hg, rfl⟩
      have := lt_two_pow_expo ((n : ℝ) * 2 ^ g)
      rw [abs_mul, abs_of_pos (zpow_pos (two_pos (α := ℝ)) g), ← lt_div_iff₀ (zpow_pos two_pos g), ← zpow_sub₀ two_ne_zero] at this
      have h52 : |(n : ℝ)| < (2 : ℝ) ^ (53 : ℤ) := this.trans_le (zpow_le_zpow_right₀ one_le_two (by omega))
      have : |(n : ℝ)| < 2 ^ 53 := by exact_mod_cast h52
      exact_mod_cast this.le
    rw [rne_of_isDouble this]
    exact h

/-- A number that is 0 or at least `2 ^ g` is rounded to a multiple of `2 ^ (g - 52)`. -/
theorem lattice_rne_of_le {x : ℝ} {g : ℤ} (h : x = 0 ∨ (2 : ℝ) ^ g ≤ |x|) : Lattice (g - 52) (rne x) := by
  rcases h with rfl | h
  · exact ⟨0, by rw [rne_zero]; simp⟩
  · have l1 := le_log_of h
    have : Lattice (expo x - 52) (rne x) := ⟨roundEven (x / ulp x), by rw [mul_comm]; rfl⟩
    refine this.mono ?_
    have := le_max_left (Int.log 2 |x|) (-1022)
    unfold expo
    omega

/-- `b` is `a` in a unit of length `2 ^ k` times smaller, for a quantity of dimension `d`; `a` is a multiple of `2 ^ g`. -/
structure Scaled (k d g : ℤ) (a b : FP double) : Prop where
  val : b.val = (2 : ℝ) ^ (d * k) * a.val
  grid : Lattice g a.val
  lo : -1074 ≤ g
  lo' : -1074 ≤ g + d * k

namespace Scaled
variable {k d e g h : ℤ} {a b x y : FP double}

theorem mono (s : Scaled k d g a b) (hh : h ≤ g) (h1 : -1074 ≤ h) (h2 : -1074 ≤ h + d * k) : Scaled k d h a b := ⟨s.val, s.grid.mono hh, h1, h2⟩

theorem cast (s : Scaled k d g a b) (h1 : d = e) (h2 : g = h) : Scaled k e h a b := by subst h1 h2; exact s

theorem add (s : Scaled k d g a b) (t : Scaled k d g x y) : Scaled k d g (a + x) (b + y) := by
  refine ⟨?_, lattice_rne (s.grid.add t.grid) s.lo, s.lo, s.lo'⟩
  change rne (b.val + y.val) = _ * rne _
  rw [← rne_shift _ (s.grid.add t.grid) s.lo s.lo', s.val, t.val]
  congr 1; ring

theorem sub (s : Scaled k d g a b) (t : Scaled k d g x y) : Scaled k d g (a - x) (b - y) := by
  refine ⟨?_, lattice_rne (s.grid.sub t.grid) s.lo, s.lo, s.lo'⟩
  change rne (b.val - y.val) = _ * rne _
  rw [← rne_shift _ (s.grid.sub t.grid) s.lo s.lo', s.val, t.val]
  congr 1; ring

theorem mul (s : Scaled k d g a b) (t : Scaled k e h x y) (h1 : -1074 ≤ g + h) (h2 : -1074 ≤ g + h + (d * k + e * k)) :
    Scaled k (d + e) (g + h) (a * x) (b * y) := by
  rw [← add_mul] at h2
  refine ⟨?_, lattice_rne (s.grid.mul t.grid) h1, h1, h2⟩
  change rne (b.val * y.val) = _ * rne _
  rw [← rne_shift _ (s.grid.mul t.grid) h1 h2, s.val, t.val, add_mul, zpow_add₀ two_ne_zero]
  congr 1; ring

theorem neg (s : Scaled k d g a b) : Scaled k d g (-a) (-b) :=
  ⟨by rw [FP.neg_val, FP.neg_val, s.val]; ring, s.grid.neg, s.lo, s.lo'⟩

theorem sqrt (s : Scaled k (2 * d) (2 * g) a b) (h0 : 0 ≤ a.val) (h1 : -1022 ≤ g) (h2 : -1022 ≤ g + d * k) :
    Scaled k d (g - 52) (PyMath.sqrt a) (PyMath.sqrt b) := by
  have hp : (0 : ℝ) < 2 ^ (d * k) := zpow_pos two_pos _
  have hs : Real.sqrt b.val = (2 : ℝ) ^ (d * k) * Real.sqrt a.val := by
    rw [s.val, show 2 * d * k = d * k + d * k by ring, zpow_add₀ two_ne_zero, Real.sqrt_mul (mul_self_nonneg _), Real.sqrt_mul_self hp.le]
  have hc : Real.sqrt a.val = 0 ∨ (2 : ℝ) ^ g ≤ |Real.sqrt a.val| := by
    obtain ⟨n, hn⟩ := s.grid
    rcases eq_or_ne n 0 with rfl | hn0
    · left; rw [hn]; simp
    · right
      rw [abs_of_nonneg (Real.sqrt_nonneg _)]
      refine Real.le_sqrt_of_sq_le ?_
      have h1n : (1 : ℝ) ≤ n := by
        have : 0 < (n : ℝ) := by
          rcases lt_or_gt_of_ne hn0 with c | c
          · exfalso
            have : (n : ℝ) < 0 := by exact_mod_cast c
            have := mul_neg_of_neg_of_pos this (zpow_pos (two_pos (α := ℝ)) (2 * g))
            linarith
          · exact_mod_cast c
        exact_mod_cast this
      rw [hn, pow_two, ← zpow_add₀ two_ne_zero, ← two_mul]
      exact le_mul_of_one_le_left (zpow_pos two_pos _).le h1n
  refine ⟨?_, lattice_rne_of_le hc, by omega, by omega⟩
  change rne (Real.sqrt b.val) = _ * rne (Real.sqrt a.val)
  rw [hs]
  rcases hc with hc | hc
  · rw [hc, mul_zero, rne_zero, mul_zero]
  · refine rne_shift_normal _ ((zpow_le_zpow_right₀ one_le_two h1).trans hc) ?_
    rw [abs_mul, abs_of_pos hp]
    refine (zpow_le_zpow_right₀ one_le_two (show -1022 ≤ d * k + g by omega)).trans ?_
    rw [zpow_add₀ two_ne_zero]
    exact mul_le_mul_of_nonneg_left hc hp.le

theorem lt (s : Scaled k d g a b) (t : Scaled k d h x y) : a < x ↔ b < y := by
  rw [FP.lt_def, FP.lt_def, s.val, t.val]
  exact (mul_lt_mul_iff_right₀ (zpow_pos two_pos _)).symm

theorem le (s : Scaled k d g a b) (t : Scaled k d h x y) : a ≤ x ↔ b ≤ y := by
  rw [FP.le_def, FP.le_def, s.val, t.val]
  exact (mul_le_mul_iff_right₀ (zpow_pos two_pos _)).symm

theorem beq (s : Scaled k d g a b) (t : Scaled k d h x y) : (a == x) = (b == y) := by
  change decide (a.val = x.val) = decide (b.val = y.val)
  rw [s.val, t.val]
  exact decide_eq_decide.mpr (mul_right_inj' (zpow_pos two_pos _).ne').symm

theorem zero (h1 : -1074 ≤ g) (h2 : -1074 ≤ g + d * k) : Scaled k d g (num 0) (num 0) := by
  have e : (num 0 : FP double).val = 0 := (double.int 0 (by norm_num)).trans (by norm_num)
  exact ⟨by rw [e, mul_zero], ⟨0, by rw [e]; simp⟩, h1, h2⟩

theorem const (c : FP double) (hg : Lattice g c.val) (h1 : -1074 ≤ g) : Scaled k 0 g c c := ⟨by simp, hg, h1, by omega⟩

theorem ite {p q : Prop} [Decidable p] [Decidable q] (hpq : p ↔ q) (s : Scaled k d g a b) (t : Scaled k d g x y) :
    Scaled k d g (if p then a else x) (if q then b else y) := by
  by_cases c : p
  · rw [if_pos c, if_pos (hpq.mp c)]; exact s
  · rw [if_neg c, if_neg (fun c' => c (hpq.mpr c'))]; exact t

theorem fabs (s : Scaled k d g a b) : Scaled k d g (fabs a) (fabs b) := by
  unfold PyrusGeom.fabs
  exact ite (s.lt (zero s.lo s.lo')) s.neg s

end Scaled

/-- The same for the coordinates of a point. -/
structure VScaled (k g : ℤ) (v w : Vec (FP double)) : Prop where
  x : Scaled k 1 g v.x w.x
  y : Scaled k 1 g v.y w.y
  valid : w.valid = v.valid

namespace VScaled
variable {k g : ℤ} {a b c p a' b' c' p' : Vec (FP double)}

theorem ofXY {x y x' y' : FP double} (h : Scaled k 1 g x x') (h' : Scaled k 1 g y y') : VScaled k g (Vec.ofXY x y) (Vec.ofXY x' y') := ⟨h, h', rfl⟩
theorem ofVec (h : VScaled k g a a') : VScaled k g (Vec.ofVec a) (Vec.ofVec a') := ⟨h.x, h.y, rfl⟩
theorem add (h : VScaled k g a a') (h' : VScaled k g b b') : VScaled k g (a.add b) (a'.add b') := ⟨h.x.add h'.x, h.y.add h'.y, rfl⟩
theorem sub (h : VScaled k g a a') (h' : VScaled k g b b') : VScaled k g (a.sub b) (a'.sub b') := ⟨h.x.sub h'.x, h.y.sub h'.y, rfl⟩

theorem mono {j : ℤ} (h : VScaled k g a a') (hj : j ≤ g) (h1 : -1074 ≤ j) (h2 : -1074 ≤ j + k) : VScaled k j a a' :=
  ⟨h.x.mono hj h1 (by omega), h.y.mono hj h1 (by omega), h.valid⟩

theorem eq (h : VScaled k g a a') (h' : VScaled k g b b') : a.eq b = a'.eq b' := by
  unfold Vec.eq; rw [h.x.beq h'.x, h.y.beq h'.y]

variable (h1 : -537 ≤ g) (h2 : -537 ≤ g + k)
include h1 h2

theorem inner (h : VScaled k g a a') (h' : VScaled k g b b') : Scaled k 2 (2 * g) (a.innerProduct b) (a'.innerProduct b') :=
  ((h.x.mul h'.x (by omega) (by omega)).add (h.y.mul h'.y (by omega) (by omega))).cast (by norm_num) (by ring)

theorem outer (h : VScaled k g a a') (h' : VScaled k g b b') : Scaled k 2 (2 * g) (a.outerProduct b) (a'.outerProduct b') :=
  ((h.x.mul h'.y (by omega) (by omega)).sub (h.y.mul h'.x (by omega) (by omega))).cast (by norm_num) (by ring)

theorem r2 (h : VScaled k g a a') : Scaled k 2 (2 * g) a.r2 a'.r2 :=
  ((h.x.mul h.x (by omega) (by omega)).add (h.y.mul h.y (by omega) (by omega))).cast (by norm_num) (by ring)

theorem dist2 (h : VScaled k g a a') (h' : VScaled k g b b') : Scaled k 2 (2 * g) (a.dist2 b) (a'.dist2 b') :=
  (((h.x.sub h'.x).mul (h.x.sub h'.x) (by omega) (by omega)).add ((h.y.sub h'.y).mul (h.y.sub h'.y) (by omega) (by omega))).cast
    (by norm_num) (by ring)

theorem dsa (ha : VScaled k g a a') (hb : VScaled k g b b') (hc : VScaled k g c c') : Scaled k 2 (2 * g) (Tri.dsa a b c) (Tri.dsa a' b' c') :=
  (((ha.x.sub hc.x).mul (hb.y.sub hc.y) (by omega) (by omega)).add ((hb.x.sub hc.x).mul (hc.y.sub ha.y) (by omega) (by omega))).cast
    (by norm_num) (by ring)

end VScaled

theorem FP.num_val (n : ℕ) (h : n ≤ 360) : (num n : FP double).val = n := double.int n h

theorem half_val : (num 1 / num 2 : FP double).val = 1 / 2 := by
  change rne ((num 1 : FP double).val / (num 2 : FP double).val) = 1 / 2
  rw [FP.num_val 1 (by norm_num), FP.num_val 2 (by norm_num)]
  refine (rne_of_isDouble ⟨1, -1, by norm_num, by norm_num, by norm_num⟩).trans (by norm_num)

theorem Scaled.half {k d g : ℤ} {a b : FP double} (s : Scaled k d g a b) (h1 : -1073 ≤ g) (h2 : -1073 ≤ g + d * k) :
    Scaled k d (g - 1) (a * (num 1 / num 2)) (b * (num 1 / num 2)) :=
  (s.mul (Scaled.const (g := -1) (num 1 / num 2) ⟨1, by rw [half_val]; norm_num⟩ (by norm_num)) (by omega) (by omega)).cast (by ring) (by ring)

/-! ## Shapes -/

/-- A number multiplied by a power of two. -/
noncomputable def FP.shift (j : ℤ) (a : FP double) : FP double := ⟨(2 : ℝ) ^ j * a.val⟩

/-- The point with coordinates multiplied by `2 ^ k`. -/
noncomputable def Vec.shift (k : ℤ) (v : Vec (FP double)) : Vec (FP double) := ⟨v.x.shift k, v.y.shift k, v.valid⟩
noncomputable def Seg.shift (k : ℤ) (s : Seg (FP double)) : Seg (FP double) := ⟨s.origin.shift k, s.terminal.shift k⟩
noncomputable def Tri.shift (k : ℤ) (t : Tri (FP double)) : Tri (FP double) := ⟨t.a.shift k, t.b.shift k, t.c.shift k⟩
noncomputable def Circle.shift (k : ℤ) (c : Circle (FP double)) : Circle (FP double) := ⟨c.center.shift k, c.radius.shift k⟩
noncomputable def Rect.shift (k : ℤ) (r : Rect (FP double)) : Rect (FP double) :=
  ⟨r.topLeft.shift k, ⟨r.size.length.shift k, r.size.width.shift k⟩⟩
noncomputable def Poly.shift (k : ℤ) (p : Poly (FP double)) : Poly (FP double) := ⟨p.vertices.map (Vec.shift k)⟩

/-- A number far from underflow: it is a multiple of `2 ^ (-200)` before and after multiplication by `2 ^ k`. Every double that
is 0 or at least `2 ^ (-148)` in absolute value is a multiple of `2 ^ (-200)`. -/
def Spec.Coarse (k : ℤ) (a : FP double) : Prop := (∃ n : ℤ, a.val = n * (2 : ℝ) ^ (-200 : ℤ)) ∧ ∃ n : ℤ, (2 : ℝ) ^ k * a.val = n * (2 : ℝ) ^ (-200 : ℤ)

def Spec.CoarseVec (k : ℤ) (v : Vec (FP double)) : Prop := Spec.Coarse k v.x ∧ Spec.Coarse k v.y

/-- The grid used in the proofs. -/
def scaleGrid (k : ℤ) : ℤ := max (-200) (-200 - k)

theorem scaleGrid_le (k : ℤ) : -200 ≤ scaleGrid k ∧ -200 ≤ scaleGrid k + k := by
  unfold scaleGrid
  omega

theorem Spec.Coarse.scaled {k : ℤ} {a : FP double} (h : Spec.Coarse k a) : Scaled k 1 (scaleGrid k) a (a.shift k) := by
  have hl := scaleGrid_le k
  refine ⟨by rw [one_mul]; rfl, ?_, by omega, by omega⟩
  unfold scaleGrid
  rcases max_choice (-200) (-200 - k) with c | c
  · rw [c]; exact h.1
  · rw [c]
    have : Lattice (-200 + -k) ((2 : ℝ) ^ (-k) * ((2 : ℝ) ^ k * a.val)) := Lattice.shift h.2 (-k)
    rw [← mul_assoc, ← zpow_add₀ two_ne_zero, neg_add_cancel, zpow_zero, one_mul] at this
    exact this

theorem Spec.CoarseVec.scaled {k : ℤ} {v : Vec (FP double)} (h : Spec.CoarseVec k v) : VScaled k (scaleGrid k) v (v.shift k) :=
  ⟨h.1.scaled, h.2.scaled, rfl⟩

theorem Scaled.eq_shift {k d g : ℤ} {a b : FP double} (s : Scaled k d g a b) : b = a.shift (d * k) := FP.ext s.val

theorem VScaled.eq_shift {k g : ℤ} {a b : Vec (FP double)} (s : VScaled k g a b) : b = a.shift k := by
  have h1 := s.x.eq_shift
  have h2 := s.y.eq_shift
  rw [one_mul] at h1 h2
  obtain ⟨x, y, v⟩ := b
  exact congr (congrArg₂ Vec.mk h1 h2) s.valid

theorem fp_r2_nonneg' (v : Vec (FP double)) : 0 ≤ v.r2.val := by
  have h : ∀ x : FP double, 0 ≤ (x * x).val := fun x => rne_nonneg (mul_self_nonneg _)
  exact rne_nonneg (add_nonneg (h _) (h _))

theorem fp_dist2_nonneg' (v w : Vec (FP double)) : 0 ≤ (v.dist2 w).val := by
  have h : ∀ x : FP double, 0 ≤ (x * x).val := fun x => rne_nonneg (mul_self_nonneg _)
  exact rne_nonneg (add_nonneg (h _) (h _))

section
variable {k g : ℤ}

theorem scale_r {a a' : Vec (FP double)} (h : VScaled k g a a') (h1 : -537 ≤ g) (h2 : -537 ≤ g + k) : Scaled k 1 (g - 52) a.r a'.r :=
  Scaled.sqrt ((h.r2 h1 h2).cast (by norm_num) rfl) (fp_r2_nonneg' a) (by omega) (by omega)

theorem scale_dist {a a' b b' : Vec (FP double)} (h : VScaled k g a a') (h' : VScaled k g b b') (h1 : -537 ≤ g) (h2 : -537 ≤ g + k) :
    Scaled k 1 (g - 52) (a.dist b) (a'.dist b') :=
  Scaled.sqrt ((h.dist2 h1 h2 h').cast (by norm_num) rfl) (fp_dist2_nonneg' a b) (by omega) (by omega)

theorem decide_iff {p q : Prop} [Decidable p] [Decidable q] (h : p ↔ q) : decide p = decide q := decide_eq_decide.mpr h

theorem scale_triContains {a b c p a' b' c' p' : Vec (FP double)} (ha : VScaled k g a a') (hb : VScaled k g b b') (hc : VScaled k g c c')
    (hp : VScaled k g p p') (h1 : -537 ≤ g) (h2 : -537 ≤ g + k) : Tri.triContains a b c p = Tri.triContains a' b' c' p' := by
  unfold Tri.triContains
  have z : Scaled k 2 (2 * g) (num 0) (num 0) := Scaled.zero (by omega) (by omega)
  have o1 := ((ha.sub hp).ofVec).outer h1 h2 (hb.sub hp).ofVec
  have o2 := ((hb.sub hp).ofVec).outer h1 h2 (hc.sub hp).ofVec
  have o3 := ((hc.sub hp).ofVec).outer h1 h2 (ha.sub hp).ofVec
  dsimp only
  rw [decide_iff (z.le o1), decide_iff (z.le o2), decide_iff (z.le o3), decide_iff (o1.le z), decide_iff (o2.le z), decide_iff (o3.le z)]

/-- Segments. -/
structure SScaled (k g : ℤ) (s t : Seg (FP double)) : Prop where
  o : VScaled k g s.origin t.origin
  t : VScaled k g s.terminal t.terminal

variable {s s' o o' : Seg (FP double)} {p p' : Vec (FP double)}

theorem scale_check (h : SScaled k g s s') (hp : VScaled k g p p') : s.checkIntersectsOnLine p = s'.checkIntersectsOnLine p' := by
  unfold Seg.checkIntersectsOnLine
  rw [h.o.x.beq h.t.x, decide_iff (h.o.y.le hp.y), decide_iff (h.o.x.le hp.x), decide_iff (h.t.y.le hp.y), decide_iff (h.t.x.le hp.x),
    decide_iff (hp.y.le h.t.y), decide_iff (hp.y.le h.o.y), decide_iff (hp.x.le h.t.x), decide_iff (hp.x.le h.o.x)]

theorem scale_onSegment (h : SScaled k g s s') (hp : VScaled k g p p') (h1 : -537 ≤ g) (h2 : -537 ≤ g + k) :
    s.onSegment p = s'.onSegment p' := by
  unfold Seg.onSegment
  rw [scale_check h hp, (h.o.dsa h1 h2 h.t hp).beq (Scaled.zero (g := 2 * g) (by omega) (by omega))]

theorem scale_exist (h : SScaled k g s s') (h' : SScaled k g o o') (h1 : -268 ≤ g) (h2 : -268 ≤ g + k) :
    s.existIntersection o = s'.existIntersection o' := by
  have a0 := h.o.dsa (by omega) (by omega) h.t h'.o
  have a1 := h.o.dsa (by omega) (by omega) h.t h'.t
  have b0 := h'.o.dsa (by omega) (by omega) h'.t h.o
  have b1 := h'.o.dsa (by omega) (by omega) h'.t h.t
  have z2 : Scaled k 2 (2 * g) (num 0) (num 0) := Scaled.zero (by omega) (by omega)
  have z4 : Scaled k (2 + 2) (2 * g + 2 * g) (num 0) (num 0) := Scaled.zero (by omega) (by omega)
  have m1 := (a0.mul a1 (by omega) (by omega)).lt z4
  have m2 := (b0.mul b1 (by omega) (by omega)).lt z4
  unfold Seg.existIntersection
  dsimp only
  rw [h.o.eq h.t, h'.o.eq h'.t, h.o.eq h'.o, a0.beq z2, a1.beq z2, b0.beq z2, b1.beq z2, scale_check h h'.o, scale_check h h'.t,
    scale_check h' h.o, scale_check h' h.t]
  simp only [m1, m2]

theorem scale_except (h : SScaled k g s s') (h' : SScaled k g o o') (h1 : -268 ≤ g) (h2 : -268 ≤ g + k) :
    s.existIntersectionExceptEndpoint o = s'.existIntersectionExceptEndpoint o' := by
  have a0 := h.o.dsa (by omega) (by omega) h.t h'.o
  have a1 := h.o.dsa (by omega) (by omega) h.t h'.t
  have b0 := h'.o.dsa (by omega) (by omega) h'.t h.o
  have b1 := h'.o.dsa (by omega) (by omega) h'.t h.t
  have z4 : Scaled k (2 + 2) (2 * g + 2 * g) (num 0) (num 0) := Scaled.zero (by omega) (by omega)
  unfold Seg.existIntersectionExceptEndpoint
  rw [decide_iff ((a0.mul a1 (by omega) (by omega)).lt z4), decide_iff ((b0.mul b1 (by omega) (by omega)).lt z4)]

/-- Rectangles. -/
structure RScaled (k g : ℤ) (r t : Rect (FP double)) : Prop where
  tl : VScaled k g r.topLeft t.topLeft
  len : Scaled k 1 g r.size.length t.size.length
  wid : Scaled k 1 g r.size.width t.size.width

namespace RScaled
variable {r r' : Rect (FP double)}

theorem left (h : RScaled k g r r') : Scaled k 1 g r.left r'.left := h.tl.x
theorem top (h : RScaled k g r r') : Scaled k 1 g r.top r'.top := h.tl.y
theorem right (h : RScaled k g r r') : Scaled k 1 g r.right r'.right := h.tl.x.add h.len
theorem bottom (h : RScaled k g r r') : Scaled k 1 g r.bottom r'.bottom := h.tl.y.add h.wid

theorem contains (h : RScaled k g r r') (hp : VScaled k g p p') : r.contains p = r'.contains p' := by
  unfold Rect.contains
  rw [decide_iff (h.left.le hp.x), decide_iff (hp.x.le h.right), decide_iff (h.top.le hp.y), decide_iff (hp.y.le h.bottom)]

theorem eq_shift (h : RScaled k g r r') : r' = r.shift k := by
  have h1 := h.tl.eq_shift
  have h2 := h.len.eq_shift
  have h3 := h.wid.eq_shift
  rw [one_mul] at h2 h3
  obtain ⟨tl, ⟨l, w⟩⟩ := r'
  exact congrArg₂ Rect.mk h1 (congrArg₂ Size.mk h2 h3)

end RScaled

open Poly in
theorem scale_updMin {m m' : Option (FP double)} (hm : Option.Rel (Scaled k 1 g) m m') {v v' : FP double} (hv : Scaled k 1 g v v') :
    Option.Rel (Scaled k 1 g) (updMin m v) (updMin m' v') := by
  cases hm with
  | none => exact .some hv
  | some hm =>
    rename_i a b
    unfold updMin
    dsimp only
    by_cases c : v < a
    · rw [if_pos c, if_pos ((hv.lt hm).mp c)]; exact .some hv
    · rw [if_neg c, if_neg (fun c' => c ((hv.lt hm).mpr c'))]; exact .some hm

open Poly in
theorem scale_updMax {m m' : Option (FP double)} (hm : Option.Rel (Scaled k 1 g) m m') {v v' : FP double} (hv : Scaled k 1 g v v') :
    Option.Rel (Scaled k 1 g) (updMax m v) (updMax m' v') := by
  cases hm with
  | none => exact .some hv
  | some hm =>
    rename_i a b
    unfold updMax
    dsimp only
    by_cases c : a < v
    · rw [if_pos c, if_pos ((hm.lt hv).mp c)]; exact .some hv
    · rw [if_neg c, if_neg (fun c' => c ((hm.lt hv).mpr c'))]; exact .some hm

/-- Running bounds. -/
structure BScaled (k g : ℤ) (b c : Poly.Bounds (FP double)) : Prop where
  x0 : Option.Rel (Scaled k 1 g) b.xMin c.xMin
  x1 : Option.Rel (Scaled k 1 g) b.xMax c.xMax
  y0 : Option.Rel (Scaled k 1 g) b.yMin c.yMin
  y1 : Option.Rel (Scaled k 1 g) b.yMax c.yMax

theorem scale_bounds : ∀ (vs : List (Vec (FP double))), (∀ v ∈ vs, VScaled k g v (v.shift k)) → ∀ {b c : Poly.Bounds (FP double)}, BScaled k g b c →
    BScaled k g (vs.foldl Poly.boundsStep b) ((vs.map (Vec.shift k)).foldl Poly.boundsStep c)
  | [], _, _, _, h => h
  | v :: vs, hv, b, c, h => by
    rw [List.map_cons, List.foldl_cons, List.foldl_cons]
    have hv0 := hv v List.mem_cons_self
    exact scale_bounds vs (fun w hw => hv w (List.mem_cons_of_mem _ hw))
      ⟨scale_updMin h.x0 hv0.x, scale_updMax h.x1 hv0.x, scale_updMin h.y0 hv0.y, scale_updMax h.y1 hv0.y⟩

theorem scale_box (q : Poly (FP double)) (hq : ∀ v ∈ q.vertices, VScaled k g v (v.shift k)) :
    (∃ e, q.boundingBox = .error e ∧ (q.shift k).boundingBox = .error e) ∨
    ∃ r r', q.boundingBox = .ok r ∧ (q.shift k).boundingBox = .ok r' ∧ RScaled k g r r' := by
  obtain ⟨vs⟩ := q
  cases vs with
  | nil => exact .inl ⟨_, rfl, rfl⟩
  | cons v vs =>
    have := scale_bounds (v :: vs) hq (b := {}) (c := {}) ⟨.none, .none, .none, .none⟩
    unfold Poly.boundingBox Poly.shift
    rw [List.map_cons] at this ⊢
    dsimp only
    revert this
    generalize (v :: vs).foldl Poly.boundsStep {} = b
    generalize (Vec.shift k v :: vs.map (Vec.shift k)).foldl Poly.boundsStep {} = c
    rintro ⟨a0, a1, a2, a3⟩
    obtain ⟨bx0, bx1, by0, by1⟩ := b
    obtain ⟨cx0, cx1, cy0, cy1⟩ := c
    dsimp only at a0 a1 a2 a3
    cases a0 with
    | none => exact .inl ⟨_, rfl, rfl⟩
    | some a0 => cases a1 with
      | none => exact .inl ⟨_, rfl, rfl⟩
      | some a1 => cases a2 with
        | none => exact .inl ⟨_, rfl, rfl⟩
        | some a2 => cases a3 with
          | none => exact .inl ⟨_, rfl, rfl⟩
          | some a3 => exact .inr ⟨_, _, rfl, rfl, ⟨a0, a2, rfl⟩, (a1.sub a0).fabs, (a3.sub a2).fabs⟩

theorem cyclicPairs_mapf {α β : Type} (f : α → β) (l : List α) : cyclicPairs (l.map f) = (cyclicPairs l).map (Prod.map f f) := by
  cases l with
  | nil => rfl
  | cons a t =>
    change ((a :: t).map f).zip (t.map f ++ [f a]) = _
    rw [show t.map f ++ [f a] = (t ++ [a]).map f by simp, List.zip_map]
    rfl

theorem mem_cyclic {α : Type} {l : List α} {e : α × α} (h : e ∈ cyclicPairs l) : e.1 ∈ l ∧ e.2 ∈ l := by
  cases l with
  | nil => cases h
  | cons a t =>
    have := List.of_mem_zip (show (e.1, e.2) ∈ (a :: t).zip (t ++ [a]) from h)
    refine ⟨this.1, ?_⟩
    have h2 := this.2
    rw [List.mem_append, List.mem_singleton] at h2
    rcases h2 with h2 | h2
    · exact List.mem_cons_of_mem _ h2
    · rw [h2]; exact List.mem_cons_self

theorem scale_dsa (q : Poly (FP double)) (hq : ∀ v ∈ q.vertices, VScaled k g v (v.shift k)) (h1 : -537 ≤ g) (h2 : -537 ≤ g + k) :
    Scaled k 2 (2 * g) q.doubleSignedArea (q.shift k).doubleSignedArea := by
  have z : Scaled k 2 (2 * g) (num 0) (num 0) := Scaled.zero (by omega) (by omega)
  have loop : ∀ (E : List (Vec (FP double) × Vec (FP double))), (∀ e ∈ E, VScaled k g e.1 (e.1.shift k) ∧ VScaled k g e.2 (e.2.shift k)) →
      ∀ {a b : FP double}, Scaled k 2 (2 * g) a b → Scaled k 2 (2 * g) (E.foldl (fun acc e => acc + (e.1.x * e.2.y - e.2.x * e.1.y)) a)
        ((E.map (Prod.map (Vec.shift k) (Vec.shift k))).foldl (fun acc e => acc + (e.1.x * e.2.y - e.2.x * e.1.y)) b) := by
    intro E
    induction E with
    | nil => exact fun _ _ _ h => h
    | cons e E ih =>
      intro hE a b hab
      rw [List.map_cons, List.foldl_cons, List.foldl_cons]
      obtain ⟨e1, e2⟩ := hE e List.mem_cons_self
      refine ih (fun e he => hE e (List.mem_cons_of_mem _ he)) (hab.add ?_)
      exact ((e1.x.mul e2.y (by omega) (by omega)).sub (e2.x.mul e1.y (by omega) (by omega))).cast (by norm_num) (by ring)
  unfold Poly.doubleSignedArea Poly.shift
  rw [List.length_map, cyclicPairs_mapf]
  refine Scaled.ite Iff.rfl z (loop _ (fun e he => ?_) z)
  exact ⟨hq _ (mem_cyclic he).1, hq _ (mem_cyclic he).2⟩

theorem scale_containsLoop {line line' : Seg (FP double)} (hl : SScaled k g line line') (hp : VScaled k g p p') (h1 : -268 ≤ g) (h2 : -268 ≤ g + k)
    (allow : Bool) : ∀ (E : List (Vec (FP double) × Vec (FP double))), (∀ e ∈ E, VScaled k g e.1 (e.1.shift k) ∧ VScaled k g e.2 (e.2.shift k)) →
      ∀ inside, Poly.containsLoop p allow line E inside =
        Poly.containsLoop p' allow line' (E.map (Prod.map (Vec.shift k) (Vec.shift k))) inside
  | [], _, _ => rfl
  | (a, b) :: E, hE, inside => by
    obtain ⟨ha, hb⟩ := hE (a, b) List.mem_cons_self
    have ih := scale_containsLoop hl hp h1 h2 allow E (fun e he => hE e (List.mem_cons_of_mem _ he))
    have hs : SScaled k g (Seg.ofPoints a b) (Seg.ofPoints (a.shift k) (b.shift k)) := ⟨ha.ofVec, hb.ofVec⟩
    rw [List.map_cons]
    unfold Poly.containsLoop
    dsimp only [Prod.map]
    rw [scale_onSegment hs hp (by omega) (by omega), hp.eq ha, scale_exist hl hs h1 h2, ha.y.beq hp.y, hb.y.beq hp.y, ha.y.beq hb.y,
      decide_iff (ha.y.lt hp.y), decide_iff (hb.y.lt hp.y), ih, ih]

theorem scale_contains (q : Poly (FP double)) (hq : ∀ v ∈ q.vertices, VScaled k g v (v.shift k)) (hp : VScaled k g p p')
    (h1 : -216 ≤ g) (h2 : -216 ≤ g + k) (allow : Bool) : q.contains p allow = (q.shift k).contains p' allow := by
  have hb := scale_box q hq
  obtain ⟨vs⟩ := q
  match vs, hq, hb with
  | [], _, _ => rfl
  | [v], hq, _ =>
    have := (hq v (by simp)).eq hp
    exact congrArg (allow && ·) this
  | v0 :: v1 :: vs, hq, hb =>
    unfold Poly.contains
    simp only [Poly.shift, List.map_cons]
    rcases hb with ⟨e, hb, hb'⟩ | ⟨r, r', hb, hb', hr⟩
    · unfold Poly.shift at hb'
      simp only [List.map_cons] at hb'
      rw [hb, hb']
    · unfold Poly.shift at hb'
      simp only [List.map_cons] at hb'
      rw [hb, hb']
      dsimp only
      rw [hr.contains hp]
      have m : ∀ {a b : FP double}, Scaled k 1 g a b → Scaled k 1 (g - 52) a b := fun s => s.mono (by omega) (by omega) (by omega)
      have mv : ∀ {a b : Vec (FP double)}, VScaled k g a b → VScaled k (g - 52) a b := fun s => s.mono (by omega) (by omega) (by omega)
      have hr1 := scale_r ((hq v0 (by simp)).sub hp) (by omega) (by omega)
      have three : Scaled k 0 0 (num 3 : FP double) (num 3) := Scaled.const _ ⟨3, by rw [FP.num_val 3 (by norm_num)]; norm_num⟩ (by norm_num)
      have hline : SScaled k (g - 52) (Poly.halfLine r v0 p) (Poly.halfLine r' (v0.shift k) p') := by
        refine ⟨(mv hp).ofVec, VScaled.ofVec (VScaled.ofXY ?_ (m hp.y))⟩
        refine (m hp.x).add ?_
        exact ((((m (((hr.right.sub hr.left).add hr.bottom).sub hr.top)).add hr1).mul three (by omega) (by omega))).cast (by norm_num) (by ring)
      have hE : ∀ e ∈ cyclicPairs (v0 :: v1 :: vs), VScaled k (g - 52) e.1 (e.1.shift k) ∧ VScaled k (g - 52) e.2 (e.2.shift k) :=
        fun e he => ⟨mv (hq _ (mem_cyclic he).1), mv (hq _ (mem_cyclic he).2)⟩
      have := scale_containsLoop hline (mv hp) (by omega) (by omega) allow _ hE false
      rw [this, ← cyclicPairs_mapf]
      rfl

end

/-! ## The claims -/

/-- **C192** Sums, differences, products, lengths, distances, areas, orientation and triangle containment in a unit of length
`2 ^ k` times smaller: the same numbers, multiplied by the power of `2 ^ k` that their dimension asks for, and the same answers,
bit for bit. -/
theorem C192_points (k : ℤ) (a b c p : Vec (FP double)) (ha : Spec.CoarseVec k a) (hb : Spec.CoarseVec k b) (hc : Spec.CoarseVec k c)
    (hp : Spec.CoarseVec k p) :
    (a.shift k).add (b.shift k) = (a.add b).shift k ∧ (a.shift k).sub (b.shift k) = (a.sub b).shift k ∧
    (a.shift k).r = a.r.shift k ∧ (a.shift k).dist (b.shift k) = (a.dist b).shift k ∧
    (a.shift k).innerProduct (b.shift k) = (a.innerProduct b).shift (2 * k) ∧
    (a.shift k).outerProduct (b.shift k) = (a.outerProduct b).shift (2 * k) ∧
    (a.shift k).dist2 (b.shift k) = (a.dist2 b).shift (2 * k) ∧
    Tri.signedArea (a.shift k) (b.shift k) (c.shift k) = (Tri.signedArea a b c).shift (2 * k) ∧
    (Tri.shift k ⟨a, b, c⟩).area = (⟨a, b, c⟩ : Tri (FP double)).area.shift (2 * k) ∧
    Tri.ccw (a.shift k) (b.shift k) (c.shift k) = Tri.ccw a b c ∧
    (Tri.shift k ⟨a, b, c⟩).contains (p.shift k) = (⟨a, b, c⟩ : Tri (FP double)).contains p := by
  have hg := scaleGrid_le k
  have a' := ha.scaled
  have b' := hb.scaled
  have c' := hc.scaled
  have p' := hp.scaled
  generalize scaleGrid k = g at *
  have one : ∀ {x y : FP double} {h : ℤ}, Scaled k 1 h x y → y = x.shift k := fun s => by have := s.eq_shift; rwa [one_mul] at this
  refine ⟨(a'.add b').eq_shift, (a'.sub b').eq_shift, one (scale_r a' (by omega) (by omega)), one (scale_dist a' b' (by omega) (by omega)),
    (a'.inner (by omega) (by omega) b').eq_shift, (a'.outer (by omega) (by omega) b').eq_shift, (a'.dist2 (by omega) (by omega) b').eq_shift,
    ((a'.dsa (by omega) (by omega) b' c').half (by omega) (by omega)).eq_shift,
    ((((b'.sub a').outer (by omega) (by omega) (c'.sub a')).fabs).half (by omega) (by omega)).eq_shift, ?_,
    (scale_triContains a' b' c' p' (by omega) (by omega)).symm⟩
  exact (decide_iff ((Scaled.zero (g := 2 * g) (by omega) (by omega)).lt (a'.dsa (by omega) (by omega) b' c'))).symm

/-- **C192** Segments, rectangles and circles in another unit of length. -/
theorem C192_shapes (k : ℤ) (s o : Seg (FP double)) (r : Rect (FP double)) (c : Circle (FP double)) (p : Vec (FP double))
    (hs : Spec.CoarseVec k s.origin ∧ Spec.CoarseVec k s.terminal) (ho : Spec.CoarseVec k o.origin ∧ Spec.CoarseVec k o.terminal)
    (hr : Spec.CoarseVec k r.topLeft ∧ Spec.Coarse k r.size.length ∧ Spec.Coarse k r.size.width)
    (hc : Spec.CoarseVec k c.center ∧ Spec.Coarse k c.radius) (hp : Spec.CoarseVec k p) :
    (s.shift k).length = s.length.shift k ∧ (s.shift k).existIntersection (o.shift k) = s.existIntersection o ∧
    (s.shift k).existIntersectionExceptEndpoint (o.shift k) = s.existIntersectionExceptEndpoint o ∧
    (s.shift k).onSegment (p.shift k) = s.onSegment p ∧
    (r.shift k).contains (p.shift k) = r.contains p ∧ (r.shift k).area = r.area.shift (2 * k) ∧
    (r.shift k).center = r.center.shift k ∧ (c.shift k).contains (p.shift k) = c.contains p := by
  have hg := scaleGrid_le k
  have s' : SScaled k (scaleGrid k) s (s.shift k) := ⟨hs.1.scaled, hs.2.scaled⟩
  have o' : SScaled k (scaleGrid k) o (o.shift k) := ⟨ho.1.scaled, ho.2.scaled⟩
  have r' : RScaled k (scaleGrid k) r (r.shift k) := ⟨hr.1.scaled, hr.2.1.scaled, hr.2.2.scaled⟩
  have c1 := hc.1.scaled
  have c2 := hc.2.scaled
  have p' := hp.scaled
  generalize scaleGrid k = g at *
  have one : ∀ {x y : FP double} {h : ℤ}, Scaled k 1 h x y → y = x.shift k := fun s => by have := s.eq_shift; rwa [one_mul] at this
  refine ⟨one (scale_dist s'.o s'.t (by omega) (by omega)), (scale_exist s' o' (by omega) (by omega)).symm,
    (scale_except s' o' (by omega) (by omega)).symm, (scale_onSegment s' p' (by omega) (by omega)).symm, (r'.contains p').symm,
    (r'.len.mul r'.wid (by omega) (by omega)).eq_shift, ?_, ?_⟩
  · exact (VScaled.ofXY ((r'.left.add r'.right).half (by omega) (by omega)) ((r'.top.add r'.bottom).half (by omega) (by omega))).eq_shift
  · exact (decide_iff ((c1.dist2 (by omega) (by omega) p').lt ((c2.mul c2 (by omega) (by omega)).cast (by norm_num) (by ring : _ = 2 * g)))).symm

/-- **C192** Area, orientation, bounding box and containment of a polygon in another unit of length. -/
theorem C192_polygon (k : ℤ) (q : Poly (FP double)) (hq : ∀ v ∈ q.vertices, Spec.CoarseVec k v) (p : Vec (FP double)) (hp : Spec.CoarseVec k p)
    (b : Bool) :
    (q.shift k).doubleSignedArea = q.doubleSignedArea.shift (2 * k) ∧ (q.shift k).area = q.area.shift (2 * k) ∧
    (q.shift k).isCounterClockwise = q.isCounterClockwise ∧ (q.shift k).isClockwise = q.isClockwise ∧
    (q.shift k).boundingBox = q.boundingBox.map (Rect.shift k) ∧ (q.shift k).contains (p.shift k) b = q.contains p b := by
  have hg := scaleGrid_le k
  have q' : ∀ v ∈ q.vertices, VScaled k (scaleGrid k) v (v.shift k) := fun v hv => (hq v hv).scaled
  have p' := hp.scaled
  generalize scaleGrid k = g at *
  have z : Scaled k 2 (2 * g) (num 0) (num 0) := Scaled.zero (by omega) (by omega)
  have d := scale_dsa q q' (by omega) (by omega)
  refine ⟨d.eq_shift, ((d.half (by omega) (by omega)).fabs).eq_shift, (decide_iff (z.lt d)).symm, (decide_iff (d.lt z)).symm, ?_,
    (scale_contains q q' p' (by omega) (by omega) b).symm⟩
  rcases scale_box q q' with ⟨e, h1, h2⟩ | ⟨r, r', h1, h2, h3⟩
  · rw [h1, h2]; rfl
  · rw [h1, h2, h3.eq_shift]; rfl

/-- The hypothesis of the claims holds for every double that is 0 or at least `2 ^ (-147)` before and after the change of unit. -/
theorem C192_coarse (k : ℤ) (a : FP double) (hd : IsDouble a.val)
    (h : a.val = 0 ∨ (2 : ℝ) ^ (-147 : ℤ) ≤ |a.val| ∧ (2 : ℝ) ^ (-147 : ℤ) ≤ |(2 : ℝ) ^ k * a.val|) : Spec.Coarse k a := by
  have key : ∀ (m e : ℤ), |m| ≤ 2 ^ 53 → (2 : ℝ) ^ (-147 : ℤ) ≤ |(m : ℝ) * (2 : ℝ) ^ e| → Lattice (-200) (m * (2 : ℝ) ^ e) := by
    intro m e hm h
    refine Lattice.mono (g := e) ⟨m, rfl⟩ ?_
    by_contra c
    push Not at c
    rw [abs_mul, abs_of_pos (zpow_pos (two_pos (α := ℝ)) e)] at h
    have h1 : (2 : ℝ) ^ e ≤ (2 : ℝ) ^ (-201 : ℤ) := zpow_le_zpow_right₀ (by norm_num) (by omega)
    have h2 : |(m : ℝ)| ≤ (2 : ℝ) ^ (53 : ℤ) := by
      have : ((|m| : ℤ) : ℝ) ≤ ((2 ^ 53 : ℤ) : ℝ) := Int.cast_le.mpr hm
      push_cast at this
      norm_num at this ⊢
      exact this
    have h3 := mul_le_mul h2 h1 (zpow_pos (two_pos (α := ℝ)) e).le (zpow_pos (two_pos (α := ℝ)) _).le
    rw [← zpow_add₀ two_ne_zero] at h3
    have h4 : (2 : ℝ) ^ (53 + -201 : ℤ) < (2 : ℝ) ^ (-147 : ℤ) := zpow_lt_zpow_right₀ (by norm_num) (by norm_num)
    exact absurd (h.trans h3) (not_le.mpr h4)
  rcases h with h | ⟨h1, h2⟩
  · exact ⟨⟨0, by rw [h]; simp⟩, ⟨0, by rw [h]; simp⟩⟩
  · obtain ⟨m, e, hm, _, hx⟩ := hd
    constructor
    · rw [hx] at h1 ⊢
      exact key m e hm h1
    · rw [hx, mul_left_comm, ← zpow_add₀ two_ne_zero] at h2 ⊢
      exact key m (k + e) hm h2

/-- Integers up to `2 ^ 53` in units of up to `2 ^ (-147)`. -/
theorem coarse_int {k : ℤ} (hk : -147 ≤ k) {n : ℕ} (hn : n ≤ 2 ^ 53) : Spec.Coarse k (⟨n⟩ : FP double) := by
  refine C192_coarse k _ (isDouble_nat hn) ?_
  rcases Nat.eq_zero_or_pos n with h | h
  · exact .inl (by simp [h])
  · have h1 : (1 : ℝ) ≤ n := Nat.one_le_cast.mpr h
    have h0 : (2 : ℝ) ^ (-147 : ℤ) ≤ 1 := zpow_le_one_of_nonpos₀ (by norm_num) (by norm_num)
    have hk' : (2 : ℝ) ^ (-147 : ℤ) ≤ (2 : ℝ) ^ k := zpow_le_zpow_right₀ (by norm_num) hk
    refine .inr ⟨by rw [abs_of_nonneg (by positivity)]; exact h0.trans h1, ?_⟩
    rw [abs_of_nonneg (by positivity)]
    exact hk'.trans (le_mul_of_one_le_right (by positivity) h1)

/-- A triangle with integer coordinates, measured in units of `2 ^ (-100)`: its rounded area and the containment test are the same. -/
example (p : Vec (FP double)) (hp : Spec.CoarseVec (-100) p) :
    let t : Tri (FP double) := ⟨⟨⟨0⟩, ⟨0⟩, true⟩, ⟨⟨(3 : ℕ)⟩, ⟨(1 : ℕ)⟩, true⟩, ⟨⟨(1 : ℕ)⟩, ⟨(2 : ℕ)⟩, true⟩⟩
    (t.shift (-100)).area = t.area.shift (-200) ∧ (t.shift (-100)).contains (p.shift (-100)) = t.contains p := by
  have c : ∀ n : ℕ, n ≤ 3 → Spec.Coarse (-100) (⟨n⟩ : FP double) := fun n hn => coarse_int (by norm_num) (by omega)
  have z : Spec.Coarse (-100) (⟨0⟩ : FP double) := by simpa using c 0 (by norm_num)
  have := C192_points (-100) ⟨⟨0⟩, ⟨0⟩, true⟩ ⟨⟨(3 : ℕ)⟩, ⟨(1 : ℕ)⟩, true⟩ ⟨⟨(1 : ℕ)⟩, ⟨(2 : ℕ)⟩, true⟩ p ⟨z, z⟩ ⟨c 3 (by norm_num), c 1 (by norm_num)⟩
    ⟨c 1 (by norm_num), c 2 (by norm_num)⟩ hp
  exact ⟨this.2.2.2.2.2.2.2.2.1, this.2.2.2.2.2.2.2.2.2.2⟩

end PyrusGeom
