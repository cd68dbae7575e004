import Verif.Props.FloatCenters
import Verif.Props.FloatSector
import Verif.Props.FloatClipPoly

/-! # C189: the incenter in double precision -/

namespace PyrusGeom
open Spec AngleDeg

section
variable [m : PyMath (FP double)]

/-- Adding two angles: the result is normal, and right up to one rounding and whole turns. -/
theorem Spec.Accurate.normal_round (h : Accurate m) (x : ℝ) (hx : |x| ≤ 400) :
    IsDouble (AngleDeg.normalDeg (⟨rne x⟩ : FP double)).val ∧ |(AngleDeg.normalDeg (⟨rne x⟩ : FP double)).val| ≤ 180 ∧
    ∃ k : ℤ, |(AngleDeg.normalDeg (⟨rne x⟩ : FP double)).val - x - 360 * k| ≤ (2 : ℝ) ^ (-44 : ℤ) := by
  have h1 := h.normalDeg (x := ⟨rne x⟩) (isDouble_rne x)
  rw [h1.1]
  obtain ⟨hn, ⟨k, hk⟩, -⟩ := normalDeg_spec (rne x)
  refine ⟨h1.2, abs_le.mpr ⟨hn.1, hn.2⟩, k, ?_⟩
  have e := rne_error_plain x
  have e2 : AngleDeg.normalDeg (rne x) - x - 360 * k = rne x - x := by linarith
  rw [e2]
  refine e.trans ?_
  norm_num at hx ⊢
  linarith

/-- **C189** `bisect` in double precision: half of the sum of the angles, up to half turns. -/
theorem Spec.Accurate.bisect_near (h : Accurate m) {a b : FP double} (ha : |a.val| ≤ 180) (hb : |b.val| ≤ 180) :
    |(bisect a b).deg.val| ≤ 180 ∧ ∃ k : ℤ, |(bisect a b).deg.val - (a.val + b.val) / 2 - 180 * k| ≤ (2 : ℝ) ^ (-42 : ℤ) := by
  have e1 : (num 1 : FP double).val = 1 := (double.int 1 (by norm_num)).trans (by norm_num)
  have e2 : (num 2 : FP double).val = 2 := (double.int 2 (by norm_num)).trans (by norm_num)
  have e180 : (num 180 : FP double).val = 180 := (double.int 180 (by norm_num)).trans (by norm_num)
  have eh : ((num 1 : FP double) / num 2).val = 1 / 2 := by
    rw [FP.div_val, e1, e2]
    exact rne_of_isDouble (by simpa using isDouble_pow (-1) (by norm_num))
  have na : ofNum a = ⟨a⟩ := by unfold ofNum; rw [fp_normalDeg_small _ ha]
  have nb : ofNum b = ⟨b⟩ := by unfold ofNum; rw [fp_normalDeg_small _ hb]
  obtain ⟨a1, a2⟩ := abs_le.mp ha
  obtain ⟨b1, b2⟩ := abs_le.mp hb
  obtain ⟨-, r2, j, hj⟩ := h.normal_round (b.val - a.val) (by rw [abs_le]; constructor <;> linarith)
  set rel : FP double := AngleDeg.normalDeg (⟨rne (b.val - a.val)⟩ : FP double) with hrel
  have hr : (AngleDeg.ofAngle ((ofNum b).sub (ofNum a))).degree = rel := by
    have d1 : (⟨rel⟩ : AngleDeg (FP double)).degree = rel := by
      unfold AngleDeg.degree ofNum
      exact fp_normalDeg_small rel r2
    have d2 : (ofNum b).sub (ofNum a) = ⟨rel⟩ := by rw [na, nb]; rfl
    have d3 : AngleDeg.ofAngle (⟨rel⟩ : AngleDeg (FP double)) = ⟨rel⟩ := by
      unfold AngleDeg.ofAngle
      rw [d1]
      unfold ofNum
      rw [fp_normalDeg_small rel r2]
    rw [d2, d3, d1]
  obtain ⟨r3, r4⟩ := abs_le.mp r2
  have hh := rne_error_plain (rel.val * (1 / 2))
  set half : FP double := rel * (num 1 / num 2) with hhalf
  have hv : half.val = rne (rel.val * (1 / 2)) := by rw [hhalf, FP.mul_val, eh]; rfl
  rw [← hv] at hh
  have hh2 : |half.val - rel.val * (1 / 2)| ≤ (2 : ℝ) ^ (-46 : ℤ) := by
    refine hh.trans ?_
    rw [abs_mul, abs_of_pos (show (0 : ℝ) < 1 / 2 by norm_num)]
    norm_num at r2 ⊢
    linarith
  have hh3 := abs_le.mp hh2
  obtain ⟨-, s2, i, hi⟩ := h.normal_round (a.val + half.val) (by rw [abs_le]; norm_num at hh3; constructor <;> linarith)
  set s : FP double := AngleDeg.normalDeg (⟨rne (a.val + half.val)⟩ : FP double) with hs
  obtain ⟨s3, s4⟩ := abs_le.mp s2
  obtain ⟨-, t2, n, hn⟩ := h.normal_round (s.val + 180) (by rw [abs_le]; constructor <;> linarith)
  have hij : |s.val - (a.val + b.val) / 2 - 180 * ((j + 2 * i : ℤ) : ℝ)| ≤ (2 : ℝ) ^ (-43 : ℤ) := by
    push_cast
    rw [abs_le] at *
    norm_num at hj hi hh3 ⊢
    constructor <;> linarith
  unfold bisect
  dsimp only
  rw [hr, na, nb]
  split_ifs
  · change |s.val| ≤ 180 ∧ ∃ k : ℤ, |s.val - (a.val + b.val) / 2 - 180 * k| ≤ _
    refine ⟨s2, j + 2 * i, hij.trans (by norm_num)⟩
  · have ev : (AngleDeg.addNum (AngleDeg.iaddNum (⟨a⟩ : AngleDeg (FP double)) half) (num 180)).deg = AngleDeg.normalDeg (⟨rne (s.val + 180)⟩ : FP double) := by
      change AngleDeg.normalDeg (s + num 180) = _
      congr 1
      apply FP.ext
      rw [FP.add_val, e180]
      rfl
    rw [ev]
    refine ⟨t2, j + 2 * i + 1 + 2 * n, ?_⟩
    push_cast at hij ⊢
    rw [abs_le] at *
    norm_num at hij hn ⊢
    constructor <;> linarith

omit m in
/-- Half turns do not matter for a line. -/
theorem unit_half_turns (x : ℝ) (k : ℤ) : ∃ σ : ℝ, |σ| = 1 ∧ unit (x + 180 * k) = σ • unit x := by
  rcases Int.even_or_odd' k with ⟨n, hn | hn⟩
  · refine ⟨1, abs_one, ?_⟩
    rw [one_smul]
    exact unit_congr ⟨n, by rw [hn]; push_cast; ring⟩
  · refine ⟨-1, by rw [abs_neg, abs_one], ?_⟩
    rw [neg_one_smul, ← unit_add_180]
    exact unit_congr ⟨n, by rw [hn]; push_cast; ring⟩

omit m in
/-- Unit vectors of directions that differ by `t` degrees. -/
theorem unit_near {x y t : ℝ} (h : |x - y| ≤ t) : |(unit x).1 - (unit y).1| ≤ t / 50 ∧ |(unit x).2 - (unit y).2| ≤ t / 50 := by
  have hp : Real.pi / 180 ≤ 1 / 50 := by have := Real.pi_lt_d2; linarith
  have hp0 : 0 ≤ Real.pi / 180 := by positivity
  have h1 : |x * (Real.pi / 180) - y * (Real.pi / 180)| ≤ t / 50 := by
    rw [← sub_mul, abs_mul, abs_of_nonneg hp0]
    have := mul_le_mul h hp hp0 ((abs_nonneg _).trans h)
    linarith
  exact ⟨(Real.abs_cos_sub_cos_le _ _).trans h1, (Real.abs_sin_sub_sin_le _ _).trans h1⟩

/-- The line through `p` that the code builds for an angle. -/
theorem Spec.Accurate.line_near (h : Accurate m) (p : Vec (FP double)) (t : AngleDeg (FP double)) (ht : |t.deg.val| ≤ 180) {x : ℝ} {k : ℤ}
    (hx : |t.deg.val - x - 180 * k| ≤ (2 : ℝ) ^ (-41 : ℤ)) {W : ℝ} (hW : 1 ≤ W) (hpx : |p.x.val| ≤ W) (hpy : |p.y.val| ≤ W) :
    ∃ σ : ℝ, |σ| = 1 ∧ |(Line.ofAngle p t).a.val + σ * (unit x).2| ≤ (2 : ℝ) ^ (-46 : ℤ) ∧
      |(Line.ofAngle p t).b.val - σ * (unit x).1| ≤ (2 : ℝ) ^ (-46 : ℤ) ∧
      |(Line.ofAngle p t).c.val + (Line.ofAngle p t).a.val * p.x.val + (Line.ofAngle p t).b.val * p.y.val| ≤ (2 : ℝ) ^ (-49 : ℤ) * W := by
  obtain ⟨hs, hc⟩ := C179_sin_deg h t.deg
  obtain ⟨σ, hσ, e⟩ := unit_half_turns x k
  obtain ⟨u1, u2⟩ := unit_near (x := t.deg.val) (y := x + 180 * k) (t := (2 : ℝ) ^ (-41 : ℤ)) (by rw [← sub_sub]; exact hx)
  rw [e] at u1 u2
  have la : (Line.ofAngle p t).a.val = -(AngleDeg.sinDeg t.deg).val := rfl
  have lb : (Line.ofAngle p t).b.val = (AngleDeg.cosDeg t.deg).val := rfl
  have hs' : |(AngleDeg.sinDeg t.deg).val - (unit t.deg.val).2| ≤ 180 * (2 : ℝ) ^ (-58 : ℤ) + (2 : ℝ) ^ (-51 : ℤ) := by
    refine hs.trans ?_
    have := mul_le_mul_of_nonneg_left ht (show (0 : ℝ) ≤ (2 : ℝ) ^ (-58 : ℤ) by positivity)
    linarith
  have hc' : |(AngleDeg.cosDeg t.deg).val - (unit t.deg.val).1| ≤ 180 * (2 : ℝ) ^ (-58 : ℤ) + (2 : ℝ) ^ (-51 : ℤ) := by
    refine hc.trans ?_
    have := mul_le_mul_of_nonneg_left ht (show (0 : ℝ) ≤ (2 : ℝ) ^ (-58 : ℤ) by positivity)
    linarith
  have s1 : |(unit t.deg.val).2| ≤ 1 := Real.abs_sin_le_one _
  have c1 : |(unit t.deg.val).1| ≤ 1 := Real.abs_cos_le_one _
  have a2 : |(Line.ofAngle p t).a.val| ≤ 5 / 4 := by
    rw [la, abs_neg]
    have := abs_sub_abs_le_abs_sub (AngleDeg.sinDeg t.deg).val (unit t.deg.val).2
    norm_num at hs'
    linarith
  have b2 : |(Line.ofAngle p t).b.val| ≤ 5 / 4 := by
    rw [lb]
    have := abs_sub_abs_le_abs_sub (AngleDeg.cosDeg t.deg).val (unit t.deg.val).1
    norm_num at hc'
    linarith
  refine ⟨σ, hσ, ?_, ?_, ?_⟩
  · rw [la, show -(AngleDeg.sinDeg t.deg).val + σ * (unit x).2 = -((AngleDeg.sinDeg t.deg).val - (unit t.deg.val).2) - ((unit t.deg.val).2 - σ * (unit x).2) by ring]
    refine (abs_sub _ _).trans ?_
    rw [abs_neg]
    refine (add_le_add hs' u2).trans ?_
    norm_num
  · rw [lb, show (AngleDeg.cosDeg t.deg).val - σ * (unit x).1 = ((AngleDeg.cosDeg t.deg).val - (unit t.deg.val).1) + ((unit t.deg.val).1 - σ * (unit x).1) by ring]
    refine (abs_add_le _ _).trans ((add_le_add hc' u1).trans ?_)
    norm_num
  · have lc : (Line.ofAngle p t).c.val = rne (rne (-(Line.ofAngle p t).a.val * p.x.val) - rne ((Line.ofAngle p t).b.val * p.y.val)) := rfl
    rw [lc]
    generalize (Line.ofAngle p t).a.val = A at *
    generalize (Line.ofAngle p t).b.val = B at *
    have k1 := rne_error_plain (-A * p.x.val)
    have k2 := rne_error_plain (B * p.y.val)
    have k3 := rne_error_plain (rne (-A * p.x.val) - rne (B * p.y.val))
    have m3 : |-A * p.x.val| ≤ 5 / 4 * W := by rw [abs_mul, abs_neg]; exact mul_le_mul a2 hpx (abs_nonneg _) (by norm_num)
    have m4 : |B * p.y.val| ≤ 5 / 4 * W := by rw [abs_mul]; exact mul_le_mul b2 hpy (abs_nonneg _) (by norm_num)
    have k4 : |rne (-A * p.x.val) - rne (B * p.y.val)| ≤ 3 * W := by
      have i1 := abs_sub_abs_le_abs_sub (rne (-A * p.x.val)) (-A * p.x.val)
      have i2 := abs_sub_abs_le_abs_sub (rne (B * p.y.val)) (B * p.y.val)
      refine (abs_sub _ _).trans ?_
      linarith
    generalize rne (rne (-A * p.x.val) - rne (B * p.y.val)) = R at *
    generalize rne (-A * p.x.val) = P at *
    generalize rne (B * p.y.val) = Q at *
    have e4 : R + A * p.x.val + B * p.y.val = (R - (P - Q)) + (P - -A * p.x.val) - (Q - B * p.y.val) := by ring
    rw [e4]
    refine (abs_sub _ _).trans ((add_le_add (abs_add_le _ _) le_rfl).trans ?_)
    rw [show (2 : ℝ) ^ (-49 : ℤ) = 1 / 562949953421312 by norm_num]
    linarith

omit m in
/-- A point of the exact line nearly satisfies the equation of the computed one. -/
theorem on_line_near {A B C σ η ε W px py ix iy : ℝ} {u : Pt} (hA : |A + σ * u.2| ≤ η) (hB : |B - σ * u.1| ≤ η) (hC : |C + A * px + B * py| ≤ ε * W)
    (hI : cross u (ix - px, iy - py) = 0) (h1 : |ix - px| ≤ 2 * W) (h2 : |iy - py| ≤ 2 * W) :
    |A * ix + B * iy + C| ≤ (4 * η + ε) * W := by
  have e : A * ix + B * iy + C = (A + σ * u.2) * (ix - px) + (B - σ * u.1) * (iy - py) + (C + A * px + B * py) := by
    simp only [cross] at hI
    linear_combination σ * hI
  rw [e]
  refine (abs_add_three _ _ _).trans ?_
  rw [abs_mul, abs_mul]
  have η0 := (abs_nonneg _).trans hA
  have m1 := mul_le_mul hA h1 (abs_nonneg _) η0
  have m2 := mul_le_mul hB h2 (abs_nonneg _) η0
  linarith

omit m in
/-- The determinant of the two computed lines. -/
theorem det_units {A B A' B' σ τ η : ℝ} {u v : Pt} (hσ : |σ| = 1) (hτ : |τ| = 1) (hu1 : |u.1| ≤ 1) (hu2 : |u.2| ≤ 1) (hv1 : |v.1| ≤ 1) (hv2 : |v.2| ≤ 1)
    (hA : |A + σ * u.2| ≤ η) (hB : |B - σ * u.1| ≤ η) (hA' : |A' + τ * v.2| ≤ η) (hB' : |B' - τ * v.1| ≤ η) (hη : η ≤ 1 / 100) :
    |(A * B' - B * A') - σ * τ * cross u v| ≤ 5 * η ∧ |A| ≤ 101 / 100 ∧ |B| ≤ 101 / 100 ∧ |A'| ≤ 101 / 100 ∧ |B'| ≤ 101 / 100 := by
  have η0 := (abs_nonneg _).trans hA
  have bd : ∀ {s w : ℝ}, |s| = 1 → |w| ≤ 1 → |s * w| ≤ 1 := fun hs hw => by rw [abs_mul, hs, one_mul]; exact hw
  have key : ∀ {X Y : ℝ}, |X - Y| ≤ η → |Y| ≤ 1 → |X| ≤ 101 / 100 := fun {X Y} h1 h2 => by
    have := abs_sub_abs_le_abs_sub X Y
    linarith
  have a1 := key (X := A) (Y := -(σ * u.2)) (by rw [sub_neg_eq_add]; exact hA) (by rw [abs_neg]; exact bd hσ hu2)
  have a2 := key hB (bd hσ hu1)
  have a3 := key (X := A') (Y := -(τ * v.2)) (by rw [sub_neg_eq_add]; exact hA') (by rw [abs_neg]; exact bd hτ hv2)
  have a4 := key hB' (bd hτ hv1)
  refine ⟨?_, a1, a2, a3, a4⟩
  have e : (A * B' - B * A') - σ * τ * cross u v = (A + σ * u.2) * B' - σ * u.2 * (B' - τ * v.1) - ((B - σ * u.1) * A' + σ * u.1 * (A' + τ * v.2)) := by
    simp only [cross]; ring
  rw [e]
  refine (abs_sub _ _).trans ((add_le_add (abs_sub _ _) (abs_add_le _ _)).trans ?_)
  rw [abs_mul (A + σ * u.2), abs_mul (σ * u.2), abs_mul (B - σ * u.1), abs_mul (σ * u.1)]
  have m1 := mul_le_mul hA a4 (abs_nonneg _) η0
  have m2 := mul_le_mul (bd hσ hu2) hB' (abs_nonneg _) zero_le_one
  have m3 := mul_le_mul hB a3 (abs_nonneg _) η0
  have m4 := mul_le_mul (bd hσ hu1) hA' (abs_nonneg _) zero_le_one
  linarith

omit m in
/-- The final estimate. -/
theorem incenter_core {l o : Line (FP double)} {W κ ix iy Δ : ℝ} (hW : 1 ≤ W) (hκ : (2 : ℝ) ^ (-18 : ℤ) ≤ κ) (hκ1 : κ ≤ 1)
    (la : |l.a.val| ≤ 101 / 100) (lb : |l.b.val| ≤ 101 / 100) (oa : |o.a.val| ≤ 101 / 100) (ob : |o.b.val| ≤ 101 / 100)
    (lc : |l.c.val| ≤ 3 * W) (oc : |o.c.val| ≤ 3 * W) (hd : |l.fdet o - Δ| ≤ 5 * (2 : ℝ) ^ (-46 : ℤ)) (hΔ : |Δ| = κ)
    (h1 : |l.a.val * ix + l.b.val * iy + l.c.val| ≤ (2 : ℝ) ^ (-43 : ℤ) * W) (h2 : |o.a.val * ix + o.b.val * iy + o.c.val| ≤ (2 : ℝ) ^ (-43 : ℤ) * W) :
    (l.intersection o).valid = true ∧ |(l.intersection o).x.val - ix| ≤ (2 : ℝ) ^ (-40 : ℤ) * (W / κ ^ 2) ∧
    |(l.intersection o).y.val - iy| ≤ (2 : ℝ) ^ (-40 : ℤ) * (W / κ ^ 2) := by
  have κ0 : 0 < κ := lt_of_lt_of_le (by positivity) hκ
  have tiny : (2 : ℝ) ^ (-200 : ℤ) ≤ 1 / 100 := (zpow_le_zpow_right₀ one_le_two (show (-200 : ℤ) ≤ -10 by norm_num)).trans (by norm_num)
  have mg : ∀ {x M : ℝ}, |x| ≤ M → mag x ≤ M + 1 / 100 := fun h => by unfold mag; linarith
  have ma := mg la
  have mb := mg lb
  have na := mg oa
  have nb := mg ob
  have mc : mag l.c.val ≤ 4 * W := (mg lc).trans (by linarith)
  have nc : mag o.c.val ≤ 4 * W := (mg oc).trans (by linarith)
  norm_num at ma mb na nb
  have pr : ∀ {x y X Y : ℝ}, mag x ≤ X → mag y ≤ Y → mag x * mag y ≤ X * Y := fun h1 h2 =>
    mul_le_mul h1 h2 (mag_pos _).le ((mag_pos _).le.trans h1)
  have tT : l.magT o ≤ 3 := by
    have i1 := pr ma nb
    have i2 := pr mb na
    unfold Line.magT
    linarith
  have tU : l.magU o ≤ 9 * W := by
    have i1 := pr mb nc
    have i2 := pr nb mc
    unfold Line.magU
    linarith
  have tV : l.magV o ≤ 9 * W := by
    have i1 := pr na mc
    have i2 := pr ma nc
    unfold Line.magV
    linarith
  have sub : Rounded 5 (l.cdet o) (l.fdet o) (l.magT o) :=
    ((rounded_prod _ _).sub (rounded_prod _ _) (by norm_num) (by norm_num) (by norm_num)).mono (by norm_num) (by norm_num) le_rfl
  have hT : |l.cdet o - l.fdet o| ≤ 15 * (2 : ℝ) ^ (-53 : ℤ) := by
    refine sub.err.trans ?_
    have := mul_le_mul_of_nonneg_left tT (show (0 : ℝ) ≤ 5 * (2 : ℝ) ^ (-53 : ℤ) by positivity)
    linarith
  have hf1 := abs_sub_abs_le_abs_sub Δ (l.fdet o)
  have hf2 := abs_sub_abs_le_abs_sub (l.fdet o) (l.cdet o)
  have hf3 := abs_sub_abs_le_abs_sub (l.cdet o) (l.fdet o)
  have hf4 := abs_sub_abs_le_abs_sub (l.fdet o) Δ
  rw [abs_sub_comm] at hf1 hf2
  have F : κ * (3 / 4) ≤ |l.fdet o| := by
    norm_num at hd hκ
    linarith
  have T1 : κ * (1 / 2) ≤ |l.cdet o| := by
    norm_num at hT hκ
    linarith
  have T2 : |l.cdet o| ≤ 2 := by
    norm_num at hT hd
    linarith
  have hv : (l.intersection o).valid = true := by
    rw [fp_intersection_valid]
    refine fp_EPSILON_le19.trans (le_trans ?_ T1)
    norm_num at hκ ⊢
    linarith
  refine ⟨hv, ?_⟩
  obtain ⟨r1, r2⟩ := C186_residual l o hv (T2.trans (by
    calc (2 : ℝ) = (2 : ℝ) ^ (1 : ℤ) := by norm_num
      _ ≤ _ := zpow_le_zpow_right₀ one_le_two (by norm_num)))
  have T0 : 0 < |l.cdet o| := lt_of_lt_of_le (by positivity) T1
  have rb : ∀ {p q r : ℝ}, mag p ≤ 51 / 50 → mag q ≤ 51 / 50 → mag r ≤ 4 * W →
      (2 : ℝ) ^ (-50 : ℤ) * ((mag p * l.magU o + mag q * l.magV o + mag r * l.magT o) / |l.cdet o|) ≤ (2 : ℝ) ^ (-44 : ℤ) * (W / κ) := by
    intro p q r hp hq hr
    have U0 : 0 ≤ l.magU o := by unfold Line.magU; exact add_nonneg (mul_nonneg (mag_pos _).le (mag_pos _).le) (mul_nonneg (mag_pos _).le (mag_pos _).le)
    have V0 : 0 ≤ l.magV o := by unfold Line.magV; exact add_nonneg (mul_nonneg (mag_pos _).le (mag_pos _).le) (mul_nonneg (mag_pos _).le (mag_pos _).le)
    have T0' : 0 ≤ l.magT o := by unfold Line.magT; exact add_nonneg (mul_nonneg (mag_pos _).le (mag_pos _).le) (mul_nonneg (mag_pos _).le (mag_pos _).le)
    have i1 := mul_le_mul hp tU U0 (by norm_num)
    have i2 := mul_le_mul hq tV V0 (by norm_num)
    have i3 := mul_le_mul hr tT T0' (by linarith)
    have i4 : (mag p * l.magU o + mag q * l.magV o + mag r * l.magT o) / |l.cdet o| ≤ (32 * W) / (κ * (1 / 2)) :=
      div_le_div₀ (by linarith) (by linarith) (by positivity) T1
    refine (mul_le_mul_of_nonneg_left i4 (by positivity)).trans (le_of_eq ?_)
    rw [show (2 : ℝ) ^ (-44 : ℤ) = 64 * (2 : ℝ) ^ (-50 : ℤ) by norm_num]
    field_simp
    norm_num
  have q1 := r1.trans (rb ma mb mc)
  have q2 := r2.trans (rb na nb nc)
  generalize (l.intersection o).x.val = X at *
  generalize (l.intersection o).y.val = Y at *
  have hWκ : W ≤ W / κ := by rw [le_div_iff₀ κ0]; nlinarith
  have W0 : 0 < W / κ := by positivity
  have e43 : (2 : ℝ) ^ (-43 : ℤ) = 2 * (2 : ℝ) ^ (-44 : ℤ) := by norm_num
  have w0 : (0 : ℝ) < (2 : ℝ) ^ (-44 : ℤ) := by positivity
  have s1 : |l.a.val * (X - ix) + l.b.val * (Y - iy)| ≤ 3 * ((2 : ℝ) ^ (-44 : ℤ) * (W / κ)) := by
    rw [show l.a.val * (X - ix) + l.b.val * (Y - iy) = (l.a.val * X + l.b.val * Y + l.c.val) - (l.a.val * ix + l.b.val * iy + l.c.val) by ring]
    refine (abs_sub _ _).trans ?_
    rw [e43] at h1
    have := mul_le_mul_of_nonneg_left hWκ w0.le
    generalize (2 : ℝ) ^ (-44 : ℤ) = w at *
    linarith
  have s2 : |o.a.val * (X - ix) + o.b.val * (Y - iy)| ≤ 3 * ((2 : ℝ) ^ (-44 : ℤ) * (W / κ)) := by
    rw [show o.a.val * (X - ix) + o.b.val * (Y - iy) = (o.a.val * X + o.b.val * Y + o.c.val) - (o.a.val * ix + o.b.val * iy + o.c.val) by ring]
    refine (abs_sub _ _).trans ?_
    rw [e43] at h2
    have := mul_le_mul_of_nonneg_left hWκ w0.le
    generalize (2 : ℝ) ^ (-44 : ℤ) = w at *
    linarith
  have fin : ∀ {p q P Q D : ℝ}, l.fdet o * D = p * P - q * Q → |p| ≤ 101 / 100 → |q| ≤ 101 / 100 → |P| ≤ 3 * ((2 : ℝ) ^ (-44 : ℤ) * (W / κ)) →
      |Q| ≤ 3 * ((2 : ℝ) ^ (-44 : ℤ) * (W / κ)) → |D| ≤ (2 : ℝ) ^ (-40 : ℤ) * (W / κ ^ 2) := by
    intro p q P Q D e hp hq hP hQ
    have i1 := mul_le_mul hp hP (abs_nonneg _) (by norm_num)
    have i2 := mul_le_mul hq hQ (abs_nonneg _) (by norm_num)
    rw [← abs_mul] at i1 i2
    have i3 : |l.fdet o| * |D| ≤ 7 * ((2 : ℝ) ^ (-44 : ℤ) * (W / κ)) := by
      rw [← abs_mul, e]
      refine (abs_sub _ _).trans ?_
      have : 0 < (2 : ℝ) ^ (-44 : ℤ) * (W / κ) := by positivity
      linarith
    have i4 : κ * (3 / 4) * |D| ≤ 7 * ((2 : ℝ) ^ (-44 : ℤ) * (W / κ)) := (mul_le_mul_of_nonneg_right F (abs_nonneg _)).trans i3
    have i5 : |D| ≤ 28 / 3 * ((2 : ℝ) ^ (-44 : ℤ) * (W / κ)) / κ := by
      rw [le_div_iff₀ κ0]
      linarith
    refine i5.trans ?_
    rw [show 28 / 3 * ((2 : ℝ) ^ (-44 : ℤ) * (W / κ)) / κ = 28 / 3 * (2 : ℝ) ^ (-44 : ℤ) * (W / κ ^ 2) by field_simp]
    refine mul_le_mul_of_nonneg_right ?_ (by positivity)
    norm_num
  constructor
  · exact fin (p := o.b.val) (q := l.b.val) (by unfold Line.fdet; ring) ob lb s1 s2
  · exact fin (p := l.a.val) (q := o.a.val) (by unfold Line.fdet; ring) la oa s2 s1

omit m in
/-- The mean direction at a corner points along the line to the incenter, and the two mean directions meet at the angle `90° + C / 2`. -/
theorem mean_directions {α₁ α₂ β₁ β₂ p q r : ℝ} {a b c : Pt} (hr : 0 < r) (hp : 0 < p) (hq : 0 < q) (h1 : b = a + r • unit α₁) (h2 : c = a + q • unit α₂)
    (h3 : a = b + r • unit β₁) (h4 : c = b + p • unit β₂) :
    cross (unit ((α₁ + α₂) / 2)) (unit ((β₁ + β₂) / 2)) ^ 2 = (1 + dot (a - c) (b - c) / (q * p)) / 2 := by
  have e : unit β₁ = -unit α₁ := by
    have : r • (unit α₁ + unit β₁) = 0 := by
      rw [smul_add]
      have e0 := h3
      rw [h1, add_assoc] at e0
      exact (left_eq_add.mp e0)
    rcases smul_eq_zero.mp this with k | k
    · exact absurd k hr.ne'
    · exact eq_neg_of_add_eq_zero_right k
  have e1 : dot (a - c) (b - c) / (q * p) = (unit α₂).1 * (unit β₂).1 + (unit α₂).2 * (unit β₂).2 := by
    have k1 : a - c = -(q • unit α₂) := by rw [h2]; abel
    have k2 : b - c = -(p • unit β₂) := by rw [h4]; abel
    rw [k1, k2]
    simp only [dot, Prod.fst_neg, Prod.snd_neg, Prod.smul_fst, Prod.smul_snd, smul_eq_mul]
    field_simp
  have x1 := congrArg Prod.fst e
  have x2 := congrArg Prod.snd e
  rw [cross_unit, e1]
  simp only [unit, Prod.fst_neg, Prod.snd_neg] at x1 x2 ⊢
  have s2 : ∀ t : ℝ, Real.sin t ^ 2 = (1 - Real.cos (2 * t)) / 2 := fun t => by
    rw [Real.cos_two_mul, Real.cos_sq']; ring
  rw [s2]
  have : 2 * (((β₁ + β₂) / 2 - (α₁ + α₂) / 2) * (Real.pi / 180)) =
      (β₁ * (Real.pi / 180) - α₁ * (Real.pi / 180)) + (β₂ * (Real.pi / 180) - α₂ * (Real.pi / 180)) := by ring
  rw [this, Real.cos_add, Real.cos_sub, Real.sin_sub, x1, x2, Real.cos_sub (β₂ * _)]
  have := Real.sin_sq_add_cos_sq (α₁ * (Real.pi / 180))
  linear_combination (-(Real.cos (β₂ * (Real.pi / 180)) * Real.cos (α₂ * (Real.pi / 180)) + Real.sin (β₂ * (Real.pi / 180)) * Real.sin (α₂ * (Real.pi / 180))) / 2) * (-1) * this

omit m in
theorem incenter_on_mean {α₁ α₂ q r : ℝ} {a b c I : Pt} {n : ℝ} (h1 : b = a + r • unit α₁) (h2 : c = a + q • unit α₂)
    (hI : I - a = n • (q • (b - a) + r • (c - a))) : cross (unit ((α₁ + α₂) / 2)) (I - a) = 0 := by
  have : I - a = (n * (q * r)) • (unit α₁ + unit α₂) := by
    rw [hI, h1, h2, add_sub_cancel_left, add_sub_cancel_left, smul_smul, smul_smul, mul_comm r q, ← smul_add, smul_smul]
  rw [this]
  exact cross_smul_eq_zero (bisector_parallel ⟨0, by push_cast; ring⟩)

/-- Cosine of the angle at `c` of the triangle `a b c`. -/
noncomputable def Spec.cosAt (a b c : Pt) : ℝ := dot (a - c) (b - c) / (d c a * d c b)

/-- The line through `p` in the computed bisecting direction of `q - p` and `r - p`. -/
theorem Spec.Accurate.bisector_line (h : Accurate m) {p q r : Vec (FP double)} (hp : p.FOk) (hq : q.FOk) (hr : r.FOk)
    (h1 : 2 * (EPSILON : FP double).val ≤ d p.fpt q.fpt) (h2 : 2 * (EPSILON : FP double).val ≤ d p.fpt r.fpt)
    {W : ℝ} (hW : 1 ≤ W) (hpx : |p.x.val| ≤ W) (hpy : |p.y.val| ≤ W) :
    ∃ σ : ℝ, |σ| = 1 ∧ ∀ l, l = Line.ofAngle p (AngleDeg.bisect (q.sub p).th.degree (r.sub p).th.degree) →
      ∀ u, u = unit ((direction (q.x.val - p.x.val) (q.y.val - p.y.val) + direction (r.x.val - p.x.val) (r.y.val - p.y.val)) / 2) →
      |l.a.val + σ * u.2| ≤ (2 : ℝ) ^ (-46 : ℤ) ∧ |l.b.val - σ * u.1| ≤ (2 : ℝ) ^ (-46 : ℤ) ∧
      |l.c.val + l.a.val * p.x.val + l.b.val * p.y.val| ≤ (2 : ℝ) ^ (-49 : ℤ) * W := by
  obtain ⟨f1, k1, g1⟩ := C180_direction h hq hp h1
  obtain ⟨f2, k2, g2⟩ := C180_direction h hr hp h2
  have d1 : (q.sub p).th.degree = (q.sub p).th.deg := FP.ext (h.degree f1)
  have d2 : (r.sub p).th.degree = (r.sub p).th.deg := FP.ext (h.degree f2)
  rw [d1, d2]
  have b1 : |(q.sub p).th.deg.val| ≤ 180 := abs_le.mpr f1.2
  have b2 : |(r.sub p).th.deg.val| ≤ 180 := abs_le.mpr f2.2
  obtain ⟨t1, k, t2⟩ := h.bisect_near b1 b2
  generalize direction (q.x.val - p.x.val) (q.y.val - p.y.val) = α at *
  generalize direction (r.x.val - p.x.val) (r.y.val - p.y.val) = β at *
  obtain ⟨σ, hσ, i1, i2, i3⟩ := h.line_near p (AngleDeg.bisect (q.sub p).th.deg (r.sub p).th.deg) t1 (x := (α + β) / 2) (k := k + k1 + k2) (by
    push_cast
    rw [abs_le] at *
    norm_num at *
    constructor <;> linarith [t2.1, t2.2, g1.1, g1.2, g2.1, g2.2]) hW hpx hpy
  exact ⟨σ, hσ, fun l hl u hu => by rw [hl, hu]; exact ⟨i1, i2, i3⟩⟩

omit m in
theorem mean_near {p q r A B C w W : ℝ} (hp : 0 < p) (hq : 0 < q) (hr : 0 < r) (hA : |A| ≤ W) (hB : |B| ≤ W) (hC : |C| ≤ W) (hw : |w| ≤ W) :
    |(1 / (p + q + r)) * (p * A + q * B + r * C) - w| ≤ 2 * W := by
  have hs : 0 < p + q + r := by positivity
  have : |(1 / (p + q + r)) * (p * A + q * B + r * C)| ≤ W := by
    rw [one_div, inv_mul_eq_div, abs_div, abs_of_pos hs, div_le_iff₀ hs]
    refine (abs_add_three _ _ _).trans ?_
    rw [abs_mul, abs_mul, abs_mul, abs_of_pos hp, abs_of_pos hq, abs_of_pos hr]
    nlinarith
  refine (abs_sub _ _).trans ?_
  linarith

/-- **C189** The incenter. -/
theorem C189_incenter (h : Accurate m) (a b c : Vec (FP double)) (ha : a.FOk) (hb : b.FOk) (hc : c.FOk) (W : ℝ) (hW : 1 ≤ W)
    (hx : |a.x.val| ≤ W ∧ |b.x.val| ≤ W ∧ |c.x.val| ≤ W) (hy : |a.y.val| ≤ W ∧ |b.y.val| ≤ W ∧ |c.y.val| ≤ W)
    (hab : 2 * (EPSILON : FP double).val ≤ d a.fpt b.fpt) (hbc : 2 * (EPSILON : FP double).val ≤ d b.fpt c.fpt)
    (hca : 2 * (EPSILON : FP double).val ≤ d c.fpt a.fpt) (hC : (2 : ℝ) ^ (-35 : ℤ) ≤ 1 + cosAt a.fpt b.fpt c.fpt) :
    (Tri.triIncenter a b c).valid = true ∧
    |(Tri.triIncenter a b c).x.val - (incenterPt a.fpt b.fpt c.fpt).1| ≤ (2 : ℝ) ^ (-39 : ℤ) * (W / (1 + cosAt a.fpt b.fpt c.fpt)) ∧
    |(Tri.triIncenter a b c).y.val - (incenterPt a.fpt b.fpt c.fpt).2| ≤ (2 : ℝ) ^ (-39 : ℤ) * (W / (1 + cosAt a.fpt b.fpt c.fpt)) := by
  have hE : 0 < (EPSILON : FP double).val := lt_of_lt_of_le (by positivity) fp_EPSILON_ge
  have hba : 2 * (EPSILON : FP double).val ≤ d b.fpt a.fpt := by rw [d_comm]; exact hab
  have hac : 2 * (EPSILON : FP double).val ≤ d a.fpt c.fpt := by rw [d_comm]; exact hca
  obtain ⟨σ, hσ, k1⟩ := h.bisector_line ha hb hc hab hac hW hx.1 hy.1
  obtain ⟨τ, hτ, k2⟩ := h.bisector_line hb ha hc hba hbc hW hx.2.1 hy.2.1
  have p1 := fpt_polar b a
  have p2 := fpt_polar c a
  have p3 := fpt_polar a b
  have p4 := fpt_polar c b
  obtain ⟨l, hl⟩ : ∃ l, l = Line.ofAngle a (AngleDeg.bisect (b.sub a).th.degree (c.sub a).th.degree) := ⟨_, rfl⟩
  obtain ⟨o, ho⟩ : ∃ o, o = Line.ofAngle b (AngleDeg.bisect (a.sub b).th.degree (c.sub b).th.degree) := ⟨_, rfl⟩
  have hT : Tri.triIncenter a b c = l.intersection o := by rw [hl, ho]; rfl
  rw [hT]
  generalize direction (b.x.val - a.x.val) (b.y.val - a.y.val) = α₁ at *
  generalize direction (c.x.val - a.x.val) (c.y.val - a.y.val) = α₂ at *
  generalize direction (a.x.val - b.x.val) (a.y.val - b.y.val) = β₁ at *
  generalize direction (c.x.val - b.x.val) (c.y.val - b.y.val) = β₂ at *
  obtain ⟨A1, B1, C1⟩ := k1 l hl _ rfl
  obtain ⟨A2, B2, C2⟩ := k2 o ho _ rfl
  have r0 : 0 < d a.fpt b.fpt := lt_of_lt_of_le (by positivity) hab
  have p0 : 0 < d b.fpt c.fpt := lt_of_lt_of_le (by positivity) hbc
  have q0 : 0 < d c.fpt a.fpt := lt_of_lt_of_le (by positivity) hca
  rw [d_comm b.fpt a.fpt] at p3
  rw [d_comm a.fpt c.fpt] at p2
  have hM := mean_directions r0 p0 q0 p1 p2 p3 p4
  have hcos : 1 + cosAt a.fpt b.fpt c.fpt = 2 * cross (unit ((α₁ + α₂) / 2)) (unit ((β₁ + β₂) / 2)) ^ 2 := by
    rw [hM, cosAt, d_comm c.fpt b.fpt]; ring
  have I1 : cross (unit ((α₁ + α₂) / 2)) (incenterPt a.fpt b.fpt c.fpt - a.fpt) = 0 :=
    incenter_on_mean (n := 1 / (d b.fpt c.fpt + d c.fpt a.fpt + d a.fpt b.fpt)) p1 p2 (by
      unfold incenterPt
      refine Prod.ext ?_ ?_ <;> simp only [Prod.fst_sub, Prod.snd_sub, Prod.smul_fst, Prod.smul_snd, Prod.fst_add, Prod.snd_add, smul_eq_mul] <;> field_simp <;> ring)
  have I2 : cross (unit ((β₁ + β₂) / 2)) (incenterPt a.fpt b.fpt c.fpt - b.fpt) = 0 :=
    incenter_on_mean (n := 1 / (d b.fpt c.fpt + d c.fpt a.fpt + d a.fpt b.fpt)) p3 p4 (by
      unfold incenterPt
      refine Prod.ext ?_ ?_ <;> simp only [Prod.fst_sub, Prod.snd_sub, Prod.smul_fst, Prod.smul_snd, Prod.fst_add, Prod.snd_add, smul_eq_mul] <;> field_simp <;> ring)
  have n1 : ∀ {w}, |w| ≤ W → |(incenterPt a.fpt b.fpt c.fpt).1 - w| ≤ 2 * W := fun hw => mean_near p0 q0 r0 hx.1 hx.2.1 hx.2.2 hw
  have n2 : ∀ {w}, |w| ≤ W → |(incenterPt a.fpt b.fpt c.fpt).2 - w| ≤ 2 * W := fun hw => mean_near p0 q0 r0 hy.1 hy.2.1 hy.2.2 hw
  have R1 := on_line_near A1 B1 C1 I1 (n1 hx.1) (n2 hy.1)
  have R2 := on_line_near A2 B2 C2 I2 (n1 hx.2.1) (n2 hy.2.1)
  have ub : ∀ x : ℝ, |(unit x).1| ≤ 1 ∧ |(unit x).2| ≤ 1 := fun x => ⟨Real.abs_cos_le_one _, Real.abs_sin_le_one _⟩
  have s46 : (2 : ℝ) ^ (-46 : ℤ) ≤ 1 / 100 := by norm_num
  obtain ⟨D, la, lb, oa, ob⟩ := det_units hσ hτ (ub _).1 (ub _).2 (ub _).1 (ub _).2 A1 B1 A2 B2 s46
  have cb : ∀ {A B C x y : ℝ}, |A| ≤ 101 / 100 → |B| ≤ 101 / 100 → |x| ≤ W → |y| ≤ W → |C + A * x + B * y| ≤ (2 : ℝ) ^ (-49 : ℤ) * W → |C| ≤ 3 * W := by
    intro A B C x y hA hB hx hy hC
    have i1 := mul_le_mul hA hx (abs_nonneg _) (by norm_num)
    have i2 := mul_le_mul hB hy (abs_nonneg _) (by norm_num)
    rw [← abs_mul] at i1 i2
    have e : C = (C + A * x + B * y) - A * x - B * y := by ring
    rw [e]
    refine (abs_sub _ _).trans ((add_le_add (abs_sub _ _) le_rfl).trans ?_)
    have : (2 : ℝ) ^ (-49 : ℤ) * W ≤ 1 / 2 * W := mul_le_mul_of_nonneg_right (by norm_num) (by linarith)
    have := hC.trans this
    linarith
  have e43 : (4 * (2 : ℝ) ^ (-46 : ℤ) + (2 : ℝ) ^ (-49 : ℤ)) * W ≤ (2 : ℝ) ^ (-43 : ℤ) * W :=
    mul_le_mul_of_nonneg_right (by norm_num) (by linarith)
  have hκ2 : (2 : ℝ) ^ (-36 : ℤ) ≤ |cross (unit ((α₁ + α₂) / 2)) (unit ((β₁ + β₂) / 2))| ^ 2 := by
    rw [sq_abs]
    rw [hcos] at hC
    norm_num at hC ⊢
    linarith
  have hκ : (2 : ℝ) ^ (-18 : ℤ) ≤ |cross (unit ((α₁ + α₂) / 2)) (unit ((β₁ + β₂) / 2))| := by
    refine le_of_sq_le_sq ?_ (abs_nonneg _)
    refine le_trans (le_of_eq ?_) hκ2
    norm_num
  have hκ1 : |cross (unit ((α₁ + α₂) / 2)) (unit ((β₁ + β₂) / 2))| ≤ 1 := by
    rw [cross_unit]; exact Real.abs_sin_le_one _
  have hΔ : |σ * τ * cross (unit ((α₁ + α₂) / 2)) (unit ((β₁ + β₂) / 2))| = |cross (unit ((α₁ + α₂) / 2)) (unit ((β₁ + β₂) / 2))| := by
    rw [abs_mul, abs_mul, hσ, hτ]; ring
  have D' : |l.fdet o - σ * τ * cross (unit ((α₁ + α₂) / 2)) (unit ((β₁ + β₂) / 2))| ≤ 5 * (2 : ℝ) ^ (-46 : ℤ) := by
    convert D using 2
    unfold Line.fdet; ring
  have fin := incenter_core hW hκ hκ1 la lb oa ob (cb la lb hx.1 hy.1 C1) (cb oa ob hx.2.1 hy.2.1 C2) D' hΔ (R1.trans e43) (R2.trans e43)
  have e : (2 : ℝ) ^ (-39 : ℤ) * (W / (1 + cosAt a.fpt b.fpt c.fpt)) =
      (2 : ℝ) ^ (-40 : ℤ) * (W / |cross (unit ((α₁ + α₂) / 2)) (unit ((β₁ + β₂) / 2))| ^ 2) := by
    rw [hcos, sq_abs, show (2 : ℝ) ^ (-39 : ℤ) = 2 * (2 : ℝ) ^ (-40 : ℤ) by norm_num]
    rw [mul_comm (2 : ℝ) (_ ^ 2), ← div_div]
    ring
  rw [e]
  exact fin

/-- The 3-4-5 triangle has its incenter at `(1, 1)`. -/
example (h : Accurate m) :
    |(Tri.triIncenter (Vec.ofXY (⟨0⟩ : FP double) ⟨0⟩) (Vec.ofXY ⟨4⟩ ⟨0⟩) (Vec.ofXY ⟨0⟩ ⟨3⟩)).x.val - 1| ≤ (2 : ℝ) ^ (-37 : ℤ) := by
  have i0 : IsDouble (0 : ℝ) := by simpa using isDouble_nat (n := 0) (by norm_num)
  have i4 : IsDouble (4 : ℝ) := by simpa using isDouble_nat (n := 4) (by norm_num)
  have i3 : IsDouble (3 : ℝ) := by simpa using isDouble_nat (n := 3) (by norm_num)
  have p1 : (Vec.ofXY (⟨0⟩ : FP double) ⟨0⟩).fpt = (0, 0) := rfl
  have p2 : (Vec.ofXY (⟨4⟩ : FP double) ⟨0⟩).fpt = (4, 0) := rfl
  have p3 : (Vec.ofXY (⟨0⟩ : FP double) ⟨3⟩).fpt = (0, 3) := rfl
  have sq1 : ∀ {x y r : ℝ}, 0 ≤ r → x ^ 2 + y ^ 2 = r ^ 2 → √(x ^ 2 + y ^ 2) = r := fun hr e => by rw [e]; exact Real.sqrt_sq hr
  have d1 : d ((0, 0) : Pt) (4, 0) = 4 := sq1 (by norm_num) (by norm_num)
  have d2 : d ((4, 0) : Pt) (0, 3) = 5 := sq1 (by norm_num) (by norm_num)
  have d3 : d ((0, 3) : Pt) (0, 0) = 3 := sq1 (by norm_num) (by norm_num)
  have hc : cosAt ((0, 0) : Pt) (4, 0) (0, 3) = 3 / 5 := by
    unfold cosAt
    rw [d3, d_comm (0, 3) (4, 0), d2]
    simp only [dot, Prod.fst_sub, Prod.snd_sub]
    norm_num
  have hI : (incenterPt ((0, 0) : Pt) (4, 0) (0, 3)).1 = 1 := by
    unfold incenterPt
    rw [d1, d2, d3]
    simp only [Prod.smul_fst, Prod.fst_add, smul_eq_mul]
    norm_num
  have hE := fp_EPSILON_le19
  have hE' : 2 * (EPSILON : FP double).val ≤ 1 := by norm_num at hE ⊢; linarith
  have key := (C189_incenter h (Vec.ofXY (⟨0⟩ : FP double) ⟨0⟩) (Vec.ofXY ⟨4⟩ ⟨0⟩) (Vec.ofXY ⟨0⟩ ⟨3⟩) ⟨i0, i0⟩ ⟨i4, i0⟩ ⟨i0, i3⟩ 4 (by norm_num)
    ⟨by simp [Vec.ofXY], by simp [Vec.ofXY], by simp [Vec.ofXY]⟩ ⟨by simp [Vec.ofXY], by simp [Vec.ofXY], by simp [Vec.ofXY]; norm_num⟩
    (by rw [p1, p2, d1]; linarith) (by rw [p2, p3, d2]; linarith) (by rw [p3, p1, d3]; linarith) (by rw [p1, p2, p3, hc]; norm_num)).2.1
  rw [p1, p2, p3, hc, hI] at key
  refine key.trans ?_
  norm_num

end
end PyrusGeom
