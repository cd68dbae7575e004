import Verif.Props.FloatClipPoly

/-! # C198: the intersections of a circle with a segment in double precision -/

namespace PyrusGeom
open Spec

/-- The number `x` is between `a` and `b`, and at least `τ` from both. -/
def Spec.Inside (τ a b x : ℝ) : Prop := (a + τ ≤ x ∧ x ≤ b - τ) ∨ (b + τ ≤ x ∧ x ≤ a - τ)

section
variable {K : Type} [Add K] [Sub K] [Mul K] [Div K] [Neg K] [NatCast K] [LT K] [LE K] [DecidableLT K] [DecidableLE K] [BEq K] [PyMath K]

theorem mem_dropRejected (ok : Vec K → Bool) (L : List (Vec K)) (h : L.length ≤ 2) (p : Vec K) :
    p ∈ Circle.dropRejected ok L ↔ p ∈ L ∧ ok p = true := by
  have : Circle.dropRejected ok L = L.filter ok := by
    match L, h with
    | [], _ => rfl
    | [a], _ => cases ha : ok a <;> simp [Circle.dropRejected, ha]
    | [a, b], _ => cases ha : ok a <;> cases hb : ok b <;> simp [Circle.dropRejected, ha, hb]
  rw [this, List.mem_filter]

theorem solPoints_le_two (mk : K → Vec K) (sol : List K) : (Circle.solPoints mk sol).length ≤ 2 := by
  unfold Circle.solPoints
  split
  · split <;> simp
  · simp

theorem intersectionLine_le_two {c : Circle K} {l : Line K} {ps : List (Vec K)} (h : c.intersectionLine l = .ok ps) : ps.length ≤ 2 := by
  unfold Circle.intersectionLine at h
  split at h
  · split at h
    · cases h; simp
    · generalize quadraticF (_ : K) _ _ = q at h
      cases q with
      | error x => simp [bind, Except.bind] at h
      | ok x =>
        simp only [bind, Except.bind, pure, Except.pure, Except.ok.injEq] at h
        rw [← h]; exact solPoints_le_two _ _
  · simp only [] at h
    generalize quadraticF (_ : K) _ _ = q at h
    cases q with
    | error x => simp [bind, Except.bind] at h
    | ok x =>
      simp only [bind, Except.bind, pure, Except.pure, Except.ok.injEq] at h
      rw [← h]; exact solPoints_le_two _ _

end

/-! ## The box test -/

theorem fp_CALC_ERROR : (2 : ℝ) ^ (-30 : ℤ) ≤ (CALC_ERROR : FP double).val ∧ (CALC_ERROR : FP double).val ≤ 11 / 10000000000 := by
  have e : (CALC_ERROR : FP double).val = rne (1 / 1000000000) := by
    change rne (rne ((1 : ℕ) : ℝ) / rne ((1000000000 : ℕ) : ℝ)) = _
    rw [rne_of_isDouble (isDouble_nat (n := 1) (by norm_num)), rne_of_isDouble (isDouble_nat (n := 1000000000) (by norm_num))]
    norm_num
  rw [e]
  constructor
  · have := rne_mono (show (2 : ℝ) ^ (-30 : ℤ) ≤ 1 / 1000000000 by norm_num)
    rwa [rne_of_isDouble (isDouble_pow (-30) (by norm_num))] at this
  · have := (abs_le.mp (rne_error_plain (1 / 1000000000))).2
    rw [abs_of_pos (by norm_num)] at this
    norm_num at this ⊢
    linarith

theorem rne_nonpos' {x : ℝ} (h : x ≤ 0) : rne x ≤ 0 := by
  have := rne_mono h
  rwa [rne_zero] at this

/-- A point between the ends passes. -/
theorem box_of_between {u v : ℝ} (h : u * v ≤ 0) : rne (rne u * rne v) ≤ (CALC_ERROR : FP double).val := by
  have h0 : (0 : ℝ) ≤ (CALC_ERROR : FP double).val := le_trans (by positivity) fp_CALC_ERROR.1
  refine (rne_nonpos' ?_).trans h0
  rcases mul_nonpos_iff.mp h with ⟨h1, h2⟩ | ⟨h1, h2⟩
  · exact mul_nonpos_of_nonneg_of_nonpos (rne_nonneg h1) (rne_nonpos' h2)
  · exact mul_nonpos_of_nonpos_of_nonneg (rne_nonpos' h1) (rne_nonneg h2)

/-- A point very near both ends passes. -/
theorem box_of_near {u v : ℝ} (hu : |u| ≤ (2 : ℝ) ^ (-16 : ℤ)) (hv : |v| ≤ (2 : ℝ) ^ (-16 : ℤ)) :
    rne (rne u * rne v) ≤ (CALC_ERROR : FP double).val := by
  have key : ∀ w : ℝ, |w| ≤ (2 : ℝ) ^ (-16 : ℤ) → |rne w| ≤ 1 / 65536 * (1 + 1 / 1000) := by
    intro w hw
    rw [show (2 : ℝ) ^ (-16 : ℤ) = 1 / 65536 by norm_num] at hw
    have h1 := rne_error_plain w
    have h2 := abs_sub_abs_le_abs_sub (rne w) w
    linarith
  have hp : |rne u * rne v| ≤ 1 / 65536 * (1 + 1 / 1000) * (1 / 65536 * (1 + 1 / 1000)) := by
    rw [abs_mul]; exact mul_le_mul (key u hu) (key v hv) (abs_nonneg _) (by norm_num)
  have := rne_mono (show rne u * rne v ≤ (2 : ℝ) ^ (-30 : ℤ) from (le_abs_self _).trans (hp.trans (by norm_num)))
  rw [rne_of_isDouble (isDouble_pow (-30) (by norm_num))] at this
  exact this.trans fp_CALC_ERROR.1

/-- A point that passes is nearly between the ends. -/
theorem box_sound {u v B : ℝ} (hB : B ≤ (2 : ℝ) ^ (400 : ℤ)) (huv : |u - v| ≤ 2 * B) (h : rne (rne u * rne v) ≤ (CALC_ERROR : FP double).val) :
    u * v ≤ 1 / 500000000 := by
  by_contra hc
  push Not at hc
  have far : ∀ a b : ℝ, |a - b| ≤ 2 * B → 1 / 500000000 < |a| * |b| → (2 : ℝ) ^ (-1022 : ℤ) ≤ |a| := by
    intro a b hab hp
    by_contra hn
    push Not at hn
    have h1 := abs_sub_abs_le_abs_sub b a
    rw [abs_sub_comm b a] at h1
    have t : (2 : ℝ) ^ (-1022 : ℤ) ≤ 1 := by
      rw [show (1 : ℝ) = (2 : ℝ) ^ (0 : ℤ) by norm_num]; exact zpow_le_zpow_right₀ one_le_two (by norm_num)
    have t4 : (1 : ℝ) ≤ (2 : ℝ) ^ (400 : ℤ) := by
      rw [show (1 : ℝ) = (2 : ℝ) ^ (0 : ℤ) by norm_num]; exact zpow_le_zpow_right₀ one_le_two (by norm_num)
    have hb : |b| ≤ 4 * (2 : ℝ) ^ (400 : ℤ) := by
      generalize (2 : ℝ) ^ (400 : ℤ) = w at *
      generalize (2 : ℝ) ^ (-1022 : ℤ) = z at *
      linarith
    have h2 := mul_le_mul hn.le hb (abs_nonneg _) (by positivity)
    have e : (2 : ℝ) ^ (-1022 : ℤ) * (4 * (2 : ℝ) ^ (400 : ℤ)) = (2 : ℝ) ^ (-620 : ℤ) := by
      rw [show (4 : ℝ) = (2 : ℝ) ^ (2 : ℤ) by norm_num, ← zpow_add₀ (by norm_num), ← zpow_add₀ (by norm_num)]; norm_num
    have : (2 : ℝ) ^ (-620 : ℤ) ≤ (2 : ℝ) ^ (-30 : ℤ) := zpow_le_zpow_right₀ one_le_two (by norm_num)
    have t3 : (2 : ℝ) ^ (-30 : ℤ) ≤ 1 / 500000000 := by norm_num
    exact absurd (hp.trans_le (h2.trans (e.le.trans (this.trans t3)))) (lt_irrefl _)
  have hp : |u| * |v| = u * v := by rw [← abs_mul, abs_of_pos (lt_trans (by norm_num) hc)]
  have e53 : (2 : ℝ) ^ (-53 : ℤ) = 1 / 9007199254740992 := by norm_num
  have ru := rne_rel_error (far u v huv (by rw [hp]; exact hc))
  have rv := rne_rel_error (far v u (by rwa [abs_sub_comm]) (by rw [mul_comm, hp]; exact hc))
  have rp := rne_error_plain (rne u * rne v)
  have e : rne u * rne v - u * v = (rne u - u) * (rne v - v) + (rne u - u) * v + u * (rne v - v) := by ring
  have k : |rne u * rne v - u * v| ≤ 1 / 1000000 * (u * v) := by
    rw [e]
    refine (abs_add_three _ _ _).trans ?_
    rw [abs_mul, abs_mul, abs_mul]
    rw [e53] at ru rv
    have m1 := mul_le_mul ru rv (abs_nonneg _) (by positivity)
    have m2 := mul_le_mul_of_nonneg_right ru (abs_nonneg v)
    have m3 := mul_le_mul_of_nonneg_left rv (abs_nonneg u)
    have m1' : 1 / 9007199254740992 * |u| * (1 / 9007199254740992 * |v|) = 1 / 9007199254740992 * (1 / 9007199254740992) * (u * v) := by
      rw [← hp]; ring
    have m2' : 1 / 9007199254740992 * |u| * |v| = 1 / 9007199254740992 * (u * v) := by rw [← hp]; ring
    have m3' : |u| * (1 / 9007199254740992 * |v|) = 1 / 9007199254740992 * (u * v) := by rw [← hp]; ring
    rw [m1'] at m1
    rw [m2'] at m2
    rw [m3'] at m3
    linarith
  have k1 := (abs_le.mp k).1
  have k2 := (abs_le.mp k).2
  have hpos : 0 < rne u * rne v := by linarith
  rw [abs_of_pos hpos] at rp
  have k3 := (abs_le.mp rp).1
  have := fp_CALC_ERROR.2
  linarith

/-- A point at most `τ` from one that is inside by `τ` is between the ends. -/
theorem inside_between {τ a b x p : ℝ} (h : Inside τ a b x) (hp : |p - x| ≤ τ) : (p - a) * (p - b) ≤ 0 := by
  obtain ⟨h1, h2⟩ := abs_le.mp hp
  rcases h with ⟨h3, h4⟩ | ⟨h3, h4⟩
  · exact mul_nonpos_of_nonneg_of_nonpos (by linarith) (by linarith)
  · exact mul_nonpos_of_nonpos_of_nonneg (by linarith) (by linarith)

theorem inside_abs {τ a b x B : ℝ} (hτ : 0 ≤ τ) (h : Inside τ a b x) (ha : |a| ≤ B) (hb : |b| ≤ B) : |x| ≤ B := by
  rw [abs_le] at *
  rcases h with ⟨h3, h4⟩ | ⟨h3, h4⟩ <;> constructor <;> linarith [ha.1, ha.2, hb.1, hb.2]

/-- The computed line against the exact one. -/
theorem seg_line_cross {B px py qx qy A D C X Y : ℝ} (hB1 : 1 ≤ B) (hpx : |px| ≤ B) (hpy : |py| ≤ B) (hqx : |qx| ≤ B) (hqy : |qy| ≤ B)
    (hA : A = -rne (qy - py)) (hD : D = rne (qx - px)) (hC : C = rne (rne (-A * px) - rne (D * py))) :
    |(A * X + D * Y + C) - ((qx - px) * (Y - py) - (qy - py) * (X - px))| ≤ 1 / 2251799813685248 * (B * (|X - px| + |Y - py| + 4 * B)) := by
  obtain ⟨k1, k2, k3⟩ := edge_line hB1 hpx hpy hqx hqy hA hD hC
  rw [show (A * X + D * Y + C) - ((qx - px) * (Y - py) - (qy - py) * (X - px)) =
    (A + (qy - py)) * (X - px) + (D - (qx - px)) * (Y - py) + (C + A * px + D * py) by ring]
  refine (abs_add_three _ _ _).trans ?_
  rw [abs_mul, abs_mul]
  have m1 := mul_le_mul_of_nonneg_right k1 (abs_nonneg (X - px))
  have m2 := mul_le_mul_of_nonneg_right k2 (abs_nonneg (Y - py))
  nlinarith

/-- The computed box test. -/
theorem contains_iff (s : Seg (FP double)) (p : Vec (FP double)) : s.contains p = true ↔
    rne (rne (p.x.val - s.origin.x.val) * rne (p.x.val - s.terminal.x.val)) ≤ (CALC_ERROR : FP double).val ∧
    rne (rne (p.y.val - s.origin.y.val) * rne (p.y.val - s.terminal.y.val)) ≤ (CALC_ERROR : FP double).val := by
  unfold Seg.contains
  rw [Bool.and_eq_true, decide_eq_true_iff, decide_eq_true_iff]
  exact Iff.rfl

theorem line_size {B A D : ℝ} (hB1 : 1 ≤ B) (hB2 : B ≤ (2 : ℝ) ^ (400 : ℤ)) (hA : |A| ≤ 3 * B) (hD : |D| ≤ 3 * B)
    (h1 : (EPSILON : FP double).val ≤ |A|) : |A| ≤ (2 : ℝ) ^ (500 : ℤ) ∧ |D / A| ≤ (2 : ℝ) ^ (500 : ℤ) := by
  have h20 := fp_EPSILON_ge.trans h1
  have h0 : 0 < |A| := lt_of_lt_of_le (by positivity) h20
  have e4 : (4 : ℝ) * (2 : ℝ) ^ (400 : ℤ) = (2 : ℝ) ^ (402 : ℤ) := by
    rw [show (4 : ℝ) = (2 : ℝ) ^ (2 : ℤ) by norm_num, ← zpow_add₀ (by norm_num)]; norm_num
  have hle : 3 * B ≤ (2 : ℝ) ^ (402 : ℤ) := by rw [← e4]; exact (by linarith : 3 * B ≤ 4 * B).trans (mul_le_mul_of_nonneg_left hB2 (by norm_num))
  constructor
  · exact hA.trans (hle.trans (zpow_le_zpow_right₀ one_le_two (by norm_num)))
  · rw [abs_div, div_le_iff₀ h0]
    refine (hD.trans hle).trans ?_
    refine le_trans ?_ (mul_le_mul_of_nonneg_left h20 (by positivity))
    rw [← zpow_add₀ (by norm_num)]
    exact zpow_le_zpow_right₀ one_le_two (by norm_num)

set_option maxHeartbeats 1000000 in
/-- **C198** A segment that the code does not take for horizontal: every returned point is near the circle, near the line through the ends, and
nearly in the box of the ends; a line that is clearly apart gives none; near every exact intersection that is inside the box by a margin there is
a returned point. -/
theorem C198_segment (c : Circle (FP double)) (s : Seg (FP double)) {B : ℝ} (hB1 : 1 ≤ B) (hB2 : B ≤ (2 : ℝ) ^ (400 : ℤ))
    (ho : |s.origin.x.val| ≤ B ∧ |s.origin.y.val| ≤ B) (ht : |s.terminal.x.val| ≤ B ∧ |s.terminal.y.val| ≤ B)
    {l : Line (FP double)} (hl : l = s.line) (h1 : (EPSILON : FP double).val ≤ |l.a.val|) :
    ∃ ps, c.intersectionSeg s = .ok ps ∧
      (∀ p ∈ ps,
        |(p.x.val - c.center.x.val) ^ 2 + (p.y.val - c.center.y.val) ^ 2 - c.radius.val ^ 2| ≤
          (EPSILON : FP double).val / 4 + (2 : ℝ) ^ (-39 : ℤ) * reach c (l.c.val / l.a.val) ^ 2 ∧
        |(s.terminal.x.val - s.origin.x.val) * (p.y.val - s.origin.y.val) - (s.terminal.y.val - s.origin.y.val) * (p.x.val - s.origin.x.val)| ≤
          (2 : ℝ) ^ (-45 : ℤ) * (|l.a.val| * reach c (l.c.val / l.a.val)) +
            1 / 2251799813685248 * (B * (|p.x.val - s.origin.x.val| + |p.y.val - s.origin.y.val| + 4 * B)) ∧
        (p.x.val - s.origin.x.val) * (p.x.val - s.terminal.x.val) ≤ 1 / 500000000 ∧
        (p.y.val - s.origin.y.val) * (p.y.val - s.terminal.y.val) ≤ 1 / 500000000) ∧
      ((c.radius.val ^ 2 + (EPSILON : FP double).val + (2 : ℝ) ^ (-43 : ℤ) * reach c (l.c.val / l.a.val) ^ 2) * (l.a.val ^ 2 + l.b.val ^ 2) ≤
          (l.a.val * c.center.x.val + l.b.val * c.center.y.val + l.c.val) ^ 2 → ps = []) ∧
      (∀ x y D τ : ℝ, D = 1 / 281474976710656 * B ^ 2 / |l.a.val| → 0 ≤ τ →
        1500 * (2 : ℝ) ^ (-53 : ℤ) * (reach c (l.c.val / l.a.val) * (1 + |l.b.val / l.a.val|)) ^ 2 +
          4 * (1 + |l.b.val / l.a.val|) ^ 2 * (2 * |c.radius.val| * D + D ^ 2) < (EPSILON : FP double).val →
        6 * (EPSILON : FP double).val + (2 : ℝ) ^ (-39 : ℤ) * reach c (l.c.val / l.a.val) ^ 2 + (32 * |c.radius.val| * D + 18 * D ^ 2) ≤ τ ^ 2 →
        (x - c.center.x.val) ^ 2 + (y - c.center.y.val) ^ 2 = c.radius.val ^ 2 →
        (s.terminal.x.val - s.origin.x.val) * (y - s.origin.y.val) = (s.terminal.y.val - s.origin.y.val) * (x - s.origin.x.val) →
        Inside τ s.origin.x.val s.terminal.x.val x → Inside τ s.origin.y.val s.terminal.y.val y →
        ∃ p ∈ ps, (p.x.val - x) ^ 2 + (p.y.val - y) ^ 2 ≤ τ ^ 2) := by
  obtain ⟨hox, hoy⟩ := ho
  obtain ⟨htx, hty⟩ := ht
  have la : l.a.val = -rne (s.terminal.y.val - s.origin.y.val) := by rw [hl]; rfl
  have lb : l.b.val = rne (s.terminal.x.val - s.origin.x.val) := by rw [hl]; rfl
  have lc : l.c.val = rne (rne (-l.a.val * s.origin.x.val) - rne (l.b.val * s.origin.y.val)) := by rw [hl]; rfl
  obtain ⟨k1, k2, k3⟩ := edge_line hB1 hox hoy htx hty la lb lc
  have hA : |l.a.val| ≤ 3 * B := by
    have h1 := abs_sub_abs_le_abs_sub l.a.val (-(s.terminal.y.val - s.origin.y.val))
    rw [sub_neg_eq_add, abs_neg] at h1
    have := abs_sub s.terminal.y.val s.origin.y.val
    linarith
  have hD : |l.b.val| ≤ 3 * B := by
    have h1 := abs_sub_abs_le_abs_sub l.b.val (s.terminal.x.val - s.origin.x.val)
    have := abs_sub s.terminal.x.val s.origin.x.val
    linarith
  obtain ⟨z1, z2⟩ := line_size hB1 hB2 hA hD h1
  obtain ⟨qs, e, g1, g2, _, g4⟩ := C184_line c l h1 z1 z2
  have h2 := intersectionLine_le_two e
  have hmem := mem_dropRejected s.contains qs h2
  refine ⟨Circle.dropRejected s.contains qs, ?_, ?_, ?_, ?_⟩
  · simp only [Circle.intersectionSeg, ← hl, e, bind, Except.bind, pure, Except.pure]
  · intro p hp
    obtain ⟨hq, hk⟩ := (hmem p).mp hp
    obtain ⟨f1, f2⟩ := g1 p hq
    obtain ⟨b1, b2⟩ := (contains_iff s p).mp hk
    refine ⟨f2, ?_, box_sound hB2 ?_ b1, box_sound hB2 ?_ b2⟩
    · have k := seg_line_cross (X := p.x.val) (Y := p.y.val) hB1 hox hoy htx hty la lb lc
      rw [abs_sub_comm] at k
      have := abs_sub_abs_le_abs_sub ((s.terminal.x.val - s.origin.x.val) * (p.y.val - s.origin.y.val) - (s.terminal.y.val - s.origin.y.val) * (p.x.val - s.origin.x.val))
        (l.a.val * p.x.val + l.b.val * p.y.val + l.c.val)
      exact (sub_le_iff_le_add.mp (this.trans k)).trans (by rw [add_comm]; gcongr)
    · rw [show p.x.val - s.origin.x.val - (p.x.val - s.terminal.x.val) = s.terminal.x.val - s.origin.x.val by ring]
      exact (abs_sub _ _).trans (by linarith)
    · rw [show p.y.val - s.origin.y.val - (p.y.val - s.terminal.y.val) = s.terminal.y.val - s.origin.y.val by ring]
      exact (abs_sub _ _).trans (by linarith)
  · intro h
    rw [g2 h]; rfl
  · intro x y D τ hDd hτ hc1 hc2 hxy hcr hix hiy
    have ha0 : 0 < |l.a.val| := lt_of_lt_of_le (by positivity) (fp_EPSILON_ge.trans h1)
    have han : l.a.val ≠ 0 := abs_pos.mp ha0
    have hx := inside_abs hτ hix hox htx
    have hy := inside_abs hτ hiy hoy hty
    obtain ⟨δ, hδ⟩ : ∃ δ, δ = (l.a.val * x + l.b.val * y + l.c.val) / l.a.val := ⟨_, rfl⟩
    have eδ : δ * l.a.val = l.a.val * x + l.b.val * y + l.c.val := by rw [hδ]; field_simp
    have k := seg_line_cross (X := x) (Y := y) hB1 hox hoy htx hty la lb lc
    rw [hcr, sub_self, sub_zero, ← eδ, abs_mul] at k
    have hx2 : |x - s.origin.x.val| ≤ 2 * B := (abs_sub _ _).trans (by linarith)
    have hy2 : |y - s.origin.y.val| ≤ 2 * B := (abs_sub _ _).trans (by linarith)
    have hδD : |δ| ≤ D := by
      rw [hDd, le_div_iff₀ ha0]
      refine k.trans ?_
      have : B * (|x - s.origin.x.val| + |y - s.origin.y.val| + 4 * B) ≤ B * (8 * B) := mul_le_mul_of_nonneg_left (by linarith) (by linarith)
      nlinarith
    have hR : |x - c.center.x.val| ≤ |c.radius.val| := by
      apply sq_le_sq.mp
      have := sq_nonneg (y - c.center.y.val)
      linarith
    have hD0 : 0 ≤ D := (abs_nonneg _).trans hδD
    have hδ2 : δ ^ 2 ≤ D ^ 2 := by rw [← sq_abs δ]; exact pow_le_pow_left₀ (abs_nonneg _) hδD 2
    have hm : |x - c.center.x.val| * |δ| ≤ |c.radius.val| * D := mul_le_mul hR hδD (abs_nonneg _) (abs_nonneg _)
    obtain ⟨p, hp, hn⟩ := g4 x y δ eδ hxy (lt_of_le_of_lt (by
      have : 2 * |x - c.center.x.val| * |δ| + δ ^ 2 ≤ 2 * |c.radius.val| * D + D ^ 2 := by linarith
      gcongr) hc1)
    have hn2 : (p.x.val - x) ^ 2 + (p.y.val - y) ^ 2 ≤ τ ^ 2 := by
      refine hn.trans (le_trans ?_ hc2)
      have : 32 * |x - c.center.x.val| * |δ| + 18 * δ ^ 2 ≤ 32 * |c.radius.val| * D + 18 * D ^ 2 := by linarith
      gcongr
    refine ⟨p, (hmem p).mpr ⟨hp, (contains_iff s p).mpr ⟨box_of_between (inside_between hix ?_), box_of_between (inside_between hiy ?_)⟩⟩, hn2⟩
    · exact abs_le_of_sq_le_sq (by have := sq_nonneg (p.y.val - y); linarith) hτ
    · exact abs_le_of_sq_le_sq (by have := sq_nonneg (p.x.val - x); linarith) hτ

set_option maxHeartbeats 1000000 in
/-- **C198** A segment that the code takes for horizontal; the last part is for one that is. -/
theorem C198_horizontal (c : Circle (FP double)) (s : Seg (FP double)) {B : ℝ} (hB1 : 1 ≤ B) (hB2 : B ≤ (2 : ℝ) ^ (400 : ℤ))
    (ho : |s.origin.x.val| ≤ B ∧ |s.origin.y.val| ≤ B) (ht : |s.terminal.x.val| ≤ B ∧ |s.terminal.y.val| ≤ B)
    {l : Line (FP double)} (hl : l = s.line) (h0 : |l.a.val| < (EPSILON : FP double).val) (h1 : (EPSILON : FP double).val ≤ |l.b.val|) :
    ∃ ps, c.intersectionSeg s = .ok ps ∧
      (∀ p ∈ ps,
        |(p.x.val - c.center.x.val) ^ 2 + (p.y.val - c.center.y.val) ^ 2 - c.radius.val ^ 2| ≤
          (EPSILON : FP double).val / 4 + (2 : ℝ) ^ (-39 : ℤ) * reach c (l.c.val / l.b.val) ^ 2 ∧
        |(s.terminal.x.val - s.origin.x.val) * (p.y.val - s.origin.y.val)| ≤
          (2 : ℝ) ^ (-45 : ℤ) * (|l.b.val| * reach c (l.c.val / l.b.val)) + |l.a.val * s.origin.x.val| +
            1 / 2251799813685248 * (B * (|p.y.val - s.origin.y.val| + 4 * B)) ∧
        (p.x.val - s.origin.x.val) * (p.x.val - s.terminal.x.val) ≤ 1 / 500000000 ∧
        (p.y.val - s.origin.y.val) * (p.y.val - s.terminal.y.val) ≤ 1 / 500000000) ∧
      ((c.radius.val ^ 2 + (EPSILON : FP double).val + (2 : ℝ) ^ (-43 : ℤ) * reach c (l.c.val / l.b.val) ^ 2) * l.b.val ^ 2 ≤
          (l.b.val * c.center.y.val + l.c.val) ^ 2 → ps = []) ∧
      (s.origin.y.val = s.terminal.y.val → ∀ x D τ : ℝ, D = 1 / 562949953421312 * B ^ 2 / |l.b.val| → 0 ≤ τ →
        1500 * (2 : ℝ) ^ (-53 : ℤ) * reach c (l.c.val / l.b.val) ^ 2 + 4 * (2 * |c.radius.val| * D + D ^ 2) < (EPSILON : FP double).val →
        6 * (EPSILON : FP double).val + (2 : ℝ) ^ (-39 : ℤ) * reach c (l.c.val / l.b.val) ^ 2 + (32 * |c.radius.val| * D + 18 * D ^ 2) ≤ τ ^ 2 →
        (2 : ℝ) ^ (-45 : ℤ) * reach c (l.c.val / l.b.val) + D ≤ (2 : ℝ) ^ (-16 : ℤ) →
        (x - c.center.x.val) ^ 2 + (s.origin.y.val - c.center.y.val) ^ 2 = c.radius.val ^ 2 →
        Inside τ s.origin.x.val s.terminal.x.val x →
        ∃ p ∈ ps, (p.x.val - x) ^ 2 + (p.y.val - s.origin.y.val) ^ 2 ≤ τ ^ 2) := by
  obtain ⟨hox, hoy⟩ := ho
  obtain ⟨htx, hty⟩ := ht
  have la : l.a.val = -rne (s.terminal.y.val - s.origin.y.val) := by rw [hl]; rfl
  have lb : l.b.val = rne (s.terminal.x.val - s.origin.x.val) := by rw [hl]; rfl
  have lc : l.c.val = rne (rne (-l.a.val * s.origin.x.val) - rne (l.b.val * s.origin.y.val)) := by rw [hl]; rfl
  obtain ⟨k1, k2, k3⟩ := edge_line hB1 hox hoy htx hty la lb lc
  have hD : |l.b.val| ≤ 3 * B := by
    have h1 := abs_sub_abs_le_abs_sub l.b.val (s.terminal.x.val - s.origin.x.val)
    have := abs_sub s.terminal.x.val s.origin.x.val
    linarith
  have z1 := (line_size hB1 hB2 hD hD h1).1
  obtain ⟨qs, e, g1, g2, _, g4⟩ := C184_horizontal c l h0 h1 z1
  have h2 := intersectionLine_le_two e
  have hmem := mem_dropRejected s.contains qs h2
  have hres : ∀ Y : ℝ, |(l.a.val * s.origin.x.val + l.b.val * Y + l.c.val) - (s.terminal.x.val - s.origin.x.val) * (Y - s.origin.y.val)| ≤
      1 / 2251799813685248 * (B * (|Y - s.origin.y.val| + 4 * B)) := by
    intro Y
    have k := seg_line_cross (X := s.origin.x.val) (Y := Y) hB1 hox hoy htx hty la lb lc
    rwa [sub_self, abs_zero, mul_zero, sub_zero, zero_add] at k
  refine ⟨Circle.dropRejected s.contains qs, ?_, ?_, ?_, ?_⟩
  · simp only [Circle.intersectionSeg, ← hl, e, bind, Except.bind, pure, Except.pure]
  · intro p hp
    obtain ⟨hq, hk⟩ := (hmem p).mp hp
    obtain ⟨f1, f2⟩ := g1 p hq
    obtain ⟨b1, b2⟩ := (contains_iff s p).mp hk
    refine ⟨f2, ?_, box_sound hB2 ?_ b1, box_sound hB2 ?_ b2⟩
    · have k := hres p.y.val
      rw [show (s.terminal.x.val - s.origin.x.val) * (p.y.val - s.origin.y.val) = (l.b.val * p.y.val + l.c.val) + l.a.val * s.origin.x.val +
        -((l.a.val * s.origin.x.val + l.b.val * p.y.val + l.c.val) - (s.terminal.x.val - s.origin.x.val) * (p.y.val - s.origin.y.val)) by ring]
      refine (abs_add_three _ _ _).trans ?_
      rw [abs_neg]
      gcongr
    · rw [show p.x.val - s.origin.x.val - (p.x.val - s.terminal.x.val) = s.terminal.x.val - s.origin.x.val by ring]
      exact (abs_sub _ _).trans (by linarith)
    · rw [show p.y.val - s.origin.y.val - (p.y.val - s.terminal.y.val) = s.terminal.y.val - s.origin.y.val by ring]
      exact (abs_sub _ _).trans (by linarith)
  · intro h
    rw [g2 h]; rfl
  · intro hy x D τ hDd hτ hc1 hc2 hc3 hxy hix
    have hb0 : 0 < |l.b.val| := lt_of_lt_of_le (by positivity) (fp_EPSILON_ge.trans h1)
    have hbn : l.b.val ≠ 0 := abs_pos.mp hb0
    have a0 : l.a.val = 0 := by rw [la, hy, sub_self, rne_zero, neg_zero]
    obtain ⟨δ, hδ⟩ : ∃ δ, δ = (l.b.val * s.origin.y.val + l.c.val) / l.b.val := ⟨_, rfl⟩
    have eδ : δ * l.b.val = l.b.val * s.origin.y.val + l.c.val := by rw [hδ]; field_simp
    have k := hres s.origin.y.val
    rw [a0, zero_mul, zero_add, sub_self, abs_zero, mul_zero, sub_zero, zero_add, ← eδ, abs_mul] at k
    have hδD : |δ| ≤ D := by
      rw [hDd, le_div_iff₀ hb0]
      refine k.trans (le_of_eq ?_)
      ring
    have hR : |s.origin.y.val - c.center.y.val| ≤ |c.radius.val| := by
      apply sq_le_sq.mp
      have := sq_nonneg (x - c.center.x.val)
      linarith
    have hD0 : 0 ≤ D := (abs_nonneg _).trans hδD
    have hδ2 : δ ^ 2 ≤ D ^ 2 := by rw [← sq_abs δ]; exact pow_le_pow_left₀ (abs_nonneg _) hδD 2
    have hm : |s.origin.y.val - c.center.y.val| * |δ| ≤ |c.radius.val| * D := mul_le_mul hR hδD (abs_nonneg _) (abs_nonneg _)
    obtain ⟨p, hp, hn⟩ := g4 x s.origin.y.val δ eδ hxy (lt_of_le_of_lt (by
      have : 2 * |s.origin.y.val - c.center.y.val| * |δ| + δ ^ 2 ≤ 2 * |c.radius.val| * D + D ^ 2 := by linarith
      gcongr) hc1)
    have hn2 : (p.x.val - x) ^ 2 + (p.y.val - s.origin.y.val) ^ 2 ≤ τ ^ 2 := by
      refine hn.trans (le_trans ?_ hc2)
      have : 32 * |s.origin.y.val - c.center.y.val| * |δ| + 18 * δ ^ 2 ≤ 32 * |c.radius.val| * D + 18 * D ^ 2 := by linarith
      gcongr
    have hpy : |p.y.val - s.origin.y.val| ≤ (2 : ℝ) ^ (-16 : ℤ) := by
      refine le_trans ?_ hc3
      have f := (g1 p hp).1
      rw [show l.b.val * p.y.val + l.c.val = l.b.val * ((p.y.val - s.origin.y.val) + δ) by linear_combination -eδ, abs_mul,
        mul_left_comm, mul_le_mul_iff_right₀ hb0] at f
      have h3 := abs_sub_abs_le_abs_sub (p.y.val - s.origin.y.val) (-δ)
      rw [sub_neg_eq_add, abs_neg] at h3
      exact (sub_le_iff_le_add.mp (h3.trans f)).trans (by gcongr)
    refine ⟨p, (hmem p).mpr ⟨hp, (contains_iff s p).mpr ⟨box_of_between (inside_between hix ?_), box_of_near hpy (by rwa [← hy])⟩⟩, hn2⟩
    exact abs_le_of_sq_le_sq (by have := sq_nonneg (p.y.val - s.origin.y.val); linarith) hτ

/-- The unit circle and the segment from its center to (2, 0): a point near (1, 0) is returned, and none near (-1, 0). -/
example : ∃ ps, (⟨Vec.ofXY ⟨0⟩ ⟨0⟩, ⟨1⟩⟩ : Circle (FP double)).intersectionSeg (Seg.ofPoints (Vec.ofXY ⟨0⟩ ⟨0⟩) (Vec.ofXY ⟨2⟩ ⟨0⟩)) = .ok ps ∧
    (∃ p ∈ ps, (p.x.val - 1) ^ 2 + (p.y.val - 0) ^ 2 ≤ (1 / 100) ^ 2) ∧ ∀ p ∈ ps, -(1 / 1000) ≤ p.x.val := by
  have hE := fp_EPSILON_le
  have hE0 := fp_EPSILON.1
  obtain ⟨l, hl⟩ : ∃ l, l = (Seg.ofPoints (Vec.ofXY ⟨0⟩ ⟨0⟩) (Vec.ofXY ⟨2⟩ ⟨0⟩) : Seg (FP double)).line := ⟨_, rfl⟩
  have r2 : rne (2 : ℝ) = 2 := by have := rne_of_isDouble (isDouble_nat (n := 2) (by norm_num)); exact_mod_cast this
  have la : l.a.val = 0 := by
    rw [hl]; change -rne ((0 : ℝ) - 0) = 0; rw [sub_self, rne_zero, neg_zero]
  have lb : l.b.val = 2 := by
    rw [hl]; change rne ((2 : ℝ) - 0) = 2; rw [sub_zero, r2]
  have lc : l.c.val = 0 := by
    rw [hl]; change rne (rne (-(-rne ((0 : ℝ) - 0)) * 0) - rne (rne ((2 : ℝ) - 0) * 0)) = 0
    simp only [sub_self, mul_zero, rne_zero]
  obtain ⟨ps, e, g1, _, g3⟩ := C198_horizontal ⟨Vec.ofXY ⟨0⟩ ⟨0⟩, ⟨1⟩⟩ (Seg.ofPoints (Vec.ofXY ⟨0⟩ ⟨0⟩) (Vec.ofXY ⟨2⟩ ⟨0⟩)) (B := 2) (by norm_num)
    ((show (2 : ℝ) = (2 : ℝ) ^ (1 : ℤ) by norm_num).trans_le (zpow_le_zpow_right₀ one_le_two (by norm_num)))
    (by change |(0 : ℝ)| ≤ 2 ∧ |(0 : ℝ)| ≤ 2; norm_num) (by change |(2 : ℝ)| ≤ 2 ∧ |(0 : ℝ)| ≤ 2; norm_num) hl
    (by rw [la, abs_zero]; exact hE0) (by rw [lb, abs_of_pos (by norm_num)]; linarith)
  have T : (2 : ℝ) ^ (-200 : ℤ) ≤ 1 / 2 := (zpow_le_zpow_right₀ one_le_two (show (-200 : ℤ) ≤ -1 by norm_num)).trans (by norm_num)
  have R : reach (⟨Vec.ofXY ⟨0⟩ ⟨0⟩, ⟨1⟩⟩ : Circle (FP double)) 0 ≤ 2 := by
    unfold reach
    change |(0 : ℝ)| + |(0 : ℝ)| + |(0 : ℝ)| + |(1 : ℝ)| + _ ≤ 2
    rw [abs_zero, abs_one]
    generalize (2 : ℝ) ^ (-200 : ℤ) = w at T ⊢
    linarith
  have R0 : 0 ≤ reach (⟨Vec.ofXY ⟨0⟩ ⟨0⟩, ⟨1⟩⟩ : Circle (FP double)) 0 := by unfold reach; positivity
  have R2 := pow_le_pow_left₀ R0 R 2
  refine ⟨ps, e, ?_, ?_⟩
  · refine g3 rfl 1 (1 / 281474976710656) (1 / 100) ?_ (by norm_num) ?_ ?_ ?_ (by change ((1 : ℝ) - 0) ^ 2 + ((0 : ℝ) - 0) ^ 2 = 1 ^ 2; norm_num)
      (Or.inl (by change (0 : ℝ) + 1 / 100 ≤ 1 ∧ (1 : ℝ) ≤ 2 - 1 / 100; norm_num))
    · rw [lb, abs_of_pos (by norm_num)]; norm_num
    · rw [lb, lc, zero_div, show (2 : ℝ) ^ (-53 : ℤ) = 1 / 9007199254740992 by norm_num]
      change 1500 * (1 / 9007199254740992) * _ + 4 * (2 * |(1 : ℝ)| * (1 / 281474976710656) + (1 / 281474976710656) ^ 2) < _
      rw [abs_one]
      have := fp_EPSILON_ge
      rw [show (2 : ℝ) ^ (-20 : ℤ) = 1 / 1048576 by norm_num] at this
      norm_num at this R2 ⊢
      linarith
    · rw [lb, lc, zero_div, show (2 : ℝ) ^ (-39 : ℤ) = 1 / 549755813888 by norm_num]
      change _ + 1 / 549755813888 * _ + (32 * |(1 : ℝ)| * (1 / 281474976710656) + 18 * (1 / 281474976710656) ^ 2) ≤ _
      rw [abs_one]
      norm_num at R2 hE ⊢
      linarith
    · rw [lb, lc, zero_div, show (2 : ℝ) ^ (-45 : ℤ) = 1 / 35184372088832 by norm_num, show (2 : ℝ) ^ (-16 : ℤ) = 1 / 65536 by norm_num]
      linarith
  · intro p hp
    have h : (p.x.val - 0) * (p.x.val - 2) ≤ 1 / 500000000 := (g1 p hp).2.2.1
    by_contra hc
    push Not at hc
    have := mul_lt_mul'' (show (1 : ℝ) / 1000 < -p.x.val by linarith) (show (2 : ℝ) < 2 - p.x.val by linarith) (by norm_num) (by norm_num)
    rw [show -p.x.val * (2 - p.x.val) = (p.x.val - 0) * (p.x.val - 2) by ring] at this
    norm_num at this h
    linarith

end PyrusGeom
