import Verif.Props.FloatRobustHull

/-! # C165: rounding errors of distances from segments and lines -/

namespace PyrusGeom
open Spec

/-! ## Exact geometry -/

theorem cs_abs {a b c e M N : ℝ} (hM : 0 ≤ M) (hN : 0 ≤ N) (h1 : M ^ 2 = a ^ 2 + c ^ 2) (h2 : N ^ 2 = b ^ 2 + e ^ 2) :
    |a * b| + |c * e| ≤ M * N := by
  have h0 : 0 ≤ |a * b| + |c * e| := by positivity
  refine le_of_sq_le_sq ?_ (by positivity)
  have e1 : |a * b| ^ 2 = a ^ 2 * b ^ 2 := by rw [sq_abs, mul_pow]
  have e2 : |c * e| ^ 2 = c ^ 2 * e ^ 2 := by rw [sq_abs, mul_pow]
  have e3 : |a * b| * |c * e| = |a * e| * |c * b| := by rw [← abs_mul, ← abs_mul]; ring_nf
  have e4 : |a * e| ^ 2 = a ^ 2 * e ^ 2 := by rw [sq_abs, mul_pow]
  have e5 : |c * b| ^ 2 = c ^ 2 * b ^ 2 := by rw [sq_abs, mul_pow]
  rw [mul_pow, h1, h2]
  nlinarith [sq_nonneg (|a * e| - |c * b|)]

/-- The distances from the ends and from the line, and the position `q` of the foot. -/
theorem seg_near_line {l q L A B ε D : ℝ} (hl : 0 ≤ l) (hA : 0 ≤ A) (hB : 0 ≤ B) (eA : A ^ 2 = l ^ 2 + q ^ 2)
    (eB : B ^ 2 = l ^ 2 + (q - L) ^ 2) (hε : 0 ≤ ε)
    (hD : (0 ≤ q ∧ q ≤ L ∧ D = l) ∨ (¬ (0 ≤ q ∧ q ≤ L) ∧ D = min A B)) :
    (-ε ≤ q → q ≤ L + ε → |l - D| ≤ ε) ∧ (q ≤ ε ∨ L - ε ≤ q → |min A B - D| ≤ ε) := by
  have up : ∀ {X x : ℝ}, 0 ≤ X → X ^ 2 = l ^ 2 + x ^ 2 → l ≤ X ∧ X ≤ l + |x| := by
    intro X x hX e
    have hx := abs_nonneg x
    have e' : x ^ 2 = |x| ^ 2 := (sq_abs x).symm
    constructor
    · refine le_of_sq_le_sq ?_ hX; nlinarith
    · refine le_of_sq_le_sq ?_ (by positivity); rw [e, e']; nlinarith
  obtain ⟨a1, a2⟩ := up hA eA
  obtain ⟨b1, b2⟩ := up hB eB
  constructor
  · intro h1 h2
    rcases hD with ⟨_, _, rfl⟩ | ⟨hn, rfl⟩
    · rw [sub_self, abs_zero]; exact hε
    · rw [abs_sub_comm, abs_of_nonneg (sub_nonneg.mpr (le_min a1 b1))]
      rcases lt_or_ge q 0 with c | c
      · rw [abs_of_neg c] at a2
        have := min_le_left A B
        linarith
      · have c' : L < q := not_le.mp fun c' => hn ⟨c, c'⟩
        rw [abs_of_pos (sub_pos.mpr c')] at b2
        have := min_le_right A B
        linarith
  · intro h
    rcases hD with ⟨h1, h2, rfl⟩ | ⟨hn, rfl⟩
    · rw [abs_of_nonneg (sub_nonneg.mpr (le_min a1 b1))]
      rcases h with h | h
      · rw [abs_of_nonneg h1] at a2
        have := min_le_left A B
        linarith
      · rw [abs_of_nonpos (sub_nonpos.mpr h2)] at b2
        have := min_le_right A B
        linarith
    · rw [sub_self, abs_zero]; exact hε

theorem sqrt_near {x a ε r : ℝ} (hx : 0 ≤ x) (ha : 0 ≤ a) (hε : 0 ≤ ε) (hr : 0 ≤ r) (h : |x - a ^ 2| ≤ ε * a ^ 2 + r ^ 2) :
    |√x - a| ≤ ε * a + r := by
  by_contra hc
  push Not at hc
  have hs := Real.sqrt_nonneg x
  have e : |x - a ^ 2| = |√x - a| * (√x + a) := by
    rw [← abs_of_nonneg (add_nonneg hs ha), ← abs_mul]
    congr 1
    have := Real.mul_self_sqrt hx
    nlinarith
  have t1 : |√x - a| ≤ √x + a := by rw [abs_le]; constructor <;> linarith
  have h1 : a ≤ √x + a := by linarith
  have h2 : r ≤ √x + a := by nlinarith [mul_nonneg hε ha]
  rw [e] at h
  have h3 : (ε * a + r) * (√x + a) ≤ |√x - a| * (√x + a) := mul_le_mul_of_nonneg_right hc.le (by linarith)
  have h4 : ε * a * a ≤ ε * a * (√x + a) := mul_le_mul_of_nonneg_left h1 (mul_nonneg hε ha)
  have h5 : r * r ≤ r * (√x + a) := mul_le_mul_of_nonneg_left h2 hr
  have h6 : 0 < √x + a := by
    rcases lt_or_eq_of_le (add_nonneg hs ha) with c | c
    · exact c
    · rw [← c] at t1
      nlinarith [mul_nonneg hε ha, abs_nonneg (√x - a)]
  have h7 : (ε * a + r) * (√x + a) < |√x - a| * (√x + a) := mul_lt_mul_of_pos_right hc h6
  nlinarith

theorem isMinDist_unique {S : Set Pt} {p : Pt} {m n : ℝ} (h : IsMinDist S p m) (k : IsMinDist S p n) : m = n := by
  obtain ⟨⟨a, ha, rfl⟩, h2⟩ := h
  obtain ⟨⟨b, hb, rfl⟩, k2⟩ := k
  exact le_antisymm (h2 b hb) (k2 a ha)

/-- The exact distance in terms of the distance `l` from the line and the position `q` of the foot. -/
theorem seg_exact_dist {o t p : Pt} {D : ℝ} (hL : 0 < d o t) (hD : IsMinDist (segment ℝ o t) p D) :
    ∃ l q, 0 ≤ l ∧ l * d o t = |cross (t - o) (p - o)| ∧
      q * d o t = (t.1 - o.1) * (p.1 - o.1) + (t.2 - o.2) * (p.2 - o.2) ∧ d o p ^ 2 = l ^ 2 + q ^ 2 ∧
      d t p ^ 2 = l ^ 2 + (q - d o t) ^ 2 ∧
      ((0 ≤ q ∧ q ≤ d o t ∧ D = l) ∨ (¬ (0 ≤ q ∧ q ≤ d o t) ∧ D = min (d o p) (d t p))) := by
  have hS := (C34_dist_point ⟨⟨o.1, o.2, true⟩, ⟨t.1, t.2, true⟩⟩ ⟨p.1, p.2, true⟩).1
  have hDe := isMinDist_unique hD hS
  have hsq := d_sq o t
  have hA := d_sq o p
  have hB := d_sq t p
  have hA0 := d_nonneg o p
  have hB0 := d_nonneg t p
  have dA : √((o.1 - p.1) ^ 2 + (o.2 - p.2) ^ 2) = d o p := by rw [← hA, Real.sqrt_sq hA0]
  have dB : √((t.1 - p.1) ^ 2 + (t.2 - p.2) ^ 2) = d t p := by rw [← hB, Real.sqrt_sq hB0]
  have dL : √((o.1 - t.1) ^ 2 + (o.2 - t.2) ^ 2) = d o t := by rw [← hsq, Real.sqrt_sq hL.le]
  have hlag : |cross (t - o) (p - o)| ^ 2 + ((t.1 - o.1) * (p.1 - o.1) + (t.2 - o.2) * (p.2 - o.2)) ^ 2 = d o t ^ 2 * d o p ^ 2 := by
    rw [sq_abs, hsq, hA]; simp only [cross, Prod.fst_sub, Prod.snd_sub]; ring
  refine ⟨|cross (t - o) (p - o)| / d o t, ((t.1 - o.1) * (p.1 - o.1) + (t.2 - o.2) * (p.2 - o.2)) / d o t, by positivity,
    div_mul_cancel₀ _ hL.ne', div_mul_cancel₀ _ hL.ne', ?_, ?_, ?_⟩
  · rw [div_pow, div_pow, ← add_div, hlag, mul_div_cancel_left₀ _ (by positivity)]
  · rw [sub_sq, div_pow, div_pow, mul_assoc 2, div_mul_cancel₀ _ hL.ne']
    have : |cross (t - o) (p - o)| ^ 2 / d o t ^ 2 + ((t.1 - o.1) * (p.1 - o.1) + (t.2 - o.2) * (p.2 - o.2)) ^ 2 / d o t ^ 2 = d o p ^ 2 := by
      rw [← add_div, hlag, mul_div_cancel_left₀ _ (by positivity)]
    rw [hB]
    rw [hA] at this
    rw [hsq]
    rw [hsq] at this
    linarith
  · have e : D = (if 0 ≤ (t.1 - o.1) * (p.1 - o.1) + (t.2 - o.2) * (p.2 - o.2) ∧
        (t.1 - o.1) * (p.1 - o.1) + (t.2 - o.2) * (p.2 - o.2) ≤ d o t * d o t then |cross (t - o) (p - o)| / d o t
        else min (d o p) (d t p)) := by
      rw [hDe]
      have hip : ((⟨t.1, t.2, true⟩ : Vec ℝ).sub ⟨o.1, o.2, true⟩).innerProduct ((⟨p.1, p.2, true⟩ : Vec ℝ).sub ⟨o.1, o.2, true⟩) =
          (t.1 - o.1) * (p.1 - o.1) + (t.2 - o.2) * (p.2 - o.2) := rfl
      have hlen : (⟨⟨o.1, o.2, true⟩, ⟨t.1, t.2, true⟩⟩ : Seg ℝ).length = d o t := by
        unfold Seg.length; rw [Vec.dist_real]; rfl
      have hmin : √(min ((o.1 - p.1) ^ 2 + (o.2 - p.2) ^ 2) ((t.1 - p.1) ^ 2 + (t.2 - p.2) ^ 2)) = min (d o p) (d t p) := by
        rw [← dA, ← dB]
        exact Real.sqrt_monotone.map_min
      have hc : area2 o t p = cross (t - o) (p - o) := by
        simp only [area2, cross, Prod.fst_sub, Prod.snd_sub]
      unfold Seg.distPoint
      simp only [hip, hlen, num_real, Nat.cast_zero, beq_iff_eq, fabs_real, pyMin_real, Tri.dsa_real, Vec.dist2_real, hL.ne',
        if_false]
      change (if _ then |area2 o t p / d o t| else √(min ((o.1 - p.1) ^ 2 + (o.2 - p.2) ^ 2) ((t.1 - p.1) ^ 2 + (t.2 - p.2) ^ 2))) = _
      rw [hmin, abs_div, abs_of_pos hL, hc]
    rw [e, le_div_iff₀ hL, zero_mul, div_le_iff₀ hL]
    split_ifs with c
    · exact .inl ⟨c.1, c.2, rfl⟩
    · exact .inr ⟨c, rfl⟩

/-- From the errors of the parts to the error of the distance; `e` is the unit of the relative errors. -/
theorem seg_dist_core {l q L A B D e P n N C c X a b M : ℝ} (he0 : 0 < e) (he : e ≤ 1 / 1000) (hL : 0 < L) (hl : 0 ≤ l)
    (hA : 0 ≤ A) (hB : 0 ≤ B) (hS : L ≤ A + B) (eA : A ^ 2 = l ^ 2 + q ^ 2) (eB : B ^ 2 = l ^ 2 + (q - L) ^ 2)
    (hD : (0 ≤ q ∧ q ≤ L ∧ D = l) ∨ (¬ (0 ≤ q ∧ q ≤ L) ∧ D = min A B))
    (hc : l * L = |c|)
    (h1 : |P - q * L| ≤ e * (L * A) + e * L ^ 2)
    (h2 : |n - L| ≤ 2 * e * L)
    (h3 : |N - n * n| ≤ e * |n * n| + e * L ^ 2)
    (h4 : |C - c| ≤ e * (A * B) + e * L ^ 2)
    (h5 : |X - C / n| ≤ e * |C / n| + e * L)
    (h6 : |a - A| ≤ e * A + e * L) (h7 : |b - B| ≤ e * B + e * L) (ha : 0 ≤ a) (hb : 0 ≤ b)
    (h8 : |M - min a b| ≤ e * |min a b| + e * L) :
    (0 ≤ P → P ≤ N → |(|X|) - D| ≤ 32 * e * ((A + B) ^ 2 / L)) ∧
    (P < 0 ∨ N < P → |M - D| ≤ 32 * e * ((A + B) ^ 2 / L)) := by
  obtain ⟨k1, k2⟩ := seg_near_line hl hA hB eA eB (ε := e * (A + 8 * L)) (by positivity) hD
  have hlA : l ≤ A := le_of_sq_le_sq (by nlinarith [sq_nonneg q]) hA
  have s1 : A + B ≤ (A + B) ^ 2 / L := by rw [le_div_iff₀ hL]; nlinarith
  have s2 : A * B / L ≤ (A + B) ^ 2 / L := by
    apply div_le_div_of_nonneg_right _ hL.le; nlinarith [mul_nonneg hA hB, sq_nonneg A, sq_nonneg B]
  generalize (A + B) ^ 2 / L = W at *
  obtain ⟨n1, n2⟩ := abs_le.mp h2
  have eL : e * L ≤ 1 / 1000 * L := mul_le_mul_of_nonneg_right he hL.le
  have n0 : L / 2 ≤ n := by linarith
  have n00 : 0 < n := by linarith
  have eL0 : 0 ≤ e * L := by positivity
  have eA0 : 0 ≤ e * A := by positivity
  have eB0 : 0 ≤ e * B := by positivity
  have hN : |N - L ^ 2| ≤ 7 * e * L ^ 2 := by
    have hnn : |n * n - L ^ 2| ≤ 9 / 2 * e * L ^ 2 := by
      rw [show n * n - L ^ 2 = (n - L) * (n + L) by ring, abs_mul, abs_of_pos (show 0 < n + L by linarith)]
      calc |n - L| * (n + L) ≤ (2 * e * L) * (9 / 4 * L) := by
            apply mul_le_mul h2 (by linarith) (by linarith) (by positivity)
        _ = _ := by ring
    have hnn2 : |n * n| ≤ L ^ 2 + 9 / 2 * e * L ^ 2 := by
      have := abs_sub_abs_le_abs_sub (n * n) (L ^ 2)
      rw [abs_of_nonneg (show 0 ≤ L ^ 2 by positivity)] at this
      linarith
    have h9 : e * |n * n| ≤ e * (L ^ 2 + 9 / 2 * e * L ^ 2) := mul_le_mul_of_nonneg_left (by linarith) he0.le
    have h10 : e * (L ^ 2 + 9 / 2 * e * L ^ 2) ≤ e * L ^ 2 + e * L ^ 2 * (1 / 200) := by 
      have := mul_le_mul_of_nonneg_left he (show 0 ≤ e * L ^ 2 by positivity)
      linarith only [this, mul_pos he0 (pow_pos hL 2)]
    have t := abs_sub_le N (n * n) (L ^ 2)
    have : 0 ≤ e * L ^ 2 := by positivity
    linarith
  obtain ⟨N1, N2⟩ := abs_le.mp hN
  obtain ⟨P1, P2⟩ := abs_le.mp h1
  constructor
  · intro p1 p2
    have hp' := p1
    have q1 : -(e * (A + 8 * L)) ≤ q := by
      by_contra hh; push Not at hh
      have := mul_lt_mul_of_pos_right hh hL
      linarith only [this, mul_pos he0 (pow_pos hL 2), N1, N2, P1, P2, hp']
    have hp' := p2
    have q2 : q ≤ L + e * (A + 8 * L) := by
      by_contra hh; push Not at hh
      have := mul_lt_mul_of_pos_right hh hL
      linarith only [this, mul_pos he0 (pow_pos hL 2), N1, N2, P1, P2, hp']
    have r1 := k1 q1 q2
    have r2 : |C / n - c / L| ≤ 2 * e * (A * B / L) + 2 * e * L + 4 * e * A := by
      have e1 : C / n - c / L = (C - c) / n + c / L * ((L - n) / n) := by field_simp; ring
      have e2 : |(C - c) / n| ≤ 2 * e * (A * B / L) + 2 * e * L := by
        rw [abs_div, abs_of_pos n00, div_le_iff₀ n00]
        have : (2 * e * (A * B / L) + 2 * e * L) * (L / 2) ≤ (2 * e * (A * B / L) + 2 * e * L) * n :=
          mul_le_mul_of_nonneg_left n0 (by positivity)
        refine h4.trans (le_trans (le_of_eq ?_) this)
        field_simp
      have e3 : |c / L * ((L - n) / n)| ≤ 4 * e * A := by
        rw [abs_mul, abs_div, abs_of_pos hL, ← hc, mul_div_cancel_right₀ _ hL.ne', abs_div, abs_of_pos n00, abs_sub_comm]
        have : |n - L| / n ≤ 4 * e := by
          rw [div_le_iff₀ n00]
          have : 4 * e * (L / 2) ≤ 4 * e * n := mul_le_mul_of_nonneg_left n0 (by positivity)
          linarith
        calc l * (|n - L| / n) ≤ A * (4 * e) := mul_le_mul hlA this (by positivity) hA
          _ = _ := by ring
      rw [e1]
      exact (abs_add_le _ _).trans (by linarith)
    have r3 : |c / L| = l := by rw [abs_div, abs_of_pos hL, ← hc, mul_div_cancel_right₀ _ hL.ne']
    have r4 : |C / n| ≤ A + 2 * e * (A * B / L) + 2 * e * L + 4 * e * A := by
      have := abs_sub_abs_le_abs_sub (C / n) (c / L)
      linarith
    have eAB0 : 0 ≤ e * (A * B / L) := by positivity
    have r5 : |C / n| ≤ 2 * A + A * B / L + L := by
      have g1 : e * (A * B / L) ≤ 1 / 1000 * (A * B / L) := mul_le_mul_of_nonneg_right he (by positivity)
      have g2 : e * A ≤ 1 / 1000 * A := mul_le_mul_of_nonneg_right he hA
      have : 0 ≤ A * B / L := by positivity
      linarith
    have r6 : e * |C / n| ≤ e * (2 * A + A * B / L + L) := mul_le_mul_of_nonneg_left r5 he0.le
    have r7 : |(|X|) - l| ≤ |X - c / L| := by rw [← r3]; exact abs_abs_sub_abs_le_abs_sub _ _
    have r8 := abs_sub_le X (C / n) (c / L)
    have r9 := abs_sub_le |X| l D
    have w1 : e * (A * B / L) ≤ e * W := mul_le_mul_of_nonneg_left s2 he0.le
    have w2 : e * (A + B) ≤ e * W := mul_le_mul_of_nonneg_left s1 he0.le
    have w3 : e * L ≤ e * (A + B) := mul_le_mul_of_nonneg_left hS he0.le
    linarith
  · intro hp
    have hq : q ≤ e * (A + 8 * L) ∨ L - e * (A + 8 * L) ≤ q := by
      rcases hp with hp | hp
      · left; by_contra hh; push Not at hh
        have := mul_lt_mul_of_pos_right hh hL
        linarith only [this, mul_pos he0 (pow_pos hL 2), N1, N2, P1, P2, hp]
      · right; by_contra hh; push Not at hh
        have := mul_lt_mul_of_pos_right hh hL
        linarith only [this, mul_pos he0 (pow_pos hL 2), N1, N2, P1, P2, hp]
    have r1 := k2 hq
    have r2 : |min a b - min A B| ≤ e * (A + B) + e * L := by
      refine (abs_min_sub_min_le_max _ _ _ _).trans (max_le ?_ ?_) <;> linarith
    have m0 : 0 ≤ min A B := le_min hA hB
    have r3 : |min a b| ≤ A + (e * (A + B) + e * L) := by
      have := abs_sub_abs_le_abs_sub (min a b) (min A B)
      rw [abs_of_nonneg m0] at this
      have := min_le_left A B
      linarith
    have r4 : |min a b| ≤ 2 * (A + B) := by
      have g1 : e * (A + B) ≤ 1 / 1000 * (A + B) := mul_le_mul_of_nonneg_right he (by positivity)
      linarith
    have r5 : e * |min a b| ≤ e * (2 * (A + B)) := mul_le_mul_of_nonneg_left r4 he0.le
    have r8 := abs_sub_le M (min a b) (min A B)
    have r9 := abs_sub_le M (min A B) D
    have w2 : e * (A + B) ≤ e * W := mul_le_mul_of_nonneg_left s1 he0.le
    have w3 : e * L ≤ e * (A + B) := mul_le_mul_of_nonneg_left hS he0.le
    linarith

/-- **C165**, what holds of `Segment2D.dist`: the error is at most `2 ^ -45` times the square of the sum of the distances
of the point from the two ends, divided by the length of the segment. -/
theorem C165_segment_partial (s : Seg (FP double)) (p : Vec (FP double)) (ho : s.origin.FOk) (ht : s.terminal.FOk)
    (hp : p.FOk) (hL : (2 : ℝ) ^ (-400 : ℤ) ≤ d s.origin.fpt s.terminal.fpt) (D : ℝ) (hD : IsMinDist s.fpts p.fpt D) :
    |(s.distPoint p).val - D| ≤
      (2 : ℝ) ^ (-45 : ℤ) * ((d s.origin.fpt p.fpt + d s.terminal.fpt p.fpt) ^ 2 / d s.origin.fpt s.terminal.fpt) := by
  obtain ⟨o, t⟩ := s
  dsimp only at *
  have hT : (0 : ℝ) < (2 : ℝ) ^ (-400 : ℤ) := by positivity
  have hL0 : 0 < d o.fpt t.fpt := lt_of_lt_of_le hT hL
  obtain ⟨l, q, g1, g2, g3, g4, g5, g6⟩ := seg_exact_dist hL0 hD
  have tri : d o.fpt t.fpt ≤ d o.fpt p.fpt + d t.fpt p.fpt := by
    rw [d_comm t.fpt]; exact d_triangle _ _ _
  have hA := d_nonneg o.fpt p.fpt
  have hB := d_nonneg t.fpt p.fpt
  have h1 := rne_sum_prod_error (isDouble_rne _) (isDouble_rne _) (rne_prod_error ht.1 ho.1 hp.1 ho.1)
    (rne_prod_error ht.2 ho.2 hp.2 ho.2)
  have c1 := cs_abs (a := t.x.val - o.x.val) (c := t.y.val - o.y.val) (b := p.x.val - o.x.val) (e := p.y.val - o.y.val)
    hL0.le hA (by rw [d_sq]; simp only [Vec.fpt]; ring) (by rw [d_sq]; simp only [Vec.fpt]; ring)
  have h2 := C104_error_partial o t ho ht (le_trans (zpow_le_zpow_right₀ one_le_two (by norm_num)) hL)
  have h3 := rne_error_mixed ((o.dist t).val * (o.dist t).val)
  have h4 := fp_dsa_error ho ht hp
  have c4 := cs_abs (a := o.x.val - p.x.val) (c := o.y.val - p.y.val) (b := t.y.val - p.y.val) (e := t.x.val - p.x.val)
    hA hB (by rw [d_sq]; simp only [Vec.fpt]) (by rw [d_sq]; simp only [Vec.fpt]; ring)
  rw [show (o.y.val - p.y.val) * (t.x.val - p.x.val) = -((t.x.val - p.x.val) * (p.y.val - o.y.val)) by ring, abs_neg] at c4
  have h5 := rne_error_mixed ((Tri.dsa o t p).val / (o.dist t).val)
  have h6 := fp_dist2_error ho hp
  have h7 := fp_dist2_error ht hp
  have z6 := (C104_symm_partial o p).1.2
  have z7 := (C104_symm_partial t p).1.2
  have h8 := rne_error_mixed √(min (o.dist2 p).val (t.dist2 p).val)
  have dec : (Seg.distPoint ⟨o, t⟩ p).val =
      if 0 ≤ rne (rne (rne (t.x.val - o.x.val) * rne (p.x.val - o.x.val)) + rne (rne (t.y.val - o.y.val) * rne (p.y.val - o.y.val))) ∧
        rne (rne (rne (t.x.val - o.x.val) * rne (p.x.val - o.x.val)) + rne (rne (t.y.val - o.y.val) * rne (p.y.val - o.y.val))) ≤
          rne ((o.dist t).val * (o.dist t).val)
      then |rne ((Tri.dsa o t p).val / (o.dist t).val)| else rne √(min (o.dist2 p).val (t.dist2 p).val) := by
    have hn : ¬ (((o.dist t) == (num 0 : FP double)) = true) := by
      rw [fp_beq, fp_zero]
      have h2' := (abs_le.mp h2).1
      have e : (2 : ℝ) ^ (-49 : ℤ) ≤ 1 / 2 := by norm_num
      have e' := mul_le_mul_of_nonneg_right e hL0.le
      intro h0
      rw [h0] at h2'
      generalize (2 : ℝ) ^ (-49 : ℤ) = Z at *
      linarith only [h2', e', hL0]
    unfold Seg.distPoint Seg.length
    dsimp only
    rw [if_neg hn, apply_ite FP.val, fp_fabs_val]
    have e1 : ∀ x y : FP double, (num 0 ≤ x ∧ x ≤ y) ↔ (0 ≤ x.val ∧ x.val ≤ y.val) := by
      intro x y; rw [fp_zero_le, FP.le_def]
    rw [if_congr (e1 _ _) rfl rfl]
    have e2 : (PyMath.sqrt (pyMin (o.dist2 p) (t.dist2 p))).val = rne √(min (o.dist2 p).val (t.dist2 p).val) := by
      rw [← fp_pyMin_val]; rfl
    rw [e2]
    rfl
  rw [dec]
  have es : √(min (o.dist2 p).val (t.dist2 p).val) = min √(o.dist2 p).val √(t.dist2 p).val := Real.sqrt_monotone.map_min
  rw [es] at h8 ⊢
  have k1 : (2 : ℝ) ^ (-49 : ℤ) = 2 * (2 : ℝ) ^ (-50 : ℤ) := by norm_num
  have k2 : (2 : ℝ) ^ (-45 : ℤ) = 32 * (2 : ℝ) ^ (-50 : ℤ) := by norm_num
  have k3 : (2 : ℝ) ^ (-53 : ℤ) ≤ (2 : ℝ) ^ (-50 : ℤ) := by norm_num
  have tl : (2 : ℝ) ^ (-1073 : ℤ) ≤ (2 : ℝ) ^ (-50 : ℤ) * d o.fpt t.fpt := by
    refine le_trans ?_ (mul_le_mul_of_nonneg_left hL (by positivity))
    rw [← zpow_add₀ two_ne_zero]; exact zpow_le_zpow_right₀ one_le_two (by norm_num)
  have tl2 : (2 : ℝ) ^ (-1073 : ℤ) ≤ (2 : ℝ) ^ (-50 : ℤ) * d o.fpt t.fpt ^ 2 := by
    refine le_trans ?_ (mul_le_mul_of_nonneg_left (pow_le_pow_left₀ hT.le hL 2) (by positivity))
    rw [← zpow_natCast, ← zpow_mul, ← zpow_add₀ two_ne_zero]; exact zpow_le_zpow_right₀ one_le_two (by norm_num)
  have tr : (2 : ℝ) ^ (-1073 : ℤ) ≤ ((2 : ℝ) ^ (-50 : ℤ) * d o.fpt t.fpt) ^ 2 := by
    refine le_trans ?_ (pow_le_pow_left₀ (by positivity) (mul_le_mul_of_nonneg_left hL (by positivity)) 2)
    rw [← zpow_add₀ two_ne_zero, ← zpow_natCast, ← zpow_mul]; exact zpow_le_zpow_right₀ one_le_two (by norm_num)
  have tt : (2 : ℝ) ^ (-1075 : ℤ) ≤ (2 : ℝ) ^ (-1073 : ℤ) := zpow_le_zpow_right₀ one_le_two (by norm_num)
  have he0 : (0 : ℝ) < (2 : ℝ) ^ (-50 : ℤ) := by positivity
  have he : (2 : ℝ) ^ (-50 : ℤ) ≤ 1 / 1000 := by norm_num
  have mul50 : ∀ x : ℝ, (2 : ℝ) ^ (-53 : ℤ) * |x| ≤ (2 : ℝ) ^ (-50 : ℤ) * |x| := fun x =>
    mul_le_mul_of_nonneg_right k3 (abs_nonneg x)
  have m3 := mul50 ((o.dist t).val * (o.dist t).val)
  have m5 := mul50 ((Tri.dsa o t p).val / (o.dist t).val)
  have m8 := mul50 (min √(o.dist2 p).val √(t.dist2 p).val)
  rw [k1] at h2
  rw [k2]
  have h6' := sqrt_near z6 hA he0.le (r := (2 : ℝ) ^ (-50 : ℤ) * d o.fpt t.fpt) (by positivity) (h6.trans (add_le_add le_rfl tr))
  have h7' := sqrt_near z7 hB he0.le (r := (2 : ℝ) ^ (-50 : ℤ) * d o.fpt t.fpt) (by positivity) (h7.trans (add_le_add le_rfl tr))
  have c1' := mul_le_mul_of_nonneg_left c1 he0.le
  have c4' := mul_le_mul_of_nonneg_left c4 he0.le
  have core := seg_dist_core he0 he hL0 g1 hA hB tri g4 g5 g6 g2 (h1.trans' (le_of_eq (by rw [g3]; rfl)) |>.trans (add_le_add c1' tl2))
    h2 (h3.trans (add_le_add m3 (tt.trans tl2))) (h4.trans (add_le_add c4' tl2)) (h5.trans (add_le_add m5 (tt.trans tl))) h6' h7' (Real.sqrt_nonneg _) (Real.sqrt_nonneg _)
    (h8.trans (add_le_add m8 (tt.trans tl)))
  split_ifs with c
  · exact core.1 c.1 c.2
  · refine core.2 ?_
    by_contra hh
    push Not at hh
    exact c hh

theorem quot_near {s c n N e T r X t : ℝ} (he0 : 0 < e) (he : e ≤ 1 / 1000) (hN : 0 < N) (hr : 0 ≤ r)
    (h1 : |s - c| ≤ e * T + r) (hT : |c| ≤ T) (h2 : |n - N| ≤ 2 * e * N) (h3 : |X - s / n| ≤ e * |s / n| + t) :
    |X - c / N| ≤ 8 * e * (T / N) + 3 * (r / N) + t := by
  obtain ⟨n1, n2⟩ := abs_le.mp h2
  have eN : e * N ≤ 1 / 1000 * N := mul_le_mul_of_nonneg_right he hN.le
  have n0 : N / 2 ≤ n := by linarith
  have n00 : 0 < n := by linarith
  have hT0 : 0 ≤ T := (abs_nonneg c).trans hT
  have e1 : s / n - c / N = (s - c) / n + c / N * ((N - n) / n) := by field_simp; ring
  have e2 : |(s - c) / n| ≤ 2 * e * (T / N) + 2 * (r / N) := by
    rw [abs_div, abs_of_pos n00, div_le_iff₀ n00]
    have : (2 * e * (T / N) + 2 * (r / N)) * (N / 2) ≤ (2 * e * (T / N) + 2 * (r / N)) * n :=
      mul_le_mul_of_nonneg_left n0 (by positivity)
    refine h1.trans (le_trans (le_of_eq ?_) this)
    field_simp
  have hcN : |c / N| ≤ T / N := by rw [abs_div, abs_of_pos hN]; exact div_le_div_of_nonneg_right hT hN.le
  have e3 : |c / N * ((N - n) / n)| ≤ 4 * e * (T / N) := by
    rw [abs_mul, abs_div (N - n), abs_of_pos n00, abs_sub_comm]
    have : |n - N| / n ≤ 4 * e := by
      rw [div_le_iff₀ n00]
      have : 4 * e * (N / 2) ≤ 4 * e * n := mul_le_mul_of_nonneg_left n0 (by positivity)
      linarith
    calc |c / N| * (|n - N| / n) ≤ (T / N) * (4 * e) := mul_le_mul hcN this (by positivity) (by positivity)
      _ = _ := by ring
  have hTN : 0 ≤ T / N := by positivity
  have hrN : 0 ≤ r / N := by positivity
  have r2 : |s / n - c / N| ≤ 6 * e * (T / N) + 2 * (r / N) := by
    rw [e1]; exact (abs_add_le _ _).trans (by linarith)
  have r3 : |s / n| ≤ 2 * (T / N) + 2 * (r / N) := by
    have h4 := abs_sub_abs_le_abs_sub (s / n) (c / N)
    have g1 : e * (T / N) ≤ 1 / 1000 * (T / N) := mul_le_mul_of_nonneg_right he hTN
    linarith
  have r4 : e * |s / n| ≤ e * (2 * (T / N) + 2 * (r / N)) := mul_le_mul_of_nonneg_left r3 he0.le
  have g2 : e * (r / N) ≤ 1 / 1000 * (r / N) := mul_le_mul_of_nonneg_right he hrN
  have r5 := abs_sub_le X (s / n) (c / N)
  linarith

/-- The three terms of `a x + b y + c` in double precision. -/
theorem fp_lin_error {a b c x y : ℝ} (hc : IsDouble c) :
    |rne (rne (rne (a * x) + rne (b * y)) + c) - (a * x + b * y + c)| ≤
      (2 : ℝ) ^ (-50 : ℤ) * (|a * x| + |b * y| + |c|) + (2 : ℝ) ^ (-1073 : ℤ) := by
  have h1 := rne_error_mixed (a * x)
  have h2 := rne_error_mixed (b * y)
  have h3 := fp_sum_grid (isDouble_rne (a * x)) (isDouble_rne (b * y))
  have h4 := fp_sum_grid (isDouble_rne (rne (a * x) + rne (b * y))) hc
  have e1 : (2 : ℝ) ^ (-53 : ℤ) = (2 : ℝ) ^ (-50 : ℤ) / 8 := by norm_num
  have e2 : (2 : ℝ) ^ (-1073 : ℤ) = 4 * (2 : ℝ) ^ (-1075 : ℤ) := by
    rw [show (-1073 : ℤ) = 2 + -1075 by norm_num, zpow_add₀ two_ne_zero]; norm_num
  have e3 : (2 : ℝ) ^ (-50 : ℤ) ≤ 1 / 1000 := by norm_num
  have e4 : (0 : ℝ) < (2 : ℝ) ^ (-50 : ℤ) := by positivity
  have e5 : (0 : ℝ) < (2 : ℝ) ^ (-1075 : ℤ) := by positivity
  rw [e1] at h1 h2 h3 h4
  rw [e2]
  generalize (2 : ℝ) ^ (-50 : ℤ) = e at *
  generalize (2 : ℝ) ^ (-1075 : ℤ) = t at *
  clear e1 e2
  generalize rne (a * x) = P at *
  generalize rne (b * y) = Q at *
  generalize rne (P + Q) = R at *
  generalize rne (R + c) = S at *
  generalize a * x = u at *
  generalize b * y = v at *
  have i1 : |P| ≤ |u| + |P - u| := by have := abs_sub_abs_le_abs_sub P u; linarith
  have i2 : |Q| ≤ |v| + |Q - v| := by have := abs_sub_abs_le_abs_sub Q v; linarith
  have i3 := abs_add_le P Q
  have i4 : |R| ≤ |P + Q| + |R - (P + Q)| := by have := abs_sub_abs_le_abs_sub R (P + Q); linarith
  have i5 := abs_add_le R c
  have i6 : |S - (u + v + c)| ≤ |S - (R + c)| + |R - (P + Q)| + (|P - u| + |Q - v|) := by
    have := abs_add_le (S - (R + c) + (R - (P + Q))) (P - u + (Q - v))
    have := abs_add_le (S - (R + c)) (R - (P + Q))
    have := abs_add_le (P - u) (Q - v)
    rw [show S - (u + v + c) = S - (R + c) + (R - (P + Q)) + (P - u + (Q - v)) by ring]
    linarith
  have j : ∀ {X Y : ℝ}, 0 ≤ Y → X ≤ e / 8 * Y + t → X ≤ Y / 8000 + t := by
    intro X Y hY h
    have := mul_le_mul_of_nonneg_right e3 hY
    linarith
  have u0 := abs_nonneg u
  have v0 := abs_nonneg v
  have c0 := abs_nonneg c
  have hP := j u0 h1
  have hQ := j v0 h2
  have hPQ : |P + Q| ≤ 1001 / 1000 * (|u| + |v|) + 2 * t := by linarith
  have hPQ' := mul_le_mul_of_nonneg_left hPQ (show 0 ≤ e / 8 by positivity)
  have et : e * t ≤ t / 1000 := by have := mul_le_mul_of_nonneg_right e3 e5.le; linarith
  have eu : e * |u| ≤ 1 / 1000 * |u| := mul_le_mul_of_nonneg_right e3 u0
  have ev : e * |v| ≤ 1 / 1000 * |v| := mul_le_mul_of_nonneg_right e3 v0
  have hRc : |R + c| ≤ 101 / 100 * (|u| + |v|) + |c| + 3 * t := by linarith
  have hRc' := mul_le_mul_of_nonneg_left hRc (show 0 ≤ e / 8 by positivity)
  have eu0 : 0 ≤ e * |u| := by positivity
  have ev0 : 0 ≤ e * |v| := by positivity
  have ec0 : 0 ≤ e * |c| := by positivity
  linarith

/-- **C165**, what holds of `Line2D.dist`: no exception, and the error is at most `2 ^ -47` times the sum of the sizes of
the three terms of the equation divided by the length of the normal vector. -/
theorem C165_line_partial (l : Line (FP double)) (p : Vec (FP double)) (ha : IsDouble l.a.val) (hb : IsDouble l.b.val)
    (hc : IsDouble l.c.val) (hN : (2 : ℝ) ^ (-400 : ℤ) ≤ √(l.a.val ^ 2 + l.b.val ^ 2)) :
    ∃ r, l.dist p = .ok r ∧ |r.val - |l.a.val * p.x.val + l.b.val * p.y.val + l.c.val| / √(l.a.val ^ 2 + l.b.val ^ 2)| ≤
      (2 : ℝ) ^ (-47 : ℤ) * ((|l.a.val * p.x.val| + |l.b.val * p.y.val| + |l.c.val|) / √(l.a.val ^ 2 + l.b.val ^ 2)) +
        (2 : ℝ) ^ (-600 : ℤ) := by
  have hT : (0 : ℝ) < (2 : ℝ) ^ (-400 : ℤ) := by positivity
  have hN0 : 0 < √(l.a.val ^ 2 + l.b.val ^ 2) := lt_of_lt_of_le hT hN
  have hd : d (Vec.fpt ⟨l.a, l.b, true⟩) (Vec.fpt ⟨⟨0⟩, ⟨0⟩, true⟩) = √(l.a.val ^ 2 + l.b.val ^ 2) := by
    simp only [d, Vec.fpt, sub_zero]
  have h2 := C104_error_partial ⟨l.a, l.b, true⟩ ⟨⟨0⟩, ⟨0⟩, true⟩ ⟨ha, hb⟩ ⟨isDouble_zero, isDouble_zero⟩
    (by rw [hd]; exact le_trans (zpow_le_zpow_right₀ one_le_two (by norm_num)) hN)
  rw [hd, fp_dist, fp_dist2] at h2
  change |rne √(rne (rne (rne (l.a.val - 0) * rne (l.a.val - 0)) + rne (rne (l.b.val - 0) * rne (l.b.val - 0)))) - _| ≤ _ at h2
  rw [sub_zero, sub_zero, rne_of_isDouble ha, rne_of_isDouble hb] at h2
  have h1 := fp_lin_error (a := l.a.val) (b := l.b.val) (x := p.x.val) (y := p.y.val) hc
  have hden : (PyMath.sqrt (l.a * l.a + l.b * l.b) : FP double).val =
      rne √(rne (rne (l.a.val * l.a.val) + rne (l.b.val * l.b.val))) := rfl
  have hnum : (l.a * p.x + l.b * p.y + l.c).val =
      rne (rne (rne (l.a.val * p.x.val) + rne (l.b.val * p.y.val)) + l.c.val) := rfl
  rw [← hden] at h2
  rw [← hnum] at h1
  have k1 : (2 : ℝ) ^ (-49 : ℤ) = 2 * (2 : ℝ) ^ (-50 : ℤ) := by norm_num
  have k2 : (2 : ℝ) ^ (-47 : ℤ) = 8 * (2 : ℝ) ^ (-50 : ℤ) := by norm_num
  have k3 : (2 : ℝ) ^ (-53 : ℤ) ≤ (2 : ℝ) ^ (-50 : ℤ) := by norm_num
  have he0 : (0 : ℝ) < (2 : ℝ) ^ (-50 : ℤ) := by positivity
  have he : (2 : ℝ) ^ (-50 : ℤ) ≤ 1 / 1000 := by norm_num
  rw [k1] at h2
  have hq := rne_error_mixed ((l.a * p.x + l.b * p.y + l.c).val / (PyMath.sqrt (l.a * l.a + l.b * l.b) : FP double).val)
  have hq' := hq.trans (add_le_add (mul_le_mul_of_nonneg_right k3 (abs_nonneg _)) le_rfl)
  have hsum : |l.a.val * p.x.val + l.b.val * p.y.val + l.c.val| ≤ |l.a.val * p.x.val| + |l.b.val * p.y.val| + |l.c.val| :=
    abs_add_three _ _ _
  have hfin := quot_near he0 he hN0 (r := (2 : ℝ) ^ (-1073 : ℤ)) (by positivity) h1 hsum h2 hq'
  have hnz : ¬ (((PyMath.sqrt (l.a * l.a + l.b * l.b) : FP double) == num 0) = true) := by
    rw [fp_beq, fp_zero]
    intro h0
    rw [h0] at h2
    have := (abs_le.mp h2).1
    have := mul_le_mul_of_nonneg_right he hN0.le
    generalize (2 : ℝ) ^ (-50 : ℤ) = e at *
    linarith
  refine ⟨fabs ((l.a * p.x + l.b * p.y + l.c) / PyMath.sqrt (l.a * l.a + l.b * l.b)), ?_, ?_⟩
  · unfold Line.dist pyDiv
    rw [if_neg hnz]; rfl
  rw [fp_fabs_val, k2]
  have hab : |l.a.val * p.x.val + l.b.val * p.y.val + l.c.val| / √(l.a.val ^ 2 + l.b.val ^ 2) =
      |(l.a.val * p.x.val + l.b.val * p.y.val + l.c.val) / √(l.a.val ^ 2 + l.b.val ^ 2)| := by
    rw [abs_div, abs_of_pos hN0]
  rw [hab]
  refine (abs_abs_sub_abs_le_abs_sub _ _).trans (hfin.trans ?_)
  rw [add_assoc]
  refine add_le_add le_rfl ?_
  have s1 : (2 : ℝ) ^ (-1073 : ℤ) / √(l.a.val ^ 2 + l.b.val ^ 2) ≤ (2 : ℝ) ^ (-673 : ℤ) := by
    rw [div_le_iff₀ hN0]
    refine le_trans (le_of_eq ?_) (mul_le_mul_of_nonneg_left hN (by positivity))
    rw [← zpow_add₀ two_ne_zero]; norm_num
  have s2 : (2 : ℝ) ^ (-1075 : ℤ) ≤ (2 : ℝ) ^ (-673 : ℤ) := zpow_le_zpow_right₀ one_le_two (by norm_num)
  have s3 : 4 * (2 : ℝ) ^ (-673 : ℤ) ≤ (2 : ℝ) ^ (-600 : ℤ) := by
    rw [show (4 : ℝ) = (2 : ℝ) ^ (2 : ℤ) by norm_num, ← zpow_add₀ two_ne_zero]
    exact zpow_le_zpow_right₀ one_le_two (by norm_num)
  generalize (2 : ℝ) ^ (-673 : ℤ) = z at *
  generalize (2 : ℝ) ^ (-600 : ℤ) = w at *
  generalize (2 : ℝ) ^ (-1075 : ℤ) = y at *
  linarith only [s1, s2, s3]

/-- **C165 is false without the factor**: a segment from the origin to `(2 ^ -60, 2 ^ -60)`; the distance of `(1, -1)` is
`√2`, the computed distance is zero. -/
theorem C165_refuted : ∃ (s : Seg (FP double)) (p : Vec (FP double)), s.origin.FOk ∧ s.terminal.FOk ∧ p.FOk ∧
    IsMinDist s.fpts p.fpt √2 ∧ (s.distPoint p).val = 0 := by
  have hz : (0 : ℝ) < (2 : ℝ) ^ (-60 : ℤ) := by positivity
  have dz : IsDouble ((2 : ℝ) ^ (-60 : ℤ)) := isDouble_pow _ (by norm_num)
  have dm : IsDouble (-1 : ℝ) := by simpa using isDouble_int (n := -1) (by norm_num)
  have r1 : rne ((2 : ℝ) ^ (-60 : ℤ) - -1) = 1 := by
    rw [rne_eq 0 (2 ^ 52) (by norm_num) (by norm_num) (by norm_num)]
    · norm_num
    · norm_num
  have r2 : rne ((2 : ℝ) ^ (-60 : ℤ) - 1) = -1 := by
    rw [rne_eq (-1) (-2 ^ 53) (by norm_num) (by norm_num) (by norm_num)]
    · norm_num
    · norm_num
  refine ⟨⟨Vec.ofXY ⟨0⟩ ⟨0⟩, Vec.ofXY ⟨(2 : ℝ) ^ (-60 : ℤ)⟩ ⟨(2 : ℝ) ^ (-60 : ℤ)⟩⟩, Vec.ofXY ⟨1⟩ ⟨-1⟩,
    ⟨isDouble_zero, isDouble_zero⟩, ⟨dz, dz⟩, ⟨isDouble_one, dm⟩, ⟨⟨_, left_mem_segment ℝ _ _, ?_⟩, ?_⟩, ?_⟩
  · simp only [d, Vec.fpt, Vec.ofXY]; norm_num
  · rintro q ⟨a, b, ha, hb, hab, rfl⟩
    simp only [d, Vec.fpt, Vec.ofXY, Prod.smul_mk, Prod.mk_add_mk, smul_eq_mul]
    refine Real.sqrt_le_sqrt ?_
    nlinarith [sq_nonneg (b * (2 : ℝ) ^ (-60 : ℤ))]
  · have hd : d (Vec.fpt (Vec.ofXY (⟨0⟩ : FP double) ⟨0⟩))
        (Vec.fpt (Vec.ofXY (⟨(2 : ℝ) ^ (-60 : ℤ)⟩ : FP double) ⟨(2 : ℝ) ^ (-60 : ℤ)⟩)) = √(2 * ((2 : ℝ) ^ (-60 : ℤ)) ^ 2) := by
      simp only [d, Vec.fpt, Vec.ofXY]; congr 1; ring
    have hge : (2 : ℝ) ^ (-60 : ℤ) ≤ √(2 * ((2 : ℝ) ^ (-60 : ℤ)) ^ 2) := Real.le_sqrt_of_sq_le (by nlinarith)
    have h2 := C104_error_partial (Vec.ofXY ⟨0⟩ ⟨0⟩) (Vec.ofXY ⟨(2 : ℝ) ^ (-60 : ℤ)⟩ ⟨(2 : ℝ) ^ (-60 : ℤ)⟩)
      ⟨isDouble_zero, isDouble_zero⟩ ⟨dz, dz⟩
      (by rw [hd]; exact le_trans (zpow_le_zpow_right₀ one_le_two (by norm_num)) hge)
    rw [hd] at h2
    have hn : ¬ ((((Vec.ofXY (⟨0⟩ : FP double) ⟨0⟩).dist (Vec.ofXY ⟨(2 : ℝ) ^ (-60 : ℤ)⟩ ⟨(2 : ℝ) ^ (-60 : ℤ)⟩)) == num 0) = true) := by
      rw [fp_beq, fp_zero]
      intro h0
      rw [h0] at h2
      have h3 := (abs_le.mp h2).1
      have e : (2 : ℝ) ^ (-49 : ℤ) ≤ 1 / 2 := by norm_num
      have e' := mul_le_mul_of_nonneg_right e (hz.le.trans hge)
      have hp := lt_of_lt_of_le hz hge
      generalize √(2 * ((2 : ℝ) ^ (-60 : ℤ)) ^ 2) = Y at *
      generalize (2 : ℝ) ^ (-49 : ℤ) = Z at *
      linarith only [h3, e', hp]
    have hdsa : (Tri.dsa (Vec.ofXY (⟨0⟩ : FP double) ⟨0⟩) (Vec.ofXY ⟨(2 : ℝ) ^ (-60 : ℤ)⟩ ⟨(2 : ℝ) ^ (-60 : ℤ)⟩) (Vec.ofXY ⟨1⟩ ⟨-1⟩)).val = 0 := by
      change rne (rne (rne (0 - 1) * rne ((2 : ℝ) ^ (-60 : ℤ) - -1)) + rne (rne ((2 : ℝ) ^ (-60 : ℤ) - 1) * rne (-1 - 0))) = 0
      rw [r1, r2, zero_sub, sub_zero, rne_of_isDouble dm, mul_one, neg_one_mul, neg_neg, rne_of_isDouble dm,
        rne_of_isDouble isDouble_one, neg_add_cancel, rne_zero]
    have hprod : (((Vec.ofXY (⟨(2 : ℝ) ^ (-60 : ℤ)⟩ : FP double) ⟨(2 : ℝ) ^ (-60 : ℤ)⟩).sub (Vec.ofXY ⟨0⟩ ⟨0⟩)).innerProduct
        ((Vec.ofXY ⟨1⟩ ⟨-1⟩).sub (Vec.ofXY ⟨0⟩ ⟨0⟩))).val = 0 := by
      change rne (rne (rne ((2 : ℝ) ^ (-60 : ℤ) - 0) * rne (1 - 0)) + rne (rne ((2 : ℝ) ^ (-60 : ℤ) - 0) * rne (-1 - 0))) = 0
      rw [sub_zero, sub_zero, sub_zero, rne_of_isDouble dz, rne_of_isDouble isDouble_one, rne_of_isDouble dm, mul_one, mul_neg_one,
        show -(2 : ℝ) ^ (-60 : ℤ) = -((2 : ℝ) ^ (-60 : ℤ)) from rfl, rne_neg, rne_of_isDouble dz, add_neg_cancel, rne_zero]
    unfold Seg.distPoint Seg.length
    dsimp only
    rw [if_neg hn, if_pos, fp_fabs_val, FP.div_val, hdsa, zero_div]
    · change |rne 0| = 0
      rw [rne_zero, abs_zero]
    · rw [fp_zero_le, FP.le_def, hprod]
      exact ⟨le_rfl, rne_zero ▸ double.mono (mul_self_nonneg _)⟩

/-- Non-vacuity of C165: the segment from (0, 0) to (4, 0) and the point (1, 3). -/
example : |((⟨Vec.ofXY ⟨0⟩ ⟨0⟩, Vec.ofXY ⟨4⟩ ⟨0⟩⟩ : Seg (FP double)).distPoint (Vec.ofXY ⟨1⟩ ⟨3⟩)).val - 3| ≤ (2 : ℝ) ^ (-41 : ℤ) := by
  have d4 : IsDouble (4 : ℝ) := by simpa using isDouble_nat (n := 4) (by norm_num)
  have d3 : IsDouble (3 : ℝ) := by simpa using isDouble_nat (n := 3) (by norm_num)
  have hL : d (0, 0) ((4, 0) : Pt) = 4 := d_eq_of_sq (by norm_num) (by norm_num)
  refine (C165_segment_partial ⟨Vec.ofXY ⟨0⟩ ⟨0⟩, Vec.ofXY ⟨4⟩ ⟨0⟩⟩ (Vec.ofXY ⟨1⟩ ⟨3⟩) ⟨isDouble_zero, isDouble_zero⟩
    ⟨d4, isDouble_zero⟩ ⟨isDouble_one, d3⟩ (by change _ ≤ d (0, 0) ((4, 0) : Pt); rw [hL]; exact
      (zpow_le_one_of_nonpos₀ one_le_two (by norm_num)).trans (by norm_num)) 3 ⟨⟨(1, 0), ?_, ?_⟩, ?_⟩).trans ?_
  · refine ⟨3 / 4, 1 / 4, by norm_num, by norm_num, by norm_num, ?_⟩
    simp [Vec.fpt, Vec.ofXY]
  · exact d_eq_of_sq (by norm_num) (by norm_num [Vec.fpt, Vec.ofXY])
  · rintro q ⟨a, b, ha, hb, hab, rfl⟩
    refine Real.le_sqrt_of_sq_le ?_
    simp only [Vec.fpt, Vec.ofXY, Prod.smul_mk, Prod.mk_add_mk, smul_eq_mul]
    nlinarith [sq_nonneg (1 - (a * 0 + b * 4))]
  · change (2 : ℝ) ^ (-45 : ℤ) * ((d (0, 0) ((1, 3) : Pt) + d (4, 0) ((1, 3) : Pt)) ^ 2 / d (0, 0) ((4, 0) : Pt)) ≤ _
    rw [hL]
    have h1 : d (0, 0) ((1, 3) : Pt) ≤ 4 := Real.sqrt_le_iff.mpr (by norm_num)
    have h2 : d (4, 0) ((1, 3) : Pt) ≤ 13 / 3 := Real.sqrt_le_iff.mpr (by norm_num)
    have h3 := d_nonneg (0, 0) ((1, 3) : Pt)
    have h4 := d_nonneg (4, 0) ((1, 3) : Pt)
    have h5 : (d (0, 0) ((1, 3) : Pt) + d (4, 0) ((1, 3) : Pt)) ^ 2 ≤ 64 := by
      have h1' : d (0, 0) ((1, 3) : Pt) ≤ 7 / 2 := Real.sqrt_le_iff.mpr (by norm_num)
      have h2' : d (4, 0) ((1, 3) : Pt) ≤ 9 / 2 := by linarith
      nlinarith
    calc _ ≤ (2 : ℝ) ^ (-45 : ℤ) * 16 := mul_le_mul_of_nonneg_left (by linarith) (by positivity)
      _ = _ := by norm_num

end PyrusGeom
