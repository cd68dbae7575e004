import Verif.Lemmas.Angle
import Mathlib.Tactic.IntervalCases

/-!
# Properties C01 – C11: `AngleDeg`

`C01` shows that every `AngleDeg` object a program can reach satisfies `AngleDeg.Normal`; later properties quantify over
all `Normal` objects (or over all numbers).
-/

namespace PyrusGeom
open Spec AngleDeg

/-! ## C01 -/

/-- A call of a mutating method of `AngleDeg`. Arguments that are `AngleDeg` objects are arbitrary. -/
inductive AngleOp where
  | setDegree (d : ℝ)
  | setAngle (b : AngleDeg ℝ)
  | reverse
  | iaddNum (d : ℝ)
  | iadd (b : AngleDeg ℝ)
  | isubNum (d : ℝ)
  | isub (b : AngleDeg ℝ)
  | imul (s : ℝ)

/-- Effect of a call on the receiver, by the model. -/
noncomputable def AngleOp.run (a : AngleDeg ℝ) : AngleOp → AngleDeg ℝ
  | .setDegree d => a.setDegree d
  | .setAngle b => a.setAngle b
  | .reverse => a.reverse
  | .iaddNum d => a.iaddNum d
  | .iadd b => a.iadd b
  | .isubNum d => a.isubNum d
  | .isub b => a.isub b
  | .imul s => a.imul s

/-- The intended effect on plain numbers: `v` is the number so far, `stored` the degree the object holds (only
multiplication looks at it). An argument object stands for the number it stores. -/
def AngleOp.plain (stored v : ℝ) : AngleOp → ℝ
  | .setDegree d => d
  | .setAngle b => b.deg
  | .reverse => v + 180
  | .iaddNum d => v + d
  | .iadd b => v + b.deg
  | .isubNum d => v - d
  | .isub b => v - b.deg
  | .imul s => stored * s

/-- Object and plain number after a sequence of calls. -/
noncomputable def angleHistory (a : AngleDeg ℝ) (v : ℝ) : List AngleOp → AngleDeg ℝ × ℝ
  | [] => (a, v)
  | op :: ops => angleHistory (op.run a) (op.plain a.deg v) ops

theorem angleOp_normal (a : AngleDeg ℝ) (h : Normal a) (op : AngleOp) : Normal (op.run a) := by
  cases op with
  | setDegree d => exact ofNum_normal d
  | setAngle b => exact degree_mem b
  | reverse =>
    obtain ⟨h1, h2⟩ := h
    simp only [AngleOp.run, AngleDeg.reverse, Nat.cast_zero, Nat.cast_ofNat]
    split_ifs with h0
    · constructor <;> simp <;> linarith
    · constructor <;> simp <;> linarith
  | iaddNum d => exact ofNum_normal _
  | iadd b => exact ofNum_normal _
  | isubNum d => exact ofNum_normal _
  | isub b => exact ofNum_normal _
  | imul s => exact ofNum_normal _

theorem angleOp_congr (a : AngleDeg ℝ) (v : ℝ) (hv : AngleEq a.deg v) (op : AngleOp) :
    AngleEq (op.run a).deg (op.plain a.deg v) := by
  cases op with
  | setDegree d => exact ofNum_angleEq d
  | setAngle b => exact degree_angleEq b
  | reverse =>
    obtain ⟨k, hk⟩ := hv
    simp only [AngleOp.run, AngleDeg.reverse, AngleOp.plain, Nat.cast_zero, Nat.cast_ofNat]
    split_ifs with h0
    · exact ⟨k - 1, by push_cast; linarith⟩
    · exact ⟨k, by linarith⟩
  | iaddNum d => exact (ofNum_angleEq _).trans (hv.add (AngleEq.refl d))
  | iadd b => exact (ofNum_angleEq _).trans (hv.add (degree_angleEq b))
  | isubNum d => exact (ofNum_angleEq _).trans (hv.sub (AngleEq.refl d))
  | isub b => exact (ofNum_angleEq _).trans (hv.sub (degree_angleEq b))
  | imul s => exact ofNum_angleEq _

theorem angleHistory_spec (ops : List AngleOp) (a : AngleDeg ℝ) (v : ℝ) (h : Normal a) (hv : AngleEq a.deg v) :
    Normal (angleHistory a v ops).1 ∧ AngleEq (angleHistory a v ops).1.deg (angleHistory a v ops).2 := by
  induction ops generalizing a v with
  | nil => exact ⟨h, hv⟩
  | cons op ops ih => exact ih _ _ (angleOp_normal a h op) (angleOp_congr a v hv op)

/-- **C01.** From `AngleDeg(d)`, after any sequence of mutating calls `degree()` is in [-180, 180] and is congruent
modulo 360 to the plain-number evaluation. -/
theorem C01_history (d : ℝ) (ops : List AngleOp) :
    let r := angleHistory (ofNum d) d ops
    (-180 ≤ r.1.degree ∧ r.1.degree ≤ 180) ∧ AngleEq r.1.degree r.2 := by
  have := angleHistory_spec ops (ofNum d) d (ofNum_normal d) (ofNum_angleEq d)
  intro r
  rw [degree_of_normal this.1]
  exact this

/-- **C01**, also for the attribute read by `degree_()`: every reachable object is `Normal`. -/
theorem C01_reachable_normal (d : ℝ) (ops : List AngleOp) :
    Normal (angleHistory (ofNum d) d ops).1 :=
  (angleHistory_spec ops (ofNum d) d (ofNum_normal d) (ofNum_angleEq d)).1

/-- Plain-number evaluation that never looks at the stored degree. -/
def plainRun (v : ℝ) : List AngleOp → ℝ
  | [] => v
  | .imul s :: ops => plainRun (v * s) ops
  | op :: ops => plainRun (op.plain 0 v) ops

/-- All multipliers in the sequence are integers. -/
def IntMuls (ops : List AngleOp) : Prop := ∀ s, AngleOp.imul s ∈ ops → ∃ n : ℤ, s = n

/-- **C01**, integer multipliers: the result is congruent to the evaluation on plain numbers throughout. -/
theorem C01_history_int (d : ℝ) (ops : List AngleOp) (h : IntMuls ops) :
    AngleEq (angleHistory (ofNum d) d ops).1.degree (plainRun d ops) := by
  suffices H : ∀ (a : AngleDeg ℝ) (u v : ℝ), Normal a → AngleEq a.deg v →
      AngleEq (angleHistory a u ops).1.degree (plainRun v ops) from
    H (ofNum d) d d (ofNum_normal d) (ofNum_angleEq d)
  induction ops with
  | nil => intro a u v ha hv; simpa [angleHistory, plainRun, degree_of_normal ha] using hv
  | cons op ops ih =>
    intro a u v ha hv
    have ih' := ih (fun s hs => h s (List.mem_cons_of_mem _ hs)) (op.run a) (op.plain a.deg u)
    have hn := angleOp_normal a ha op
    have hc := angleOp_congr a v hv op
    cases op with
    | imul s =>
      obtain ⟨n, rfl⟩ := h s List.mem_cons_self
      exact ih' _ hn (hc.trans (hv.mul_int n))
    | setDegree d => exact ih' _ hn hc
    | setAngle b => exact ih' _ hn hc
    | reverse => exact ih' _ hn hc
    | iaddNum d => exact ih' _ hn hc
    | iadd b => exact ih' _ hn hc
    | isubNum d => exact ih' _ hn hc
    | isub b => exact ih' _ hn hc

/-- Non-trivial case: 100, then `+= 300`, `*= 2`, `reverse()`: plain value 980, stored -100. -/
example : (angleHistory (ofNum 100) 100 [.iaddNum 300, .imul 2, .reverse]).1.deg = -100 ∧
    plainRun 100 [.iaddNum 300, .imul 2, .reverse] = 980 ∧ IntMuls [.iaddNum 300, .imul 2, .reverse] := by
  have h100 : (ofNum (100 : ℝ)).deg = 100 := ofNum_of_mem (by norm_num) (by norm_num)
  refine ⟨?_, ?_, ?_⟩
  · have h2 : normalDeg ((100 : ℝ) + 300) = 40 := by
      rw [normalDeg_real, fmod_real]
      have : rtrunc ((100 + 300 : ℝ) / 360) = 1 := by
        unfold rtrunc
        rw [if_pos (by norm_num), Int.floor_eq_iff]; norm_num
      rw [this]; norm_num
    have h3 : normalDeg ((40 : ℝ) * 2) = 80 := by
      rw [normalDeg_of_mem (by norm_num) (by norm_num)]; norm_num
    simp [angleHistory, AngleOp.run, iaddNum, imul, AngleDeg.reverse, h100, h2, h3]
    norm_num
  · simp [plainRun, AngleOp.plain]; norm_num
  · intro s hs
    simp at hs
    exact ⟨2, by rw [hs]; norm_num⟩

/-! ## C02 -/

/-- **C02**, exactness. -/
theorem C02_exact (d : ℝ) (h1 : -180 ≤ d) (h2 : d ≤ 180) : (ofNum d).degree = d := by
  rw [degree_ofNum, ofNum_of_mem h1 h2]

/-- **C02**, idempotence: `AngleDeg(AngleDeg(d))`, `.copy()`, and `degree()` versus `degree_()`. -/
theorem C02_idempotent (d : ℝ) :
    (ofAngle (ofNum d)).degree = (ofNum d).degree ∧ (ofNum d).copy.degree = (ofNum d).degree ∧
    (ofNum d).degree = (ofNum d).degree_ ∧ (ofNum (ofNum d).degree).degree = (ofNum d).degree := by
  have h := ofNum_normal d
  refine ⟨by rw [ofAngle_of_normal h], ?_, degree_of_normal h, ?_⟩
  · unfold copy
    rw [degree_ofNum, ofNum_of_mem h.1 h.2, degree_of_normal h]
  · rw [degree_of_normal h, degree_ofNum, ofNum_of_mem h.1 h.2]

example : (ofNum (200 : ℝ)).degree = -160 := by
  rw [degree_ofNum]
  show normalDeg _ = _
  rw [normalDeg_real]; norm_num

/-! ## C03 -/

/-- **C03**, operators. -/
theorem C03_arith (a b : AngleDeg ℝ) (n : ℤ) :
    AngleEq (a.add b).degree (a.degree + b.degree) ∧ AngleEq (a.sub b).degree (a.degree - b.degree) ∧
    AngleEq a.neg.degree (-a.degree) ∧ AngleEq (a.mul n).degree (a.degree * n) ∧
    (∀ d, AngleEq (a.addNum d).degree (a.degree + d)) ∧ (∀ d, AngleEq (a.subNum d).degree (a.degree - d)) := by
  have ha := degree_angleEq a
  have hb := degree_angleEq b
  refine ⟨?_, ?_, ?_, ?_, fun d => ?_, fun d => ?_⟩
  · exact (degree_angleEq _).trans ((ofNum_angleEq _).trans (ha.symm.add (AngleEq.refl _)))
  · exact (degree_angleEq _).trans ((ofNum_angleEq _).trans (ha.symm.sub hb.symm))
  · exact (degree_angleEq _).trans ((ofNum_angleEq _).trans ha.symm.neg)
  · exact (degree_angleEq _).trans ((ofNum_angleEq _).trans (ha.symm.mul_int n))
  · exact (degree_angleEq _).trans ((ofNum_angleEq _).trans (ha.symm.add (AngleEq.refl _)))
  · exact (degree_angleEq _).trans ((ofNum_angleEq _).trans (ha.symm.sub (AngleEq.refl _)))

/-- **C03**, the operators respect congruence of the numbers put into `AngleDeg`. -/
theorem C03_congr (x x' y y' : ℝ) (n : ℤ) (hx : AngleEq x x') (hy : AngleEq y y') :
    AngleEq ((ofNum x).add (ofNum y)).degree ((ofNum x').add (ofNum y')).degree ∧
    AngleEq ((ofNum x).sub (ofNum y)).degree ((ofNum x').sub (ofNum y')).degree ∧
    AngleEq (ofNum x).neg.degree (ofNum x').neg.degree ∧
    AngleEq ((ofNum x).mul n).degree ((ofNum x').mul n).degree := by
  have cx : AngleEq (ofNum x).degree (ofNum x').degree := by
    rw [degree_ofNum, degree_ofNum]; exact ofNum_congr hx
  have cy : AngleEq (ofNum y).degree (ofNum y').degree := by
    rw [degree_ofNum, degree_ofNum]; exact ofNum_congr hy
  have h := C03_arith (ofNum x) (ofNum y) n
  have h' := C03_arith (ofNum x') (ofNum y') n
  exact ⟨h.1.trans ((cx.add cy).trans h'.1.symm), h.2.1.trans ((cx.sub cy).trans h'.2.1.symm),
    h.2.2.1.trans (cx.neg.trans h'.2.2.1.symm), h.2.2.2.1.trans ((cx.mul_int n).trans h'.2.2.2.1.symm)⟩

/-- The hypotheses of `C03_congr` are satisfiable by different numbers. -/
example : AngleEq 370 10 ∧ AngleEq (-350) 10 := ⟨⟨1, by norm_num⟩, ⟨-1, by norm_num⟩⟩

/-! ## C04 -/

/-- `b` is reached from `a` by a clockwise turn strictly between 0 and 180. -/
def StrictlyLeft (a b : ℝ) : Prop := ∃ t, 0 < t ∧ t < 180 ∧ AngleEq (a + t) b

theorem isLeftOf_iff (a b : AngleDeg ℝ) : a.isLeftOf b = true ↔
    (0 < b.degree - a.degree ∧ b.degree - a.degree < 180) ∨ b.degree - a.degree < -180 := by
  simp [isLeftOf]

theorem isRightOf_iff (a b : AngleDeg ℝ) : a.isRightOf b = true ↔
    (0 < a.degree - b.degree ∧ a.degree - b.degree < 180) ∨ a.degree - b.degree < -180 := by
  simp [isRightOf]

/-- **C04** fails for the pair (180, -180), which is the same direction. -/
theorem C04_refuted : ¬ ∀ a b : AngleDeg ℝ, Normal a → Normal b →
    (a.isLeftOf b = true ↔ StrictlyLeft a.degree b.degree) := by
  intro h
  have hn : Normal (⟨180⟩ : AngleDeg ℝ) := ⟨by norm_num, by norm_num⟩
  have hm : Normal (⟨-180⟩ : AngleDeg ℝ) := ⟨by norm_num, by norm_num⟩
  have := (h ⟨180⟩ ⟨-180⟩ hn hm).mp (by
    rw [isLeftOf_iff, degree_of_normal hn, degree_of_normal hm]; norm_num)
  obtain ⟨t, h1, h2, k, hk⟩ := this
  rw [degree_of_normal hn, degree_of_normal hm] at hk
  have := int_bounds (k := k) (lo := 1) (hi := 2) (by push_cast; linarith) (by push_cast; linarith)
  omega

/-- **C04** (partial: excludes exactly the pair 180, -180). -/
theorem C04_left_partial (a b : AngleDeg ℝ) (h : ¬ (a.degree = 180 ∧ b.degree = -180)) :
    a.isLeftOf b = true ↔ StrictlyLeft a.degree b.degree := by
  rw [isLeftOf_iff]
  obtain ⟨a1, a2⟩ := degree_mem a
  obtain ⟨b1, b2⟩ := degree_mem b
  constructor
  · rintro (⟨h1, h2⟩ | h1)
    · exact ⟨_, h1, h2, 0, by simp⟩
    · refine ⟨b.degree - a.degree + 360, ?_, by linarith, 1, by push_cast; ring⟩
      by_contra hc
      exact h ⟨by linarith, by linarith⟩
  · rintro ⟨t, h1, h2, k, hk⟩
    have := int_bounds (k := k) (lo := -1) (hi := 2) (by push_cast; linarith) (by push_cast; linarith)
    obtain rfl | rfl : k = 0 ∨ k = 1 := by omega
    · left; push_cast at hk; constructor <;> linarith
    · right; push_cast at hk; linarith

/-- The excluded pair always answers `True`, so the guard of `C04_left_partial` is exact. -/
theorem C04_guard_exact (a b : AngleDeg ℝ) (ha : a.degree = 180) (hb : b.degree = -180) :
    a.isLeftOf b = true ∧ ¬ StrictlyLeft a.degree b.degree := by
  constructor
  · rw [isLeftOf_iff, ha, hb]; norm_num
  · rintro ⟨t, h1, h2, k, hk⟩
    rw [ha, hb] at hk
    have := int_bounds (k := k) (lo := 1) (hi := 2) (by push_cast; linarith) (by push_cast; linarith)
    omega

/-- **C04**: `is_right_of` is the converse of `is_left_of`, always. -/
theorem C04_converse (a b : AngleDeg ℝ) : a.isRightOf b = b.isLeftOf a := rfl

/-- **C04**: never both, always. -/
theorem C04_exclusive (a b : AngleDeg ℝ) : ¬ (a.isLeftOf b = true ∧ a.isRightOf b = true) := by
  rw [isLeftOf_iff, isRightOf_iff]
  rintro ⟨h1 | h1, h2 | h2⟩ <;> linarith [h1, h2]

/-- **C04**: neither holds exactly for equal or opposite directions (partial: excludes 180 versus -180). -/
theorem C04_neither_partial (a b : AngleDeg ℝ) (h : ¬ (a.degree = 180 ∧ b.degree = -180))
    (h' : ¬ (b.degree = 180 ∧ a.degree = -180)) :
    (a.isLeftOf b = false ∧ a.isRightOf b = false) ↔
      AngleEq a.degree b.degree ∨ AngleEq (a.degree + 180) b.degree := by
  rw [← Bool.not_eq_true, ← Bool.not_eq_true, isLeftOf_iff, isRightOf_iff]
  obtain ⟨a1, a2⟩ := degree_mem a
  obtain ⟨b1, b2⟩ := degree_mem b
  constructor
  · rintro ⟨g1, g2⟩
    rw [not_or, not_and, not_lt, not_lt] at g1 g2
    by_cases hd : b.degree - a.degree = 0
    · left; exact ⟨0, by simp; linarith⟩
    by_cases hd1 : b.degree - a.degree = 180
    · right; exact ⟨0, by simp; linarith⟩
    by_cases hd2 : b.degree - a.degree = -180
    · right; exact ⟨1, by push_cast; linarith⟩
    exfalso
    rcases lt_or_gt_of_ne hd with hlt | hgt
    · have := g2.1 (by linarith)
      exact hd2 (by linarith [g1.2])
    · have := g1.1 (by linarith)
      exact hd1 (by linarith [g2.2])
  · rintro (⟨k, hk⟩ | ⟨k, hk⟩)
    · have hk1 : (-2 : ℤ) < k ∧ k < 2 :=
        int_bounds (by push_cast; linarith) (by push_cast; linarith)
      obtain rfl | rfl | rfl : k = -1 ∨ k = 0 ∨ k = 1 := by omega
      · exact absurd ⟨by push_cast at hk; linarith, by push_cast at hk; linarith⟩ h'
      · simp at hk
        constructor <;> rintro (⟨_, _⟩ | _) <;> linarith
      · exact absurd ⟨by push_cast at hk; linarith, by push_cast at hk; linarith⟩ h
    · have hk1 : (-1 : ℤ) < k ∧ k < 2 :=
        int_bounds (by push_cast; linarith) (by push_cast; linarith)
      obtain rfl | rfl : k = 0 ∨ k = 1 := by omega
      · simp at hk
        constructor <;> rintro (⟨_, _⟩ | _) <;> linarith
      · push_cast at hk
        constructor <;> rintro (⟨_, _⟩ | _) <;> linarith

/-- The guard holds e.g. for 30 and 75, where the answer is `True`. -/
example : (ofNum (30 : ℝ)).isLeftOf (ofNum 75) = true ∧
    ¬ ((ofNum (30 : ℝ)).degree = 180 ∧ (ofNum (75 : ℝ)).degree = -180) := by
  rw [isLeftOf_iff, C02_exact 30 (by norm_num) (by norm_num), C02_exact 75 (by norm_num) (by norm_num)]
  norm_num

/-! ## C05 -/

theorem isLeftEqualOf_iff (a b : AngleDeg ℝ) : a.isLeftEqualOf b = true ↔
    (0 ≤ b.degree - a.deg ∧ b.degree - a.deg < 180) ∨ b.degree - a.deg < -180 := by
  simp [isLeftEqualOf]

theorem inArc_iff_of_window {l r x : ℝ} (h1 : -360 < x - l) (h2 : x - l < 360) (h3 : -360 < r - l)
    (h4 : r - l < 360) :
    InArc l r x ↔ (if 0 ≤ x - l then x - l else x - l + 360) ≤ (if 0 ≤ r - l then r - l else r - l + 360) := by
  unfold InArc
  simp only [cwTurn_of_window h1 h2, cwTurn_of_window h3 h4]
  constructor
  · rintro ⟨t, u, rfl, rfl, h⟩; exact h
  · intro h; exact ⟨_, _, rfl, rfl, h⟩

/-- **C05** fails when -180 is stored: 180 is the left end of the arc from -180 to -90, yet not "within". -/
theorem C05_refuted : ¬ ∀ a l r : AngleDeg ℝ, Normal a → Normal l → Normal r →
    (a.isWithin l r = true ↔ InArc l.degree r.degree a.degree) := by
  intro h
  have n1 : Normal (⟨180⟩ : AngleDeg ℝ) := ⟨by norm_num, by norm_num⟩
  have n2 : Normal (⟨-180⟩ : AngleDeg ℝ) := ⟨by norm_num, by norm_num⟩
  have n3 : Normal (⟨-90⟩ : AngleDeg ℝ) := ⟨by norm_num, by norm_num⟩
  have := (h ⟨180⟩ ⟨-180⟩ ⟨-90⟩ n1 n2 n3).mpr (by
    rw [degree_of_normal n1, degree_of_normal n2, degree_of_normal n3]
    exact ⟨0, 90, ⟨by norm_num, by norm_num, -1, by norm_num⟩, ⟨by norm_num, by norm_num, 0, by norm_num⟩,
      by norm_num⟩)
  have h1 : ¬ (⟨-180⟩ : AngleDeg ℝ).isLeftEqualOf ⟨180⟩ = true := by
    rw [isLeftEqualOf_iff, degree_of_normal n1]; norm_num
  have h2 : (⟨-180⟩ : AngleDeg ℝ).isLeftEqualOf ⟨-90⟩ = true := by
    rw [isLeftEqualOf_iff, degree_of_normal n3]; norm_num
  unfold isWithin at this
  rw [if_pos h2] at this
  simp [h1] at this

/-- **C05** (partial: for stored values in (-180, 180]; missing: objects that store -180). -/
theorem C05_within_partial (a l r : AngleDeg ℝ) (ha : -180 < a.deg ∧ a.deg ≤ 180) (hl : -180 < l.deg ∧ l.deg ≤ 180)
    (hr : -180 < r.deg ∧ r.deg ≤ 180) :
    a.isWithin l r = true ↔ InArc l.degree r.degree a.degree := by
  have da := degree_of_normal (a := a) ⟨ha.1.le, ha.2⟩
  have dl := degree_of_normal (a := l) ⟨hl.1.le, hl.2⟩
  have dr := degree_of_normal (a := r) ⟨hr.1.le, hr.2⟩
  obtain ⟨ha1, ha2⟩ := ha
  obtain ⟨hl1, hl2⟩ := hl
  obtain ⟨hr1, hr2⟩ := hr
  have e1 := isLeftEqualOf_iff l r
  have e2 := isLeftEqualOf_iff l a
  have e3 := isLeftEqualOf_iff a r
  rw [dr] at e1 e3
  rw [da] at e2
  rw [da, dl, dr, inArc_iff_of_window (by linarith) (by linarith) (by linarith) (by linarith)]
  unfold isWithin
  by_cases h1 : l.isLeftEqualOf r = true
  · rw [if_pos h1, Bool.and_eq_true, e2, e3]
    rw [e1] at h1
    constructor
    · rintro ⟨g1, g2⟩
      split_ifs <;> rcases h1 with h1 | h1 <;> rcases g1 with g1 | g1 <;> rcases g2 with g2 | g2 <;> linarith [h1, g1, g2]
    · intro g
      split_ifs at g with c1 c2 c2
      · rcases h1 with h1 | h1
        · exact ⟨Or.inl ⟨by linarith, by linarith⟩, Or.inl ⟨by linarith, by linarith⟩⟩
        · exact absurd h1 (by linarith)
      · rcases h1 with h1 | h1
        · exact absurd h1.1 c2
        · refine ⟨Or.inl ⟨by linarith, by linarith⟩, ?_⟩
          by_cases c : 0 ≤ r.deg - a.deg
          · exact Or.inl ⟨c, by linarith⟩
          · right; linarith
      · exfalso; linarith
      · rcases h1 with h1 | h1
        · exact absurd h1.1 c2
        · exact ⟨Or.inr (by linarith), Or.inl ⟨by linarith, by linarith⟩⟩
  · rw [if_neg h1, Bool.or_eq_true, e2, e3]
    rw [e1, not_or, not_and, not_lt, not_lt] at h1
    constructor
    · rintro (g | g)
      · split_ifs with c1 c2 c2
        · have := h1.1 c2
          rcases g with g | g <;> linarith
        · linarith
        · have := h1.1 c2
          rcases g with g | g <;> linarith
        · rcases g with g | g <;> linarith
      · split_ifs with c1 c2 c2
        · have := h1.1 c2
          rcases g with g | g <;> linarith
        · linarith
        · have := h1.1 c2
          rcases g with g | g <;> linarith
        · rcases g with g | g <;> linarith
    · intro g
      split_ifs at g with c1 c2 c2
      · by_cases c : a.deg - l.deg < 180
        · exact Or.inr (Or.inl ⟨c1, c⟩)
        · exact Or.inl (Or.inl ⟨by linarith, by linarith⟩)
      · by_cases c : a.deg - l.deg < 180
        · exact Or.inr (Or.inl ⟨c1, c⟩)
        · left; right; linarith
      · exfalso; linarith
      · by_cases c : a.deg - l.deg < -180
        · exact Or.inr (Or.inr c)
        · left; left; constructor <;> linarith [h1.2]

example : (ofNum (40 : ℝ)).isWithin (ofNum 30) (ofNum 50) = true := by
  have h40 := ofNum_of_mem (d := 40) (by norm_num) (by norm_num)
  have h30 := ofNum_of_mem (d := 30) (by norm_num) (by norm_num)
  have h50 := ofNum_of_mem (d := 50) (by norm_num) (by norm_num)
  rw [C05_within_partial _ _ _ (by rw [h40]; norm_num) (by rw [h30]; norm_num) (by rw [h50]; norm_num)]
  rw [degree_ofNum, degree_ofNum, degree_ofNum, h30, h40, h50]
  exact ⟨10, 20, ⟨by norm_num, by norm_num, 0, by norm_num⟩, ⟨by norm_num, by norm_num, 0, by norm_num⟩, by norm_num⟩

/-! ## C06 -/

theorem bisect_degree_congr (l r : ℝ) :
    ∃ rel, -180 ≤ rel ∧ rel ≤ 180 ∧ AngleEq rel (r - l) ∧
      AngleEq (bisect l r).degree (l + rel / 2 +
        (if (0 < (ofNum l).deg - (ofNum r).deg ∧ (ofNum l).deg - (ofNum r).deg < 180) ∨
          (ofNum l).deg - (ofNum r).deg < -180 then 0 else 180)) := by
  have hsub := ofNum_normal ((ofNum r).deg - (ofNum l).deg)
  refine ⟨((ofNum r).sub (ofNum l)).deg, hsub.1, hsub.2, ?_, ?_⟩
  · exact (ofNum_angleEq _).trans ((ofNum_angleEq r).sub (ofNum_angleEq l))
  · have hb : bisect l r = (let result := (ofNum l).iaddNum (((ofNum r).sub (ofNum l)).deg / 2)
        if (0 < (ofNum l).deg - (ofNum r).deg ∧ (ofNum l).deg - (ofNum r).deg < 180) ∨
          (ofNum l).deg - (ofNum r).deg < -180 then result else result.addNum 180) := by
      unfold bisect
      simp only [Nat.cast_zero, Nat.cast_one, Nat.cast_ofNat, degree_ofNum, mul_one_div]
      have e : ((ofNum r).sub (ofNum l)).ofAngle = (ofNum r).sub (ofNum l) := ofAngle_of_normal hsub
      rw [e, degree_of_normal (a := (ofNum r).sub (ofNum l)) hsub]
    rw [hb]
    have h1 : AngleEq ((ofNum l).iaddNum (((ofNum r).sub (ofNum l)).deg / 2)).deg
        (l + ((ofNum r).sub (ofNum l)).deg / 2) :=
      (ofNum_angleEq _).trans ((ofNum_angleEq l).add (AngleEq.refl _))
    simp only
    split_ifs
    · rw [add_zero]; exact (degree_angleEq _).trans h1
    · exact (degree_angleEq _).trans ((ofNum_angleEq _).trans (h1.add (AngleEq.refl _)))

theorem bisect_0_90 : (bisect (0 : ℝ) 90).degree = -135 := by
  have n0 : (ofNum (0 : ℝ)).deg = 0 := ofNum_of_mem (by norm_num) (by norm_num)
  have n90 : (ofNum (90 : ℝ)).deg = 90 := ofNum_of_mem (by norm_num) (by norm_num)
  obtain ⟨rel, h1, h2, h3, h4⟩ := bisect_degree_congr 0 90
  have : rel = 90 - 0 := h3.eq_of_abs_lt (by linarith) (by linarith)
  subst this
  rw [n0, n90, if_neg (by norm_num)] at h4
  have hm := degree_mem (bisect (0 : ℝ) 90)
  obtain ⟨k, hk⟩ := h4
  have := int_bounds (k := k) (lo := -2) (hi := 0) (by push_cast; linarith) (by push_cast; linarith)
  obtain rfl : k = -1 := by omega
  push_cast at hk; linarith

/-- **C06** fails: `bisect(0, 90)` is -135, outside the arc from 0 to 90. -/
theorem C06_refuted : ¬ ∀ l r : ℝ, InArc l r (bisect l r).degree := by
  intro h
  obtain ⟨t, u, ⟨t1, t2, t3⟩, ⟨u1, u2, u3⟩, htu⟩ := h 0 90
  rw [bisect_0_90] at t3
  have hu : (0 : ℝ) + u = 90 := u3.eq_of_abs_lt (by linarith) (by linarith)
  obtain ⟨k, hk⟩ := t3
  have := int_bounds (k := k) (lo := 0) (hi := 1) (by push_cast; linarith) (by push_cast; linarith)
  omega

/-- **C06** (partial): what the code computes for every pair that is neither equal nor opposite is the middle of the
complementary clockwise arc, from `right` to `left`: equal turns from `right` to the result and from the result to
`left`, and the result is within [right, left]. Missing: it is not in [left, right]. -/
theorem C06_complementary_middle_partial (l r : ℝ) (h : ¬ AngleEq l r) (h' : ¬ AngleEq (l + 180) r) :
    (∃ t, CwTurn r (bisect l r).degree t ∧ CwTurn (bisect l r).degree l t) ∧ InArc r l (bisect l r).degree := by
  obtain ⟨rel, h1, h2, h3, h4⟩ := bisect_degree_congr l r
  have ln := ofNum_normal l
  have rn := ofNum_normal r
  have lc := ofNum_angleEq l
  have rc := ofNum_angleEq r
  have hrel : AngleEq rel ((ofNum r).deg - (ofNum l).deg) := h3.trans (rc.symm.sub lc.symm)
  generalize hL : (ofNum l).deg = L at *
  generalize hR : (ofNum r).deg = R at *
  have ln1 : -180 ≤ L := by have := ln.1; rwa [hL] at this
  have ln2 : L ≤ 180 := by have := ln.2; rwa [hL] at this
  have rn1 : -180 ≤ R := by have := rn.1; rwa [hR] at this
  have rn2 : R ≤ 180 := by have := rn.2; rwa [hR] at this
  have hLR : ¬ AngleEq L R := fun g => h (lc.symm.trans (g.trans rc))
  have hLR' : ¬ AngleEq (L + 180) R := fun g =>
    h' ((lc.symm.add (AngleEq.refl 180)).trans (g.trans rc))
  have main : ∃ t, 0 ≤ t ∧ t < 180 ∧ AngleEq (bisect l r).degree (R + t) ∧ AngleEq (R + (t + t)) L := by
    have hd0 : R - L ≠ 0 := fun g => hLR ⟨0, by simp; linarith⟩
    have hd1 : R - L ≠ 180 := fun g => hLR' ⟨0, by simp; linarith⟩
    have hd2 : R - L ≠ -180 := fun g => hLR' ⟨1, by push_cast; linarith⟩
    have hd3 : R - L ≠ 360 := fun g => hLR ⟨-1, by push_cast; linarith⟩
    have hd4 : R - L ≠ -360 := fun g => hLR ⟨1, by push_cast; linarith⟩
    obtain ⟨k, hk⟩ := hrel
    have hkb := int_bounds (k := k) (lo := -2) (hi := 2) (by push_cast; linarith) (by push_cast; linarith)
    have g4 : AngleEq (bisect l r).degree (L + rel / 2 + (if (0 < L - R ∧ L - R < 180) ∨ L - R < -180 then 0 else 180)) :=
      h4.trans ((lc.symm.add (AngleEq.refl _)).add (AngleEq.refl _))
    by_cases c : (0 < L - R ∧ L - R < 180) ∨ L - R < -180
    · rw [if_pos c, add_zero] at g4
      refine ⟨-rel / 2, ?_, ?_, g4.trans ?_, ?_⟩
      · rcases c with c | c
        · obtain rfl : k = 0 := by
            have : (-1 : ℤ) < k ∧ k < 1 := int_bounds (by push_cast; linarith) (by push_cast; linarith)
            omega
          simp at hk; linarith
        · obtain rfl : k = -1 := by
            have : (-2 : ℤ) < k ∧ k < 0 := int_bounds (by push_cast; linarith) (by push_cast; linarith)
            omega
          push_cast at hk; linarith
      · linarith
      · exact ⟨k, by linarith⟩
      · exact ⟨-k, by push_cast; linarith⟩
    · rw [if_neg c] at g4
      rw [not_or, not_and, not_lt, not_lt] at c
      have hrel0 : 0 < rel := by
        rcases lt_or_gt_of_ne hd0 with hlt | hgt
        · have c1 := c.1 (by linarith)
          have c2 : L - R ≠ 180 := fun g => hd2 (by linarith)
          have c3 : 180 < L - R := lt_of_le_of_ne c1 (Ne.symm c2)
          have : (0 : ℤ) < k ∧ k < 2 := int_bounds (by push_cast; linarith) (by push_cast; linarith)
          obtain rfl : k = 1 := by omega
          push_cast at hk
          rcases lt_or_eq_of_le (show L - R ≤ 360 by linarith) with g | g
          · linarith
          · exact absurd (by linarith) hd4
        · have c2 : R - L < 180 := lt_of_le_of_ne (by linarith [c.2]) hd1
          have : (-1 : ℤ) < k ∧ k < 1 := int_bounds (by push_cast; linarith) (by push_cast; linarith)
          obtain rfl : k = 0 := by omega
          simp at hk; linarith
      refine ⟨180 - rel / 2, by linarith, by linarith, g4.trans ?_, ?_⟩
      · exact ⟨k, by linarith⟩
      · exact ⟨1 - k, by push_cast; linarith⟩
  obtain ⟨t, t1, t2, t3, t4⟩ := main
  have a1 : CwTurn r (bisect l r).degree t :=
    ⟨t1, by linarith, ((rc.symm.add (AngleEq.refl t))).trans t3.symm⟩
  have a2 : CwTurn (bisect l r).degree l t :=
    ⟨t1, by linarith, (t3.add (AngleEq.refl t)).trans ((by rw [add_assoc]; exact t4 : AngleEq (R + t + t) L).trans lc)⟩
  refine ⟨⟨t, a1, a2⟩, t, t + t, a1, ⟨by linarith, by linarith, ?_⟩, by linarith⟩
  exact (rc.symm.add (AngleEq.refl _)).trans (t4.trans lc)

/-- **C06** (partial): for every pair, twice the result is `left + right` modulo 360, so the result is a bisecting
direction up to a half turn. -/
theorem C06_double_partial (l r : ℝ) : AngleEq (2 * (bisect l r).degree) (l + r) := by
  obtain ⟨rel, h1, h2, ⟨j, hj⟩, k, hk⟩ := bisect_degree_congr l r
  split_ifs at hk
  · exact ⟨2 * k + j, by push_cast; linarith⟩
  · exact ⟨2 * k + j + 1, by push_cast; linarith⟩

example : ¬ AngleEq (30 : ℝ) 0 ∧ ¬ AngleEq ((30 : ℝ) + 180) 0 := by
  constructor <;> rintro ⟨k, hk⟩
  · have := int_bounds (k := k) (lo := 0) (hi := 1) (by push_cast; linarith) (by push_cast; linarith)
    omega
  · have := int_bounds (k := k) (lo := 0) (hi := 1) (by push_cast; linarith) (by push_cast; linarith)
    omega

/-! ## C07 -/

theorem cos_deg_congr {x y : ℝ} (h : AngleEq x y) : Real.cos (x * (Real.pi / 180)) = Real.cos (y * (Real.pi / 180)) := by
  obtain ⟨k, hk⟩ := h
  have : x * (Real.pi / 180) = y * (Real.pi / 180) + k * (2 * Real.pi) := by
    have : x = y + 360 * k := by linarith
    rw [this]; ring
  rw [this, Real.cos_add_int_mul_two_pi]

theorem sin_deg_congr {x y : ℝ} (h : AngleEq x y) : Real.sin (x * (Real.pi / 180)) = Real.sin (y * (Real.pi / 180)) := by
  obtain ⟨k, hk⟩ := h
  have : x * (Real.pi / 180) = y * (Real.pi / 180) + k * (2 * Real.pi) := by
    have : x = y + 360 * k := by linarith
    rw [this]; ring
  rw [this, Real.sin_add_int_mul_two_pi]

theorem cos_real (a : AngleDeg ℝ) : a.cos = Real.cos (a.deg * (Real.pi / 180)) := by
  simp only [AngleDeg.cos, DEG2RAD_real]; rfl
theorem sin_real (a : AngleDeg ℝ) : a.sin = Real.sin (a.deg * (Real.pi / 180)) := by
  simp only [AngleDeg.sin, DEG2RAD_real]; rfl
theorem tan_real (a : AngleDeg ℝ) : a.tan = Real.tan (a.deg * (Real.pi / 180)) := by
  simp only [AngleDeg.tan, DEG2RAD_real]; rfl
theorem cosDeg_real (d : ℝ) : cosDeg d = Real.cos (d * (Real.pi / 180)) := by
  simp only [AngleDeg.cosDeg, deg2rad, DEG2RAD_real]; rfl
theorem sinDeg_real (d : ℝ) : sinDeg d = Real.sin (d * (Real.pi / 180)) := by
  simp only [AngleDeg.sinDeg, deg2rad, DEG2RAD_real]; rfl
theorem tanDeg_real (d : ℝ) : tanDeg d = Real.tan (d * (Real.pi / 180)) := by
  simp only [AngleDeg.tanDeg, deg2rad, DEG2RAD_real]; rfl

theorem rad2deg_deg2rad (x : ℝ) : x * (180 / Real.pi) * (Real.pi / 180) = x := by
  have := Real.pi_pos
  field_simp

theorem rad2deg_real (x : ℝ) : rad2deg x = x * (180 / Real.pi) := by
  simp only [rad2deg, RAD2DEG_real]

/-- **C07**, methods and helpers agree and depend only on the direction. -/
theorem C07_trig (d : ℝ) :
    (ofNum d).cos = cosDeg d ∧ (ofNum d).sin = sinDeg d ∧ (ofNum d).tan = tanDeg d ∧
    cosDeg d ^ 2 + sinDeg d ^ 2 = 1 ∧ cosDeg d = Real.cos (d * (Real.pi / 180)) ∧
    sinDeg d = Real.sin (d * (Real.pi / 180)) ∧ tanDeg d = sinDeg d / cosDeg d := by
  have h := ofNum_angleEq d
  refine ⟨?_, ?_, ?_, ?_, cosDeg_real d, sinDeg_real d, ?_⟩
  · rw [cos_real, cosDeg_real, cos_deg_congr h]
  · rw [sin_real, sinDeg_real, sin_deg_congr h]
  · rw [tan_real, tanDeg_real, Real.tan_eq_sin_div_cos, Real.tan_eq_sin_div_cos, cos_deg_congr h, sin_deg_congr h]
  · rw [cosDeg_real, sinDeg_real]; nlinarith [Real.sin_sq_add_cos_sq (d * (Real.pi / 180))]
  · rw [tanDeg_real, sinDeg_real, cosDeg_real, Real.tan_eq_sin_div_cos]

/-- **C07**, congruent numbers have the same sine and cosine. -/
theorem C07_congr (x y : ℝ) (h : AngleEq x y) : cosDeg x = cosDeg y ∧ sinDeg x = sinDeg y := by
  rw [cosDeg_real, cosDeg_real, sinDeg_real, sinDeg_real]
  exact ⟨cos_deg_congr h, sin_deg_congr h⟩

theorem rad_scale_mem {x lo hi : ℝ} (h1 : lo * (Real.pi / 180) ≤ x) (h2 : x ≤ hi * (Real.pi / 180)) :
    lo ≤ x * (180 / Real.pi) ∧ x * (180 / Real.pi) ≤ hi := by
  have hp := Real.pi_pos
  have e : ∀ y : ℝ, y * (Real.pi / 180) * (180 / Real.pi) = y := fun y => by field_simp
  constructor
  · rw [← e lo]; exact mul_le_mul_of_nonneg_right h1 (by positivity)
  · rw [← e hi]; exact mul_le_mul_of_nonneg_right h2 (by positivity)

/-- **C07**, `acos_deg` never raises, is in [0, 180] and inverts `cos_deg` on the clamped argument. -/
theorem C07_acos (c : ℝ) : ∃ r, acosDeg c = .ok r ∧ 0 ≤ r ∧ r ≤ 180 ∧ cosDeg r = max (-1) (min 1 c) := by
  unfold acosDeg
  simp only [Nat.cast_one, Nat.cast_zero, Nat.cast_ofNat]
  split_ifs with h1 h2
  · exact ⟨0, rfl, le_rfl, by norm_num, by rw [cosDeg_real, min_eq_left h1]; simp⟩
  · refine ⟨180, rfl, by norm_num, le_rfl, ?_⟩
    have : (180 : ℝ) * (Real.pi / 180) = Real.pi := by ring
    rw [cosDeg_real, this, Real.cos_pi, min_eq_right (by linarith), max_eq_left h2]
  · push Not at h1 h2
    have he : mathAcos c = .ok (Real.arccos c) := by
      unfold mathAcos
      rw [if_neg]
      · rfl
      · simp only [Nat.cast_one, not_or, not_lt]; exact ⟨h1.le, h2.le⟩
    refine ⟨rad2deg (Real.arccos c), by rw [he]; rfl, ?_⟩
    rw [rad2deg_real]
    have := rad_scale_mem (lo := 0) (hi := 180) (x := Real.arccos c) (by simpa using Real.arccos_nonneg c)
      (by have := Real.arccos_le_pi c; linarith)
    refine ⟨this.1, this.2, ?_⟩
    rw [cosDeg_real, rad2deg_deg2rad, Real.cos_arccos h2.le h1.le, min_eq_right h1.le, max_eq_right h2.le]

/-- **C07**, `asin_deg`. -/
theorem C07_asin (s : ℝ) : ∃ r, asinDeg s = .ok r ∧ -90 ≤ r ∧ r ≤ 90 ∧ sinDeg r = max (-1) (min 1 s) := by
  unfold asinDeg
  simp only [Nat.cast_one, Nat.cast_ofNat]
  split_ifs with h1 h2
  · refine ⟨90, rfl, by norm_num, le_rfl, ?_⟩
    have : (90 : ℝ) * (Real.pi / 180) = Real.pi / 2 := by ring
    rw [sinDeg_real, this, Real.sin_pi_div_two, min_eq_left h1]; norm_num
  · refine ⟨-90, rfl, le_rfl, by norm_num, ?_⟩
    have : (-90 : ℝ) * (Real.pi / 180) = -(Real.pi / 2) := by ring
    rw [sinDeg_real, this, Real.sin_neg, Real.sin_pi_div_two, min_eq_right (by linarith), max_eq_left h2]
  · push Not at h1 h2
    have he : mathAsin s = .ok (Real.arcsin s) := by
      unfold mathAsin
      rw [if_neg]
      · rfl
      · simp only [Nat.cast_one, not_or, not_lt]; exact ⟨h1.le, h2.le⟩
    refine ⟨rad2deg (Real.arcsin s), by rw [he]; rfl, ?_⟩
    rw [rad2deg_real]
    have := rad_scale_mem (lo := -90) (hi := 90) (x := Real.arcsin s)
      (by have := Real.neg_pi_div_two_le_arcsin s; linarith)
      (by have := Real.arcsin_le_pi_div_two s; linarith)
    refine ⟨this.1, this.2, ?_⟩
    rw [sinDeg_real, rad2deg_deg2rad, Real.sin_arcsin h2.le h1.le, min_eq_right h1.le, max_eq_right h2.le]

/-- **C07**, `atan_deg`. -/
theorem C07_atan (t : ℝ) : -90 < atanDeg t ∧ atanDeg t < 90 ∧ tanDeg (atanDeg t) = t := by
  have hp := Real.pi_pos
  have he : atanDeg t = Real.arctan t * (180 / Real.pi) := by
    unfold atanDeg; rw [rad2deg_real]; rfl
  have e : ∀ y : ℝ, y * (Real.pi / 180) * (180 / Real.pi) = y := fun y => by field_simp
  rw [he]
  refine ⟨?_, ?_, ?_⟩
  · rw [← e (-90)]
    refine mul_lt_mul_of_pos_right ?_ (by positivity)
    have := Real.neg_pi_div_two_lt_arctan t; linarith
  · rw [← e 90]
    refine mul_lt_mul_of_pos_right ?_ (by positivity)
    have := Real.arctan_lt_pi_div_two t; linarith
  · rw [tanDeg_real, rad2deg_deg2rad, Real.tan_arctan]

theorem atan2Deg_real (y x : ℝ) : atan2Deg y x =
    if |x| < EPSILON ∧ |y| < EPSILON then 0 else Complex.arg ⟨x, y⟩ * (180 / Real.pi) := by
  unfold atan2Deg
  simp only [fabs_real, Nat.cast_zero, rad2deg_real]; rfl

/-- **C07**, `atan2_deg` is in (-180, 180]; when one coordinate is at least EPSILON in absolute value, it is the
direction of (x, y). -/
theorem C07_atan2 (y x : ℝ) :
    (-180 < atan2Deg y x ∧ atan2Deg y x ≤ 180) ∧
    (¬ (|x| < EPSILON ∧ |y| < EPSILON) →
      (x, y) = √(x ^ 2 + y ^ 2) • unit (atan2Deg y x)) := by
  rw [atan2Deg_real]
  split_ifs with h
  · exact ⟨⟨by norm_num, by norm_num⟩, fun g => absurd h g⟩
  · refine ⟨⟨?_, ?_⟩, fun _ => ?_⟩
    · have := Complex.neg_pi_lt_arg ⟨x, y⟩
      have hp := Real.pi_pos
      have e : (-180 : ℝ) = -Real.pi * (180 / Real.pi) := by field_simp
      rw [e]
      exact mul_lt_mul_of_pos_right this (by positivity)
    · have := Complex.arg_le_pi ⟨x, y⟩
      have hp := Real.pi_pos
      have e : (180 : ℝ) = Real.pi * (180 / Real.pi) := by field_simp
      conv_rhs => rw [e]
      exact mul_le_mul_of_nonneg_right this (by positivity)
    · unfold unit
      rw [rad2deg_deg2rad]
      have hnorm : ‖(⟨x, y⟩ : ℂ)‖ = √(x ^ 2 + y ^ 2) := by
        rw [Complex.norm_eq_sqrt_sq_add_sq]
      have h1 := Complex.norm_mul_cos_arg ⟨x, y⟩
      have h2 := Complex.norm_mul_sin_arg ⟨x, y⟩
      rw [hnorm] at h1 h2
      ext
      · simpa using h1.symm
      · simpa using h2.symm

example : ¬ (|(10 : ℝ)| < EPSILON ∧ |(10 : ℝ)| < EPSILON) := by rw [EPSILON_real]; norm_num

/-! ## C08 -/

theorem eqNum_iff (a : AngleDeg ℝ) (d : ℝ) : a.eqNum d = true ↔ |a.deg - d| < EPSILON := by
  simp [eqNum, fabs_real]

/-- **C08** fails: 180 and -180 are the same direction but not `==`. -/
theorem C08_refuted : ¬ ∀ a b : AngleDeg ℝ, Normal a → Normal b → AngleEq a.degree b.degree → a.eq b = true := by
  intro h
  have n1 : Normal (⟨180⟩ : AngleDeg ℝ) := ⟨by norm_num, by norm_num⟩
  have n2 : Normal (⟨-180⟩ : AngleDeg ℝ) := ⟨by norm_num, by norm_num⟩
  have := h ⟨180⟩ ⟨-180⟩ n1 n2 (by rw [degree_of_normal n1, degree_of_normal n2]; exact ⟨1, by norm_num⟩)
  unfold AngleDeg.eq at this
  rw [eqNum_iff, degree_of_normal n2, EPSILON_real] at this
  norm_num at this

/-- **C08** fails against numbers: `AngleDeg(0) == 360` is False. -/
theorem C08_refuted_num : ¬ ∀ (x y : ℝ), AngleEq x y → (ofNum x).eqNum y = true := by
  intro h
  have := h 0 360 ⟨-1, by norm_num⟩
  rw [eqNum_iff, ofNum_of_mem (by norm_num) (by norm_num), EPSILON_real] at this
  norm_num at this

/-- **C08** fails further: `==` is not transitive. -/
theorem C08_not_transitive : ¬ ∀ x y z : ℝ, (ofNum x).eq (ofNum y) = true → (ofNum y).eq (ofNum z) = true →
    (ofNum x).eq (ofNum z) = true := by
  intro h
  have e : ∀ d : ℝ, 0 ≤ d → d ≤ 1 → (ofNum d).deg = d := fun d h1 h2 => ofNum_of_mem (by linarith) (by linarith)
  have := h 0 (3/4000000) (6/4000000)
  simp only [AngleDeg.eq, eqNum_iff, degree_ofNum] at this
  rw [e 0 (by norm_num) (by norm_num), e (3/4000000) (by norm_num) (by norm_num),
    e (6/4000000) (by norm_num) (by norm_num), EPSILON_real] at this
  norm_num [abs_lt] at this

/-- **C08** (partial): `==` of objects is reflexive, symmetric and means the stored degrees differ by less than
EPSILON. Missing: congruent angles stored as 180 and -180, or straddling ±180. -/
theorem C08_eq_partial (a b : AngleDeg ℝ) (ha : Normal a) (hb : Normal b) :
    a.eq a = true ∧ (a.eq b = b.eq a) ∧ (a.eq b = true ↔ |a.degree - b.degree| < EPSILON) ∧
    (-180 < a.degree → -180 < b.degree → AngleEq a.degree b.degree → a.eq b = true) := by
  have ea := degree_of_normal ha
  have eb := degree_of_normal hb
  refine ⟨?_, ?_, ?_, ?_⟩
  · unfold AngleDeg.eq; rw [eqNum_iff, ea]; simpa using EPSILON_pos
  · rw [Bool.eq_iff_iff]; unfold AngleDeg.eq
    rw [eqNum_iff, eqNum_iff, ea, eb, abs_sub_comm]
  · unfold AngleDeg.eq; rw [eqNum_iff, ea, eb]
  · intro h1 h2 h3
    have ma := degree_mem a
    have mb := degree_mem b
    have h3' := h3.eq_of_abs_lt (by linarith) (by linarith)
    unfold AngleDeg.eq; rw [eqNum_iff, ← ea, h3']; simpa using EPSILON_pos

example : Normal (ofNum 370 : AngleDeg ℝ) ∧ Normal (ofNum 10 : AngleDeg ℝ) ∧
    (ofNum (370 : ℝ)).eq (ofNum 10) = true := by
  refine ⟨ofNum_normal _, ofNum_normal _, ?_⟩
  have h10 : (ofNum (10 : ℝ)).degree = 10 := C02_exact 10 (by norm_num) (by norm_num)
  have hc : AngleEq (ofNum (370 : ℝ)).degree 10 :=
    (degree_angleEq _).trans ((ofNum_angleEq _).trans ⟨1, by norm_num⟩)
  refine (C08_eq_partial _ _ (ofNum_normal _) (ofNum_normal _)).2.2.2 ?_ (by rw [h10]; norm_num) (by rw [h10]; exact hc)
  have m := degree_mem (ofNum (370 : ℝ))
  have := hc.eq_of_abs_lt (by linarith) (by linarith)
  rw [this]; norm_num

/-! ## C09 -/

/-- **C09.** -/
theorem C09_reverse (a : AngleDeg ℝ) (ha : Normal a) :
    AngleEq a.reverse.degree (a.degree + 180) ∧ (-180 ≤ a.reverse.degree ∧ a.reverse.degree ≤ 180) ∧
    a.reverseAngle = a.reverse ∧
    AngleEq a.reverse.reverse.degree a.degree ∧ (a.degree ≠ 180 → a.reverse.reverse = a) ∧
    (a.degree = 180 → a.reverse.reverse.degree = -180) := by
  have n1 : Normal a.reverse := angleOp_normal a ha .reverse
  have n2 : Normal a.reverse.reverse := angleOp_normal _ n1 .reverse
  have c1 : AngleEq a.reverse.deg (a.deg + 180) := angleOp_congr a a.deg (AngleEq.refl _) .reverse
  have c2 : AngleEq a.reverse.reverse.deg (a.deg + 180 + 180) := angleOp_congr _ _ c1 .reverse
  rw [degree_of_normal n1, degree_of_normal n2, degree_of_normal ha]
  have key : a.reverse.reverse = if a.deg = 180 then ⟨-180⟩ else a := by
    obtain ⟨h1, h2⟩ := ha
    ext
    simp only [AngleDeg.reverse, Nat.cast_zero, Nat.cast_ofNat]
    split_ifs <;> simp <;> grind
  refine ⟨c1, n1, ?_, c2.trans ⟨1, by push_cast; ring⟩, fun h => ?_, fun h => ?_⟩
  · unfold reverseAngle
    have : ofNum a.degree = a := by ext; rw [degree_of_normal ha, ofNum_of_mem ha.1 ha.2]
    rw [this]
  · rw [key, if_neg h]
  · rw [key, if_pos h]

example : Normal (⟨-20⟩ : AngleDeg ℝ) ∧ (⟨-20⟩ : AngleDeg ℝ).reverse.deg = 160 := by
  refine ⟨⟨by norm_num, by norm_num⟩, ?_⟩
  simp only [AngleDeg.reverse, Nat.cast_zero, Nat.cast_ofNat]
  norm_num

/-! ## C10 -/

/-- **C10.** -/
theorem C10_normalize_angle (d : ℝ) :
    (-180 ≤ normalizeAngle d ∧ normalizeAngle d ≤ 180) ∧ AngleEq (normalizeAngle d) d ∧
    (¬ AngleEq d 180 → normalizeAngle d = (ofNum d).degree) ∧ (-180 ≤ d → d ≤ 180 → normalizeAngle d = d) := by
  have h := normalizeAngle_spec d
  refine ⟨h.1, h.2.1, fun hd => ?_, h.2.2⟩
  have g := normalDeg_spec d
  rw [degree_ofNum]
  show normalizeAngle d = normalDeg d
  have e := h.2.1.trans g.2.1.symm
  by_contra hne
  obtain ⟨k, hk⟩ := e
  have hb := int_bounds (k := k) (lo := -2) (hi := 2) (by push_cast; linarith [h.1.1, g.1.2])
    (by push_cast; linarith [h.1.2, g.1.1])
  obtain rfl | rfl | rfl : k = -1 ∨ k = 0 ∨ k = 1 := by omega
  · push_cast at hk
    have : normalDeg d = 180 := by linarith [h.1.1, g.1.2]
    exact hd (g.2.1.symm.trans (by rw [this]; exact AngleEq.refl _))
  · simp at hk; exact hne (by linarith)
  · push_cast at hk
    have : normalizeAngle d = 180 := by linarith [h.1.2, g.1.1]
    exact hd (h.2.1.symm.trans (by rw [this]; exact AngleEq.refl _))

/-- The exclusion in C10 is needed: the two normalisations of -540 differ. -/
theorem C10_exclusion_needed : normalizeAngle (-540 : ℝ) = 180 ∧ (ofNum (-540 : ℝ)).degree = -180 := by
  constructor
  · rw [normalizeAngle_real, pmod_real]
    have : ⌊(-540 : ℝ) / 360⌋ = -2 := by rw [Int.floor_eq_iff]; norm_num
    rw [this]; norm_num
  · rw [degree_ofNum]
    show normalDeg _ = _
    rw [normalDeg_real, fmod_real]
    have : rtrunc ((-540 : ℝ) / 360) = -1 := by
      unfold rtrunc; rw [if_neg (by norm_num), Int.ceil_eq_iff]; norm_num
    rw [this]; norm_num

example : ¬ AngleEq (725 : ℝ) 180 := by
  rintro ⟨k, hk⟩
  have := int_bounds (k := k) (lo := 1) (hi := 2) (by push_cast; linarith) (by push_cast; linarith)
  omega

/-! ## C11 -/

/-- **C11.** -/
theorem C11_get_normalized (a b : AngleDeg ℝ) :
    (0 ≤ a.getNormalized ∧ a.getNormalized ≤ 1) ∧ (a.degree < b.degree ↔ a.getNormalized < b.getNormalized) ∧
    a.getNormalized * 360 - 180 = a.degree := by
  have h := degree_mem a
  simp only [getNormalized, Nat.cast_ofNat]
  refine ⟨⟨by apply div_nonneg <;> linarith, by rw [div_le_one (by norm_num)]; linarith⟩, ?_, by ring⟩
  rw [div_lt_div_iff_of_pos_right (by norm_num)]
  constructor <;> intro <;> linarith

end PyrusGeom
