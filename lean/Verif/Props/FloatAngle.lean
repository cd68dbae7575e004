import Verif.Props.FloatDist

/-! # Properties C107, C108: whole degrees and comparison of angles in double precision -/

namespace PyrusGeom
open Spec AngleDeg

/-! ## C107 -/

/-- Calls on an `AngleDeg` with whole-degree arguments. `n` in `iadd`, `isub`, `add`, `sub` stands for the number as well
as for `AngleDeg(n)`. -/
inductive WholeOp
  | setDegree (n : ℤ) | iaddNum (n : ℤ) | isubNum (n : ℤ) | iadd (n : ℤ) | isub (n : ℤ) | imul (n : ℤ)
  | addNum (n : ℤ) | subNum (n : ℤ) | add (n : ℤ) | sub (n : ℤ) | mul (n : ℤ)
  | setAngle (n : ℤ) | reverse | reverseAngle | neg | copy

/-- The arguments are at most `2 ^ 45` in absolute value. -/
def WholeOp.Small : WholeOp → Prop
  | .setDegree n | .iaddNum n | .isubNum n | .iadd n | .isub n | .imul n | .addNum n | .subNum n | .add n | .sub n | .mul n
  | .setAngle n => |n| ≤ 2 ^ 45
  | .reverse | .reverseAngle | .neg | .copy => True

/-- The effect of a call, for a number type and a conversion of integers. -/
def WholeOp.run {K : Type} [Add K] [Sub K] [Mul K] [Neg K] [NatCast K] [LT K] [LE K]
    [DecidableLT K] [DecidableLE K] [PyMath K] (c : ℤ → K) (a : AngleDeg K) : WholeOp → AngleDeg K
  | .setDegree n => a.setDegree (c n)
  | .iaddNum n => a.iaddNum (c n)
  | .isubNum n => a.isubNum (c n)
  | .iadd n => a.iadd (ofNum (c n))
  | .isub n => a.isub (ofNum (c n))
  | .imul n => a.imul (c n)
  | .addNum n => a.addNum (c n)
  | .subNum n => a.subNum (c n)
  | .add n => a.add (ofNum (c n))
  | .sub n => a.sub (ofNum (c n))
  | .mul n => a.mul (c n)
  | .setAngle n => a.setAngle (ofNum (c n))
  | .reverse => a.reverse
  | .reverseAngle => a.reverseAngle
  | .neg => a.neg
  | .copy => a.copy

/-- The double and the real angle are the same whole number of degrees. -/
def Same (a : AngleDeg (FP double)) (b : AngleDeg ℝ) : Prop := a.deg.val = b.deg ∧ ∃ n : ℤ, b.deg = n ∧ |n| ≤ 180

theorem normalDeg_int (n : ℤ) : ∃ m : ℤ, normalDeg (n : ℝ) = m ∧ |m| ≤ 180 := by
  obtain ⟨k, hk⟩ := ofNum_angleEq (n : ℝ)
  have hk' : normalDeg (n : ℝ) - n = 360 * k := hk
  have h2 : -180 ≤ normalDeg (n : ℝ) ∧ normalDeg (n : ℝ) ≤ 180 := by
    exact (normalDeg_spec (n : ℝ)).1
  refine ⟨n + 360 * k, by push_cast; linarith, ?_⟩
  have h3 : normalDeg (n : ℝ) = ((n + 360 * k : ℤ) : ℝ) := by push_cast; linarith
  rw [h3] at h2
  rw [abs_le]
  exact ⟨by exact_mod_cast h2.1, by exact_mod_cast h2.2⟩

theorem same_ofNum {x : FP double} {n : ℤ} (hx : x.val = n) (h : |n| ≤ 2 ^ 53) : Same (ofNum x) (ofNum (n : ℝ)) := by
  have hd := isDouble_int h
  have : x = ⟨(n : ℝ)⟩ := FP.ext hx
  subst this
  exact ⟨(C96_double_exact hd).1, normalDeg_int n⟩

theorem same_normal {x : FP double} {y : ℝ} {n : ℤ} (hx : x.val = n) (hy : y = n) (h : |n| ≤ 2 ^ 53) :
    Same ⟨normalDeg x⟩ ⟨normalDeg y⟩ := by
  subst hy; exact same_ofNum hx h

theorem Same.degree {a : AngleDeg (FP double)} {b : AngleDeg ℝ} (h : Same a b) :
    a.degree.val = b.degree ∧ ∃ n : ℤ, b.degree = n ∧ |n| ≤ 180 := by
  obtain ⟨h1, n, h2, h3⟩ := h
  rw [h2] at h1
  unfold AngleDeg.degree
  have := same_ofNum h1 (h3.trans (by norm_num))
  rw [h2]
  exact this

theorem rne_int {n : ℤ} (h : |n| ≤ 2 ^ 53) : rne (n : ℝ) = n := rne_of_isDouble (isDouble_int h)

/-- The real number and the double of a Python `int`. -/
noncomputable abbrev toDouble (n : ℤ) : FP double := n

theorem same_reverse {a : AngleDeg (FP double)} {b : AngleDeg ℝ} (h : Same a b) : Same a.reverse b.reverse := by
  obtain ⟨h1, n, h2, h3⟩ := h
  rw [abs_le] at h3
  have e180 : (num 180 : FP double).val = 180 := (double.int 180 (by norm_num)).trans (by norm_num)
  have hr : (num 0 : ℝ) ≤ b.deg ↔ 0 ≤ n := by
    rw [h2]; simp
  have hf : (num 0 : FP double) ≤ a.deg ↔ 0 ≤ n := by
    rw [FP.le_def, fp_zero, h1, h2]; simp
  unfold AngleDeg.reverse
  by_cases h0 : 0 ≤ n
  · rw [if_pos (hf.mpr h0), if_pos (hr.mpr h0)]
    refine ⟨?_, n - 180, ?_, ?_⟩
    · change -rne ((num 180 : FP double).val - a.deg.val) = -((180 : ℕ) - b.deg)
      rw [e180, h1, h2, show (180 : ℝ) - n = ((180 - n : ℤ) : ℝ) by push_cast; ring, rne_int]
      · push_cast; ring
      · rw [abs_le]; constructor <;> omega
    · change -(((180 : ℕ) : ℝ) - b.deg) = _
      rw [h2]; push_cast; ring
    · rw [abs_le]; constructor <;> omega
  · rw [if_neg (fun h => h0 (hf.mp h)), if_neg (fun h => h0 (hr.mp h))]
    refine ⟨?_, n + 180, ?_, ?_⟩
    · change rne ((num 180 : FP double).val + a.deg.val) = (180 : ℕ) + b.deg
      rw [e180, h1, h2, show (180 : ℝ) + n = ((180 + n : ℤ) : ℝ) by push_cast; ring, rne_int]
      · push_cast; ring
      · rw [abs_le]; constructor <;> omega
    · change (((180 : ℕ) : ℝ) + b.deg) = _
      rw [h2]; push_cast; ring
    · rw [abs_le]; constructor <;> omega

theorem toDouble_val {n : ℤ} (h : |n| ≤ 2 ^ 45) : (toDouble n).val = n := rne_int (h.trans (by norm_num))

theorem same_run {a : AngleDeg (FP double)} {b : AngleDeg ℝ} (h : Same a b) (op : WholeOp) (hs : op.Small) :
    Same (op.run toDouble a) (op.run (fun n => (n : ℝ)) b) := by
  obtain ⟨h1, n, h2, h3⟩ := id h
  rw [h2] at h1
  -- sums, differences and products of small integers are exact
  have add : ∀ {x : FP double} {m : ℤ}, x.val = m → |m| ≤ 2 ^ 45 →
      (a.deg + x).val = ((n + m : ℤ) : ℝ) ∧ |n + m| ≤ 2 ^ 53 := by
    intro x m hx hm
    have : |n + m| ≤ 2 ^ 53 := by rw [abs_le] at *; constructor <;> omega
    refine ⟨?_, this⟩
    rw [FP.add_val, h1, hx]
    have := rne_int this
    push_cast at this ⊢
    exact this
  have sub : ∀ {x : FP double} {m : ℤ}, x.val = m → |m| ≤ 2 ^ 45 →
      (a.deg - x).val = ((n - m : ℤ) : ℝ) ∧ |n - m| ≤ 2 ^ 53 := by
    intro x m hx hm
    have : |n - m| ≤ 2 ^ 53 := by rw [abs_le] at *; constructor <;> omega
    refine ⟨?_, this⟩
    rw [FP.sub_val, h1, hx]
    have := rne_int this
    push_cast at this ⊢
    exact this
  have mul : ∀ {x : FP double} {m : ℤ}, x.val = m → |m| ≤ 2 ^ 45 →
      (a.deg * x).val = ((n * m : ℤ) : ℝ) ∧ |n * m| ≤ 2 ^ 53 := by
    intro x m hx hm
    have : |n * m| ≤ 2 ^ 53 := by
      rw [abs_mul]
      exact (mul_le_mul h3 hm (abs_nonneg _) (by norm_num)).trans (by norm_num)
    refine ⟨?_, this⟩
    rw [FP.mul_val, h1, hx]
    have := rne_int this
    push_cast at this ⊢
    exact this
  have ang : ∀ m : ℤ, |m| ≤ 2 ^ 45 → Same (ofNum (toDouble m)) (ofNum (m : ℝ)) :=
    fun m hm => same_ofNum (toDouble_val hm) (hm.trans (by norm_num))
  cases op with
  | setDegree m => exact ang m hs
  | iaddNum m =>
    obtain ⟨e1, e2⟩ := add (toDouble_val hs) hs
    exact same_normal e1 (by rw [h2]; push_cast; rfl) e2
  | isubNum m =>
    obtain ⟨e1, e2⟩ := sub (toDouble_val hs) hs
    exact same_normal e1 (by rw [h2]; push_cast; rfl) e2
  | addNum m =>
    obtain ⟨e1, e2⟩ := add (toDouble_val hs) hs
    exact same_normal e1 (by rw [h2]; push_cast; rfl) e2
  | subNum m =>
    obtain ⟨e1, e2⟩ := sub (toDouble_val hs) hs
    exact same_normal e1 (by rw [h2]; push_cast; rfl) e2
  | imul m =>
    obtain ⟨e1, e2⟩ := mul (toDouble_val hs) hs
    exact same_normal e1 (by rw [h2]; push_cast; rfl) e2
  | mul m =>
    obtain ⟨e1, e2⟩ := mul (toDouble_val hs) hs
    exact same_normal e1 (by rw [h2]; push_cast; rfl) e2
  | iadd m =>
    obtain ⟨d1, k, d2, d3⟩ := (ang m hs).degree
    obtain ⟨e1, e2⟩ := add (d1.trans d2) (d3.trans (by norm_num))
    exact same_normal e1 (by rw [h2, d2]; push_cast; rfl) e2
  | isub m =>
    obtain ⟨d1, k, d2, d3⟩ := (ang m hs).degree
    obtain ⟨e1, e2⟩ := sub (d1.trans d2) (d3.trans (by norm_num))
    exact same_normal e1 (by rw [h2, d2]; push_cast; rfl) e2
  | add m =>
    obtain ⟨d1, k, d2, d3⟩ := (ang m hs).degree
    obtain ⟨e1, e2⟩ := add (d1.trans d2) (d3.trans (by norm_num))
    exact same_normal e1 (by rw [h2, d2]; push_cast; rfl) e2
  | sub m =>
    obtain ⟨d1, k, d2, d3⟩ := ang m hs
    obtain ⟨e1, e2⟩ := sub (d1.trans d2) (d3.trans (by norm_num))
    exact same_normal e1 (by rw [h2, d2]; push_cast; rfl) e2
  | setAngle m => exact (ang m hs).degree
  | reverse => exact same_reverse h
  | reverseAngle =>
    obtain ⟨d1, k, d2, d3⟩ := h.degree
    exact same_reverse (same_normal (d1.trans d2) d2 (d3.trans (by norm_num)))
  | neg =>
    refine same_normal (n := -n) ?_ ?_ ?_
    · rw [FP.neg_val, h1]; push_cast; rfl
    · rw [h2]; push_cast; rfl
    · rw [abs_neg]; exact h3.trans (by norm_num)
  | copy => exact same_normal h1 h2 (h3.trans (by norm_num))

/-- `AngleDeg(n)` and a sequence of whole-degree calls. -/
def wholeRun {K : Type} [Add K] [Sub K] [Mul K] [Neg K] [NatCast K] [LT K] [LE K]
    [DecidableLT K] [DecidableLE K] [PyMath K] (c : ℤ → K) (n : ℤ) (ops : List WholeOp) : AngleDeg K :=
  ops.foldl (WholeOp.run c) (ofNum (c n))

theorem same_wholeRun (n : ℤ) (hn : |n| ≤ 2 ^ 45) (ops : List WholeOp) (hs : ∀ op ∈ ops, op.Small) :
    Same (wholeRun toDouble n ops) (wholeRun (fun n => (n : ℝ)) n ops) := by
  unfold wholeRun
  have h0 : Same (ofNum (toDouble n)) (ofNum (n : ℝ)) := same_ofNum (toDouble_val hn) (hn.trans (by norm_num))
  generalize ofNum (toDouble n) = a at h0
  generalize ofNum (n : ℝ) = b at h0
  induction ops generalizing a b with
  | nil => exact h0
  | cons op ops ih =>
    exact ih (fun o ho => hs o (List.mem_cons_of_mem _ ho)) _ _ (same_run h0 op (hs op (by simp)))

/-- **C107.** In double precision whole-degree arithmetic is exact over any history: the stored degree and `degree()` are
whole numbers, equal to those of exact real arithmetic. -/
theorem C107_whole (n : ℤ) (hn : |n| ≤ 2 ^ 45) (ops : List WholeOp) (hs : ∀ op ∈ ops, op.Small) :
    (wholeRun toDouble n ops).deg.val = (wholeRun (fun n => (n : ℝ)) n ops).deg ∧
    (wholeRun toDouble n ops).degree.val = (wholeRun (fun n => (n : ℝ)) n ops).degree ∧
    ∃ m : ℤ, (wholeRun toDouble n ops).degree.val = m ∧ |m| ≤ 180 := by
  have h := same_wholeRun n hn ops hs
  obtain ⟨d1, m, d2, d3⟩ := h.degree
  exact ⟨h.1, d1, m, d1.trans d2, d3⟩

/-- A test on a whole number is the same for the double and the real. -/
theorem fp_left_test {x : FP double} {y : ℝ} {n : ℤ} (hx : x.val = n) (hy : y = n) :
    ((decide ((num 0 : FP double) < x) && decide (x < num 180)) || decide (x < -(num 180))) =
      ((decide ((num 0 : ℝ) < y) && decide (y < num 180)) || decide (y < -(num 180))) ∧
    ((decide ((num 0 : FP double) ≤ x) && decide (x < num 180)) || decide (x < -(num 180))) =
      ((decide ((num 0 : ℝ) ≤ y) && decide (y < num 180)) || decide (y < -(num 180))) := by
  have e180 : (num 180 : FP double).val = 180 := (double.int 180 (by norm_num)).trans (by norm_num)
  have e1 : ((num 0 : FP double) < x) = ((num 0 : ℝ) < y) := by
    rw [FP.lt_def, fp_zero, hx, hy]; simp
  have e2 : ((num 0 : FP double) ≤ x) = ((num 0 : ℝ) ≤ y) := by
    rw [FP.le_def, fp_zero, hx, hy]; simp
  have e3 : (x < (num 180 : FP double)) = (y < (num 180 : ℝ)) := by
    rw [FP.lt_def, e180, hx, hy]; simp
  have e4 : (x < (-(num 180) : FP double)) = (y < (-(num 180) : ℝ)) := by
    rw [FP.lt_def, FP.neg_val, e180, hx, hy]; simp
  simp only [e1, e2, e3, e4, and_self]

theorem Same.sub_degree {a a' : AngleDeg (FP double)} {b b' : AngleDeg ℝ} (h : Same a b) (h' : Same a' b') :
    (∃ n : ℤ, (a.degree - a'.degree).val = n ∧ b.degree - b'.degree = n) ∧
    (∃ n : ℤ, (a.degree - a'.deg).val = n ∧ b.degree - b'.deg = n) := by
  obtain ⟨d1, m, d2, d3⟩ := h.degree
  obtain ⟨e1, k, e2, e3⟩ := h'.degree
  obtain ⟨f1, j, f2, f3⟩ := h'
  rw [d2] at d1
  rw [e2] at e1
  rw [f2] at f1
  rw [abs_le] at d3 e3 f3
  refine ⟨⟨m - k, ?_, by rw [d2, e2]; push_cast; rfl⟩, ⟨m - j, ?_, by rw [d2, f2]; push_cast; rfl⟩⟩
  · rw [FP.sub_val, d1, e1, ← Int.cast_sub]
    exact rne_int (by rw [abs_le]; constructor <;> omega)
  · rw [FP.sub_val, d1, f1, ← Int.cast_sub]
    exact rne_int (by rw [abs_le]; constructor <;> omega)

theorem same_left {a a' : AngleDeg (FP double)} {b b' : AngleDeg ℝ} (h : Same a b) (h' : Same a' b') :
    a.isLeftOf a' = b.isLeftOf b' ∧ a.isRightOf a' = b.isRightOf b' ∧ a.isLeftEqualOf a' = b.isLeftEqualOf b' ∧
    a.isRightEqualOf a' = b.isRightEqualOf b' := by
  obtain ⟨⟨n, hn1, hn2⟩, -⟩ := h.sub_degree h'
  obtain ⟨⟨m, hm1, hm2⟩, ⟨k, hk1, hk2⟩⟩ := h'.sub_degree h
  exact ⟨(fp_left_test hm1 hm2).1, (fp_left_test hn1 hn2).1, (fp_left_test hk1 hk2).2, (fp_left_test hn1 hn2).2⟩

/-- **C107**, comparisons: angles built by whole-degree histories compare as in exact arithmetic. -/
theorem C107_compare (n n' n'' : ℤ) (hn : |n| ≤ 2 ^ 45) (hn' : |n'| ≤ 2 ^ 45) (hn'' : |n''| ≤ 2 ^ 45)
    (ops ops' ops'' : List WholeOp) (hs : ∀ op ∈ ops, op.Small) (hs' : ∀ op ∈ ops', op.Small)
    (hs'' : ∀ op ∈ ops'', op.Small) :
    let a := wholeRun toDouble n ops
    let b := wholeRun toDouble n' ops'
    let c := wholeRun toDouble n'' ops''
    let a' := wholeRun (fun n => (n : ℝ)) n ops
    let b' := wholeRun (fun n => (n : ℝ)) n' ops'
    let c' := wholeRun (fun n => (n : ℝ)) n'' ops''
    a.isLeftOf b = a'.isLeftOf b' ∧ a.isRightOf b = a'.isRightOf b' ∧ a.isLeftEqualOf b = a'.isLeftEqualOf b' ∧
    a.isRightEqualOf b = a'.isRightEqualOf b' ∧ a.isWithin b c = a'.isWithin b' c' := by
  intro a b c a' b' c'
  have h := same_wholeRun n hn ops hs
  have h' := same_wholeRun n' hn' ops' hs'
  have h'' := same_wholeRun n'' hn'' ops'' hs''
  obtain ⟨l1, l2, l3, l4⟩ := same_left h h'
  refine ⟨l1, l2, l3, l4, ?_⟩
  unfold AngleDeg.isWithin
  rw [(same_left h' h'').2.2.1, (same_left h' h).2.2.1, (same_left h h'').2.2.1]

/-- The hypotheses are met: 350, turned by 20, reversed, is -170, left of 180. -/
example : (wholeRun toDouble 350 [.iaddNum 20, .reverse]).deg.val = -170 ∧
    (wholeRun toDouble 350 [.iaddNum 20, .reverse]).isLeftOf (wholeRun toDouble 90 []) = false := by
  have hr : (wholeRun (fun n => (n : ℝ)) 350 [.iaddNum 20, .reverse]).deg = -170 := by
    simp only [wholeRun, List.foldl, WholeOp.run, AngleDeg.iaddNum, AngleDeg.ofNum, AngleDeg.reverse, normalDeg_real]
    norm_num
  have h90 : (wholeRun (fun n => (n : ℝ)) 90 []).deg = 90 := by
    simp only [wholeRun, List.foldl, AngleDeg.ofNum, normalDeg_real]
    norm_num
  have hs : ∀ op ∈ [WholeOp.iaddNum 20, WholeOp.reverse], op.Small := by
    intro op ho; fin_cases ho <;> norm_num [WholeOp.Small]
  constructor
  · rw [(C107_whole 350 (by norm_num) _ hs).1, hr]
  · rw [(C107_compare 350 90 0 (by norm_num) (by norm_num) (by norm_num) _ [] [] hs (by simp) (by simp)).1]
    simp only [AngleDeg.isLeftOf, AngleDeg.degree, AngleDeg.ofNum, hr, h90, normalDeg_real]
    norm_num

/-! ## C108 -/

/-- A double angle: the stored degree is a double in [-180, 180] (C96). -/
def AngleDeg.FOk (a : AngleDeg (FP double)) : Prop := IsDouble a.deg.val ∧ FNormal a

theorem AngleDeg.FOk.degree {a : AngleDeg (FP double)} (h : a.FOk) : a.degree = a.deg := by
  apply FP.ext
  have e : a.deg = ⟨a.deg.val⟩ := rfl
  unfold AngleDeg.degree
  change (normalDeg a.deg).val = _
  rw [e, (C96_double_exact h.1).1, normalDeg_of_mem h.2.1 h.2.2]

/-- The angle with the same degree in exact arithmetic. -/
def AngleDeg.exact (a : AngleDeg (FP double)) : AngleDeg ℝ := ⟨a.deg.val⟩

theorem AngleDeg.FOk.exact_degree {a : AngleDeg (FP double)} (h : a.FOk) : a.exact.degree = a.deg.val :=
  normalDeg_of_mem h.2.1 h.2.2

/-- **C108**, with every pair of angles: `a.is_left_of(b)` and `b.is_right_of(a)` agree, also in double precision, and no
angle is both left and right of another. -/
theorem C108_dual_partial (a b : AngleDeg (FP double)) :
    a.isLeftOf b = b.isRightOf a ∧ ¬ (a.isLeftOf b = true ∧ a.isRightOf b = true) := by
  refine ⟨rfl, ?_⟩
  rintro ⟨h1, h2⟩
  have e180 : (num 180 : FP double).val = 180 := (double.int 180 (by norm_num)).trans (by norm_num)
  unfold AngleDeg.isLeftOf at h1
  unfold AngleDeg.isRightOf at h2
  simp only [Bool.or_eq_true, Bool.and_eq_true, decide_eq_true_eq, FP.lt_def, FP.neg_val, e180, fp_zero] at h1 h2
  have e : (a.degree - b.degree).val = -(b.degree - a.degree).val := by
    rw [FP.sub_val, FP.sub_val, ← double.odd, neg_sub]
  rw [e] at h2
  rcases h1 with h1 | h1 <;> rcases h2 with h2 | h2 <;> linarith [h1, h2]

theorem rne_pos_iff {x y : ℝ} (hx : IsDouble x) (hy : IsDouble y) : 0 < rne (x - y) ↔ 0 < x - y := by
  have h : |rne (x - y) - (x - y)| ≤ (2 : ℝ) ^ (-53 : ℤ) * |x - y| := by
    refine rne_grid_error ?_
    obtain ⟨m, hm⟩ := hx.grid
    obtain ⟨n, hn⟩ := hy.grid
    exact ⟨m - n, by rw [hm, hn]; push_cast; ring⟩
  constructor
  · intro h0
    by_contra hc
    have := rne_mono (not_lt.mp hc)
    rw [rne_zero] at this
    linarith
  · intro h0
    rw [abs_of_pos h0] at h
    have := (abs_le.mp h).1
    generalize rne (x - y) = r at *
    norm_num only at *
    linarith

/-- **C108**, what holds in double precision: the comparisons are those of exact arithmetic, unless the exact difference
of the degrees is within `2 ** -45` of ±180 without being ±180. -/
theorem C108_compare_partial (a b : AngleDeg (FP double)) (ha : a.FOk) (hb : b.FOk)
    (h : |a.deg.val - b.deg.val| ≤ 180 - (2 : ℝ) ^ (-45 : ℤ) ∨ |a.deg.val - b.deg.val| = 180 ∨
      180 + (2 : ℝ) ^ (-45 : ℤ) ≤ |a.deg.val - b.deg.val|) :
    a.isLeftOf b = a.exact.isLeftOf b.exact ∧ a.isRightOf b = a.exact.isRightOf b.exact ∧
    a.isLeftEqualOf b = a.exact.isLeftEqualOf b.exact ∧ a.isRightEqualOf b = a.exact.isRightEqualOf b.exact := by
  have e180 : (num 180 : FP double).val = 180 := (double.int 180 (by norm_num)).trans (by norm_num)
  have key : ∀ x y : ℝ, IsDouble x → IsDouble y → (|x - y| ≤ 180 - (2 : ℝ) ^ (-45 : ℤ) ∨ |x - y| = 180 ∨
      180 + (2 : ℝ) ^ (-45 : ℤ) ≤ |x - y|) →
      (0 < rne (x - y) ↔ 0 < x - y) ∧ (0 ≤ rne (x - y) ↔ 0 ≤ x - y) ∧ (rne (x - y) < 180 ↔ x - y < 180) ∧
      (rne (x - y) < -180 ↔ x - y < -180) := by
    intro x y hx hy h
    have dlo : IsDouble (180 - (2 : ℝ) ^ (-45 : ℤ)) := ⟨180 * 2 ^ 45 - 1, -45, by norm_num, by norm_num, by norm_num⟩
    have dhi : IsDouble (180 + (2 : ℝ) ^ (-45 : ℤ)) := ⟨180 * 2 ^ 45 + 1, -45, by norm_num, by norm_num, by norm_num⟩
    have hp : (0 : ℝ) < (2 : ℝ) ^ (-45 : ℤ) := by positivity
    have h1 := rne_pos_iff hx hy
    have h2 := rne_pos_iff hy hx
    rw [← neg_sub x y, rne_neg] at h2
    refine ⟨h1, ?_, ?_, ?_⟩
    · constructor
      · intro h3; by_contra h4; have := h2.mpr (by linarith); linarith
      · intro h3; exact rne_nonneg h3
    · constructor
      · intro h3
        by_contra h4
        have := rne_mono (not_lt.mp h4)
        rw [rne_of_isDouble isDouble_180] at this
        linarith
      · intro h3
        have h5 : x - y ≤ 180 - (2 : ℝ) ^ (-45 : ℤ) := by
          rcases h with h | h | h
          · exact (abs_le.mp h).2
          · rcases abs_cases (x - y) with ⟨c1, -⟩ | ⟨c1, c2⟩ <;> rw [c1] at h
            · linarith
            · have : (2 : ℝ) ^ (-45 : ℤ) ≤ 1 := by norm_num
              linarith
          · rcases abs_cases (x - y) with ⟨c1, -⟩ | ⟨c1, c2⟩ <;> rw [c1] at h
            · linarith
            · have : (2 : ℝ) ^ (-45 : ℤ) ≤ 1 := by norm_num
              linarith
        have := rne_mono h5
        rw [rne_of_isDouble dlo] at this
        linarith
    · constructor
      · intro h3
        by_contra h4
        have := rne_mono (not_lt.mp h4)
        rw [rne_of_isDouble isDouble_180.neg] at this
        linarith
      · intro h3
        have h5 : x - y ≤ -(180 + (2 : ℝ) ^ (-45 : ℤ)) := by
          rcases abs_cases (x - y) with ⟨c1, c2⟩ | ⟨c1, c2⟩ <;> rw [c1] at h
          · linarith
          · rcases h with h | h | h <;> linarith
        have := rne_mono h5
        rw [rne_of_isDouble dhi.neg] at this
        linarith
  obtain ⟨k1, k2, k3, k4⟩ := key _ _ ha.1 hb.1 h
  obtain ⟨j1, j2, j3, j4⟩ := key _ _ hb.1 ha.1 (by rwa [abs_sub_comm])
  have t : ∀ x y : FP double, (0 < rne (x.val - y.val) ↔ 0 < x.val - y.val) →
      (0 ≤ rne (x.val - y.val) ↔ 0 ≤ x.val - y.val) → (rne (x.val - y.val) < 180 ↔ x.val - y.val < 180) →
      (rne (x.val - y.val) < -180 ↔ x.val - y.val < -180) →
      (((decide ((num 0 : FP double) < x - y) && decide (x - y < num 180)) || decide (x - y < -(num 180))) =
      ((decide ((num 0 : ℝ) < x.val - y.val) && decide (x.val - y.val < num 180)) ||
        decide (x.val - y.val < -(num 180)))) ∧
      (((decide ((num 0 : FP double) ≤ x - y) && decide (x - y < num 180)) || decide (x - y < -(num 180))) =
      ((decide ((num 0 : ℝ) ≤ x.val - y.val) && decide (x.val - y.val < num 180)) ||
        decide (x.val - y.val < -(num 180)))) := by
    intro x y t1 t2 t3 t4
    have c0 : (num 0 : ℝ) = 0 := Nat.cast_zero
    have c1 : (num 180 : ℝ) = 180 := by norm_num
    have e1 : ((num 0 : FP double) < x - y) = ((num 0 : ℝ) < x.val - y.val) := by
      rw [FP.lt_def, fp_zero, c0]; exact propext t1
    have e2 : ((num 0 : FP double) ≤ x - y) = ((num 0 : ℝ) ≤ x.val - y.val) := by
      rw [FP.le_def, fp_zero, c0]; exact propext t2
    have e3 : (x - y < (num 180 : FP double)) = (x.val - y.val < (num 180 : ℝ)) := by
      rw [FP.lt_def, e180, c1]; exact propext t3
    have e4 : (x - y < (-(num 180) : FP double)) = (x.val - y.val < (-(num 180) : ℝ)) := by
      rw [FP.lt_def, FP.neg_val, e180, c1]; exact propext t4
    simp only [e1, e2, e3, e4, and_self]
  have ta := t a.deg b.deg k1 k2 k3 k4
  have tb := t b.deg a.deg j1 j2 j3 j4
  unfold AngleDeg.isLeftOf AngleDeg.isRightOf AngleDeg.isLeftEqualOf AngleDeg.isRightEqualOf
  rw [ha.degree, hb.degree, ha.exact_degree, hb.exact_degree]
  exact ⟨tb.1, ta.1, tb.2, ta.2⟩

/-- **C108 is false**: `-90 + 2 ** -46` is left of 90 degrees (by less than a half turn), but in double precision it is
neither left nor right of it. -/
theorem C108_refuted : ∃ a b : AngleDeg (FP double), a.FOk ∧ b.FOk ∧ a.exact.isLeftOf b.exact = true ∧
    a.isLeftOf b = false ∧ a.isRightOf b = false := by
  have da : IsDouble (-90 + (2 : ℝ) ^ (-46 : ℤ)) := ⟨-90 * 2 ^ 46 + 1, -46, by norm_num, by norm_num, by norm_num⟩
  have db : IsDouble (90 : ℝ) := by simpa using isDouble_nat (n := 90) (by norm_num)
  have ha : (⟨⟨-90 + (2 : ℝ) ^ (-46 : ℤ)⟩⟩ : AngleDeg (FP double)).FOk := ⟨da, by unfold FNormal; norm_num⟩
  have hb : (⟨⟨90⟩⟩ : AngleDeg (FP double)).FOk := ⟨db, by unfold FNormal; norm_num⟩
  have e180 : (num 180 : FP double).val = 180 := (double.int 180 (by norm_num)).trans (by norm_num)
  have hr : rne (90 - (-90 + (2 : ℝ) ^ (-46 : ℤ))) = 180 := by
    rw [rne_eq_even 7 (180 * 2 ^ 45) (by norm_num) (by norm_num [abs_of_pos]) (by norm_num [abs_of_pos])
      (by norm_num [abs_le]) (by decide)]
    norm_num
  have hr' : rne ((-90 + (2 : ℝ) ^ (-46 : ℤ)) - 90) = -180 := by
    rw [← neg_sub, rne_neg, hr]
  refine ⟨_, _, ha, hb, ?_, ?_, ?_⟩
  · unfold AngleDeg.isLeftOf
    rw [ha.exact_degree, hb.exact_degree]
    norm_num
  · unfold AngleDeg.isLeftOf
    rw [ha.degree, hb.degree, ← Bool.not_eq_true]
    simp only [Bool.or_eq_true, Bool.and_eq_true, decide_eq_true_eq, FP.lt_def, FP.neg_val, e180, fp_zero, FP.sub_val]
    change ¬ ((0 < rne _ ∧ rne _ < 180) ∨ rne _ < -180)
    rw [hr]
    norm_num
  · unfold AngleDeg.isRightOf
    rw [ha.degree, hb.degree, ← Bool.not_eq_true]
    simp only [Bool.or_eq_true, Bool.and_eq_true, decide_eq_true_eq, FP.lt_def, FP.neg_val, e180, fp_zero, FP.sub_val]
    change ¬ ((0 < rne _ ∧ rne _ < 180) ∨ rne _ < -180)
    rw [hr']
    norm_num

/-- The hypotheses are met: 0.1 and 1 degree. -/
example : (ofNum (⟨rne (1 / 10)⟩ : FP double)).isLeftOf (ofNum ⟨1⟩) = true := by
  have e : rne (1 / 10) = 3602879701896397 / 2 ^ 55 := rne_tenth
  have n1 : normalDeg (⟨rne (1 / 10)⟩ : FP double) = ⟨rne (1 / 10)⟩ := by
    apply FP.ext
    rw [(C96_double_exact (isDouble_rne _)).1, normalDeg_of_mem] <;> rw [e] <;> norm_num
  have n2 : normalDeg (⟨1⟩ : FP double) = ⟨1⟩ := by
    apply FP.ext
    rw [(C96_double_exact isDouble_one).1, normalDeg_of_mem] <;> norm_num
  unfold AngleDeg.ofNum
  rw [n1, n2]
  have ha : (⟨⟨rne (1 / 10)⟩⟩ : AngleDeg (FP double)).FOk := ⟨isDouble_rne _, by unfold FNormal; rw [e]; norm_num⟩
  have hb : (⟨⟨1⟩⟩ : AngleDeg (FP double)).FOk := ⟨isDouble_one, by unfold FNormal; norm_num⟩
  rw [(C108_compare_partial _ _ ha hb (Or.inl (by rw [e]; norm_num [abs_of_neg]))).1]
  unfold AngleDeg.isLeftOf
  rw [ha.exact_degree, hb.exact_degree, e]
  norm_num

end PyrusGeom
