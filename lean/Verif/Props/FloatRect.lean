import Verif.Props.FloatRange
import Verif.Props.Rect

/-! # Properties C102, C103: `Rect2D` in double precision -/

namespace PyrusGeom
open Spec

/-- A double, as a number of the model. -/
abbrev Dbl := {x : FP double // IsDouble x.val}

/-- The `Vector2D` with two double coordinates. -/
def Dbl.vec (x y : Dbl) : Vec (FP double) := Vec.ofXY x.1 y.1

/-- Mutators of `Rect2D` with double arguments. An argument rectangle of `intersected`, `united`, `assign` is given by
its four numbers. -/
inductive FRectOp
  | moveCenter (x y : Dbl) | moveTopLeft (x y : Dbl) | moveBottomRight (x y : Dbl)
  | moveLeft (x : Dbl) | moveRight (x : Dbl) | moveTop (y : Dbl) | moveBottom (y : Dbl)
  | setTopLeft (x y : Dbl) | setBottomRight (x y : Dbl)
  | setLeft (x : Dbl) | setRight (x : Dbl) | setTop (y : Dbl) | setBottom (y : Dbl)
  | setLength (l : Dbl) | setWidth (w : Dbl) | setSize (l w : Dbl)
  | assign4 (l t len wid : Dbl) | assign3 (x y len wid : Dbl) | assignCorners (x y x' y' : Dbl)
  | assignRect (l t len wid : Dbl) | intersected (l t len wid : Dbl) | united (l t len wid : Dbl)
  | fromCenter (x y l w : Dbl)

/-- Effect of a mutator. -/
noncomputable def FRectOp.apply (r : Rect (FP double)) : FRectOp → Rect (FP double)
  | .moveCenter x y => r.moveCenter (Dbl.vec x y)
  | .moveTopLeft x y => r.moveTopLeft (Dbl.vec x y)
  | .moveBottomRight x y => r.moveBottomRight (Dbl.vec x y)
  | .moveLeft x => r.moveLeft x.1
  | .moveRight x => r.moveRight x.1
  | .moveTop y => r.moveTop y.1
  | .moveBottom y => r.moveBottom y.1
  | .setTopLeft x y => r.setTopLeft x.1 y.1
  | .setBottomRight x y => r.setBottomRight x.1 y.1
  | .setLeft x => r.setLeft x.1
  | .setRight x => r.setRight x.1
  | .setTop y => r.setTop y.1
  | .setBottom y => r.setBottom y.1
  | .setLength l => r.setLength l.1
  | .setWidth w => r.setWidth w.1
  | .setSize l w => r.setSize l.1 w.1
  | .assign4 l t len wid => r.assign4 l.1 t.1 len.1 wid.1
  | .assign3 x y len wid => r.assign3 (Dbl.vec x y) len.1 wid.1
  | .assignCorners x y x' y' => Rect.ofCorners (Dbl.vec x y) (Dbl.vec x' y')
  | .assignRect l t len wid => Rect.ofRect (Rect.ofLTLW l.1 t.1 len.1 wid.1)
  | .intersected l t len wid => r.intersected (Rect.ofLTLW l.1 t.1 len.1 wid.1)
  | .united l t len wid => r.united (Rect.ofLTLW l.1 t.1 len.1 wid.1)
  | .fromCenter x y l w => Rect.fromCenter4 x.1 y.1 l.1 w.1

/-- `Rect2D(left, top, length, width)` with double arguments, then any sequence of mutations. -/
noncomputable def FRect.run (l t len wid : Dbl) (ops : List FRectOp) : Rect (FP double) :=
  ops.foldl FRectOp.apply (Rect.ofLTLW l.1 t.1 len.1 wid.1)

/-- Four doubles, the sizes not negative. -/
def Rect.FOk (r : Rect (FP double)) : Prop :=
  (IsDouble r.topLeft.x.val ∧ IsDouble r.topLeft.y.val) ∧ (IsDouble r.size.length.val ∧ 0 ≤ r.size.length.val) ∧
    (IsDouble r.size.width.val ∧ 0 ≤ r.size.width.val)

theorem fp_num0 : IsDouble (num 0 : FP double).val := by rw [fp_zero]; exact isDouble_zero

theorem fp_fabs_ok {x : FP double} (h : IsDouble x.val) : IsDouble (fabs x).val ∧ 0 ≤ (fabs x).val := by
  rw [fp_fabs_val]
  refine ⟨?_, abs_nonneg _⟩
  rcases abs_cases x.val with ⟨h1, -⟩ | ⟨h1, -⟩ <;> rw [h1]
  exacts [h, h.neg]

theorem fp_pyMin_double {x y : FP double} (hx : IsDouble x.val) (hy : IsDouble y.val) : IsDouble (pyMin x y).val := by
  unfold pyMin; split_ifs <;> assumption

theorem fp_pyMax_double {x y : FP double} (hx : IsDouble x.val) (hy : IsDouble y.val) : IsDouble (pyMax x y).val := by
  unfold pyMax; split_ifs <;> assumption

theorem fp_add_double (x y : FP double) : IsDouble (x + y).val := isDouble_rne _
theorem fp_sub_double (x y : FP double) : IsDouble (x - y).val := isDouble_rne _
theorem fp_mul_double (x y : FP double) : IsDouble (x * y).val := isDouble_rne _

theorem FRectOp.apply_ok (r : Rect (FP double)) (op : FRectOp) (h : r.FOk) : (op.apply r).FOk := by
  obtain ⟨⟨h1, h2⟩, h3, h4⟩ := h
  cases op
  case intersected l t len wid =>
    exact ⟨⟨fp_pyMax_double (by split_ifs <;> first | exact h1 | exact fp_num0) l.2,
      fp_pyMax_double (by split_ifs <;> first | exact h2 | exact fp_num0) t.2⟩,
      fp_fabs_ok (fp_sub_double _ _), fp_fabs_ok (fp_sub_double _ _)⟩
  case united l t len wid =>
    exact ⟨⟨fp_pyMax_double (by split_ifs <;> first | exact h1 | exact fp_num0) l.2,
      fp_pyMax_double (by split_ifs <;> first | exact h2 | exact fp_num0) t.2⟩,
      fp_fabs_ok (fp_sub_double _ _), fp_fabs_ok (fp_sub_double _ _)⟩
  case assignCorners x y x' y' =>
    simp only [FRectOp.apply, Rect.ofCorners]
    split_ifs
    · exact ⟨⟨x'.2, y'.2⟩, fp_fabs_ok fp_num0, fp_fabs_ok fp_num0⟩
    · exact ⟨⟨x.2, y'.2⟩, fp_fabs_ok fp_num0, fp_fabs_ok fp_num0⟩
    · exact ⟨⟨fp_num0, fp_num0⟩, fp_fabs_ok fp_num0, fp_fabs_ok fp_num0⟩
  case moveCenter x y => exact ⟨⟨fp_sub_double _ _, fp_sub_double _ _⟩, h3, h4⟩
  case moveTopLeft x y => exact ⟨⟨x.2, y.2⟩, h3, h4⟩
  case moveBottomRight x y => exact ⟨⟨fp_sub_double _ _, fp_sub_double _ _⟩, h3, h4⟩
  case moveLeft x => exact ⟨⟨x.2, h2⟩, h3, h4⟩
  case moveRight x => exact ⟨⟨fp_sub_double _ _, h2⟩, h3, h4⟩
  case moveTop x => exact ⟨⟨h1, x.2⟩, h3, h4⟩
  case moveBottom x => exact ⟨⟨h1, fp_sub_double _ _⟩, h3, h4⟩
  case setTopLeft x y =>
    exact ⟨⟨fp_pyMin_double (fp_add_double _ _) x.2, fp_pyMin_double (fp_add_double _ _) y.2⟩,
      fp_fabs_ok (fp_pyMin_double (fp_add_double _ _) x.2), fp_fabs_ok (fp_sub_double _ _)⟩
  case setBottomRight x y =>
    exact ⟨⟨fp_pyMin_double h1 x.2, fp_pyMin_double h2 y.2⟩,
      fp_fabs_ok (fp_pyMin_double h1 x.2), fp_fabs_ok (fp_sub_double _ _)⟩
  case setLeft x => exact ⟨⟨fp_pyMin_double (fp_add_double _ _) x.2, h2⟩, fp_fabs_ok (fp_sub_double _ _), h4⟩
  case setRight x => exact ⟨⟨fp_pyMin_double h1 x.2, h2⟩, fp_fabs_ok (fp_sub_double _ _), h4⟩
  case setTop x => exact ⟨⟨h1, fp_pyMin_double (fp_add_double _ _) x.2⟩, h3, fp_fabs_ok (fp_sub_double _ _)⟩
  case setBottom x => exact ⟨⟨h1, fp_pyMin_double h2 x.2⟩, h3, fp_fabs_ok (fp_sub_double _ _)⟩
  case setLength l => exact ⟨⟨h1, h2⟩, fp_fabs_ok l.2, h4⟩
  case setWidth l => exact ⟨⟨h1, h2⟩, h3, fp_fabs_ok l.2⟩
  case setSize l w => exact ⟨⟨h1, h2⟩, fp_fabs_ok l.2, fp_fabs_ok w.2⟩
  case assign4 l t len wid => exact ⟨⟨l.2, t.2⟩, fp_fabs_ok l.2, fp_fabs_ok wid.2⟩
  case assign3 x y len wid => exact ⟨⟨x.2, y.2⟩, fp_fabs_ok len.2, fp_fabs_ok wid.2⟩
  case assignRect l t len wid =>
    exact ⟨⟨l.2, t.2⟩, fp_fabs_ok (fp_fabs_ok len.2).1, fp_fabs_ok (fp_fabs_ok wid.2).1⟩
  case fromCenter x y l w =>
    exact ⟨⟨fp_sub_double _ _, fp_sub_double _ _⟩, fp_fabs_ok l.2, fp_fabs_ok w.2⟩

theorem FRect.run_ok (l t len wid : Dbl) (ops : List FRectOp) : (FRect.run l t len wid ops).FOk := by
  unfold FRect.run
  have h0 : (Rect.ofLTLW l.1 t.1 len.1 wid.1).FOk := ⟨⟨l.2, t.2⟩, fp_fabs_ok len.2, fp_fabs_ok wid.2⟩
  generalize Rect.ofLTLW l.1 t.1 len.1 wid.1 = r at h0
  induction ops generalizing r with
  | nil => exact h0
  | cons op ops ih => exact ih _ (op.apply_ok r h0)

/-- The rounded sum of a double and a non-negative number is not below the double. -/
theorem rne_add_ge {x y : ℝ} (hx : IsDouble x) (hy : 0 ≤ y) : x ≤ rne (x + y) := by
  have := rne_mono (show x ≤ x + y by linarith)
  rwa [rne_of_isDouble hx] at this

theorem IsDouble.two_mul {x : ℝ} (h : IsDouble x) : IsDouble (2 * x) := by
  obtain ⟨m, k, h1, h2, rfl⟩ := h
  refine ⟨m, k + 1, h1, by omega, ?_⟩
  rw [zpow_add₀ (by norm_num)]; ring

/-- The rounded half sum of two ordered doubles is between them. -/
theorem rne_mid {x y : ℝ} (hx : IsDouble x) (hy : IsDouble y) (h : x ≤ y) :
    x ≤ rne (rne (x + y) * (1 / 2)) ∧ rne (rne (x + y) * (1 / 2)) ≤ y := by
  have h1 := rne_mono (show 2 * x ≤ x + y by linarith)
  have h2 := rne_mono (show x + y ≤ 2 * y by linarith)
  rw [rne_of_isDouble hx.two_mul] at h1
  rw [rne_of_isDouble hy.two_mul] at h2
  have h3 := rne_mono (show x ≤ rne (x + y) * (1 / 2) by linarith)
  have h4 := rne_mono (show rne (x + y) * (1 / 2) ≤ y by linarith)
  rw [rne_of_isDouble hx] at h3
  rw [rne_of_isDouble hy] at h4
  exact ⟨h3, h4⟩

/-- **C102.** In double precision, after any history: the sizes are not negative, `left() <= right()` and
`top() <= bottom()`, and the rectangle contains its four corners and its center, as computed. -/
theorem C102_contains (l t len wid : Dbl) (ops : List FRectOp) :
    let r := FRect.run l t len wid ops
    (0 ≤ r.size.length.val ∧ 0 ≤ r.size.width.val) ∧ (r.left ≤ r.right ∧ r.top ≤ r.bottom) ∧
    r.contains r.getTopLeft = true ∧ r.contains r.topRight = true ∧ r.contains r.bottomLeft = true ∧
    r.contains r.bottomRight = true ∧ r.contains r.center = true := by
  intro r
  obtain ⟨⟨hx, hy⟩, ⟨hl, hl0⟩, ⟨hw, hw0⟩⟩ := FRect.run_ok l t len wid ops
  change IsDouble r.topLeft.x.val at hx
  change IsDouble r.topLeft.y.val at hy
  change 0 ≤ r.size.length.val at hl0
  change 0 ≤ r.size.width.val at hw0
  have h1 : r.topLeft.x.val ≤ r.right.val := rne_add_ge hx hl0
  have h2 : r.topLeft.y.val ≤ r.bottom.val := rne_add_ge hy hw0
  have hr : IsDouble r.right.val := isDouble_rne _
  have hb : IsDouble r.bottom.val := isDouble_rne _
  refine ⟨⟨hl0, hw0⟩, ⟨h1, h2⟩, ?_, ?_, ?_, ?_, ?_⟩ <;> rw [fp_contains]
  · exact ⟨le_rfl, h1, le_rfl, h2⟩
  · exact ⟨h1, le_rfl, le_rfl, h2⟩
  · exact ⟨le_rfl, h1, h2, le_rfl⟩
  · exact ⟨h1, le_rfl, h2, le_rfl⟩
  · have c1 : r.center.x.val = rne (rne (r.topLeft.x.val + r.right.val) * (1 / 2)) := by
      change rne (rne (r.topLeft.x.val + r.right.val) * ((num 1 : FP double) / num 2).val) = _
      rw [fp_half]
    have c2 : r.center.y.val = rne (rne (r.topLeft.y.val + r.bottom.val) * (1 / 2)) := by
      change rne (rne (r.topLeft.y.val + r.bottom.val) * ((num 1 : FP double) / num 2).val) = _
      rw [fp_half]
    rw [c1, c2]
    exact ⟨(rne_mid hx hr h1).1, (rne_mid hx hr h1).2, (rne_mid hy hb h2).1, (rne_mid hy hb h2).2⟩

/-- The double 0.1. -/
noncomputable def Dbl.tenth : Dbl := ⟨⟨rne (1 / 10)⟩, isDouble_rne _⟩

/-- The hypotheses are met by a rectangle whose sides are not exact: left 0.1, size 0.1, moved. -/
example : let r := FRect.run Dbl.tenth Dbl.tenth Dbl.tenth Dbl.tenth [.moveRight Dbl.tenth]
    r.left.val = 0 ∧ r.contains r.center = true := by
  refine ⟨?_, (C102_contains _ _ _ _ _).2.2.2.2.2.2⟩
  change rne (rne (1 / 10) - (fabs (⟨rne (1 / 10)⟩ : FP double)).val) = 0
  rw [fp_fabs_val, abs_of_nonneg (rne_nonneg (by norm_num)), sub_self, rne_zero]

/-! ## C103 -/

theorem isDouble_pow (k : ℤ) (hk : -1074 ≤ k) : IsDouble ((2 : ℝ) ^ k) := ⟨1, k, by norm_num, hk, by norm_num⟩

/-- **C103 is false**: with length 1, `move_right(2 ** -60)` puts the right side at 0. -/
theorem C103_refuted_move : ∃ (r : Rect (FP double)) (x : Dbl), r.FOk ∧ x.1.val = (2 : ℝ) ^ (-60 : ℤ) ∧
    (r.moveRight x.1).right.val = 0 := by
  have h1 : IsDouble (1 : ℝ) := isDouble_one
  have hx : IsDouble ((2 : ℝ) ^ (-60 : ℤ)) := isDouble_pow _ (by norm_num)
  refine ⟨⟨Vec.ofXY ⟨0⟩ ⟨0⟩, ⟨⟨1⟩, ⟨1⟩⟩⟩, ⟨⟨_⟩, hx⟩, ⟨⟨isDouble_zero, isDouble_zero⟩, ⟨h1, zero_le_one⟩, h1, zero_le_one⟩,
    rfl, ?_⟩
  change rne (rne ((2 : ℝ) ^ (-60 : ℤ) - 1) + 1) = 0
  have : rne ((2 : ℝ) ^ (-60 : ℤ) - 1) = -1 := by
    rw [rne_eq (-1) (-2 ^ 53) (by norm_num) (by norm_num [abs_of_neg]) (by norm_num [abs_of_neg]) (by norm_num [abs_lt])]
    norm_num
  rw [this, neg_add_cancel, rne_zero]

/-- **C103 is false**: on the rectangle with left 0 and length 1, `set_left(-2 ** -53)` moves the right side from 1 to
`1 - 2 ** -53`. -/
theorem C103_refuted_set : ∃ (r : Rect (FP double)) (x : Dbl), r.FOk ∧ x.1.val ≤ r.right.val ∧ r.right.val = 1 ∧
    (r.setLeft x.1).right.val = 1 - (2 : ℝ) ^ (-53 : ℤ) := by
  have h1 : IsDouble (1 : ℝ) := isDouble_one
  have hx : IsDouble (-(2 : ℝ) ^ (-53 : ℤ)) := (isDouble_pow _ (by norm_num)).neg
  have hp : (0 : ℝ) < (2 : ℝ) ^ (-53 : ℤ) := by positivity
  have hr : rne (0 + 1) = 1 := by rw [zero_add, rne_of_isDouble h1]
  refine ⟨⟨Vec.ofXY ⟨0⟩ ⟨0⟩, ⟨⟨1⟩, ⟨1⟩⟩⟩, ⟨⟨_⟩, hx⟩, ⟨⟨isDouble_zero, isDouble_zero⟩, ⟨h1, zero_le_one⟩, h1, zero_le_one⟩,
    ?_, hr, ?_⟩
  · change -(2 : ℝ) ^ (-53 : ℤ) ≤ rne (0 + 1)
    rw [hr]; linarith
  · have hlt : -(2 : ℝ) ^ (-53 : ℤ) < 1 := by linarith
    have hsum : rne (1 - -(2 : ℝ) ^ (-53 : ℤ)) = 1 := by
      rw [rne_eq_even 0 (2 ^ 52) (by norm_num) (by norm_num [abs_of_pos]) (by norm_num [abs_of_pos])
        (by norm_num [abs_le]) (by decide)]
      norm_num
    have hd : IsDouble (1 - (2 : ℝ) ^ (-53 : ℤ)) := ⟨2 ^ 53 - 1, -53, by norm_num, by norm_num, by norm_num⟩
    change rne ((pyMin (⟨rne (0 + 1)⟩ : FP double) ⟨-(2 : ℝ) ^ (-53 : ℤ)⟩).val + (fabs (pyMax (⟨rne (0 + 1)⟩ : FP double)
      ⟨-(2 : ℝ) ^ (-53 : ℤ)⟩ - pyMin (⟨rne (0 + 1)⟩ : FP double) ⟨-(2 : ℝ) ^ (-53 : ℤ)⟩)).val) = _
    have e1 : pyMin (⟨rne (0 + 1)⟩ : FP double) ⟨-(2 : ℝ) ^ (-53 : ℤ)⟩ = ⟨-(2 : ℝ) ^ (-53 : ℤ)⟩ := by
      unfold pyMin; rw [if_pos]; rw [FP.lt_def, hr]; exact hlt
    have e2 : pyMax (⟨rne (0 + 1)⟩ : FP double) ⟨-(2 : ℝ) ^ (-53 : ℤ)⟩ = ⟨1⟩ := by
      unfold pyMax; rw [if_neg, hr]; rw [FP.lt_def, hr]; exact not_lt.mpr hlt.le
    rw [e1, e2, fp_fabs_val]
    change rne (-(2 : ℝ) ^ (-53 : ℤ) + |rne (1 - -(2 : ℝ) ^ (-53 : ℤ))|) = _
    rw [hsum, abs_one, neg_add_eq_sub, rne_of_isDouble hd]

/-- **C103**, what holds for all doubles: `move_left`, `move_top` and `move_top_left` are exact, no move changes the size
and a move along one axis leaves the other axis alone. -/
theorem C103_exact_partial (r : Rect (FP double)) (x y : FP double) :
    (r.moveLeft x).left = x ∧ (r.moveTop y).top = y ∧
    ((r.moveTopLeft (Vec.ofXY x y)).left = x ∧ (r.moveTopLeft (Vec.ofXY x y)).top = y) ∧
    ((r.moveLeft x).size = r.size ∧ (r.moveRight x).size = r.size ∧ (r.moveTop y).size = r.size ∧
      (r.moveBottom y).size = r.size ∧ (r.moveTopLeft (Vec.ofXY x y)).size = r.size ∧
      (r.moveBottomRight (Vec.ofXY x y)).size = r.size ∧ (r.moveCenter (Vec.ofXY x y)).size = r.size) ∧
    ((r.moveLeft x).top = r.top ∧ (r.moveLeft x).bottom = r.bottom ∧ (r.moveRight x).top = r.top ∧
      (r.moveRight x).bottom = r.bottom ∧ (r.moveTop y).left = r.left ∧ (r.moveTop y).right = r.right ∧
      (r.moveBottom y).left = r.left ∧ (r.moveBottom y).right = r.right) :=
  ⟨rfl, rfl, ⟨rfl, rfl⟩, ⟨rfl, rfl, rfl, rfl, rfl, rfl, rfl⟩, rfl, rfl, rfl, rfl, rfl, rfl, rfl, rfl⟩

/-- The error of `(x - l) + l` in double precision. -/
theorem rne_sub_add_error {x l : ℝ} (hx : IsDouble x) (hl : IsDouble l) :
    |rne (rne (x - l) + l) - x| ≤ (2 : ℝ) ^ (-51 : ℤ) * (|x| + |l|) := by
  have e1 := rne_grid_error (z := x - l) (by
    obtain ⟨m, hm⟩ := hx.grid
    obtain ⟨n, hn⟩ := hl.grid
    exact ⟨m - n, by rw [hm, hn]; push_cast; ring⟩)
  have e2 := rne_grid_error (z := rne (x - l) + l) (by
    obtain ⟨m, hm⟩ := (isDouble_rne (x - l)).grid
    obtain ⟨n, hn⟩ := hl.grid
    exact ⟨m + n, by rw [hm, hn]; push_cast; ring⟩)
  have t1 : |x - l| ≤ |x| + |l| := abs_sub _ _
  have t2 : |rne (x - l) + l| ≤ |rne (x - l) - (x - l)| + |x| := by
    have := abs_add_le (rne (x - l) - (x - l)) x
    rwa [show rne (x - l) - (x - l) + x = rne (x - l) + l by ring] at this
  have t3 : |rne (rne (x - l) + l) - x| ≤ |rne (rne (x - l) + l) - (rne (x - l) + l)| + |rne (x - l) - (x - l)| := by
    have := abs_add_le (rne (rne (x - l) + l) - (rne (x - l) + l)) (rne (x - l) - (x - l))
    rwa [show rne (rne (x - l) + l) - (rne (x - l) + l) + (rne (x - l) - (x - l)) = rne (rne (x - l) + l) - x by
      ring] at this
  have a1 := abs_nonneg x
  have a2 := abs_nonneg l
  generalize |rne (rne (x - l) + l) - x| = A at *
  generalize |rne (rne (x - l) + l) - (rne (x - l) + l)| = B at *
  generalize |rne (x - l) - (x - l)| = C at *
  generalize |rne (x - l) + l| = D at *
  generalize |x - l| = E at *
  generalize |x| = X at *
  generalize |l| = L at *
  norm_num only at *
  linarith

/-- **C103**, the error for all doubles: `move_right(x)` puts the right side within `2 ** -51 * (|x| + length)` of `x`;
the same for `move_bottom` and `move_bottom_right`. -/
theorem C103_error_partial (r : Rect (FP double)) (hr : r.FOk) (x y : Dbl) :
    |(r.moveRight x.1).right.val - x.1.val| ≤ (2 : ℝ) ^ (-51 : ℤ) * (|x.1.val| + |r.size.length.val|) ∧
    |(r.moveBottom y.1).bottom.val - y.1.val| ≤ (2 : ℝ) ^ (-51 : ℤ) * (|y.1.val| + |r.size.width.val|) ∧
    (r.moveBottomRight (Dbl.vec x y)).right = (r.moveRight x.1).right ∧
    (r.moveBottomRight (Dbl.vec x y)).bottom = (r.moveBottom y.1).bottom :=
  ⟨rne_sub_add_error x.2 hr.2.1.1, rne_sub_add_error y.2 hr.2.2.1, rfl, rfl⟩

/-- A multiple of `2 ^ k` with a factor of at most `2 ^ 51`. -/
def OnGrid (k : ℤ) (x : ℝ) : Prop := ∃ m : ℤ, |m| ≤ 2 ^ 51 ∧ x = m * (2 : ℝ) ^ k

theorem OnGrid.rne_add {k : ℤ} (hk : -1074 ≤ k) {x y : ℝ} (hx : OnGrid k x) (hy : OnGrid k y) : rne (x + y) = x + y := by
  obtain ⟨m, hm, rfl⟩ := hx
  obtain ⟨n, hn, rfl⟩ := hy
  refine rne_of_isDouble ⟨m + n, k, ?_, hk, by push_cast; ring⟩
  rw [abs_le] at *; constructor <;> omega

theorem OnGrid.rne_sub {k : ℤ} (hk : -1074 ≤ k) {x y : ℝ} (hx : OnGrid k x) (hy : OnGrid k y) : rne (x - y) = x - y := by
  obtain ⟨m, hm, rfl⟩ := hx
  obtain ⟨n, hn, rfl⟩ := hy
  refine rne_of_isDouble ⟨m - n, k, ?_, hk, by push_cast; ring⟩
  rw [abs_le] at *; constructor <;> omega

theorem OnGrid.isDouble {k : ℤ} (hk : -1074 ≤ k) {x : ℝ} (hx : OnGrid k x) : IsDouble x := by
  obtain ⟨m, hm, rfl⟩ := hx
  exact ⟨m, k, hm.trans (by norm_num), hk, rfl⟩

theorem fp_pyMin_val (x y : FP double) : (pyMin x y).val = min x.val y.val := by
  unfold pyMin
  by_cases h : y.val < x.val
  · rw [if_pos (by rw [FP.lt_def]; exact h), min_eq_right h.le]
  · rw [if_neg (by rw [FP.lt_def]; exact h), min_eq_left (not_lt.mp h)]

theorem fp_pyMax_val (x y : FP double) : (pyMax x y).val = max x.val y.val := by
  unfold pyMax
  by_cases h : x.val < y.val
  · rw [if_pos (by rw [FP.lt_def]; exact h), max_eq_right h.le]
  · rw [if_neg (by rw [FP.lt_def]; exact h), max_eq_left (not_lt.mp h)]

/-- **C103** on a common grid: if the sides of the rectangle, its sizes and the argument are multiples of `2 ^ k` with
factors of at most `2 ^ 51`, moving a side is exact and setting a side keeps the opposite one. -/
theorem C103_grid_partial (r : Rect (FP double)) (x : FP double) (k : ℤ) (hk : -1074 ≤ k) (hx : OnGrid k x.val)
    (hl : OnGrid k r.topLeft.x.val) (ht : OnGrid k r.topLeft.y.val)
    (hr : OnGrid k (r.topLeft.x.val + r.size.length.val)) (hb : OnGrid k (r.topLeft.y.val + r.size.width.val))
    (hlen : OnGrid k r.size.length.val) (hwid : OnGrid k r.size.width.val) :
    (r.moveRight x).right.val = x.val ∧ (r.moveBottom x).bottom.val = x.val ∧
    (x.val ≤ r.right.val → (r.setLeft x).left.val = x.val ∧ (r.setLeft x).right.val = r.right.val) ∧
    (r.left.val ≤ x.val → (r.setRight x).right.val = x.val ∧ (r.setRight x).left.val = r.left.val) ∧
    (x.val ≤ r.bottom.val → (r.setTop x).top.val = x.val ∧ (r.setTop x).bottom.val = r.bottom.val) ∧
    (r.top.val ≤ x.val → (r.setBottom x).bottom.val = x.val ∧ (r.setBottom x).top.val = r.top.val) := by
  have hxd := hx.isDouble hk
  have eR : r.right.val = r.topLeft.x.val + r.size.length.val := hl.rne_add hk hlen
  have eB : r.bottom.val = r.topLeft.y.val + r.size.width.val := ht.rne_add hk hwid
  have hRd := hr.isDouble hk
  have hBd := hb.isDouble hk
  refine ⟨?_, ?_, fun h => ?_, fun h => ?_, fun h => ?_, fun h => ?_⟩
  · change rne (rne (x.val - r.size.length.val) + r.size.length.val) = _
    rw [hx.rne_sub hk hlen, sub_add_cancel, rne_of_isDouble hxd]
  · change rne (rne (x.val - r.size.width.val) + r.size.width.val) = _
    rw [hx.rne_sub hk hwid, sub_add_cancel, rne_of_isDouble hxd]
  · have e1 : (pyMin r.right x).val = x.val := by rw [fp_pyMin_val, min_eq_right h]
    have e2 : (pyMax r.right x).val = r.right.val := by rw [fp_pyMax_val, max_eq_left h]
    refine ⟨e1, ?_⟩
    change rne ((pyMin r.right x).val + (fabs (pyMax r.right x - pyMin r.right x)).val) = _
    rw [fp_fabs_val]
    change rne ((pyMin r.right x).val + |rne ((pyMax r.right x).val - (pyMin r.right x).val)|) = _
    rw [e1, e2, eR, hr.rne_sub hk hx, abs_of_nonneg (by rw [eR] at h; linarith),
      show x.val + (r.topLeft.x.val + r.size.length.val - x.val) = r.topLeft.x.val + r.size.length.val by ring,
      rne_of_isDouble hRd]
  · have e1 : (pyMin r.left x).val = r.left.val := by rw [fp_pyMin_val, min_eq_left h]
    have e2 : (pyMax r.left x).val = x.val := by rw [fp_pyMax_val, max_eq_right h]
    refine ⟨?_, e1⟩
    change rne ((pyMin r.left x).val + (fabs (pyMax r.left x - pyMin r.left x)).val) = _
    rw [fp_fabs_val]
    change rne ((pyMin r.left x).val + |rne ((pyMax r.left x).val - (pyMin r.left x).val)|) = _
    rw [e1, e2, hx.rne_sub hk (y := r.left.val) hl, abs_of_nonneg (by linarith), add_sub_cancel, rne_of_isDouble hxd]
  · have e1 : (pyMin r.bottom x).val = x.val := by rw [fp_pyMin_val, min_eq_right h]
    have e2 : (pyMax r.bottom x).val = r.bottom.val := by rw [fp_pyMax_val, max_eq_left h]
    refine ⟨e1, ?_⟩
    change rne ((pyMin r.bottom x).val + (fabs (pyMax r.bottom x - pyMin r.bottom x)).val) = _
    rw [fp_fabs_val]
    change rne ((pyMin r.bottom x).val + |rne ((pyMax r.bottom x).val - (pyMin r.bottom x).val)|) = _
    rw [e1, e2, eB, hb.rne_sub hk hx, abs_of_nonneg (by rw [eB] at h; linarith),
      show x.val + (r.topLeft.y.val + r.size.width.val - x.val) = r.topLeft.y.val + r.size.width.val by ring,
      rne_of_isDouble hBd]
  · have e1 : (pyMin r.top x).val = r.top.val := by rw [fp_pyMin_val, min_eq_left h]
    have e2 : (pyMax r.top x).val = x.val := by rw [fp_pyMax_val, max_eq_right h]
    refine ⟨?_, e1⟩
    change rne ((pyMin r.top x).val + (fabs (pyMax r.top x - pyMin r.top x)).val) = _
    rw [fp_fabs_val]
    change rne ((pyMin r.top x).val + |rne ((pyMax r.top x).val - (pyMin r.top x).val)|) = _
    rw [e1, e2, hx.rne_sub hk (y := r.top.val) ht, abs_of_nonneg (by linarith), add_sub_cancel, rne_of_isDouble hxd]

/-- The hypotheses are met: quarters. -/
example : ((Rect.mk (Vec.ofXY ⟨1 / 4⟩ ⟨0⟩) ⟨⟨3⟩, ⟨1⟩⟩ : Rect (FP double)).moveRight ⟨7 / 4⟩).right.val = 7 / 4 := by
  refine (C103_grid_partial _ ⟨7 / 4⟩ (-2) (by norm_num) ⟨7, by norm_num, by norm_num⟩
    ⟨1, by norm_num, ?_⟩ ⟨0, by norm_num, ?_⟩ ⟨13, by norm_num, ?_⟩ ⟨4, by norm_num, ?_⟩ ⟨12, by norm_num, ?_⟩
    ⟨4, by norm_num, ?_⟩).1 <;> norm_num [Vec.ofXY]

end PyrusGeom
