import Verif.Props.Circle
import Verif.Model.Rect

/-! # Properties C54 – C63: `Size2D`, `Rect2D` -/

namespace PyrusGeom
open Spec

/-- The closed axis-parallel box `[l, r] × [t, b]`. -/
def Spec.box (l r t b : ℝ) : Set Pt := {z | l ≤ z.1 ∧ z.1 ≤ r ∧ t ≤ z.2 ∧ z.2 ≤ b}

/-- The region of a `Rect2D`: what `left`, `right`, `top`, `bottom` describe. -/
def Rect.pts (r : Rect ℝ) : Set Pt := box r.left r.right r.top r.bottom

/-- Non-negative sizes. -/
def Rect.Ok (r : Rect ℝ) : Prop := 0 ≤ r.size.length ∧ 0 ≤ r.size.width

theorem Rect.mem_pts {r : Rect ℝ} {z : Pt} :
    z ∈ r.pts ↔ r.left ≤ z.1 ∧ z.1 ≤ r.right ∧ r.top ≤ z.2 ∧ z.2 ≤ r.bottom := Iff.rfl

@[simp] theorem Size.ofLW_length (l w : ℝ) : (Size.ofLW l w).length = |l| := fabs_real l
@[simp] theorem Size.ofLW_width (l w : ℝ) : (Size.ofLW l w).width = |w| := fabs_real w

/-! ## C54 -/

/-- Mutators of `Size2D`. -/
inductive SizeOp
  | assign (l w : ℝ) | setLength (l : ℝ) | setWidth (w : ℝ)

/-- Effect of a `Size2D` mutator. -/
noncomputable def SizeOp.apply (s : Size ℝ) : SizeOp → Size ℝ
  | .assign l w => Size.ofLW l w
  | .setLength l => s.setLength l
  | .setWidth w => s.setWidth w

/-- A `Size2D` built from two numbers and mutated arbitrarily. -/
noncomputable def Size.run (l w : ℝ) (ops : List SizeOp) : Size ℝ := ops.foldl SizeOp.apply (Size.ofLW l w)

/-- Constructors of `Rect2D`; a `Size2D` argument comes from an arbitrary history of its own. -/
inductive RectCtor
  | ltlw (l t len wid : ℝ) | pointLW (p : Vec ℝ) (len wid : ℝ) | corners (p q : Vec ℝ)
  | pointSize (p : Vec ℝ) (l w : ℝ) (ops : List SizeOp)
  | fromCenter (x y l w : ℝ)

/-- Mutators of `Rect2D`. `sharedSize` is a mutation of the `Size2D` object passed to the constructor (or obtained from
the rectangle), which the rectangle shares with the caller. -/
inductive RectOp
  | moveCenter (p : Vec ℝ) | moveTopLeft (p : Vec ℝ) | moveBottomRight (p : Vec ℝ)
  | moveLeft (x : ℝ) | moveRight (x : ℝ) | moveTop (y : ℝ) | moveBottom (y : ℝ)
  | setTopLeft (x y : ℝ) | setBottomRight (x y : ℝ)
  | setLeft (x : ℝ) | setRight (x : ℝ) | setTop (y : ℝ) | setBottom (y : ℝ)
  | setLength (l : ℝ) | setWidth (w : ℝ) | setSize (l w : ℝ)
  | assign4 (l t len wid : ℝ) | assign3 (p : Vec ℝ) (len wid : ℝ) | assignCorners (p q : Vec ℝ)
  | assignPointSize (p : Vec ℝ) (l w : ℝ) (ops : List SizeOp) | assignRect (o : Rect ℝ)
  | intersected (o : Rect ℝ) | united (o : Rect ℝ) | sharedSize (op : SizeOp)

/-- The rectangle a constructor makes. -/
noncomputable def RectCtor.make : RectCtor → Rect ℝ
  | .ltlw l t len wid => Rect.ofLTLW l t len wid
  | .pointLW p len wid => Rect.ofPointLW p len wid
  | .corners p q => Rect.ofCorners p q
  | .pointSize p l w ops => Rect.ofPointSize p (Size.run l w ops)
  | .fromCenter x y l w => Rect.fromCenter4 x y l w

/-- Effect of a mutator. -/
noncomputable def RectOp.apply (r : Rect ℝ) : RectOp → Rect ℝ
  | .moveCenter p => r.moveCenter p
  | .moveTopLeft p => r.moveTopLeft p
  | .moveBottomRight p => r.moveBottomRight p
  | .moveLeft x => r.moveLeft x
  | .moveRight x => r.moveRight x
  | .moveTop y => r.moveTop y
  | .moveBottom y => r.moveBottom y
  | .setTopLeft x y => r.setTopLeft x y
  | .setBottomRight x y => r.setBottomRight x y
  | .setLeft x => r.setLeft x
  | .setRight x => r.setRight x
  | .setTop y => r.setTop y
  | .setBottom y => r.setBottom y
  | .setLength l => r.setLength l
  | .setWidth w => r.setWidth w
  | .setSize l w => r.setSize l w
  | .assign4 l t len wid => r.assign4 l t len wid
  | .assign3 p len wid => r.assign3 p len wid
  | .assignCorners p q => Rect.ofCorners p q
  | .assignPointSize p l w ops => Rect.ofPointSize p (Size.run l w ops)
  | .assignRect o => Rect.ofRect o
  | .intersected o => r.intersected o
  | .united o => r.united o
  | .sharedSize op => { r with size := op.apply r.size }

/-- A rectangle constructed and mutated arbitrarily. -/
noncomputable def Rect.run (c : RectCtor) (ops : List RectOp) : Rect ℝ := ops.foldl RectOp.apply c.make

theorem SizeOp.apply_nonneg (s : Size ℝ) (op : SizeOp) (h : 0 ≤ s.length ∧ 0 ≤ s.width) :
    0 ≤ (op.apply s).length ∧ 0 ≤ (op.apply s).width := by
  cases op <;> simp [SizeOp.apply, Size.setLength, Size.setWidth, fabs_real, h.1, h.2]

theorem Size.run_nonneg (l w : ℝ) (ops : List SizeOp) : 0 ≤ (Size.run l w ops).length ∧ 0 ≤ (Size.run l w ops).width := by
  unfold Size.run
  have h0 : 0 ≤ (Size.ofLW l w).length ∧ 0 ≤ (Size.ofLW l w).width := by simp
  generalize Size.ofLW l w = s at h0
  induction ops generalizing s with
  | nil => exact h0
  | cons op ops ih => exact ih _ (SizeOp.apply_nonneg s op h0)

theorem Rect.ofCorners_size (p q : Vec ℝ) : (Rect.ofCorners p q).size = ⟨0, 0⟩ := by
  unfold Rect.ofCorners
  simp only
  split <;> simp [Size.ext_iff]

theorem RectOp.apply_ok (r : Rect ℝ) (op : RectOp) (h : r.Ok) : (op.apply r).Ok := by
  obtain ⟨h1, h2⟩ := h
  cases op
  case assignCorners p q => simp [RectOp.apply, Rect.Ok, Rect.ofCorners_size]
  case assignPointSize p l w ops => exact Size.run_nonneg l w ops
  case sharedSize op => exact SizeOp.apply_nonneg _ op ⟨h1, h2⟩
  all_goals
    simp [RectOp.apply, Rect.Ok, Rect.moveCenter, Rect.moveTopLeft, Rect.moveBottomRight, Rect.moveLeft, Rect.moveRight,
      Rect.moveTop, Rect.moveBottom, Rect.setTopLeft, Rect.setBottomRight, Rect.setLeft, Rect.setRight, Rect.setTop,
      Rect.setBottom, Rect.setLength, Rect.setWidth, Rect.setSize, Rect.assign4, Rect.assign3, Rect.ofRect,
      Rect.intersected, Rect.united, Size.setLength, Size.setWidth, fabs_real, h1, h2]

/-- **C54.** -/
theorem C54_sizes (c : RectCtor) (ops : List RectOp) (l w : ℝ) (sops : List SizeOp) :
    (0 ≤ (Size.run l w sops).length ∧ 0 ≤ (Size.run l w sops).width) ∧
    0 ≤ (Rect.run c ops).size.length ∧ 0 ≤ (Rect.run c ops).size.width ∧
    (Rect.run c ops).left ≤ (Rect.run c ops).right ∧ (Rect.run c ops).top ≤ (Rect.run c ops).bottom := by
  have key : (Rect.run c ops).Ok := by
    unfold Rect.run
    have h0 : c.make.Ok := by
      cases c
      case corners p q => simp [RectCtor.make, Rect.Ok, Rect.ofCorners_size]
      case pointSize p l w ops => exact Size.run_nonneg l w ops
      all_goals simp [RectCtor.make, Rect.Ok, Rect.ofLTLW, Rect.ofPointLW, Rect.fromCenter4]
    generalize c.make = r at h0
    induction ops generalizing r with
    | nil => exact h0
    | cons op ops ih => exact ih _ (RectOp.apply_ok r op h0)
  refine ⟨Size.run_nonneg _ _ _, key.1, key.2, ?_, ?_⟩
  · simp only [Rect.right]; linarith [key.1]
  · simp only [Rect.bottom]; linarith [key.2]

/-- Non-vacuity of C54: negative inputs are made positive, and the history really changes the rectangle. -/
example : (Rect.run (.ltlw 0 0 (-2) (-3)) [.setLength (-5), .moveLeft 1]).right = 6 := by
  norm_num [Rect.run, RectCtor.make, RectOp.apply, Rect.ofLTLW, Rect.setLength, Rect.moveLeft, Rect.right, Rect.left,
    Size.setLength, fabs_real, Vec.setX, Vec.ofXY]

/-! ## C55 -/

/-- **C55.** -/
theorem C55_moves (r : Rect ℝ) (p : Vec ℝ) (x : ℝ) :
    ((r.moveCenter p).size = r.size ∧ (r.moveCenter p).center.pt = p.pt) ∧
    ((r.moveTopLeft p).size = r.size ∧ (r.moveTopLeft p).getTopLeft.pt = p.pt) ∧
    ((r.moveBottomRight p).size = r.size ∧ (r.moveBottomRight p).bottomRight.pt = p.pt) ∧
    ((r.moveLeft x).size = r.size ∧ (r.moveLeft x).left = x ∧ (r.moveLeft x).top = r.top ∧
      (r.moveLeft x).bottom = r.bottom) ∧
    ((r.moveRight x).size = r.size ∧ (r.moveRight x).right = x ∧ (r.moveRight x).top = r.top ∧
      (r.moveRight x).bottom = r.bottom) ∧
    ((r.moveTop x).size = r.size ∧ (r.moveTop x).top = x ∧ (r.moveTop x).left = r.left ∧
      (r.moveTop x).right = r.right) ∧
    ((r.moveBottom x).size = r.size ∧ (r.moveBottom x).bottom = x ∧ (r.moveBottom x).left = r.left ∧
      (r.moveBottom x).right = r.right) := by
  refine ⟨⟨rfl, ?_⟩, ⟨rfl, rfl⟩, ⟨rfl, ?_⟩, ⟨rfl, rfl, rfl, rfl⟩, ⟨rfl, ?_, rfl, rfl⟩, ⟨rfl, rfl, rfl, rfl⟩,
    ⟨rfl, ?_, rfl, rfl⟩⟩
  · refine Prod.ext ?_ ?_ <;>
    simp [Rect.moveCenter, Rect.center, Rect.left, Rect.right, Rect.top, Rect.bottom, Vec.assign] <;> ring
  · refine Prod.ext ?_ ?_ <;>
    simp [Rect.moveBottomRight, Rect.bottomRight, Rect.left, Rect.right, Rect.top, Rect.bottom, Vec.assign]
  · simp [Rect.moveRight, Rect.right, Rect.left, Vec.setX]
  · simp [Rect.moveBottom, Rect.bottom, Rect.top, Vec.setY]

/-- Non-vacuity of C55: the claims have no hypotheses; moving a 2×4 rectangle to center (5,5). -/
example : ((Rect.ofLTLW (0:ℝ) 0 2 4).moveCenter (Vec.ofXY 5 5)).left = 4 := by
  norm_num [Rect.ofLTLW, Rect.moveCenter, Rect.left, Vec.assign, Vec.ofXY]

/-! ## C56 -/

/-- **C56**, coordinates not beyond the opposite side. -/
theorem C56_set_side_partial (r : Rect ℝ) (x : ℝ) :
    (x ≤ r.right → (r.setLeft x).left = x ∧ (r.setLeft x).right = r.right ∧
      (r.setLeft x).top = r.top ∧ (r.setLeft x).bottom = r.bottom) ∧
    (r.left ≤ x → (r.setRight x).right = x ∧ (r.setRight x).left = r.left ∧
      (r.setRight x).top = r.top ∧ (r.setRight x).bottom = r.bottom) ∧
    (x ≤ r.bottom → (r.setTop x).top = x ∧ (r.setTop x).bottom = r.bottom ∧
      (r.setTop x).left = r.left ∧ (r.setTop x).right = r.right) ∧
    (r.top ≤ x → (r.setBottom x).bottom = x ∧ (r.setBottom x).top = r.top ∧
      (r.setBottom x).left = r.left ∧ (r.setBottom x).right = r.right) := by
  refine ⟨fun h => ?_, fun h => ?_, fun h => ?_, fun h => ?_⟩
  · simp only [Rect.setLeft, Rect.left, Rect.right, Rect.top, Rect.bottom, Size.setLength, fabs_real, pyMin_real,
      pyMax_real, Vec.setX] at h ⊢
    rw [min_eq_right h, max_eq_left h, abs_of_nonneg (by linarith)]
    refine ⟨?_, ?_, ?_, ?_⟩ <;> first | trivial | ring
  · simp only [Rect.setRight, Rect.left, Rect.right, Rect.top, Rect.bottom, Size.setLength, fabs_real, pyMin_real,
      pyMax_real, Vec.setX] at h ⊢
    rw [min_eq_left h, max_eq_right h, abs_of_nonneg (by linarith)]
    refine ⟨?_, ?_, ?_, ?_⟩ <;> first | trivial | ring
  · simp only [Rect.setTop, Rect.left, Rect.right, Rect.top, Rect.bottom, Size.setWidth, fabs_real, pyMin_real,
      pyMax_real, Vec.setY] at h ⊢
    rw [min_eq_right h, max_eq_left h, abs_of_nonneg (by linarith)]
    refine ⟨?_, ?_, ?_, ?_⟩ <;> first | trivial | ring
  · simp only [Rect.setBottom, Rect.left, Rect.right, Rect.top, Rect.bottom, Size.setWidth, fabs_real, pyMin_real,
      pyMax_real, Vec.setY] at h ⊢
    rw [min_eq_left h, max_eq_right h, abs_of_nonneg (by linarith)]
    refine ⟨?_, ?_, ?_, ?_⟩ <;> first | trivial | ring

/-- **C56**, coordinates beyond the opposite side: the two sides change roles. -/
theorem C56_beyond (r : Rect ℝ) (x : ℝ) :
    (r.right < x → (r.setLeft x).left = r.right ∧ (r.setLeft x).right = x) ∧
    (x < r.left → (r.setRight x).right = r.left ∧ (r.setRight x).left = x) ∧
    (r.bottom < x → (r.setTop x).top = r.bottom ∧ (r.setTop x).bottom = x) ∧
    (x < r.top → (r.setBottom x).bottom = r.top ∧ (r.setBottom x).top = x) := by
  refine ⟨fun h => ?_, fun h => ?_, fun h => ?_, fun h => ?_⟩
  · simp only [Rect.setLeft, Rect.left, Rect.right, Size.setLength, fabs_real, pyMin_real,
      pyMax_real, Vec.setX] at h ⊢
    rw [min_eq_left h.le, max_eq_right h.le, abs_of_nonneg (by linarith)]
    exact ⟨rfl, by ring⟩
  · simp only [Rect.setRight, Rect.left, Rect.right, Size.setLength, fabs_real, pyMin_real,
      pyMax_real, Vec.setX] at h ⊢
    rw [min_eq_right h.le, max_eq_left h.le, abs_of_nonneg (by linarith)]
    exact ⟨by ring, rfl⟩
  · simp only [Rect.setTop, Rect.top, Rect.bottom, Size.setWidth, fabs_real, pyMin_real,
      pyMax_real, Vec.setY] at h ⊢
    rw [min_eq_left h.le, max_eq_right h.le, abs_of_nonneg (by linarith)]
    exact ⟨rfl, by ring⟩
  · simp only [Rect.setBottom, Rect.top, Rect.bottom, Size.setWidth, fabs_real, pyMin_real,
      pyMax_real, Vec.setY] at h ⊢
    rw [min_eq_right h.le, max_eq_left h.le, abs_of_nonneg (by linarith)]
    exact ⟨by ring, rfl⟩

/-- **C56** is false beyond the opposite side: `set_left(5)` on [0,2]×[0,2] gives left 2 and right 5. -/
theorem C56_refuted : ∃ (r : Rect ℝ) (x : ℝ), r.Ok ∧ (r.setLeft x).left ≠ x ∧ (r.setLeft x).right ≠ r.right := by
  have hr : (Rect.ofLTLW (0:ℝ) 0 2 2).right = 2 := by norm_num [Rect.ofLTLW, Rect.right, Rect.left, Vec.ofXY]
  refine ⟨Rect.ofLTLW 0 0 2 2, 5, by norm_num [Rect.Ok, Rect.ofLTLW], ?_⟩
  obtain ⟨h1, h2⟩ := (C56_beyond (Rect.ofLTLW 0 0 2 2) 5).1 (by rw [hr]; norm_num)
  rw [h1, h2, hr]; norm_num

/-- Non-vacuity of C56. -/
example : ((Rect.ofLTLW (0:ℝ) 0 2 2).setLeft (-1)).left = -1 :=
  ((C56_set_side_partial _ _).1 (by norm_num [Rect.ofLTLW, Rect.right, Rect.left, Vec.ofXY])).1

/-! ## C57 -/

/-- **C57**, what `assign(left, top, length, width)` does: the length is the absolute value of `left`; the other three
values are as documented. -/
theorem C57_assign4_partial (r : Rect ℝ) (l t len wid : ℝ) :
    (r.assign4 l t len wid).left = l ∧ (r.assign4 l t len wid).top = t ∧ (r.assign4 l t len wid).size.width = |wid| ∧
    (r.assign4 l t len wid).size.length = |l| := by
  simp [Rect.assign4, Rect.left, Rect.top, Vec.assign]

/-- **C57**, what the corner setters do for arguments on the documented side: three of the four sides are right; the
fourth one is `left + |left|`. -/
theorem C57_set_corner_partial (r : Rect ℝ) (x y : ℝ) :
    (x ≤ r.right → y ≤ r.bottom → (r.setTopLeft x y).left = x ∧ (r.setTopLeft x y).top = y ∧
      (r.setTopLeft x y).bottom = r.bottom ∧ (r.setTopLeft x y).right = x + |x|) ∧
    (r.left ≤ x → r.top ≤ y → (r.setBottomRight x y).left = r.left ∧ (r.setBottomRight x y).top = r.top ∧
      (r.setBottomRight x y).bottom = y ∧ (r.setBottomRight x y).right = r.left + |r.left|) := by
  refine ⟨fun h1 h2 => ?_, fun h1 h2 => ?_⟩
  · simp only [Rect.setTopLeft, pyMin_real, pyMax_real, min_eq_right h1, min_eq_right h2, max_eq_left h1, max_eq_left h2]
    obtain ⟨a1, a2, a3, a4⟩ := C57_assign4_partial r x y (r.right - x) (r.bottom - y)
    refine ⟨a1, a2, ?_, ?_⟩
    · rw [Rect.bottom, a2, a3, abs_of_nonneg (by linarith)]; ring
    · rw [Rect.right, a1, a4]
  · simp only [Rect.setBottomRight, pyMin_real, pyMax_real, min_eq_left h1, min_eq_left h2, max_eq_right h1,
      max_eq_right h2]
    obtain ⟨a1, a2, a3, a4⟩ := C57_assign4_partial r r.left r.top (x - r.left) (y - r.top)
    refine ⟨a1, a2, ?_, ?_⟩
    · rw [Rect.bottom, a2, a3, abs_of_nonneg (by linarith)]; ring
    · rw [Rect.right, a1, a4]

/-- **C57** is false for `assign`: `assign(0, 0, 2, 4)` yields length 0. -/
theorem C57_refuted_assign (r : Rect ℝ) : (r.assign4 0 0 2 4).size.length = 0 := by
  rw [(C57_assign4_partial r 0 0 2 4).2.2.2, abs_zero]

/-- **C57** is false for `set_top_left`: on [0,10]×[0,10], `set_top_left(1, 1)` moves the right side from 10 to 2. -/
theorem C57_refuted_corner : ∃ (r : Rect ℝ) (x y : ℝ), r.Ok ∧ x ≤ r.right ∧ y ≤ r.bottom ∧
    (r.setTopLeft x y).right ≠ r.right := by
  have hr : (Rect.ofLTLW (0:ℝ) 0 10 10).right = 10 := by norm_num [Rect.ofLTLW, Rect.right, Rect.left, Vec.ofXY]
  have hb : (Rect.ofLTLW (0:ℝ) 0 10 10).bottom = 10 := by norm_num [Rect.ofLTLW, Rect.bottom, Rect.top, Vec.ofXY]
  refine ⟨Rect.ofLTLW 0 0 10 10, 1, 1, by norm_num [Rect.Ok, Rect.ofLTLW], by rw [hr]; norm_num, by rw [hb]; norm_num, ?_⟩
  rw [((C57_set_corner_partial _ 1 1).1 (by rw [hr]; norm_num) (by rw [hb]; norm_num)).2.2.2, hr]
  norm_num

/-- Non-vacuity of C57: an argument on the documented side. -/
example : (1:ℝ) ≤ (Rect.ofLTLW (0:ℝ) 0 10 10).right := by
  norm_num [Rect.ofLTLW, Rect.right, Rect.left, Vec.ofXY]

/-! ## C58 -/

/-- **C58**, exactly what a rectangle built from two corners is: the single point (0, 0), or the single point
`(min x, q.y)` when `q.y < p.y`. -/
theorem C58_two_corners (p q : Vec ℝ) : (Rect.ofCorners p q).pts =
    {if q.y < p.y then (min p.x q.x, q.y) else (0, 0)} := by
  have hs := Rect.ofCorners_size p q
  have hpt : (Rect.ofCorners p q).topLeft.pt = if q.y < p.y then (min p.x q.x, q.y) else (0, 0) := by
    unfold Rect.ofCorners
    simp only [Nat.cast_zero, sub_neg]
    split
    · split
      · simp only [Vec.setX, Vec.setY, Vec.pt, Vec.ofVec]
        rw [min_eq_right (le_of_lt ‹_›)]
      · simp only [Vec.setY, Vec.pt, Vec.ofVec]
        rw [min_eq_left (not_lt.mp ‹_›)]
    · simp [Vec.zero, Vec.pt]
  rw [← hpt]
  ext z
  rw [Rect.mem_pts, Rect.right, Rect.bottom, hs, Rect.left, Rect.top, Set.mem_singleton_iff]
  simp only [add_zero]
  constructor
  · rintro ⟨h1, h2, h3, h4⟩
    exact Prod.ext (le_antisymm h2 h1) (le_antisymm h4 h3)
  · rintro rfl; exact ⟨le_rfl, le_rfl, le_rfl, le_rfl⟩

/-- **C58** is false except when both points are the origin. -/
theorem C58_refuted_iff (p q : Vec ℝ) : (p.pt ∈ (Rect.ofCorners p q).pts ∧ q.pt ∈ (Rect.ofCorners p q).pts) ↔
    p.pt = (0, 0) ∧ q.pt = (0, 0) := by
  rw [C58_two_corners, Set.mem_singleton_iff, Set.mem_singleton_iff]
  split
  · rename_i h
    constructor
    · rintro ⟨h1, _⟩
      have : p.y = q.y := congrArg Prod.snd h1
      linarith
    · rintro ⟨h1, h2⟩
      have e1 : p.y = 0 := congrArg Prod.snd h1
      have e2 : q.y = 0 := congrArg Prod.snd h2
      linarith
  · rfl

/-- A concrete instance: the corners (0,0) and (4,3). -/
example : (Vec.ofXY (4:ℝ) 3).pt ∉ (Rect.ofCorners (Vec.ofXY 0 0) (Vec.ofXY 4 3)).pts := by
  rw [C58_two_corners]; norm_num

/-! ## C59 -/

/-- **C59**, everything except `contains_almost`. -/
theorem C59_contains_partial (r : Rect ℝ) (hr : r.Ok) (p : Vec ℝ) :
    (r.contains p = true ↔ p.pt ∈ r.pts) ∧
    r.contains r.getTopLeft = true ∧ r.contains r.topRight = true ∧ r.contains r.bottomLeft = true ∧
    r.contains r.bottomRight = true ∧ r.contains r.center = true ∧
    Convex ℝ {z : Pt | r.contains (Vec.ofXY z.1 z.2) = true} ∧ r.area = (r.right - r.left) * (r.bottom - r.top) := by
  have hc : ∀ p : Vec ℝ, r.contains p = true ↔ p.pt ∈ r.pts := by
    intro p
    simp only [Rect.contains, Bool.and_eq_true, decide_eq_true_eq, and_assoc]
    rfl
  obtain ⟨h1, h2⟩ := hr
  have hl : r.left ≤ r.right := by simp only [Rect.right]; linarith
  have ht : r.top ≤ r.bottom := by simp only [Rect.bottom]; linarith
  refine ⟨hc p, ?_, ?_, ?_, ?_, ?_, ?_, ?_⟩
  · rw [hc]; exact ⟨le_rfl, hl, le_rfl, ht⟩
  · rw [hc]; exact ⟨hl, le_rfl, le_rfl, ht⟩
  · rw [hc]; exact ⟨le_rfl, hl, ht, le_rfl⟩
  · rw [hc]; exact ⟨hl, le_rfl, ht, le_rfl⟩
  · rw [hc, Rect.mem_pts]
    simp only [Rect.center, Vec.pt_ofXY, Nat.cast_one, Nat.cast_ofNat]
    refine ⟨?_, ?_, ?_, ?_⟩ <;> linarith
  · intro z hz w hw a b ha hb hab
    simp only [Set.mem_ofPred_eq, hc, Rect.mem_pts, Vec.pt_ofXY, Prod.fst_add, Prod.snd_add, Prod.smul_fst,
      Prod.smul_snd, smul_eq_mul] at hz hw ⊢
    obtain ⟨z1, z2, z3, z4⟩ := hz
    obtain ⟨w1, w2, w3, w4⟩ := hw
    have hb' : b = 1 - a := by linarith
    have ha1 : 0 ≤ 1 - a := by linarith
    rw [hb']
    refine ⟨?_, ?_, ?_, ?_⟩ <;> nlinarith
  · simp only [Rect.area, Rect.right, Rect.bottom]; ring

/-- **C59** is false for `contains_almost`, which raises `TypeError` for all arguments. -/
theorem C59_refuted_almost (r : Rect ℝ) (p : Vec ℝ) (thr : ℝ) : r.containsAlmost p thr = .error .typeError := rfl

/-- Non-vacuity of C59. -/
example : (Rect.ofLTLW (0:ℝ) 0 2 4).Ok ∧ (Rect.ofLTLW (0:ℝ) 0 2 4).contains (Vec.ofXY 1 3) = true ∧
    (Rect.ofLTLW (0:ℝ) 0 2 4).contains (Vec.ofXY 3 1) = false := by
  refine ⟨by norm_num [Rect.Ok, Rect.ofLTLW], ?_, ?_⟩
  · norm_num [Rect.contains, Rect.ofLTLW, Rect.left, Rect.right, Rect.top, Rect.bottom, Vec.ofXY]
  · norm_num [Rect.contains, Rect.ofLTLW, Rect.left, Rect.right, Rect.top, Rect.bottom, Vec.ofXY]

/-! ## C60 -/

theorem Rect.intersected_pts (r o : Rect ℝ) (ho : o.isValid = true) : (r.intersected o).pts =
    box (max r.left o.left) (max r.left o.left + |min r.right o.right - max r.left o.left|)
      (max r.top o.top) (max r.top o.top + |min r.bottom o.bottom - max r.top o.top|) := by
  unfold Rect.pts Rect.intersected
  simp only [ho, Bool.not_true, Bool.false_eq_true, if_false, pyMin_real, pyMax_real, Rect.left, Rect.right, Rect.top,
    Rect.bottom, Vec.assign, Size.ofLW_length, Size.ofLW_width]

/-- **C60**, overlapping (or touching) rectangles, the argument having positive sizes. -/
theorem C60_intersected_partial (r o : Rect ℝ) (ho : o.isValid = true)
    (h1 : max r.left o.left ≤ min r.right o.right) (h2 : max r.top o.top ≤ min r.bottom o.bottom) :
    (r.intersected o).pts = r.pts ∩ o.pts := by
  rw [Rect.intersected_pts r o ho, abs_of_nonneg (by linarith), abs_of_nonneg (by linarith)]
  ext z
  simp only [Set.mem_inter_iff, Rect.mem_pts, box, Set.mem_ofPred_eq, add_sub_cancel, max_le_iff, le_min_iff]
  tauto

/-- **C60**, the guard is exact: for rectangles that do not overlap the result is never the (empty) intersection. -/
theorem C60_guard_exact (r o : Rect ℝ) (ho : o.isValid = true)
    (h : ¬ (max r.left o.left ≤ min r.right o.right ∧ max r.top o.top ≤ min r.bottom o.bottom)) :
    r.pts ∩ o.pts = ∅ ∧ (r.intersected o).pts ≠ ∅ := by
  constructor
  · ext z
    simp only [Set.mem_inter_iff, Rect.mem_pts, Set.mem_empty_iff_false, iff_false]
    rintro ⟨⟨a1, a2, a3, a4⟩, b1, b2, b3, b4⟩
    exact h ⟨max_le (le_min (a1.trans a2) (a1.trans b2)) (le_min (b1.trans a2) (b1.trans b2)),
      max_le (le_min (a3.trans a4) (a3.trans b4)) (le_min (b3.trans a4) (b3.trans b4))⟩
  · rw [Rect.intersected_pts r o ho]
    apply Set.Nonempty.ne_empty
    exact ⟨(max r.left o.left, max r.top o.top), le_rfl, by simp, le_rfl, by simp⟩

/-- **C60** is false for disjoint rectangles: [0,1]² and [2,3]×[0,1] give [2,3]×[0,1]. -/
theorem C60_refuted : ∃ r o : Rect ℝ, r.isValid = true ∧ o.isValid = true ∧ r.pts ∩ o.pts = ∅ ∧
    (r.intersected o).pts ≠ ∅ := by
  have v : ∀ x : ℝ, (Rect.ofLTLW x 0 1 1).isValid = true := by
    intro x; simp [Rect.isValid, Size.isValid, Rect.ofLTLW]
  refine ⟨Rect.ofLTLW 0 0 1 1, Rect.ofLTLW 2 0 1 1, v 0, v 2, ?_⟩
  apply C60_guard_exact _ _ (v 2)
  norm_num [Rect.ofLTLW, Rect.left, Rect.right, Rect.top, Rect.bottom, Vec.ofXY]

/-- **C60**, argument with a zero extent: the receiver is forgotten, the result spans the origin and the argument's
sides. The intersection with such an argument (a segment or point of the receiver) is returned only by coincidence. -/
theorem C60_empty (r o : Rect ℝ) (ho : o.isValid = false) : (r.intersected o).pts =
    box (max 0 o.left) (max 0 o.left + |min 0 o.right - max 0 o.left|)
      (max 0 o.top) (max 0 o.top + |min 0 o.bottom - max 0 o.top|) := by
  unfold Rect.pts Rect.intersected
  simp only [ho, Bool.not_false, if_true, pyMin_real, pyMax_real, Rect.left, Rect.right, Rect.top,
    Rect.bottom, Vec.assign, Size.ofLW_length, Size.ofLW_width, num_real, Nat.cast_zero, abs_zero, add_zero]

/-- **C60** is false for an argument with a zero extent: [4,6]² with the point (5,5) gives [5,10]². -/
theorem C60_empty_refuted : (Rect.ofLTLW (4:ℝ) 4 2 2).pts ∩ (Rect.ofLTLW (5:ℝ) 5 0 0).pts = {((5, 5) : Pt)} ∧
    ((Rect.ofLTLW (4:ℝ) 4 2 2).intersected (Rect.ofLTLW (5:ℝ) 5 0 0)).pts = box 5 10 5 10 := by
  constructor
  · ext ⟨x, y⟩
    simp only [Set.mem_inter_iff, Rect.mem_pts, Set.mem_singleton_iff, Prod.mk.injEq]
    norm_num [Rect.ofLTLW, Rect.left, Rect.right, Rect.top, Rect.bottom, Vec.ofXY]
    constructor
    · rintro ⟨-, h1, h2, h3, h4⟩
      exact ⟨le_antisymm h2 h1, le_antisymm h4 h3⟩
    · rintro ⟨rfl, rfl⟩
      norm_num
  · rw [C60_empty _ _ (by simp [Rect.isValid, Size.isValid, Rect.ofLTLW])]
    norm_num [Rect.ofLTLW, Rect.left, Rect.right, Rect.top, Rect.bottom, Vec.ofXY]

/-- Non-vacuity of C60: [0,2]² and [1,3]×[1,3]. -/
example : let r := Rect.ofLTLW (0:ℝ) 0 2 2; let o := Rect.ofLTLW (1:ℝ) 1 2 2; o.isValid = true ∧
    max r.left o.left ≤ min r.right o.right ∧ max r.top o.top ≤ min r.bottom o.bottom := by
  norm_num [Rect.isValid, Size.isValid, Rect.ofLTLW, Rect.left, Rect.right, Rect.top, Rect.bottom, Vec.ofXY]

/-! ## C61 -/

/-- **C61** is false for all rectangles: `r.united(o)` never contains both, for `o` of positive size. -/
theorem C61_refuted_always (r o : Rect ℝ) (hr : r.Ok) (ho : o.isValid = true) :
    ¬ (r.pts ⊆ (r.united o).pts ∧ o.pts ⊆ (r.united o).pts) := by
  have hpts : (r.united o).pts =
      box (max r.left o.left) (max r.left o.left + |min r.left o.right - max r.left o.left|)
      (max r.top o.top) (max r.top o.top + |min r.top o.bottom - max r.top o.top|) := by
    unfold Rect.pts Rect.united
    simp only [ho, Bool.not_true, Bool.false_eq_true, if_false, pyMin_real, pyMax_real, Rect.left, Rect.right, Rect.top,
      Rect.bottom, Vec.assign, Size.ofLW_length, Size.ofLW_width, Nat.cast_zero, abs_zero, add_zero]
  rw [hpts]
  rintro ⟨h1, h2⟩
  simp only [Rect.isValid, Size.isValid, Bool.and_eq_true, decide_eq_true_eq, Nat.cast_zero] at ho
  have rr : r.left ≤ r.right := by simp only [Rect.right]; linarith [hr.1]
  have rb : r.top ≤ r.bottom := by simp only [Rect.bottom]; linarith [hr.2]
  have or' : o.left < o.right := by simp only [Rect.right]; linarith [ho.1]
  have ob : o.top < o.bottom := by simp only [Rect.bottom]; linarith [ho.2]
  have a1 := (h1 (show ((r.left, r.top) : Pt) ∈ r.pts from ⟨le_rfl, rr, le_rfl, rb⟩)).1
  have b1 := (h2 (show ((o.left, o.top) : Pt) ∈ o.pts from ⟨le_rfl, or'.le, le_rfl, ob.le⟩)).1
  have b2 := (h2 (show ((o.right, o.top) : Pt) ∈ o.pts from ⟨or'.le, le_rfl, le_rfl, ob.le⟩)).2.1
  simp only at a1 b1 b2
  have e : r.left = o.left := le_antisymm ((le_max_left _ _).trans b1) ((le_max_right _ _).trans a1)
  rw [e, max_self, min_eq_left or'.le, sub_self, abs_zero, add_zero] at b2
  linarith

/-- **C61**, the result in full: `united` computes the (mirrored) intersection with a point, the receiver's top left
corner or, if the argument has a zero extent, the origin. -/
theorem C61_result (r o : Rect ℝ) :
    let p : Pt := if o.isValid then (r.left, r.top) else (0, 0)
    (r.united o).pts = box (max p.1 o.left) (max p.1 o.left + |min p.1 o.right - max p.1 o.left|)
      (max p.2 o.top) (max p.2 o.top + |min p.2 o.bottom - max p.2 o.top|) := by
  unfold Rect.pts Rect.united
  cases ho : o.isValid <;>
    simp only [Bool.not_true, Bool.not_false, Bool.false_eq_true, if_false, if_true, pyMin_real, pyMax_real, Rect.left,
      Rect.right, Rect.top, Rect.bottom, Vec.assign, Size.ofLW_length, Size.ofLW_width, num_real, Nat.cast_zero,
      abs_zero, add_zero]

/-- A concrete instance of C61: [0,1]² united with [5,6]×[0,1] does not contain (0,0). -/
example : (Rect.ofLTLW (0:ℝ) 0 1 1).Ok ∧ (Rect.ofLTLW (5:ℝ) 0 1 1).isValid = true := by
  simp [Rect.isValid, Size.isValid, Rect.ofLTLW, Rect.Ok]

/-! ## C62 -/

/-- The boundary of the box. -/
def Spec.boxBoundary (l r t b : ℝ) : Set Pt :=
  {z | z ∈ box l r t b ∧ (z.1 = l ∨ z.1 = r ∨ z.2 = t ∨ z.2 = b)}

/-- The boundary of a rectangle. -/
def Rect.boundary (r : Rect ℝ) : Set Pt := boxBoundary r.left r.right r.top r.bottom

/-- Value of the line equation. -/
def Line.val (l : Line ℝ) (x y : ℝ) : ℝ := l.a * x + l.b * y + l.c

theorem Rect.leftEdge_inter (r : Rect ℝ) (l : Line ℝ) : r.leftEdge.intersection l =
    if |-(r.size.width) * l.b| < EPSILON then Vec.invalid
    else Vec.ofXY r.left (-(l.a * r.left + l.c) / l.b) := by
  have e0 := EPSILON_pos
  rw [Line.intersection_real]
  have h : r.leftEdge.a * l.b - r.leftEdge.b * l.a = -(r.size.width) * l.b := by
    simp [Rect.leftEdge, Line.ofPoints, Rect.getTopLeft, Rect.bottomLeft, Rect.left, Rect.bottom, Rect.top]
  rw [h]
  split
  · rfl
  · have hne : -(r.size.width) * l.b ≠ 0 := by
      intro h0; rename_i hc; apply hc; rw [h0, abs_zero]; exact e0
    have hw : r.size.width ≠ 0 := by intro h0; apply hne; rw [h0]; ring
    have hb : l.b ≠ 0 := by intro h0; apply hne; rw [h0]; ring
    congr 1
    · simp [Rect.leftEdge, Line.ofPoints, Rect.getTopLeft, Rect.bottomLeft, Rect.left, Rect.bottom, Rect.top]
      field_simp
    · simp [Rect.leftEdge, Line.ofPoints, Rect.getTopLeft, Rect.bottomLeft, Rect.left, Rect.bottom, Rect.top]
      field_simp; ring

theorem Rect.rightEdge_inter (r : Rect ℝ) (l : Line ℝ) : r.rightEdge.intersection l =
    if |-(r.size.width) * l.b| < EPSILON then Vec.invalid
    else Vec.ofXY r.right (-(l.a * r.right + l.c) / l.b) := by
  have e0 := EPSILON_pos
  rw [Line.intersection_real]
  have h : r.rightEdge.a * l.b - r.rightEdge.b * l.a = -(r.size.width) * l.b := by
    simp [Rect.rightEdge, Line.ofPoints, Rect.topRight, Rect.bottomRight, Rect.bottom, Rect.top]
  rw [h]
  split
  · rfl
  · have hne : -(r.size.width) * l.b ≠ 0 := by
      intro h0; rename_i hc; apply hc; rw [h0, abs_zero]; exact e0
    have hw : r.size.width ≠ 0 := by intro h0; apply hne; rw [h0]; ring
    have hb : l.b ≠ 0 := by intro h0; apply hne; rw [h0]; ring
    congr 1
    · simp [Rect.rightEdge, Line.ofPoints, Rect.topRight, Rect.bottomRight, Rect.bottom, Rect.top]
      field_simp
    · simp [Rect.rightEdge, Line.ofPoints, Rect.topRight, Rect.bottomRight, Rect.bottom, Rect.top]
      field_simp; ring

theorem Rect.topEdge_inter (r : Rect ℝ) (l : Line ℝ) : r.topEdge.intersection l =
    if |-(r.size.length * l.a)| < EPSILON then Vec.invalid
    else Vec.ofXY (-(l.b * r.top + l.c) / l.a) r.top := by
  have e0 := EPSILON_pos
  rw [Line.intersection_real]
  have h : r.topEdge.a * l.b - r.topEdge.b * l.a = -(r.size.length * l.a) := by
    simp [Rect.topEdge, Line.ofPoints, Rect.getTopLeft, Rect.topRight, Rect.left, Rect.right, Rect.top]
  rw [h]
  split
  · rfl
  · have hne : -(r.size.length * l.a) ≠ 0 := by
      intro h0; rename_i hc; apply hc; rw [h0, abs_zero]; exact e0
    have hw : r.size.length ≠ 0 := by intro h0; apply hne; rw [h0]; ring
    have hb : l.a ≠ 0 := by intro h0; apply hne; rw [h0]; ring
    congr 1
    · simp [Rect.topEdge, Line.ofPoints, Rect.getTopLeft, Rect.topRight, Rect.left, Rect.right, Rect.top]
      field_simp; ring
    · simp [Rect.topEdge, Line.ofPoints, Rect.getTopLeft, Rect.topRight, Rect.left, Rect.right, Rect.top]
      field_simp

theorem Rect.bottomEdge_inter (r : Rect ℝ) (l : Line ℝ) : r.bottomEdge.intersection l =
    if |-(r.size.length * l.a)| < EPSILON then Vec.invalid
    else Vec.ofXY (-(l.b * r.bottom + l.c) / l.a) r.bottom := by
  have e0 := EPSILON_pos
  rw [Line.intersection_real]
  have h : r.bottomEdge.a * l.b - r.bottomEdge.b * l.a = -(r.size.length * l.a) := by
    simp [Rect.bottomEdge, Line.ofPoints, Rect.bottomLeft, Rect.bottomRight, Rect.left, Rect.right]
  rw [h]
  split
  · rfl
  · have hne : -(r.size.length * l.a) ≠ 0 := by
      intro h0; rename_i hc; apply hc; rw [h0, abs_zero]; exact e0
    have hw : r.size.length ≠ 0 := by intro h0; apply hne; rw [h0]; ring
    have hb : l.a ≠ 0 := by intro h0; apply hne; rw [h0]; ring
    congr 1
    · simp [Rect.bottomEdge, Line.ofPoints, Rect.bottomLeft, Rect.bottomRight, Rect.left, Rect.right]
      field_simp; ring
    · simp [Rect.bottomEdge, Line.ofPoints, Rect.bottomLeft, Rect.bottomRight, Rect.left, Rect.right]
      field_simp

/-- The four candidate hits in the order of the code. -/
noncomputable def Rect.cand (r : Rect ℝ) (l : Line ℝ) : Fin 4 → Vec ℝ
  | 0 => r.leftEdge.intersection l
  | 1 => r.rightEdge.intersection l
  | 2 => r.topEdge.intersection l
  | 3 => r.bottomEdge.intersection l

/-- The candidate is accepted. -/
noncomputable def Rect.hit (r : Rect ℝ) (l : Line ℝ) (i : Fin 4) : Bool :=
  (r.cand l i).valid && (if i.val < 2 then decide (r.top ≤ (r.cand l i).y) && decide ((r.cand l i).y ≤ r.bottom)
    else decide (r.left ≤ (r.cand l i).x) && decide ((r.cand l i).x ≤ r.right))

/-- Removing a second point in the EPSILON box of the first. -/
noncomputable def Rect.dedup : List (Vec ℝ) → List (Vec ℝ)
  | [p, q] => if |p.x - q.x| < EPSILON ∧ |p.y - q.y| < EPSILON then [p] else [p, q]
  | L => L

theorem Rect.dedup_eq (acc : List (Vec ℝ)) : Rect.dropNear acc = Rect.dedup acc := by
  match acc with
  | [] => rfl
  | [_] => rfl
  | [p, q] => simp only [Rect.dropNear, Rect.dedup, fabs_real]
  | _ :: _ :: _ :: _ => rfl

theorem Rect.intersectionLine_real (r : Rect ℝ) (l : Line ℝ) : r.intersectionLine l =
    Rect.dedup (Rect.interStep (Rect.interStep (Rect.interStep (Rect.interStep [] (r.cand l 0) (r.hit l 0))
      (r.cand l 1) (r.hit l 1)) (r.cand l 2) (r.hit l 2)) (r.cand l 3) (r.hit l 3)) := by
  have step : ∀ (acc : List (Vec ℝ)) (v : Vec ℝ) (b : Bool),
      Rect.interStep acc v (v.valid && b) = Rect.interStep acc v b := by
    intro acc v b; simp only [Rect.interStep]; cases v.valid <;> simp
  have h0 : r.hit l 0 = ((r.cand l 0).valid && (decide (r.top ≤ (r.cand l 0).y) && decide ((r.cand l 0).y ≤ r.bottom))) := by
    unfold Rect.hit; rw [if_pos (by decide)]
  have h1 : r.hit l 1 = ((r.cand l 1).valid && (decide (r.top ≤ (r.cand l 1).y) && decide ((r.cand l 1).y ≤ r.bottom))) := by
    unfold Rect.hit; rw [if_pos (by decide)]
  have h2 : r.hit l 2 = ((r.cand l 2).valid && (decide (r.left ≤ (r.cand l 2).x) && decide ((r.cand l 2).x ≤ r.right))) := by
    unfold Rect.hit; rw [if_neg (by decide)]
  have h3 : r.hit l 3 = ((r.cand l 3).valid && (decide (r.left ≤ (r.cand l 3).x) && decide ((r.cand l 3).x ≤ r.right))) := by
    unfold Rect.hit; rw [if_neg (by decide)]
  rw [h0, h1, h2, h3, step, step, step, step]
  unfold Rect.intersectionLine
  simp only [Rect.cand]
  exact Rect.dedup_eq _

/-- An accepted candidate is on the line and on the boundary. -/
theorem Rect.hit_sound (r : Rect ℝ) (hr : r.Ok) (l : Line ℝ) (i : Fin 4) (h : r.hit l i = true) :
    (r.cand l i).valid = true ∧ (r.cand l i).pt ∈ l.pts ∩ r.boundary := by
  have hl : r.left ≤ r.right := by simp only [Rect.right]; linarith [hr.1]
  have ht : r.top ≤ r.bottom := by simp only [Rect.bottom]; linarith [hr.2]
  have e0 := EPSILON_pos
  unfold Rect.hit at h
  rw [Bool.and_eq_true] at h
  refine ⟨h.1, ?_⟩
  fin_cases i
  · simp only [Rect.cand, Rect.leftEdge_inter] at h ⊢
    by_cases hc : |-(r.size.width) * l.b| < EPSILON
    · rw [if_pos hc] at h; exact absurd h.1 (by simp)
    · simp only [if_neg hc] at h ⊢
      have hb : l.b ≠ 0 := by intro h0; apply hc; rw [h0, mul_zero, abs_zero]; exact e0
      replace h := h.2
      rw [if_pos (by decide), Bool.and_eq_true, decide_eq_true_eq, decide_eq_true_eq] at h
      refine ⟨?_, ⟨le_rfl, hl, h.1, h.2⟩, Or.inl rfl⟩
      rw [Line.mem_pts]; simp only [Vec.pt_ofXY]; field_simp; ring
  · simp only [Rect.cand, Rect.rightEdge_inter] at h ⊢
    by_cases hc : |-(r.size.width) * l.b| < EPSILON
    · rw [if_pos hc] at h; exact absurd h.1 (by simp)
    · simp only [if_neg hc] at h ⊢
      have hb : l.b ≠ 0 := by intro h0; apply hc; rw [h0, mul_zero, abs_zero]; exact e0
      replace h := h.2
      rw [if_pos (by decide), Bool.and_eq_true, decide_eq_true_eq, decide_eq_true_eq] at h
      refine ⟨?_, ⟨hl, le_rfl, h.1, h.2⟩, Or.inr (Or.inl rfl)⟩
      rw [Line.mem_pts]; simp only [Vec.pt_ofXY]; field_simp; ring
  · simp only [Rect.cand, Rect.topEdge_inter] at h ⊢
    by_cases hc : |-(r.size.length * l.a)| < EPSILON
    · rw [if_pos hc] at h; exact absurd h.1 (by simp)
    · simp only [if_neg hc] at h ⊢
      have hb : l.a ≠ 0 := by intro h0; apply hc; rw [h0, mul_zero, neg_zero, abs_zero]; exact e0
      replace h := h.2
      rw [if_neg (by decide), Bool.and_eq_true, decide_eq_true_eq, decide_eq_true_eq] at h
      refine ⟨?_, ⟨h.1, h.2, le_rfl, ht⟩, Or.inr (Or.inr (Or.inl rfl))⟩
      rw [Line.mem_pts]; simp only [Vec.pt_ofXY]; field_simp; ring
  · simp only [Rect.cand, Rect.bottomEdge_inter] at h ⊢
    by_cases hc : |-(r.size.length * l.a)| < EPSILON
    · rw [if_pos hc] at h; exact absurd h.1 (by simp)
    · simp only [if_neg hc] at h ⊢
      have hb : l.a ≠ 0 := by intro h0; apply hc; rw [h0, mul_zero, neg_zero, abs_zero]; exact e0
      replace h := h.2
      rw [if_neg (by decide), Bool.and_eq_true, decide_eq_true_eq, decide_eq_true_eq] at h
      refine ⟨?_, ⟨h.1, h.2, ht, le_rfl⟩, Or.inr (Or.inr (Or.inr rfl))⟩
      rw [Line.mem_pts]; simp only [Vec.pt_ofXY]; field_simp; ring

theorem Rect.interStep_len (acc : List (Vec ℝ)) (v : Vec ℝ) (b : Bool) (h : acc.length ≤ 2) :
    (Rect.interStep acc v b).length ≤ 2 := by
  unfold Rect.interStep
  split
  · rename_i hc
    simp only [Bool.and_eq_true, decide_eq_true_eq] at hc
    rw [List.length_append, List.length_singleton]; omega
  · exact h

theorem Rect.mem_interStep {acc : List (Vec ℝ)} {v w : Vec ℝ} {b : Bool} (h : w ∈ Rect.interStep acc v b) :
    w ∈ acc ∨ (w = v ∧ b = true) := by
  unfold Rect.interStep at h
  split at h
  · rename_i hc
    simp only [Bool.and_eq_true, decide_eq_true_eq] at hc
    rcases List.mem_append.mp h with h | h
    · exact Or.inl h
    · exact Or.inr ⟨List.mem_singleton.mp h, hc.2⟩
  · exact Or.inl h

theorem Rect.dedup_subset {L : List (Vec ℝ)} {w : Vec ℝ} (h : w ∈ Rect.dedup L) : w ∈ L := by
  unfold Rect.dedup at h
  split at h
  · split at h
    · simp at h; simp [h]
    · exact h
  · exact h

theorem Rect.dedup_len {L : List (Vec ℝ)} : (Rect.dedup L).length ≤ L.length := by
  unfold Rect.dedup
  split
  · split <;> simp
  · exact le_rfl

/-- **C62**, soundness for all rectangles and lines: at most two points, each on the line and on the boundary. -/
theorem C62_sound_partial (r : Rect ℝ) (hr : r.Ok) (l : Line ℝ) : (r.intersectionLine l).length ≤ 2 ∧
    ∀ v ∈ r.intersectionLine l, v.valid = true ∧ v.pt ∈ l.pts ∧ v.pt ∈ r.boundary := by
  rw [Rect.intersectionLine_real]
  constructor
  · refine Rect.dedup_len.trans ?_
    exact Rect.interStep_len _ _ _ (Rect.interStep_len _ _ _ (Rect.interStep_len _ _ _ (Rect.interStep_len _ _ _ (by simp))))
  · intro v hv
    have hv := Rect.dedup_subset hv
    have key : ∃ i, v = r.cand l i ∧ r.hit l i = true := by
      rcases Rect.mem_interStep hv with hv | ⟨h, h'⟩
      · rcases Rect.mem_interStep hv with hv | ⟨h, h'⟩
        · rcases Rect.mem_interStep hv with hv | ⟨h, h'⟩
          · rcases Rect.mem_interStep hv with hv | ⟨h, h'⟩
            · exact absurd hv (by simp)
            · exact ⟨0, h, h'⟩
          · exact ⟨1, h, h'⟩
        · exact ⟨2, h, h'⟩
      · exact ⟨3, h, h'⟩
    obtain ⟨i, rfl, hi⟩ := key
    obtain ⟨h1, h2, h3⟩ := Rect.hit_sound r hr l i hi
    exact ⟨h1, h2, h3⟩

/-- A line missing all corners hits an edge exactly when the end points of the edge are on different sides. -/
theorem hit_iff {b c t u : ℝ} (hb : b ≠ 0) (htu : t ≤ u) :
    (t ≤ -c / b ∧ -c / b ≤ u) ↔ (b * t + c) * (b * u + c) ≤ 0 := by
  have h : (b * t + c) * (b * u + c) = b ^ 2 * ((t - -c / b) * (u - -c / b)) := by field_simp; ring
  have hb2 : 0 < b ^ 2 := by positivity
  rw [h]
  constructor
  · rintro ⟨h1, h2⟩
    apply mul_nonpos_of_nonneg_of_nonpos hb2.le
    exact mul_nonpos_of_nonpos_of_nonneg (by linarith) (by linarith)
  · intro h
    have h3 : (t - -c / b) * (u - -c / b) ≤ 0 := by
      by_contra hc; push Not at hc
      have := mul_pos hb2 hc
      linarith
    constructor
    · by_contra hc; push Not at hc
      have := mul_pos (show 0 < t - -c / b by linarith) (show 0 < u - -c / b by linarith)
      linarith
    · by_contra hc; push Not at hc
      have := mul_pos_of_neg_of_neg (show t - -c / b < 0 by linarith) (show u - -c / b < 0 by linarith)
      linarith

/-- The values of the line equation at the end points of edge `i`. -/
noncomputable def Rect.ends (r : Rect ℝ) (l : Line ℝ) : Fin 4 → ℝ × ℝ
  | 0 => (l.val r.left r.top, l.val r.left r.bottom)
  | 1 => (l.val r.right r.top, l.val r.right r.bottom)
  | 2 => (l.val r.left r.top, l.val r.right r.top)
  | 3 => (l.val r.left r.bottom, l.val r.right r.bottom)

/-- The tolerance guard: coefficients are zero or large enough for the parallelism tests. -/
def Rect.Tol (r : Rect ℝ) (l : Line ℝ) : Prop :=
  (l.b = 0 ∨ EPSILON ≤ r.size.width * |l.b|) ∧ (l.a = 0 ∨ EPSILON ≤ r.size.length * |l.a|)

theorem Rect.hit_ends (r : Rect ℝ) (hr : r.Ok) (l : Line ℝ) (hg : r.Tol l) (i : Fin 4)
    (hne : (r.ends l i).1 * (r.ends l i).2 ≠ 0) :
    r.hit l i = true ↔ (r.ends l i).1 * (r.ends l i).2 < 0 := by
  have hl : r.left ≤ r.right := by simp only [Rect.right]; linarith [hr.1]
  have ht : r.top ≤ r.bottom := by simp only [Rect.bottom]; linarith [hr.2]
  have e0 := EPSILON_pos
  have hlt : ∀ x : ℝ, x ≠ 0 → (x < 0 ↔ x ≤ 0) := fun x hx => ⟨le_of_lt, fun h => lt_of_le_of_ne h hx⟩
  rw [hlt _ hne]
  have posw : ∀ {w b : ℝ}, 0 ≤ w → EPSILON ≤ w * |b| → ¬ |-w * b| < EPSILON ∧ b ≠ 0 := by
    intro w b hw h
    rw [neg_mul, abs_neg, abs_mul, abs_of_nonneg hw, not_lt]
    refine ⟨h, ?_⟩
    rintro rfl
    rw [abs_zero, mul_zero] at h; linarith
  fin_cases i
  · rcases hg.1 with hb | hb
    · have : r.hit l 0 = false := by
        simp [Rect.hit, Rect.cand, Rect.leftEdge_inter, hb, e0]
      simp only [Fin.zero_eta, Fin.isValue, this, Bool.false_eq_true, Rect.ends, Line.val, hb, zero_mul, add_zero,
        false_iff] at hne ⊢
      intro h; exact hne (le_antisymm h (mul_self_nonneg _))
    · obtain ⟨h1, h2⟩ := posw hr.2 hb
      have := hit_iff (c := l.a * r.left + l.c) h2 ht
      simp only [Fin.zero_eta, Rect.hit, Rect.cand, Rect.leftEdge_inter, if_neg h1, Rect.ends, Line.val]
      rw [Vec.ofXY_valid, Bool.true_and, if_pos (by decide), Bool.and_eq_true, decide_eq_true_eq, decide_eq_true_eq,
        Vec.ofXY_y, this]
      constructor <;> intro h <;> linarith
  · rcases hg.1 with hb | hb
    · have : r.hit l 1 = false := by
        simp [Rect.hit, Rect.cand, Rect.rightEdge_inter, hb, e0]
      simp only [Fin.mk_one, Fin.isValue, this, Bool.false_eq_true, Rect.ends, Line.val, hb, zero_mul, add_zero,
        false_iff] at hne ⊢
      intro h; exact hne (le_antisymm h (mul_self_nonneg _))
    · obtain ⟨h1, h2⟩ := posw hr.2 hb
      have := hit_iff (c := l.a * r.right + l.c) h2 ht
      simp only [Fin.mk_one, Rect.hit, Rect.cand, Rect.rightEdge_inter, if_neg h1, Rect.ends, Line.val]
      rw [Vec.ofXY_valid, Bool.true_and, if_pos (by decide), Bool.and_eq_true, decide_eq_true_eq, decide_eq_true_eq,
        Vec.ofXY_y, this]
      constructor <;> intro h <;> linarith
  · rcases hg.2 with hb | hb
    · have : r.hit l 2 = false := by
        simp [Rect.hit, Rect.cand, Rect.topEdge_inter, hb, e0]
      simp only [Fin.reduceFinMk, Fin.isValue, this, Bool.false_eq_true, Rect.ends, Line.val, hb, zero_mul, zero_add,
        false_iff] at hne ⊢
      intro h; exact hne (le_antisymm h (mul_self_nonneg _))
    · obtain ⟨h1, h2⟩ := posw hr.1 hb
      rw [neg_mul] at h1
      have := hit_iff (c := l.b * r.top + l.c) h2 hl
      simp only [Fin.reduceFinMk, Rect.hit, Rect.cand, Rect.topEdge_inter, if_neg h1, Rect.ends, Line.val]
      rw [Vec.ofXY_valid, Bool.true_and, if_neg (by decide), Bool.and_eq_true, decide_eq_true_eq, decide_eq_true_eq,
        Vec.ofXY_x, this]
      constructor <;> intro h <;> linarith
  · rcases hg.2 with hb | hb
    · have : r.hit l 3 = false := by
        simp [Rect.hit, Rect.cand, Rect.bottomEdge_inter, hb, e0]
      simp only [Fin.reduceFinMk, Fin.isValue, this, Bool.false_eq_true, Rect.ends, Line.val, hb, zero_mul, zero_add,
        false_iff] at hne ⊢
      intro h; exact hne (le_antisymm h (mul_self_nonneg _))
    · obtain ⟨h1, h2⟩ := posw hr.1 hb
      rw [neg_mul] at h1
      have := hit_iff (c := l.b * r.bottom + l.c) h2 hl
      simp only [Fin.reduceFinMk, Rect.hit, Rect.cand, Rect.bottomEdge_inter, if_neg h1, Rect.ends, Line.val]
      rw [Vec.ofXY_valid, Bool.true_and, if_neg (by decide), Bool.and_eq_true, decide_eq_true_eq, decide_eq_true_eq,
        Vec.ofXY_x, this]
      constructor <;> intro h <;> linarith

/-- No corner of the rectangle is on the line. -/
def Rect.NoCorner (r : Rect ℝ) (l : Line ℝ) : Prop :=
  l.val r.left r.top ≠ 0 ∧ l.val r.left r.bottom ≠ 0 ∧ l.val r.right r.top ≠ 0 ∧ l.val r.right r.bottom ≠ 0

/-- Three edges cannot be hit. -/
theorem three_signs {p q u v : ℝ} (h : p + v = u + q) :
    ¬ (p * q < 0 ∧ u * v < 0 ∧ p * u < 0) ∧ ¬ (p * q < 0 ∧ u * v < 0 ∧ q * v < 0) ∧
    ¬ (p * q < 0 ∧ p * u < 0 ∧ q * v < 0) ∧ ¬ (u * v < 0 ∧ p * u < 0 ∧ q * v < 0) := by
  have key : ∀ {a b : ℝ}, a * b < 0 → (0 < a ∧ b < 0) ∨ (a < 0 ∧ 0 < b) := fun h => mul_neg_iff.mp h
  refine ⟨?_, ?_, ?_, ?_⟩ <;> rintro ⟨h1, h2, h3⟩ <;>
  rcases key h1 with ⟨a, b⟩ | ⟨a, b⟩ <;> rcases key h2 with ⟨c, d⟩ | ⟨c, d⟩ <;>
  rcases key h3 with ⟨e, f⟩ | ⟨e, f⟩ <;> linarith

/-- The list of accepted candidates, before removing near duplicates, is all the hits when at most two edges are hit. -/
theorem Rect.acc_mem (c : Fin 4 → Vec ℝ) (h : Fin 4 → Bool) (hv : ∀ i, h i = true → (c i).valid = true)
    (h3 : ¬ (h 0 = true ∧ h 1 = true ∧ h 2 = true) ∧ ¬ (h 0 = true ∧ h 1 = true ∧ h 3 = true) ∧
      ¬ (h 0 = true ∧ h 2 = true ∧ h 3 = true) ∧ ¬ (h 1 = true ∧ h 2 = true ∧ h 3 = true)) :
    Rect.interStep (Rect.interStep (Rect.interStep (Rect.interStep [] (c 0) (h 0)) (c 1) (h 1)) (c 2) (h 2))
      (c 3) (h 3) = ([0, 1, 2, 3] : List (Fin 4)).filterMap (fun i => if h i = true then some (c i) else none) := by
  have v0 := hv 0; have v1 := hv 1; have v2 := hv 2; have v3 := hv 3
  obtain ⟨n1, n2, n3, n4⟩ := h3
  cases e0 : h 0 <;> cases e1 : h 1 <;> cases e2 : h 2 <;> cases e3 : h 3 <;>
  simp_all [Rect.interStep]

/-- The signs at the corners give the number of edges hit. -/
theorem Rect.hits_le_two (r : Rect ℝ) (hr : r.Ok) (l : Line ℝ) (hg : r.Tol l) (hc : r.NoCorner l) :
    ¬ (r.hit l 0 = true ∧ r.hit l 1 = true ∧ r.hit l 2 = true) ∧
    ¬ (r.hit l 0 = true ∧ r.hit l 1 = true ∧ r.hit l 3 = true) ∧
    ¬ (r.hit l 0 = true ∧ r.hit l 2 = true ∧ r.hit l 3 = true) ∧
    ¬ (r.hit l 1 = true ∧ r.hit l 2 = true ∧ r.hit l 3 = true) := by
  obtain ⟨c1, c2, c3, c4⟩ := hc
  rw [Rect.hit_ends r hr l hg 0 (mul_ne_zero c1 c2), Rect.hit_ends r hr l hg 1 (mul_ne_zero c3 c4),
    Rect.hit_ends r hr l hg 2 (mul_ne_zero c1 c3), Rect.hit_ends r hr l hg 3 (mul_ne_zero c2 c4)]
  exact three_signs (by simp only [Rect.ends, Line.val]; ring)

theorem Rect.dedup_mem {L : List (Vec ℝ)} {v : Vec ℝ} (h : v ∈ L) :
    v ∈ Rect.dedup L ∨ ∃ w ∈ Rect.dedup L, Rect.dedup L = [w] ∧ BoxNear v.pt w.pt := by
  unfold Rect.dedup
  split
  · rename_i p q
    split
    · rename_i hn
      rcases List.mem_cons.mp h with rfl | h
      · left; simp
      · rw [List.mem_singleton] at h
        right
        refine ⟨p, by simp, rfl, ?_, ?_⟩
        · rw [abs_sub_comm, h]; exact hn.1
        · rw [abs_sub_comm, h]; exact hn.2
    · left; exact h
  · left; exact h

/-- A boundary point on the line that is not a corner is an accepted candidate. -/
theorem Rect.cand_of_boundary (r : Rect ℝ) (hr : r.Ok) (l : Line ℝ) (hg : r.Tol l) (hc : r.NoCorner l) (z : Pt)
    (hz : z ∈ l.pts) (hb : z ∈ r.boundary) : ∃ i, r.hit l i = true ∧ (r.cand l i).pt = z := by
  have e0 := EPSILON_pos
  obtain ⟨⟨b1, b2, b3, b4⟩, hside⟩ := hb
  rw [Line.mem_pts] at hz
  obtain ⟨c1, c2, c3, c4⟩ := hc
  have posw : ∀ {w b : ℝ}, 0 ≤ w → EPSILON ≤ w * |b| → ¬ |-w * b| < EPSILON ∧ b ≠ 0 := by
    intro w b hw h
    rw [neg_mul, abs_neg, abs_mul, abs_of_nonneg hw, not_lt]
    refine ⟨h, ?_⟩
    rintro rfl
    rw [abs_zero, mul_zero] at h; linarith
  rcases hside with h | h | h | h
  · rcases hg.1 with hb0 | hb0
    · exfalso; apply c1; unfold Line.val; rw [hb0] at hz ⊢; rw [← h]; linarith
    · obtain ⟨h1, h2⟩ := posw hr.2 hb0
      have hy : -(l.a * r.left + l.c) / l.b = z.2 := by rw [← h]; field_simp; linarith
      have hcand : r.cand l 0 = Vec.ofXY z.1 z.2 := by
        simp only [Rect.cand, Rect.leftEdge_inter]; rw [if_neg h1, hy, h]
      refine ⟨0, ?_, by rw [hcand]; rfl⟩
      simp [Rect.hit, hcand, b3, b4]
  · rcases hg.1 with hb0 | hb0
    · exfalso; apply c3; unfold Line.val; rw [hb0] at hz ⊢; rw [← h]; linarith
    · obtain ⟨h1, h2⟩ := posw hr.2 hb0
      have hy : -(l.a * r.right + l.c) / l.b = z.2 := by rw [← h]; field_simp; linarith
      have hcand : r.cand l 1 = Vec.ofXY z.1 z.2 := by
        simp only [Rect.cand, Rect.rightEdge_inter]; rw [if_neg h1, hy, h]
      refine ⟨1, ?_, by rw [hcand]; rfl⟩
      simp [Rect.hit, hcand, b3, b4]
  · rcases hg.2 with hb0 | hb0
    · exfalso; apply c1; unfold Line.val; rw [hb0] at hz ⊢; rw [← h]; linarith
    · obtain ⟨h1, h2⟩ := posw hr.1 hb0
      rw [neg_mul] at h1
      have hy : -(l.b * r.top + l.c) / l.a = z.1 := by rw [← h]; field_simp; linarith
      have hcand : r.cand l 2 = Vec.ofXY z.1 z.2 := by
        simp only [Rect.cand, Rect.topEdge_inter]; rw [if_neg h1, hy, h]
      refine ⟨2, ?_, by rw [hcand]; rfl⟩
      simp [Rect.hit, hcand, b1, b2]
  · rcases hg.2 with hb0 | hb0
    · exfalso; apply c2; unfold Line.val; rw [hb0] at hz ⊢; rw [← h]; linarith
    · obtain ⟨h1, h2⟩ := posw hr.1 hb0
      rw [neg_mul] at h1
      have hy : -(l.b * r.bottom + l.c) / l.a = z.1 := by rw [← h]; field_simp; linarith
      have hcand : r.cand l 3 = Vec.ofXY z.1 z.2 := by
        simp only [Rect.cand, Rect.bottomEdge_inter]; rw [if_neg h1, hy, h]
      refine ⟨3, ?_, by rw [hcand]; rfl⟩
      simp [Rect.hit, hcand, b1, b2]

/-- **C62**, completeness for lines through no corner: every boundary point of the line is listed, or (if the two
boundary points are within EPSILON) is in the EPSILON box of the listed one. -/
theorem C62_complete_partial (r : Rect ℝ) (hr : r.Ok) (l : Line ℝ) (hg : r.Tol l) (hc : r.NoCorner l) (z : Pt)
    (hz : z ∈ l.pts) (hb : z ∈ r.boundary) :
    (∃ v ∈ r.intersectionLine l, v.pt = z) ∨ ∃ v, r.intersectionLine l = [v] ∧ BoxNear z v.pt := by
  obtain ⟨i, hi, hzi⟩ := Rect.cand_of_boundary r hr l hg hc z hz hb
  have hmem : r.cand l i ∈ ([0, 1, 2, 3] : List (Fin 4)).filterMap
      (fun i => if r.hit l i = true then some (r.cand l i) else none) := by
    rw [List.mem_filterMap]
    refine ⟨i, ?_, by rw [if_pos hi]⟩
    fin_cases i <;> simp
  rw [Rect.intersectionLine_real, Rect.acc_mem (r.cand l) (r.hit l) (fun i h => (Rect.hit_sound r hr l i h).1)
    (Rect.hits_le_two r hr l hg hc)]
  rcases Rect.dedup_mem hmem with h | ⟨w, _, h1, h2⟩
  · exact Or.inl ⟨_, h, hzi⟩
  · refine Or.inr ⟨w, h1, ?_⟩
    rw [← hzi]; exact h2

/-- **C62**, lines through an interior point: two different boundary points of the line exist and are listed (one if
they are within EPSILON). -/
theorem C62_interior_partial (r : Rect ℝ) (l : Line ℝ) (hg : r.Tol l) (hc : r.NoCorner l) (x y : ℝ)
    (hx1 : r.left < x) (hx2 : x < r.right) (hy1 : r.top < y) (hy2 : y < r.bottom) (hxy : ((x, y) : Pt) ∈ l.pts) :
    ∃ v w : Vec ℝ, v.pt ≠ w.pt ∧ l.pts ∩ r.boundary = {v.pt, w.pt} ∧
      (¬ BoxNear v.pt w.pt → r.intersectionLine l = [v, w]) ∧ (BoxNear v.pt w.pt → r.intersectionLine l = [v]) := by
  have hr : r.Ok := by
    constructor
    · have : r.right = r.left + r.size.length := rfl
      linarith
    · have : r.bottom = r.top + r.size.width := rfl
      linarith
  obtain ⟨c1, c2, c3, c4⟩ := hc
  have k0 := Rect.hit_ends r hr l hg 0 (mul_ne_zero c1 c2)
  have k1 := Rect.hit_ends r hr l hg 1 (mul_ne_zero c3 c4)
  have k2 := Rect.hit_ends r hr l hg 2 (mul_ne_zero c1 c3)
  have k3 := Rect.hit_ends r hr l hg 3 (mul_ne_zero c2 c4)
  have hle := Rect.hits_le_two r hr l hg ⟨c1, c2, c3, c4⟩
  simp only [Rect.ends] at k0 k1 k2 k3
  rw [Line.mem_pts] at hxy
  simp only at hxy
  -- candidates of different hit edges are different points: edges only share corners
  have hbnd := fun i h => Rect.hit_sound r hr l i h
  have hcorner : ∀ (i : Fin 4) (X Y : ℝ), r.hit l i = true → (X = r.left ∨ X = r.right) → (Y = r.top ∨ Y = r.bottom) →
      (r.cand l i).pt ≠ (X, Y) := by
    intro i X Y hi hX hY he
    have := (hbnd i hi).2.1
    rw [he, Line.mem_pts] at this
    rcases hX with rfl | rfl <;> rcases hY with rfl | rfl
    · exact c1 this
    · exact c2 this
    · exact c3 this
    · exact c4 this
  have fst0 : r.hit l 0 = true → (r.cand l 0).x = r.left := by
    intro h
    have hv := (hbnd 0 h).1
    simp only [Rect.cand, Rect.leftEdge_inter] at hv ⊢
    split at hv
    · exact absurd hv (by simp)
    · rw [if_neg ‹_›]; rfl
  have fst1 : r.hit l 1 = true → (r.cand l 1).x = r.right := by
    intro h
    have hv := (hbnd 1 h).1
    simp only [Rect.cand, Rect.rightEdge_inter] at hv ⊢
    split at hv
    · exact absurd hv (by simp)
    · rw [if_neg ‹_›]; rfl
  have snd2 : r.hit l 2 = true → (r.cand l 2).y = r.top := by
    intro h
    have hv := (hbnd 2 h).1
    simp only [Rect.cand, Rect.topEdge_inter] at hv ⊢
    split at hv
    · exact absurd hv (by simp)
    · rw [if_neg ‹_›]; rfl
  have snd3 : r.hit l 3 = true → (r.cand l 3).y = r.bottom := by
    intro h
    have hv := (hbnd 3 h).1
    simp only [Rect.cand, Rect.bottomEdge_inter] at hv ⊢
    split at hv
    · exact absurd hv (by simp)
    · rw [if_neg ‹_›]; rfl
  -- conclusion from a pair of hit edges
  have finish : ∀ i j : Fin 4, i ≠ j → r.hit l i = true → r.hit l j = true →
      (∀ k, r.hit l k = true → k = i ∨ k = j) →
      ([0, 1, 2, 3] : List (Fin 4)).filterMap (fun i => if r.hit l i = true then some (r.cand l i) else none) =
        [r.cand l i, r.cand l j] → (r.cand l i).pt ≠ (r.cand l j).pt →
      ∃ v w : Vec ℝ, v.pt ≠ w.pt ∧ l.pts ∩ r.boundary = {v.pt, w.pt} ∧
      (¬ BoxNear v.pt w.pt → r.intersectionLine l = [v, w]) ∧ (BoxNear v.pt w.pt → r.intersectionLine l = [v]) := by
    intro i j hij hi hj hall hlist hne
    refine ⟨r.cand l i, r.cand l j, hne, ?_, ?_, ?_⟩
    · ext z
      simp only [Set.mem_insert_iff, Set.mem_singleton_iff]
      constructor
      · rintro ⟨hz, hb⟩
        obtain ⟨k, hk, rfl⟩ := Rect.cand_of_boundary r hr l hg ⟨c1, c2, c3, c4⟩ z hz hb
        rcases hall k hk with rfl | rfl
        · left; rfl
        · right; rfl
      · rintro (rfl | rfl)
        · exact (hbnd i hi).2
        · exact (hbnd j hj).2
    · intro hn
      rw [Rect.intersectionLine_real, Rect.acc_mem (r.cand l) (r.hit l) (fun i h => (hbnd i h).1) hle, hlist]
      simp only [Rect.dedup]
      exact if_neg hn
    · intro hn
      rw [Rect.intersectionLine_real, Rect.acc_mem (r.cand l) (r.hit l) (fun i h => (hbnd i h).1) hle, hlist]
      simp only [Rect.dedup]
      exact if_pos hn
  have hcen : r.right - r.left > 0 ∧ r.bottom - r.top > 0 := ⟨by linarith, by linarith⟩
  -- signs at the corners are not all equal
  have hpos : ¬ (0 < l.val r.left r.top ∧ 0 < l.val r.left r.bottom ∧ 0 < l.val r.right r.top ∧
      0 < l.val r.right r.bottom) := by
    rintro ⟨p1, p2, p3, p4⟩
    simp only [Line.val] at p1 p2 p3 p4
    have s1 : 0 < r.right - x := by linarith
    have s2 : 0 < x - r.left := by linarith
    have s3 : 0 < r.bottom - y := by linarith
    have s4 : 0 < y - r.top := by linarith
    have q1 := mul_pos (mul_pos s1 s3) p1
    have q2 := mul_pos (mul_pos s1 s4) p2
    have q3 := mul_pos (mul_pos s2 s3) p3
    have q4 := mul_pos (mul_pos s2 s4) p4
    have : (r.right - x) * (r.bottom - y) * (l.a * r.left + l.b * r.top + l.c) +
        (r.right - x) * (y - r.top) * (l.a * r.left + l.b * r.bottom + l.c) +
        (x - r.left) * (r.bottom - y) * (l.a * r.right + l.b * r.top + l.c) +
        (x - r.left) * (y - r.top) * (l.a * r.right + l.b * r.bottom + l.c) = 0 := by
      linear_combination (r.right - r.left) * (r.bottom - r.top) * hxy
    linarith
  have hneg : ¬ (l.val r.left r.top < 0 ∧ l.val r.left r.bottom < 0 ∧ l.val r.right r.top < 0 ∧
      l.val r.right r.bottom < 0) := by
    rintro ⟨p1, p2, p3, p4⟩
    simp only [Line.val] at p1 p2 p3 p4
    have s1 : 0 < r.right - x := by linarith
    have s2 : 0 < x - r.left := by linarith
    have s3 : 0 < r.bottom - y := by linarith
    have s4 : 0 < y - r.top := by linarith
    have q1 := mul_neg_of_pos_of_neg (mul_pos s1 s3) p1
    have q2 := mul_neg_of_pos_of_neg (mul_pos s1 s4) p2
    have q3 := mul_neg_of_pos_of_neg (mul_pos s2 s3) p3
    have q4 := mul_neg_of_pos_of_neg (mul_pos s2 s4) p4
    have : (r.right - x) * (r.bottom - y) * (l.a * r.left + l.b * r.top + l.c) +
        (r.right - x) * (y - r.top) * (l.a * r.left + l.b * r.bottom + l.c) +
        (x - r.left) * (r.bottom - y) * (l.a * r.right + l.b * r.top + l.c) +
        (x - r.left) * (y - r.top) * (l.a * r.right + l.b * r.bottom + l.c) = 0 := by
      linear_combination (r.right - r.left) * (r.bottom - r.top) * hxy
    linarith
  have haff : l.val r.left r.top + l.val r.right r.bottom = l.val r.right r.top + l.val r.left r.bottom := by
    simp only [Line.val]; ring
  generalize l.val r.left r.top = p at *
  generalize l.val r.left r.bottom = q at *
  generalize l.val r.right r.top = u at *
  generalize l.val r.right r.bottom = v at *
  have hx : r.left ≠ r.right := by linarith
  have hy : r.top ≠ r.bottom := by linarith
  have ex : ∀ a b : ℝ, (0 < a ∧ 0 < b) ∨ (a < 0 ∧ b < 0) → ¬ a * b < 0 := by
    rintro a b (⟨h1, h2⟩ | ⟨h1, h2⟩) h
    · linarith [mul_pos h1 h2]
    · linarith [mul_pos_of_neg_of_neg h1 h2]
  have ey : ∀ a b : ℝ, (0 < a ∧ b < 0) ∨ (a < 0 ∧ 0 < b) → a * b < 0 := fun a b h => mul_neg_iff.mpr h
  have fin4 : ∀ (P : Fin 4 → Prop), P 0 → P 1 → P 2 → P 3 → ∀ i, P i := by
    intro P p0 p1 p2 p3 i; fin_cases i <;> assumption
  have b0 : ∀ {h : Bool} {P : Prop}, (h = true ↔ P) → ¬ P → h = false := by
    intro h P hh hp; cases h
    · rfl
    · exact absurd (hh.mp rfl) hp
  rcases lt_or_gt_of_ne c1 with p0 | p0 <;> rcases lt_or_gt_of_ne c2 with q0 | q0 <;>
  rcases lt_or_gt_of_ne c3 with u0 | u0 <;> rcases lt_or_gt_of_ne c4 with v0 | v0
  · exact absurd ⟨p0, q0, u0, v0⟩ hneg
  · -- right, bottom
    have t0 := b0 k0 (ex _ _ (Or.inr ⟨p0, q0⟩))
    have t1 := k1.mpr (ey _ _ (Or.inr ⟨u0, v0⟩))
    have t2 := b0 k2 (ex _ _ (Or.inr ⟨p0, u0⟩))
    have t3 := k3.mpr (ey _ _ (Or.inr ⟨q0, v0⟩))
    refine finish 1 3 (by decide) t1 t3 (fin4 _ ?_ ?_ ?_ ?_) (by simp [t0, t1, t2, t3]) ?_
    · rw [t0]; simp
    · simp
    · rw [t2]; simp
    · simp
    · intro he
      apply hcorner 1 r.right r.bottom t1 (Or.inr rfl) (Or.inr rfl)
      refine Prod.ext (fst1 t1) ?_
      rw [he]; exact snd3 t3
  · -- right, top
    have t0 := b0 k0 (ex _ _ (Or.inr ⟨p0, q0⟩))
    have t1 := k1.mpr (ey _ _ (Or.inl ⟨u0, v0⟩))
    have t2 := k2.mpr (ey _ _ (Or.inr ⟨p0, u0⟩))
    have t3 := b0 k3 (ex _ _ (Or.inr ⟨q0, v0⟩))
    refine finish 1 2 (by decide) t1 t2 (fin4 _ ?_ ?_ ?_ ?_) (by simp [t0, t1, t2, t3]) ?_
    · rw [t0]; simp
    · simp
    · simp
    · rw [t3]; simp
    · intro he
      apply hcorner 1 r.right r.top t1 (Or.inr rfl) (Or.inl rfl)
      refine Prod.ext (fst1 t1) ?_
      rw [he]; exact snd2 t2
  · -- top, bottom
    have t0 := b0 k0 (ex _ _ (Or.inr ⟨p0, q0⟩))
    have t1 := b0 k1 (ex _ _ (Or.inl ⟨u0, v0⟩))
    have t2 := k2.mpr (ey _ _ (Or.inr ⟨p0, u0⟩))
    have t3 := k3.mpr (ey _ _ (Or.inr ⟨q0, v0⟩))
    refine finish 2 3 (by decide) t2 t3 (fin4 _ ?_ ?_ ?_ ?_) (by simp [t0, t1, t2, t3]) ?_
    · rw [t0]; simp
    · rw [t1]; simp
    · simp
    · simp
    · intro he
      apply hy
      rw [← snd2 t2, ← snd3 t3]; exact congrArg Prod.snd he
  · -- left, bottom
    have t0 := k0.mpr (ey _ _ (Or.inr ⟨p0, q0⟩))
    have t1 := b0 k1 (ex _ _ (Or.inr ⟨u0, v0⟩))
    have t2 := b0 k2 (ex _ _ (Or.inr ⟨p0, u0⟩))
    have t3 := k3.mpr (ey _ _ (Or.inl ⟨q0, v0⟩))
    refine finish 0 3 (by decide) t0 t3 (fin4 _ ?_ ?_ ?_ ?_) (by simp [t0, t1, t2, t3]) ?_
    · simp
    · rw [t1]; simp
    · rw [t2]; simp
    · simp
    · intro he
      apply hcorner 0 r.left r.bottom t0 (Or.inl rfl) (Or.inr rfl)
      refine Prod.ext (fst0 t0) ?_
      rw [he]; exact snd3 t3
  · -- left, right
    have t0 := k0.mpr (ey _ _ (Or.inr ⟨p0, q0⟩))
    have t1 := k1.mpr (ey _ _ (Or.inr ⟨u0, v0⟩))
    have t2 := b0 k2 (ex _ _ (Or.inr ⟨p0, u0⟩))
    have t3 := b0 k3 (ex _ _ (Or.inl ⟨q0, v0⟩))
    refine finish 0 1 (by decide) t0 t1 (fin4 _ ?_ ?_ ?_ ?_) (by simp [t0, t1, t2, t3]) ?_
    · simp
    · simp
    · rw [t2]; simp
    · rw [t3]; simp
    · intro he
      apply hx
      rw [← fst0 t0, ← fst1 t1]; exact congrArg Prod.fst he
  · linarith
  · -- left, top
    have t0 := k0.mpr (ey _ _ (Or.inr ⟨p0, q0⟩))
    have t1 := b0 k1 (ex _ _ (Or.inl ⟨u0, v0⟩))
    have t2 := k2.mpr (ey _ _ (Or.inr ⟨p0, u0⟩))
    have t3 := b0 k3 (ex _ _ (Or.inl ⟨q0, v0⟩))
    refine finish 0 2 (by decide) t0 t2 (fin4 _ ?_ ?_ ?_ ?_) (by simp [t0, t1, t2, t3]) ?_
    · simp
    · rw [t1]; simp
    · simp
    · rw [t3]; simp
    · intro he
      apply hcorner 0 r.left r.top t0 (Or.inl rfl) (Or.inl rfl)
      refine Prod.ext (fst0 t0) ?_
      rw [he]; exact snd2 t2
  · -- left, top
    have t0 := k0.mpr (ey _ _ (Or.inl ⟨p0, q0⟩))
    have t1 := b0 k1 (ex _ _ (Or.inr ⟨u0, v0⟩))
    have t2 := k2.mpr (ey _ _ (Or.inl ⟨p0, u0⟩))
    have t3 := b0 k3 (ex _ _ (Or.inr ⟨q0, v0⟩))
    refine finish 0 2 (by decide) t0 t2 (fin4 _ ?_ ?_ ?_ ?_) (by simp [t0, t1, t2, t3]) ?_
    · simp
    · rw [t1]; simp
    · simp
    · rw [t3]; simp
    · intro he
      apply hcorner 0 r.left r.top t0 (Or.inl rfl) (Or.inl rfl)
      refine Prod.ext (fst0 t0) ?_
      rw [he]; exact snd2 t2
  · linarith
  · -- left, right
    have t0 := k0.mpr (ey _ _ (Or.inl ⟨p0, q0⟩))
    have t1 := k1.mpr (ey _ _ (Or.inl ⟨u0, v0⟩))
    have t2 := b0 k2 (ex _ _ (Or.inl ⟨p0, u0⟩))
    have t3 := b0 k3 (ex _ _ (Or.inr ⟨q0, v0⟩))
    refine finish 0 1 (by decide) t0 t1 (fin4 _ ?_ ?_ ?_ ?_) (by simp [t0, t1, t2, t3]) ?_
    · simp
    · simp
    · rw [t2]; simp
    · rw [t3]; simp
    · intro he
      apply hx
      rw [← fst0 t0, ← fst1 t1]; exact congrArg Prod.fst he
  · -- left, bottom
    have t0 := k0.mpr (ey _ _ (Or.inl ⟨p0, q0⟩))
    have t1 := b0 k1 (ex _ _ (Or.inl ⟨u0, v0⟩))
    have t2 := b0 k2 (ex _ _ (Or.inl ⟨p0, u0⟩))
    have t3 := k3.mpr (ey _ _ (Or.inr ⟨q0, v0⟩))
    refine finish 0 3 (by decide) t0 t3 (fin4 _ ?_ ?_ ?_ ?_) (by simp [t0, t1, t2, t3]) ?_
    · simp
    · rw [t1]; simp
    · rw [t2]; simp
    · simp
    · intro he
      apply hcorner 0 r.left r.bottom t0 (Or.inl rfl) (Or.inr rfl)
      refine Prod.ext (fst0 t0) ?_
      rw [he]; exact snd3 t3
  · -- top, bottom
    have t0 := b0 k0 (ex _ _ (Or.inl ⟨p0, q0⟩))
    have t1 := b0 k1 (ex _ _ (Or.inr ⟨u0, v0⟩))
    have t2 := k2.mpr (ey _ _ (Or.inl ⟨p0, u0⟩))
    have t3 := k3.mpr (ey _ _ (Or.inl ⟨q0, v0⟩))
    refine finish 2 3 (by decide) t2 t3 (fin4 _ ?_ ?_ ?_ ?_) (by simp [t0, t1, t2, t3]) ?_
    · rw [t0]; simp
    · rw [t1]; simp
    · simp
    · simp
    · intro he
      apply hy
      rw [← snd2 t2, ← snd3 t3]; exact congrArg Prod.snd he
  · -- right, top
    have t0 := b0 k0 (ex _ _ (Or.inl ⟨p0, q0⟩))
    have t1 := k1.mpr (ey _ _ (Or.inr ⟨u0, v0⟩))
    have t2 := k2.mpr (ey _ _ (Or.inl ⟨p0, u0⟩))
    have t3 := b0 k3 (ex _ _ (Or.inl ⟨q0, v0⟩))
    refine finish 1 2 (by decide) t1 t2 (fin4 _ ?_ ?_ ?_ ?_) (by simp [t0, t1, t2, t3]) ?_
    · rw [t0]; simp
    · simp
    · simp
    · rw [t3]; simp
    · intro he
      apply hcorner 1 r.right r.top t1 (Or.inr rfl) (Or.inl rfl)
      refine Prod.ext (fst1 t1) ?_
      rw [he]; exact snd2 t2
  · -- right, bottom
    have t0 := b0 k0 (ex _ _ (Or.inl ⟨p0, q0⟩))
    have t1 := k1.mpr (ey _ _ (Or.inl ⟨u0, v0⟩))
    have t2 := b0 k2 (ex _ _ (Or.inl ⟨p0, u0⟩))
    have t3 := k3.mpr (ey _ _ (Or.inl ⟨q0, v0⟩))
    refine finish 1 3 (by decide) t1 t3 (fin4 _ ?_ ?_ ?_ ?_) (by simp [t0, t1, t2, t3]) ?_
    · rw [t0]; simp
    · simp
    · rw [t2]; simp
    · simp
    · intro he
      apply hcorner 1 r.right r.bottom t1 (Or.inr rfl) (Or.inr rfl)
      refine Prod.ext (fst1 t1) ?_
      rw [he]; exact snd3 t3
  · exact absurd ⟨p0, q0, u0, v0⟩ hpos

/-- **C62** is false for lines through a corner: the line y = 4x meets the boundary of [0,2]×[0,4] in (0,0) and (1,4),
but only (0,0) is returned. -/
theorem C62_refuted : ∃ (r : Rect ℝ) (l : Line ℝ), r.Ok ∧ r.intersectionLine l = [Vec.ofXY 0 0] ∧
    ((1, 4) : Pt) ∈ l.pts ∩ r.boundary ∧ ((1 / 2, 2) : Pt) ∈ l.pts := by
  have e0 := EPSILON_pos
  have L : (Rect.ofLTLW (0:ℝ) 0 2 4).left = 0 := rfl
  have T : (Rect.ofLTLW (0:ℝ) 0 2 4).top = 0 := rfl
  have W : (Rect.ofLTLW (0:ℝ) 0 2 4).size.width = 4 := by norm_num [Rect.ofLTLW]
  have Ln : (Rect.ofLTLW (0:ℝ) 0 2 4).size.length = 2 := by norm_num [Rect.ofLTLW]
  have R : (Rect.ofLTLW (0:ℝ) 0 2 4).right = 2 := by rw [Rect.right, L, Ln]; norm_num
  have B : (Rect.ofLTLW (0:ℝ) 0 2 4).bottom = 4 := by rw [Rect.bottom, T, W]; norm_num
  refine ⟨Rect.ofLTLW 0 0 2 4, ⟨4, -1, 0⟩, by norm_num [Rect.Ok, Rect.ofLTLW], ?_, ⟨?_, ?_⟩, ?_⟩
  · have c0 : (Rect.ofLTLW (0:ℝ) 0 2 4).cand ⟨4, -1, 0⟩ 0 = Vec.ofXY 0 0 := by
      simp only [Rect.cand, Rect.leftEdge_inter, L, W]
      rw [if_neg (by norm_num [EPSILON_real])]; norm_num
    have c1 : (Rect.ofLTLW (0:ℝ) 0 2 4).cand ⟨4, -1, 0⟩ 1 = Vec.ofXY 2 8 := by
      simp only [Rect.cand, Rect.rightEdge_inter, R, W]
      rw [if_neg (by norm_num [EPSILON_real])]; norm_num
    have c2 : (Rect.ofLTLW (0:ℝ) 0 2 4).cand ⟨4, -1, 0⟩ 2 = Vec.ofXY 0 0 := by
      simp only [Rect.cand, Rect.topEdge_inter, T, Ln]
      rw [if_neg (by norm_num [EPSILON_real])]; norm_num
    have h0 : (Rect.ofLTLW (0:ℝ) 0 2 4).hit ⟨4, -1, 0⟩ 0 = true := by simp [Rect.hit, c0, T, B]
    have h1 : (Rect.ofLTLW (0:ℝ) 0 2 4).hit ⟨4, -1, 0⟩ 1 = false := by norm_num [Rect.hit, c1, T, B]
    have h2 : (Rect.ofLTLW (0:ℝ) 0 2 4).hit ⟨4, -1, 0⟩ 2 = true := by simp [Rect.hit, c2, L, R]
    rw [Rect.intersectionLine_real, h0, h1, h2, c0, c1, c2]
    simp [Rect.interStep, Rect.dedup, e0]
  · rw [Line.mem_pts]; norm_num
  · refine ⟨?_, Or.inr (Or.inr (Or.inr ?_))⟩
    · unfold box; rw [L, R, T, B]; norm_num
    · rw [B]
  · rw [Line.mem_pts]; norm_num

/-- **C62**, rays and segments: the points of the carrier line that the ray or segment accepts, in the same order. -/
theorem C62_ray_segment (r : Rect ℝ) (hr : r.Ok) (ray : Ray ℝ) (s : Seg ℝ) :
    r.intersectionRay ray = (r.intersectionLine ray.line).filter (fun p => ray.inRightDir p 1) ∧
    r.intersectionSeg s = (r.intersectionLine s.line).filter s.contains := by
  constructor
  · simp only [Rect.intersectionRay, Nat.cast_one]
    exact Circle.dropRejected_filter _ _ (C62_sound_partial r hr _).1
  · exact Circle.dropRejected_filter _ _ (C62_sound_partial r hr _).1

/-- Non-vacuity of C62: [0,2]×[0,4] and the line x = 1 satisfy all guards of `C62_interior_partial`. -/
example : (Rect.ofLTLW (0:ℝ) 0 2 4).Tol ⟨1, 0, -1⟩ ∧ (Rect.ofLTLW (0:ℝ) 0 2 4).NoCorner ⟨1, 0, -1⟩ ∧
    ((1, 1) : Pt) ∈ (Line.mk (1:ℝ) 0 (-1)).pts := by
  refine ⟨⟨Or.inl rfl, Or.inr ?_⟩, ?_, ?_⟩
  · norm_num [Rect.ofLTLW, EPSILON_real]
  · norm_num [Rect.NoCorner, Line.val, Rect.ofLTLW, Rect.left, Rect.right, Vec.ofXY]
  · rw [Line.mem_pts]; norm_num

/-! ## C63 -/

/-- **C63**, the four-number form. -/
theorem C63_from_center_partial (x y l w : ℝ) (hl : 0 ≤ l) (hw : 0 ≤ w) :
    (Rect.fromCenter4 x y l w).center.pt = (x, y) ∧ (Rect.fromCenter4 x y l w).size = ⟨l, w⟩ := by
  constructor
  · refine Prod.ext ?_ ?_ <;>
    simp [Rect.fromCenter4, Rect.ofLTLW, Rect.center, Rect.left, Rect.right, Rect.top, Rect.bottom, abs_of_nonneg hl,
      abs_of_nonneg hw] <;> ring
  · simp [Rect.fromCenter4, Rect.ofLTLW, Size.ext_iff, abs_of_nonneg hl, abs_of_nonneg hw]

/-- **C63** is false for the point form, which always raises. -/
theorem C63_refuted (p : Vec ℝ) (l w : ℝ) : Rect.fromCenter3 p l w = .error .attributeError := rfl

/-- Non-vacuity of C63. -/
example : (Rect.fromCenter4 (1:ℝ) 2 4 6).left = -1 := by
  norm_num [Rect.fromCenter4, Rect.ofLTLW, Rect.left, Vec.ofXY]

end PyrusGeom
