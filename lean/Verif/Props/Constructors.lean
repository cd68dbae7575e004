import Verif.Model.PyVal

/-!
# C94: which argument shapes the constructors accept

The documented shapes are the ones in the docstrings (vector_2d.py:20-47, angle_deg.py:16-29, line_2d.py:21-46,
segment_2d.py:26-54, ray_2d.py:25-36, rect_2d.py:37-70).  A direction is read as "number or `AngleDeg`" everywhere.
-/

namespace PyrusGeom

open PyVal

namespace Spec

/-- The Python value of a `Vector2D` with numeric coordinates. -/
def vecVal (v : Vec ℝ) : PyVal ℝ := .vec (.num v.x) (.num v.y) v.valid

/-- The Python value of a `Line2D` with numeric coefficients. -/
def lineVal (l : Line ℝ) : PyVal ℝ := .line (.num l.a) (.num l.b) (.num l.c)

/-- The Python value of a `Segment2D` between well-formed points. -/
def segVal (s : Seg ℝ) : PyVal ℝ := .seg (vecVal s.origin) (vecVal s.terminal)

/-- The Python value of a `Ray2D` from a well-formed point. -/
def rayVal (r : Ray ℝ) : PyVal ℝ := .ray (vecVal r.origin) r.dir

/-- The Python value of a `Rect2D` made of a well-formed point and a `Size2D`. -/
def rectVal (r : Rect ℝ) : PyVal ℝ := .rect (vecVal r.topLeft) (.size r.size)

/-- The Python value of a `Triangle2D` with well-formed corners. -/
def triVal (t : Tri ℝ) : PyVal ℝ := .tri (vecVal t.a) (vecVal t.b) (vecVal t.c)

/-- The value is a direction: a number or an `AngleDeg`. -/
def IsDir (v : PyVal ℝ) : Prop := (∃ x, v = .num x) ∨ ∃ a, v = .angle a

/-- Objects among the arguments are what their classes document: points have numeric coordinates, lines numeric
coefficients, the other shapes well-formed parts. -/
def WellFormed : PyVal ℝ → Prop
  | .vec x y b => ∃ v : Vec ℝ, PyVal.vec x y b = vecVal v
  | .line a b c => ∃ l : Line ℝ, PyVal.line a b c = lineVal l
  | .seg o t => ∃ s : Seg ℝ, PyVal.seg o t = segVal s
  | .ray o d => ∃ r : Ray ℝ, PyVal.ray o d = rayVal r
  | .rect p s => ∃ r : Rect ℝ, PyVal.rect p s = rectVal r
  | .circle c _ => ∃ v : Vec ℝ, c = vecVal v
  | .tri a b c => ∃ t : Tri ℝ, PyVal.tri a b c = triVal t
  | _ => True

/-- The call returned. -/
def Returns {α : Type} (e : Except PyErr α) : Prop := ∃ a, e = .ok a

/-- Documented shapes of `AngleDeg(...)`. -/
inductive AngleDoc : List (PyVal ℝ) → List (String × PyVal ℝ) → Prop
  | none : AngleDoc [] []
  | dir (d : PyVal ℝ) : IsDir d → AngleDoc [d] []
  | af (x : ℝ) : AngleDoc [] [("af", .num x)]

/-- Documented shapes of `Vector2D(...)`. -/
inductive VectorDoc : List (PyVal ℝ) → List (String × PyVal ℝ) → Prop
  | none : VectorDoc [] []
  | xy (x y : ℝ) : VectorDoc [.num x, .num y] []
  | copy (x y : PyVal ℝ) (b : Bool) : VectorDoc [.vec x y b] []
  | kwxy (kw) (x y : ℝ) : kw.Perm [("x", .num x), ("y", .num y)] → VectorDoc [] kw
  | kwra (kw) (r : ℝ) (t : PyVal ℝ) : IsDir t → kw.Perm [("r", .num r), ("a", t)] → VectorDoc [] kw

/-- Documented shapes of `Line2D(...)` with positional arguments. -/
inductive LineDoc : List (PyVal ℝ) → Prop
  | abc (a b c : ℝ) : LineDoc [.num a, .num b, .num c]
  | dir (p : Vec ℝ) (d : PyVal ℝ) : IsDir d → LineDoc [vecVal p, d]
  | points (p q : Vec ℝ) : LineDoc [vecVal p, vecVal q]
  | copy (l : Line ℝ) : LineDoc [lineVal l]

/-- Documented shapes of `Segment2D(...)`. -/
inductive SegmentDoc : List (PyVal ℝ) → Prop
  | none : SegmentDoc []
  | points (p q : Vec ℝ) : SegmentDoc [vecVal p, vecVal q]
  | polar (p : Vec ℝ) (m : ℝ) (d : PyVal ℝ) : IsDir d → SegmentDoc [vecVal p, .num m, d]
  | four (a b c d : ℝ) : SegmentDoc [.num a, .num b, .num c, .num d]

/-- Documented shapes of `Ray2D(...)`. -/
inductive RayDoc : List (PyVal ℝ) → Prop
  | points (p q : Vec ℝ) : RayDoc [vecVal p, vecVal q]
  | dir (p : Vec ℝ) (d : PyVal ℝ) : IsDir d → RayDoc [vecVal p, d]

/-- Documented shapes of `Rect2D(...)`. -/
inductive RectDoc : List (PyVal ℝ) → Prop
  | four (a b c d : ℝ) : RectDoc [.num a, .num b, .num c, .num d]
  | three (p : Vec ℝ) (l w : ℝ) : RectDoc [vecVal p, .num l, .num w]
  | size (p : Vec ℝ) (s : Size ℝ) : RectDoc [vecVal p, .size s]
  | points (p q : Vec ℝ) : RectDoc [vecVal p, vecVal q]
  | copy (r : Rect ℝ) : RectDoc [rectVal r]

end Spec

open Spec

/-! ## Values: on documented shapes the dispatching constructors agree with the value model -/

theorem C94_angle_value (x : ℝ) (a : AngleDeg ℝ) (kw : List (String × PyVal ℝ)) :
    newAngle ([] : List (PyVal ℝ)) [] = .ok AngleDeg.default ∧
      newAngle [.num x] kw = .ok (AngleDeg.ofNum x) ∧
      newAngle [.angle a] kw = .ok (AngleDeg.ofAngle a) ∧
      newAngle [] [("af", .num x)] = .ok (AngleDeg.ofNum x) := by
  refine ⟨rfl, rfl, rfl, ?_⟩
  simp [newAngle]

theorem C94_vector_value (x y r t : ℝ) (v : Vec ℝ) (a : AngleDeg ℝ) :
    newVector [] [] = .ok (vecVal Vec.zero) ∧
      newVector [.num x, .num y] [] = .ok (vecVal (Vec.ofXY x y)) ∧
      newVector [vecVal v] [] = .ok (vecVal (Vec.ofVec v)) ∧
      newVector [] [("x", .num x), ("y", .num y)] = .ok (vecVal (Vec.ofXY x y)) ∧
      newVector [] [("r", .num r), ("a", .num t)] = .ok (vecVal (Vec.ofRA r (AngleDeg.ofNum t))) ∧
      newVector [] [("r", .num r), ("a", .angle a)] = .ok (vecVal (Vec.ofRA r a)) := by
  refine ⟨?_, ?_, ?_, ?_, ?_, ?_⟩ <;>
    simp [newVector, vec2, vecVal, Vec.zero, Vec.ofXY, Vec.ofVec, Vec.ofRA, Vec.setPolar, List.lookup, toAngle,
      newAngle, PyVal.mul, bind, Except.bind]

theorem C94_line_value (a b c t : ℝ) (p q : Vec ℝ) (d : AngleDeg ℝ) (l : Line ℝ) :
    newLine [.num a, .num b, .num c] [] = .ok (lineVal (Line.ofABC a b c)) ∧
      newLine [vecVal p, .angle d] [] = .ok (lineVal (Line.ofAngle p d)) ∧
      newLine [vecVal p, .num t] [] = .ok (lineVal (Line.ofAngle p (AngleDeg.ofNum t))) ∧
      newLine [vecVal p, vecVal q] [] = .ok (lineVal (Line.ofPoints p q)) ∧
      newLine [lineVal l] [] = .ok (lineVal l) := by
  refine ⟨?_, ?_, ?_, ?_, ?_⟩ <;>
    simp [newLine, lineVal, vecVal, Line.ofABC, Line.ofAngle, Line.ofPoints, lineOfDir, lineOfPoints, toAngle,
      newAngle, PyVal.mul, PyVal.sub, PyVal.neg, getX, getY, bind, Except.bind]

theorem C94_segment_value (a b c e m t : ℝ) (p q : Vec ℝ) (d : AngleDeg ℝ) :
    newSegment [] = .ok (segVal (Seg.ofXYXY 0 0 0 0)) ∧
      newSegment [vecVal p, vecVal q] = .ok (segVal (Seg.ofPoints p q)) ∧
      newSegment [vecVal p, .num m, .angle d] = .ok (segVal (Seg.ofPolar p m d)) ∧
      newSegment [vecVal p, .num m, .num t] = .ok (segVal (Seg.ofPolar p m (AngleDeg.ofNum t))) ∧
      newSegment [.num a, .num b, .num c, .num e] = .ok (segVal (Seg.ofXYXY a b c e)) := by
  refine ⟨?_, ?_, ?_, ?_, ?_⟩ <;>
    simp [newSegment, segVal, vecVal, newVector, vec2, Seg.ofXYXY, Seg.ofPoints, Seg.ofPolar, Vec.ofXY, Vec.ofVec,
      Vec.fromPolar, Vec.add, fromPolar, toAngle, newAngle, PyVal.mul, PyVal.add, bind, Except.bind]

theorem C94_ray_value (t : ℝ) (p q : Vec ℝ) (d : AngleDeg ℝ) :
    newRay [vecVal p, vecVal q] = .ok (rayVal (Ray.ofPoint p q)) ∧
      newRay [vecVal p, .angle d] = .ok (rayVal (Ray.ofAngle p d)) ∧
      newRay [vecVal p, .num t] = .ok (.ray (vecVal (Vec.ofVec p)) (AngleDeg.ofNum t)) := by
  refine ⟨?_, ?_, ?_⟩ <;>
    simp [newRay, rayVal, vecVal, newVector, vec2, Ray.ofPoint, Ray.ofAngle, Vec.ofXY, Vec.ofVec, Vec.sub, Vec.th,
      PyVal.sub, thOf, bind, Except.bind]

theorem C94_rect_value (a b c e : ℝ) (p q : Vec ℝ) (s : Size ℝ) (r : Rect ℝ) :
    newRect [.num a, .num b, .num c, .num e] = .ok (rectVal (Rect.ofLTLW a b c e)) ∧
      newRect [vecVal p, .num c, .num e] = .ok (rectVal (Rect.ofPointLW p c e)) ∧
      newRect [vecVal p, .size s] = .ok (rectVal (Rect.ofPointSize p s)) ∧
      newRect [vecVal p, vecVal q] = .ok (rectVal (Rect.ofCorners p q)) ∧
      newRect [rectVal r] = .ok (rectVal (Rect.ofRect r)) := by
  refine ⟨?_, ?_, ?_, ?_, ?_⟩
  case refine_4 =>
    simp only [newRect, rectVal, vecVal, newVector, newSize, fabsOf, getX, getY, ltZero, PyVal.sub, Rect.ofCorners,
      bind, Except.bind, List.length_nil, if_true]
    by_cases h1 : q.x - p.x < 0 <;> by_cases h2 : q.y - p.y < 0 <;>
      simp [h1, h2, Vec.ofVec, Vec.setX, Vec.setY, Vec.zero]
  all_goals
    simp [newRect, rectVal, vecVal, newVector, vec2, newSize, fabsOf, sizeCopy, Rect.ofLTLW, Rect.ofPointLW,
      Rect.ofPointSize, Rect.ofRect, Vec.ofXY, Vec.ofVec, Size.ofLW, bind, Except.bind]

/-! ## Documented shapes never raise -/

theorem C94_angle_documented {args kw} (h : AngleDoc args kw) : Returns (newAngle args kw) := by
  cases h with
  | none => exact ⟨_, rfl⟩
  | dir d hd => rcases hd with ⟨x, rfl⟩ | ⟨a, rfl⟩ <;> exact ⟨_, rfl⟩
  | af x => exact ⟨_, (C94_angle_value x AngleDeg.default []).2.2.2⟩

/-- The two orders of a two-element permutation. -/
theorem perm_pair {α : Type} {l : List α} {a b : α} (h : l.Perm [a, b]) : l = [a, b] ∨ l = [b, a] := by
  have hl := h.length_eq
  match l, hl with
  | [u, v], _ =>
    have hu : u = a ∨ u = b := by simpa using h.subset (List.mem_cons_self)
    rcases hu with rfl | rfl
    · left
      have := (List.perm_cons _).mp h
      simpa using this
    · right
      have := (List.perm_cons _).mp (h.trans (List.Perm.swap u a []))
      simpa using this

theorem C94_vector_documented {args kw} (h : VectorDoc args kw) : Returns (newVector args kw) := by
  cases h with
  | none => exact ⟨_, rfl⟩
  | xy x y => exact ⟨_, rfl⟩
  | copy x y b => exact ⟨_, rfl⟩
  | kwxy kw x y hp =>
    rcases perm_pair hp with rfl | rfl <;> simp [Returns, newVector, List.lookup]
  | kwra kw r t ht hp =>
    rcases perm_pair hp with rfl | rfl <;> rcases ht with ⟨t, rfl⟩ | ⟨t, rfl⟩ <;>
      simp [Returns, newVector, List.lookup, toAngle, newAngle, PyVal.mul, bind, Except.bind]

theorem C94_line_documented {args} (h : LineDoc args) : Returns (newLine args []) := by
  cases h with
  | abc a b c => exact ⟨_, (C94_line_value a b c 0 .zero .zero .default ⟨0, 0, 0⟩).1⟩
  | dir p d hd =>
    rcases hd with ⟨t, rfl⟩ | ⟨a, rfl⟩
    · exact ⟨_, (C94_line_value 0 0 0 t p .zero .default ⟨0, 0, 0⟩).2.2.1⟩
    · exact ⟨_, (C94_line_value 0 0 0 0 p .zero a ⟨0, 0, 0⟩).2.1⟩
  | points p q => exact ⟨_, (C94_line_value 0 0 0 0 p q .default ⟨0, 0, 0⟩).2.2.2.1⟩
  | copy l => exact ⟨_, (C94_line_value 0 0 0 0 .zero .zero .default l).2.2.2.2⟩

theorem C94_segment_documented {args} (h : SegmentDoc args) : Returns (newSegment args) := by
  cases h with
  | none => exact ⟨_, (C94_segment_value 0 0 0 0 0 0 .zero .zero .default).1⟩
  | points p q => exact ⟨_, (C94_segment_value 0 0 0 0 0 0 p q .default).2.1⟩
  | polar p m d hd =>
    rcases hd with ⟨t, rfl⟩ | ⟨a, rfl⟩
    · exact ⟨_, (C94_segment_value 0 0 0 0 m t p .zero .default).2.2.2.1⟩
    · exact ⟨_, (C94_segment_value 0 0 0 0 m 0 p .zero a).2.2.1⟩
  | four a b c d => exact ⟨_, (C94_segment_value a b c d 0 0 .zero .zero .default).2.2.2.2⟩

theorem C94_ray_documented {args} (h : RayDoc args) : Returns (newRay args) := by
  cases h with
  | points p q => exact ⟨_, (C94_ray_value 0 p q .default).1⟩
  | dir p d hd =>
    rcases hd with ⟨t, rfl⟩ | ⟨a, rfl⟩
    · exact ⟨_, (C94_ray_value t p .zero .default).2.2⟩
    · exact ⟨_, (C94_ray_value 0 p .zero a).2.1⟩

theorem C94_rect_documented {args} (h : RectDoc args) : Returns (newRect args) := by
  cases h with
  | four a b c d => exact ⟨_, (C94_rect_value a b c d .zero .zero ⟨0, 0⟩ ⟨.zero, ⟨0, 0⟩⟩).1⟩
  | three p l w => exact ⟨_, (C94_rect_value 0 0 l w p .zero ⟨0, 0⟩ ⟨.zero, ⟨0, 0⟩⟩).2.1⟩
  | size p s => exact ⟨_, (C94_rect_value 0 0 0 0 p .zero s ⟨.zero, ⟨0, 0⟩⟩).2.2.1⟩
  | points p q => exact ⟨_, (C94_rect_value 0 0 0 0 p q ⟨0, 0⟩ ⟨.zero, ⟨0, 0⟩⟩).2.2.2.1⟩
  | copy r => exact ⟨_, (C94_rect_value 0 0 0 0 .zero .zero ⟨0, 0⟩ r).2.2.2.2⟩

/-! ## Positional arguments only: everything undocumented raises (except for `Rect2D`) -/

/-- `Vector2D(*args)`: the documented shapes are exactly the accepted ones, for every list of values. -/
theorem C94_vector_positional_partial (args : List (PyVal ℝ)) :
    Returns (newVector args []) ↔ VectorDoc args [] := by
  refine ⟨?_, C94_vector_documented⟩
  rintro ⟨w, hw⟩
  match args, hw with
  | [], _ => exact .none
  | [.vec x y b], _ => exact .copy x y b
  | [.num x, .num y], _ => exact .xy x y
  | [.num _, .angle _], h | [.num _, .vec _ _ _], h | [.num _, .line _ _ _], h | [.num _, .size _], h
  | [.num _, .seg _ _], h | [.num _, .ray _ _], h | [.num _, .rect _ _], h | [.num _, .circle _ _], h
  | [.num _, .tri _ _ _], h | [.num _, .other _], h => cases h
  | [.angle _, _], h | [.vec _ _ _, _], h | [.line _ _ _, _], h | [.size _, _], h
  | [.seg _ _, _], h | [.ray _ _, _], h | [.rect _ _, _], h | [.circle _ _, _], h
  | [.tri _ _ _, _], h | [.other _, _], h => cases h
  | [.num _], h | [.angle _], h | [.line _ _ _], h | [.size _], h
  | [.seg _ _], h | [.ray _ _], h | [.rect _ _], h | [.circle _ _], h
  | [.tri _ _ _], h | [.other _], h => cases h
  | _ :: _ :: _ :: _, h => simp [newVector] at h

/-- `AngleDeg(*args)`: the documented shapes are exactly the accepted ones. -/
theorem C94_angle_positional_partial (args : List (PyVal ℝ)) :
    Returns (newAngle args []) ↔ AngleDoc args [] := by
  refine ⟨?_, C94_angle_documented⟩
  rintro ⟨w, hw⟩
  match args, hw with
  | [], _ => exact .none
  | [.num x], _ => exact .dir _ (.inl ⟨x, rfl⟩)
  | [.angle a], _ => exact .dir _ (.inr ⟨a, rfl⟩)
  | [.vec _ _ _], h | [.line _ _ _], h | [.size _], h
  | [.seg _ _], h | [.ray _ _], h | [.rect _ _], h | [.circle _ _], h
  | [.tri _ _ _], h | [.other _], h => cases h
  | _ :: _ :: _, h => simp [newAngle] at h

theorem newVector_one {p w : PyVal ℝ} (h : newVector [p] [] = .ok w) :
    ∃ x y b, p = .vec x y b ∧ w = .vec x y true := by
  cases p <;> simp [newVector] at h
  exact ⟨_, _, _, rfl, h.symm⟩

theorem vec2_ok {u v w : PyVal ℝ} (h : vec2 u v = .ok w) :
    ∃ x y, u = .num x ∧ v = .num y ∧ w = .vec (.num x) (.num y) true := by
  cases u <;> cases v <;> simp [vec2] at h
  exact ⟨_, _, rfl, rfl, h.symm⟩

theorem toAngle_ok {t : PyVal ℝ} {a : AngleDeg ℝ} (h : toAngle t = .ok a) : IsDir t := by
  cases t <;> simp [toAngle, newAngle] at h
  · exact .inl ⟨_, rfl⟩
  · exact .inr ⟨_, rfl⟩

theorem bind_ok {α β : Type} {e : Except PyErr α} {f : α → Except PyErr β} {b : β} (h : (e >>= f) = .ok b) :
    ∃ a, e = .ok a ∧ f a = .ok b := by
  cases e with
  | error e => cases h
  | ok a => exact ⟨a, rfl, h⟩

theorem mul_num_ok {m : PyVal ℝ} {c r : ℝ} (h : PyVal.mul m (.num c) = .ok (.num r)) : ∃ x, m = .num x := by
  cases m <;> simp [PyVal.mul] at h
  · exact ⟨_, rfl⟩
  · obtain ⟨u, -, h⟩ := bind_ok h
    obtain ⟨v, -, h⟩ := bind_ok h
    obtain ⟨_, _, _, _, h⟩ := vec2_ok h
    cases h

theorem fromPolar_ok {m d w : PyVal ℝ} (h : fromPolar m d = .ok w) : (∃ x, m = .num x) ∧ IsDir d := by
  obtain ⟨a, ha, h⟩ := bind_ok h
  obtain ⟨u, hu, h⟩ := bind_ok h
  obtain ⟨v, hv, h⟩ := bind_ok h
  obtain ⟨x, y, rfl, rfl, -⟩ := vec2_ok h
  exact ⟨mul_num_ok hu, toAngle_ok ha⟩

/-- `Line2D(*args)` on well-formed objects: the documented shapes are exactly the accepted ones. -/
theorem C94_line_positional_partial (args : List (PyVal ℝ)) (hwf : ∀ v ∈ args, WellFormed v) :
    Returns (newLine args []) ↔ LineDoc args := by
  refine ⟨?_, C94_line_documented⟩
  rintro ⟨w, hw⟩
  simp only [newLine, List.length_nil, if_true] at hw
  split at hw
  · exact .abc _ _ _
  · obtain ⟨v, hv⟩ := hwf _ List.mem_cons_self
    rw [hv]; exact .dir v _ (.inr ⟨_, rfl⟩)
  · obtain ⟨v, hv⟩ := hwf _ List.mem_cons_self
    rw [hv]; exact .dir v _ (.inl ⟨_, rfl⟩)
  · obtain ⟨v, hv⟩ := hwf _ List.mem_cons_self
    obtain ⟨u, hu⟩ := hwf _ (List.mem_cons_of_mem _ List.mem_cons_self)
    rw [hv, hu]; exact .points v u
  · obtain ⟨v, hv⟩ := hwf _ List.mem_cons_self
    rw [hv]; exact .copy v
  · cases hw

/-- `Segment2D(*args)` on well-formed objects: the documented shapes are exactly the accepted ones. -/
theorem C94_segment_positional_partial (args : List (PyVal ℝ)) (hwf : ∀ v ∈ args, WellFormed v) :
    Returns (newSegment args) ↔ SegmentDoc args := by
  refine ⟨?_, C94_segment_documented⟩
  rintro ⟨w, hw⟩
  unfold newSegment at hw
  split at hw
  · rename_i p q
    obtain ⟨o, ho, hw⟩ := bind_ok hw
    obtain ⟨t, ht, hw⟩ := bind_ok hw
    obtain ⟨x, y, b, rfl, -⟩ := newVector_one ho
    obtain ⟨x', y', b', rfl, -⟩ := newVector_one ht
    obtain ⟨v, hv⟩ := hwf _ List.mem_cons_self
    obtain ⟨u, hu⟩ := hwf _ (List.mem_cons_of_mem _ List.mem_cons_self)
    rw [hv, hu]; exact .points v u
  · obtain ⟨o, ho, hw⟩ := bind_ok hw
    obtain ⟨f, hf, hw⟩ := bind_ok hw
    obtain ⟨x, y, b, rfl, -⟩ := newVector_one ho
    obtain ⟨⟨m, rfl⟩, hd⟩ := fromPolar_ok hf
    obtain ⟨v, hv⟩ := hwf _ List.mem_cons_self
    rw [hv]; exact .polar v m _ hd
  · obtain ⟨o, ho, hw⟩ := bind_ok hw
    obtain ⟨t, ht, hw⟩ := bind_ok hw
    obtain ⟨_, _, rfl, rfl, -⟩ := vec2_ok ho
    obtain ⟨_, _, rfl, rfl, -⟩ := vec2_ok ht
    exact .four _ _ _ _
  · exact .none
  · cases hw

/-- `Ray2D(*args)` on well-formed objects: the documented shapes are exactly the accepted ones. -/
theorem C94_ray_positional_partial (args : List (PyVal ℝ)) (hwf : ∀ v ∈ args, WellFormed v) :
    Returns (newRay args) ↔ RayDoc args := by
  refine ⟨?_, C94_ray_documented⟩
  rintro ⟨w, hw⟩
  unfold newRay at hw
  split at hw
  · obtain ⟨o, ho, hw⟩ := bind_ok hw
    obtain ⟨x, y, b, rfl, -⟩ := newVector_one ho
    obtain ⟨v, hv⟩ := hwf _ List.mem_cons_self
    rw [hv]
    split at hw
    · obtain ⟨u, hu⟩ := hwf _ (List.mem_cons_of_mem _ List.mem_cons_self)
      rw [hu]; exact .points v u
    · exact .dir v _ (.inr ⟨_, rfl⟩)
    · exact .dir v _ (.inl ⟨_, rfl⟩)
    · cases hw
  · cases hw

theorem newSize_ok {l w : PyVal ℝ} {s : Size ℝ} (h : newSize l w = .ok s) : IsDir l ∧ IsDir w := by
  have key : ∀ {v : PyVal ℝ} {x : ℝ}, fabsOf v = .ok x → IsDir v := by
    intro v x h
    cases v <;> simp [fabsOf] at h
    · exact .inl ⟨_, rfl⟩
    · exact .inr ⟨_, rfl⟩
  obtain ⟨a, ha, h⟩ := bind_ok h
  obtain ⟨b, hb, h⟩ := bind_ok h
  exact ⟨key ha, key hb⟩

/-- `Rect2D(*args)` on well-formed objects: accepted are the documented shapes, the same shapes with `AngleDeg` objects
for the lengths, and a point with **any** second value. -/
theorem C94_rect_positional_partial (args : List (PyVal ℝ)) (hwf : ∀ v ∈ args, WellFormed v) :
    Returns (newRect args) ↔
      RectDoc args ∨
      (∃ a b l w, args = [.num a, .num b, l, w] ∧ IsDir l ∧ IsDir w) ∨
      (∃ p l w, args = [vecVal p, l, w] ∧ IsDir l ∧ IsDir w) ∨
      (∃ p v, args = [vecVal p, v]) := by
  constructor
  · rintro ⟨w, hw⟩
    unfold newRect at hw
    split at hw
    · obtain ⟨o, ho, hw⟩ := bind_ok hw
      obtain ⟨s, hs, hw⟩ := bind_ok hw
      obtain ⟨x, y, rfl, rfl, -⟩ := vec2_ok ho
      exact .inr (.inl ⟨x, y, _, _, rfl, newSize_ok hs⟩)
    · obtain ⟨o, ho, hw⟩ := bind_ok hw
      obtain ⟨s, hs, hw⟩ := bind_ok hw
      obtain ⟨x, y, b, rfl, -⟩ := newVector_one ho
      obtain ⟨v, hv⟩ := hwf _ List.mem_cons_self
      rw [hv]
      exact .inr (.inr (.inl ⟨v, _, _, rfl, newSize_ok hs⟩))
    · obtain ⟨o, ho, hw⟩ := bind_ok hw
      obtain ⟨x, y, b, rfl, -⟩ := newVector_one ho
      obtain ⟨v, hv⟩ := hwf _ List.mem_cons_self
      rw [hv]
      exact .inr (.inr (.inr ⟨v, _, rfl⟩))
    · obtain ⟨o, ho, hw⟩ := bind_ok hw
      obtain ⟨x, y, b, rfl, -⟩ := newVector_one ho
      obtain ⟨v, hv⟩ := hwf _ List.mem_cons_self
      rw [hv]
      exact .inr (.inr (.inr ⟨v, _, rfl⟩))
    · obtain ⟨v, hv⟩ := hwf _ List.mem_cons_self
      rw [hv]
      exact .inl (.copy v)
    · cases hw
  · rintro (h | ⟨a, b, l, w, rfl, ⟨x, rfl⟩ | ⟨x, rfl⟩, ⟨y, rfl⟩ | ⟨y, rfl⟩⟩ |
      ⟨p, l, w, rfl, ⟨x, rfl⟩ | ⟨x, rfl⟩, ⟨y, rfl⟩ | ⟨y, rfl⟩⟩ | ⟨p, v, rfl⟩)
    · exact C94_rect_documented h
    · exact ⟨_, rfl⟩
    · exact ⟨_, rfl⟩
    · exact ⟨_, rfl⟩
    · exact ⟨_, rfl⟩
    · exact ⟨_, rfl⟩
    · exact ⟨_, rfl⟩
    · exact ⟨_, rfl⟩
    · exact ⟨_, rfl⟩
    · match v, hwf v (List.mem_cons_of_mem _ List.mem_cons_self) with
      | .vec x y b, ⟨u, hu⟩ => rw [hu]; exact C94_rect_documented (.points p u)
      | .num _, _ | .angle _, _ | .line _ _ _, _ | .size _, _ | .seg _ _, _ | .ray _ _, _ | .rect _ _, _
      | .circle _ _, _ | .tri _ _ _, _ | .other _, _ => exact ⟨_, rfl⟩

/-! ## Refutations: undocumented shapes that are accepted -/

/-- `Rect2D(point, v)` accepts every value `v` that is not a point and stores it as the size. -/
theorem C94_rect_refuted (p : Vec ℝ) (v : PyVal ℝ) (hv : ∀ x y b, v ≠ .vec x y b) :
    newRect [vecVal p, v] = .ok (.rect (vecVal (Vec.ofVec p)) v) := by
  cases v with
  | vec x y b => exact absurd rfl (hv x y b)
  | _ => rfl

/-- `Vector2D(*args, x=u, y=v)` accepts every `args`, `u`, `v`. -/
theorem C94_vector_refuted (args : List (PyVal ℝ)) (u v : PyVal ℝ) :
    newVector args [("x", u), ("y", v)] = .ok (.vec u v true) := by
  simp [newVector, List.lookup]

/-- `AngleDeg(x, **kw)` accepts every keyword list, and `AngleDeg(u, v, af=x)` ignores `u` and `v`. -/
theorem C94_angle_refuted (x : ℝ) (u v : PyVal ℝ) (kw : List (String × PyVal ℝ)) :
    newAngle [.num x] kw = .ok (AngleDeg.ofNum x) ∧
      newAngle [u, v] [("af", .num x)] = .ok (AngleDeg.ofNum x) := by
  constructor
  · rfl
  · simp [newAngle, List.lookup]

/-- `Line2D(*args, a=u, b=v, c=w, **kw)` accepts everything. -/
theorem C94_line_refuted (args : List (PyVal ℝ)) (u v w : PyVal ℝ) (kw : List (String × PyVal ℝ)) :
    newLine args (("a", u) :: ("b", v) :: ("c", w) :: kw) = .ok (.line u v w) := by
  simp [newLine, List.lookup]

/-- The claim as stated fails for four of the six classes; here are calls with junk that return. -/
theorem C94_refuted :
    ¬ ((∀ args, (∀ v ∈ args, WellFormed v) → Returns (newRect args) → RectDoc args) ∨
       (∀ args kw, Returns (newVector args kw) → VectorDoc args kw) ∨
       (∀ args kw, Returns (newAngle args kw) → AngleDoc args kw)) := by
  rintro (h | h | h)
  · have := h [vecVal .zero, .other 0]
      (by simp only [List.mem_cons, List.not_mem_nil, or_false]
          rintro v (rfl | rfl)
          · exact ⟨_, rfl⟩
          · trivial)
      ⟨_, C94_rect_refuted .zero _ (by intros; simp)⟩
    generalize hl : ([vecVal Vec.zero, .other 0] : List (PyVal ℝ)) = l at this
    cases this <;> simp [vecVal] at hl
  · have := h [.other 0] [("x", .other 1), ("y", .other 2)] ⟨_, C94_vector_refuted _ _ _⟩
    generalize hl : ([.other 0] : List (PyVal ℝ)) = l at this
    generalize hk : ([("x", .other 1), ("y", .other 2)] : List (String × PyVal ℝ)) = k at this
    cases this <;> simp at hl hk
  · have := h [.num 5] [("foo", .other 1)] ⟨_, (C94_angle_refuted 5 (.other 0) (.other 0) _).1⟩
    generalize hl : ([("foo", .other 1)] : List (String × PyVal ℝ)) = l at this
    cases this <;> simp at hl

theorem mul_returns (r : PyVal ℝ) (c : ℝ) :
    Returns (PyVal.mul r (.num c)) ↔ IsDir r ∨ ∃ v : Vec ℝ, r = vecVal v := by
  constructor
  · rintro ⟨w, h⟩
    cases r with
    | num x => exact .inl (.inl ⟨x, rfl⟩)
    | angle a => exact .inl (.inr ⟨a, rfl⟩)
    | vec x y b =>
      simp only [PyVal.mul] at h
      obtain ⟨u, hu, h⟩ := bind_ok h
      obtain ⟨v, hv, h⟩ := bind_ok h
      obtain ⟨_, _, rfl, rfl, -⟩ := vec2_ok h
      obtain ⟨x, rfl⟩ := mul_num_ok hu
      obtain ⟨y, rfl⟩ := mul_num_ok hv
      exact .inr ⟨⟨x, y, b⟩, rfl⟩
    | _ => simp [PyVal.mul] at h
  · rintro ((⟨x, rfl⟩ | ⟨a, rfl⟩) | ⟨v, rfl⟩) <;> exact ⟨_, rfl⟩

theorem polar_returns (r t : PyVal ℝ) :
    Returns (do
        let t ← toAngle t
        let x ← PyVal.mul r (.num t.cos)
        let y ← PyVal.mul r (.num t.sin)
        .ok (.vec x y true) : Except PyErr (PyVal ℝ)) ↔
      IsDir t ∧ (IsDir r ∨ ∃ v : Vec ℝ, r = vecVal v) := by
  constructor
  · rintro ⟨w, h⟩
    obtain ⟨a, ha, h⟩ := bind_ok h
    obtain ⟨u, hu, h⟩ := bind_ok h
    exact ⟨toAngle_ok ha, (mul_returns r _).mp ⟨_, hu⟩⟩
  · rintro ⟨ht, hr⟩
    have : ∃ a, toAngle t = .ok a := by
      rcases ht with ⟨x, rfl⟩ | ⟨a, rfl⟩ <;> exact ⟨_, rfl⟩
    obtain ⟨a, ha⟩ := this
    obtain ⟨u, hu⟩ := (mul_returns r a.cos).mpr hr
    obtain ⟨v, hv⟩ := (mul_returns r a.sin).mpr hr
    exact ⟨.vec u v true, by simp [ha, hu, hv, bind, Except.bind]⟩

/-- Exactly which keyword calls `Vector2D` accepts: two keywords, named `x` and `y` with any values, or named `r` and
`a` with a direction for `a` and a number, an `AngleDeg` or a vector for `r`; the positional arguments are ignored. -/
theorem C94_vector_keywords_partial (args : List (PyVal ℝ)) (kw : List (String × PyVal ℝ)) (hkw : kw ≠ [])
    (hnd : (kw.map Prod.fst).Nodup) :
    Returns (newVector args kw) ↔
      (∃ u v, kw.Perm [("x", u), ("y", v)]) ∨
      (∃ r t, kw.Perm [("r", r), ("a", t)] ∧ IsDir t ∧ (IsDir r ∨ ∃ v : Vec ℝ, r = vecVal v)) := by
  match kw, hkw with
  | [a], _ =>
    constructor
    · rintro ⟨w, hw⟩; simp [newVector] at hw
    · rintro (⟨u, v, h⟩ | ⟨r, t, h, -⟩) <;> simpa using h.length_eq
  | a :: b :: c :: l, _ =>
    constructor
    · rintro ⟨w, hw⟩; simp [newVector] at hw
    · rintro (⟨u, v, h⟩ | ⟨r, t, h, -⟩) <;> simpa using h.length_eq
  | [(k1, v1), (k2, v2)], _ =>
    have hne : k1 ≠ k2 := by simpa using hnd
    constructor
    · intro hret
      simp only [newVector, List.length_cons, List.length_nil, Nat.reduceAdd, OfNat.ofNat_ne_zero, if_true, if_false]
        at hret
      split at hret
      · rename_i x y hx hy
        left
        by_cases h1 : "x" = k1
        · subst h1
          have h2 : "y" = k2 := by
            by_contra h2
            simp [List.lookup, beq_false_of_ne h2] at hy
          subst h2
          exact ⟨_, _, .refl _⟩
        · have h2 : "x" = k2 := by
            by_contra h2
            simp [List.lookup, beq_false_of_ne h1, beq_false_of_ne h2] at hx
          subst h2
          have h3 : "y" = k1 := by
            by_contra h3
            simp [List.lookup, beq_false_of_ne h3] at hy
          subst h3
          exact ⟨_, _, List.Perm.swap _ _ _⟩
      · split at hret
        · rename_i r t hr ht
          right
          rw [polar_returns] at hret
          refine ⟨r, t, ?_, hret⟩
          by_cases h1 : "r" = k1
          · subst h1
            have h2 : "a" = k2 := by
              by_contra h2
              simp [List.lookup, beq_false_of_ne h2] at ht
            subst h2
            simp [List.lookup] at hr ht
            subst hr ht
            exact .refl _
          · have h2 : "r" = k2 := by
              by_contra h2
              simp [List.lookup, beq_false_of_ne h1, beq_false_of_ne h2] at hr
            subst h2
            have h3 : "a" = k1 := by
              by_contra h3
              simp [List.lookup, beq_false_of_ne h3] at ht
            subst h3
            simp [List.lookup] at hr ht
            subst hr ht
            exact List.Perm.swap _ _ _
        · obtain ⟨_, h⟩ := hret; cases h
    · rintro (⟨u, v, h⟩ | ⟨r, t, h, ht⟩)
      · rcases perm_pair h with h | h <;> rw [h] <;> simp [Returns, newVector, List.lookup]
      · have := (polar_returns r t).mpr ⟨ht.1, ht.2⟩
        rcases perm_pair h with h | h <;> rw [h] <;> simpa [newVector, List.lookup] using this

/-- Exactly which calls `AngleDeg` accepts: nothing at all, one direction with any keywords, or any other number of
positional arguments with a number under the keyword `af`. -/
theorem C94_angle_keywords_partial (args : List (PyVal ℝ)) (kw : List (String × PyVal ℝ)) :
    Returns (newAngle args kw) ↔
      (args = [] ∧ kw = []) ∨ (∃ d, args = [d] ∧ IsDir d) ∨
      (args.length ≠ 1 ∧ ∃ x, kw.lookup "af" = some (.num x)) := by
  constructor
  · rintro ⟨w, h⟩
    unfold newAngle at h
    split at h
    · exact .inl ⟨rfl, rfl⟩
    · exact .inr (.inl ⟨_, rfl, .inr ⟨_, rfl⟩⟩)
    · exact .inr (.inl ⟨_, rfl, .inl ⟨_, rfl⟩⟩)
    · cases h
    · rename_i h1 h2 h3 h4
      split at h
      · rename_i x hx
        refine .inr (.inr ⟨?_, x, hx⟩)
        intro hl
        obtain ⟨d, rfl⟩ := List.length_eq_one_iff.mp hl
        first | exact h3 d rfl | exact h2 d rfl | exact h1 d rfl
      · cases h
      · cases h
  · rintro (⟨rfl, rfl⟩ | ⟨d, rfl, ⟨x, rfl⟩ | ⟨a, rfl⟩⟩ | ⟨hl, x, hx⟩)
    · exact ⟨_, rfl⟩
    · exact ⟨_, rfl⟩
    · exact ⟨_, rfl⟩
    · match args, kw, hl with
      | [], [], _ => simp at hx
      | [], k :: kw, _ => exact ⟨AngleDeg.ofNum x, by simp [newAngle, hx]⟩
      | _ :: _ :: _, kw, _ => exact ⟨AngleDeg.ofNum x, by simp [newAngle, hx]⟩

/-- The keyword forms of `Line2D` with well-formed values give the same line as the positional ones. -/
theorem C94_line_keywords_value (p q : Vec ℝ) (a : AngleDeg ℝ) (t : ℝ) (l : Line ℝ) (args : List (PyVal ℝ)) :
    newLine args [("p1", vecVal p), ("p2", vecVal q)] = .ok (lineVal (Line.ofPoints p q)) ∧
      newLine args [("p", vecVal p), ("a", .angle a)] = .ok (lineVal (Line.ofAngle p a)) ∧
      newLine args [("p", vecVal p), ("a", .num t)] = .ok (lineVal (Line.ofAngle p (AngleDeg.ofNum t))) ∧
      newLine args [("l", lineVal l)] = .ok (lineVal l) := by
  refine ⟨?_, ?_, ?_, ?_⟩ <;>
    simp [newLine, List.lookup, lineVal, vecVal, Line.ofAngle, Line.ofPoints, lineOfDir, lineOfPoints, lineOfLine,
      toAngle, newAngle, PyVal.mul, PyVal.sub, PyVal.neg, getX, getY, bind, Except.bind]

/-! ## Non-vacuity -/

example : Returns (newVector [.num 1, .num 2] ([] : List (String × PyVal ℝ))) := ⟨_, rfl⟩
example : ¬ Returns (newVector [.num 1, .other 3] ([] : List (String × PyVal ℝ))) := by
  rw [C94_vector_positional_partial]; intro h; cases h
example : ¬ Returns (newSegment [.num (1 : ℝ), .num 2, .num 3]) := by
  rw [C94_segment_positional_partial _ (by simp [WellFormed])]; intro h; generalize hl : [PyVal.num (1 : ℝ), .num 2, .num 3] = l at h; cases h <;> simp [vecVal] at hl

end PyrusGeom
