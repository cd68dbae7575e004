import Verif.Props.Constructors
import Verif.Model.Circle

/-! # C145: which arguments `Circle2D` and `Triangle2D` accept -/

namespace PyrusGeom
open PyVal Spec

namespace Spec

/-- The Python value of a `Circle2D` with a well-formed center. -/
def circleVal (c : Circle ℝ) : PyVal ℝ := .circle (vecVal c.center) c.radius

/-- The argument lists named by the error message of `Triangle2D`: three points, or a segment and a point. -/
inductive TriDoc : List (PyVal ℝ) → Prop
  | points (a b c : Vec ℝ) : TriDoc [vecVal a, vecVal b, vecVal c]
  | segment (s : Seg ℝ) (c : Vec ℝ) : TriDoc [segVal s, vecVal c]

end Spec

/-- **C145** On the documented arguments the constructors return the circle and the triangle made of them; the flags of
the points are not taken over and a negative radius becomes `0`. -/
theorem C145_value (p a b c : Vec ℝ) (r : ℝ) (s : Seg ℝ) :
    newCircle (vecVal p) (.num r) = .ok (circleVal ⟨Vec.ofXY p.x p.y, max r 0⟩) ∧
    newTriangle [vecVal a, vecVal b, vecVal c] = .ok (triVal ⟨Vec.ofXY a.x a.y, Vec.ofXY b.x b.y, Vec.ofXY c.x c.y⟩) ∧
    newTriangle [segVal s, vecVal c] =
      .ok (triVal ⟨Vec.ofXY s.origin.x s.origin.y, Vec.ofXY s.terminal.x s.terminal.y, Vec.ofXY c.x c.y⟩) := by
  refine ⟨?_, ?_, ?_⟩
  · have : (if r < 0 then (0 : ℝ) else r) = max r 0 := by
      split
      · rw [max_eq_right (by linarith)]
      · rw [max_eq_left (by linarith)]
    simp [newCircle, newVector, vecVal, circleVal, Vec.ofXY, bind, Except.bind, this]
  · simp [newTriangle, newVector, vecVal, triVal, Vec.ofXY, bind, Except.bind]
  · simp [newTriangle, newVector, vecVal, triVal, segVal, origin_, terminal_, Vec.ofXY, bind, Except.bind]

/-- **C145** `Circle2D(center, radius)` returns exactly for a point and a number. -/
theorem C145_circle (c r : PyVal ℝ) (hc : WellFormed c) :
    Returns (newCircle c r) ↔ (∃ p : Vec ℝ, c = vecVal p) ∧ ∃ x, r = .num x := by
  constructor
  · rintro ⟨w, hw⟩
    unfold newCircle at hw
    obtain ⟨o, ho, hw⟩ := bind_ok hw
    obtain ⟨x, y, b, rfl, -⟩ := newVector_one ho
    refine ⟨hc, ?_⟩
    cases r <;> first | exact ⟨_, rfl⟩ | cases hw
  · rintro ⟨⟨p, rfl⟩, x, rfl⟩
    exact ⟨_, (C145_value p p p p x ⟨p, p⟩).1⟩

/-- **C145** `Triangle2D(*args)` returns exactly for three points, or a segment and a point. -/
theorem C145_triangle (args : List (PyVal ℝ)) (hwf : ∀ v ∈ args, WellFormed v) :
    Returns (newTriangle args) ↔ TriDoc args := by
  constructor
  · rintro ⟨w, hw⟩
    unfold newTriangle at hw
    split at hw
    · obtain ⟨o, ho, hw⟩ := bind_ok hw
      obtain ⟨t, ht, hw⟩ := bind_ok hw
      obtain ⟨u, hu, hw⟩ := bind_ok hw
      obtain ⟨x, y, b, rfl, -⟩ := newVector_one ho
      obtain ⟨x', y', b', rfl, -⟩ := newVector_one ht
      obtain ⟨x'', y'', b'', rfl, -⟩ := newVector_one hu
      obtain ⟨v1, h1⟩ := hwf _ List.mem_cons_self
      obtain ⟨v2, h2⟩ := hwf _ (List.mem_cons_of_mem _ List.mem_cons_self)
      obtain ⟨v3, h3⟩ := hwf _ (List.mem_cons_of_mem _ (List.mem_cons_of_mem _ List.mem_cons_self))
      rw [h1, h2, h3]; exact .points v1 v2 v3
    · rename_i s p
      obtain ⟨e, -, hw⟩ := bind_ok hw
      obtain ⟨o, ho, hw⟩ := bind_ok hw
      obtain ⟨e', he, hw⟩ := bind_ok hw
      obtain ⟨t, ht, hw⟩ := bind_ok hw
      obtain ⟨u, hu, hw⟩ := bind_ok hw
      obtain ⟨x, y, b, rfl, -⟩ := newVector_one hu
      obtain ⟨v2, h2⟩ := hwf _ (List.mem_cons_of_mem _ List.mem_cons_self)
      cases s with
      | seg o' t' =>
        obtain ⟨v1, h1⟩ := hwf _ List.mem_cons_self
        rw [h1, h2]; exact .segment v1 v2
      | _ => cases he
    · cases hw
  · intro h
    cases h with
    | points a b c => exact ⟨_, (C145_value a a b c 0 ⟨a, a⟩).2.1⟩
    | segment s c => exact ⟨_, (C145_value c c c c 0 s).2.2⟩

/-- **C145** The docstring of `Triangle2D` names three `float`s; they raise. -/
theorem C145_three_numbers (x y z : ℝ) : ∀ t, newTriangle [.num x, .num y, .num z] ≠ .ok t := by
  intro t ht
  have := (C145_triangle [.num x, .num y, .num z] (by
    simp only [List.mem_cons, List.not_mem_nil, or_false]
    rintro v (rfl | rfl | rfl) <;> trivial)).mp ⟨t, ht⟩
  generalize hl : ([.num x, .num y, .num z] : List (PyVal ℝ)) = l at this
  cases this <;> simp [vecVal] at hl

example : newCircle (vecVal ⟨1, 2, false⟩) (.num (-3 : ℝ)) = .ok (circleVal ⟨⟨1, 2, true⟩, 0⟩) := by
  rw [(C145_value ⟨1, 2, false⟩ ⟨1, 2, false⟩ ⟨1, 2, false⟩ ⟨1, 2, false⟩ (-3) ⟨⟨1, 2, false⟩, ⟨1, 2, false⟩⟩).1]
  norm_num [Vec.ofXY]

end PyrusGeom
