import Verif.Props.Constructors
import Verif.Props.Angle

/-!
# Operators on arbitrary values (C160)

`PyVal` has a value for every Python object (up to the simplifications named there), also vectors whose attributes are not
numbers.  The relations below say what an operator should return on which operands.
-/

namespace PyrusGeom
open Spec PyVal

/-- The angle is normalised and has the direction of `x` degrees. -/
def Spec.Points (c : AngleDeg ℝ) (x : ℝ) : Prop := -180 ≤ c.deg ∧ c.deg ≤ 180 ∧ AngleEq c.deg x

/-- Sums: numbers; an angle and a number or an angle (not a number and an angle); two vectors with numbers. -/
inductive Spec.IsSum : PyVal ℝ → PyVal ℝ → PyVal ℝ → Prop
  | num (x y : ℝ) : IsSum (.num x) (.num y) (.num (x + y))
  | turn (a c : AngleDeg ℝ) (y : ℝ) : Points c (a.deg + y) → IsSum (.angle a) (.num y) (.angle c)
  | angle (a b c : AngleDeg ℝ) : Points c (a.deg + b.deg) → IsSum (.angle a) (.angle b) (.angle c)
  | vec (v w : Vec ℝ) : IsSum (vecVal v) (vecVal w) (vecVal ⟨v.x + w.x, v.y + w.y, true⟩)

/-- Differences, for the same operands. -/
inductive Spec.IsDiff : PyVal ℝ → PyVal ℝ → PyVal ℝ → Prop
  | num (x y : ℝ) : IsDiff (.num x) (.num y) (.num (x - y))
  | turn (a c : AngleDeg ℝ) (y : ℝ) : Points c (a.deg - y) → IsDiff (.angle a) (.num y) (.angle c)
  | angle (a b c : AngleDeg ℝ) : Points c (a.deg - b.deg) → IsDiff (.angle a) (.angle b) (.angle c)
  | vec (v w : Vec ℝ) : IsDiff (vecVal v) (vecVal w) (vecVal ⟨v.x - w.x, v.y - w.y, true⟩)

/-- Multiples: the factor is the right operand. -/
inductive Spec.IsMultiple : PyVal ℝ → PyVal ℝ → PyVal ℝ → Prop
  | num (x y : ℝ) : IsMultiple (.num x) (.num y) (.num (x * y))
  | angle (a c : AngleDeg ℝ) (y : ℝ) : Points c (a.deg * y) → IsMultiple (.angle a) (.num y) (.angle c)
  | vec (v : Vec ℝ) (y : ℝ) : IsMultiple (vecVal v) (.num y) (vecVal ⟨v.x * y, v.y * y, true⟩)

/-- Negatives: numbers and angles only, there is no `-v` for a vector. -/
inductive Spec.IsNegative : PyVal ℝ → PyVal ℝ → Prop
  | num (x : ℝ) : IsNegative (.num x) (.num (-x))
  | angle (a c : AngleDeg ℝ) : Points c (-a.deg) → IsNegative (.angle a) (.angle c)

theorem ofNum_points (x : ℝ) : Points (AngleDeg.ofNum x) x :=
  ⟨(AngleDeg.ofNum_normal x).1, (AngleDeg.ofNum_normal x).2, AngleDeg.ofNum_angleEq x⟩

theorem add_num {u v : PyVal ℝ} {r : ℝ} (h : PyVal.add u v = .ok (.num r)) : ∃ x y, u = .num x ∧ v = .num y ∧ r = x + y := by
  cases u <;> cases v <;> simp only [PyVal.add, reduceCtorEq, Except.ok.injEq, PyVal.num.injEq] at h
  · exact ⟨_, _, rfl, rfl, h.symm⟩
  · obtain ⟨_, _, h⟩ := bind_ok h
    obtain ⟨_, _, h⟩ := bind_ok h
    obtain ⟨_, _, _, _, h⟩ := vec2_ok h
    cases h

theorem sub_num {u v : PyVal ℝ} {r : ℝ} (h : PyVal.sub u v = .ok (.num r)) : ∃ x y, u = .num x ∧ v = .num y ∧ r = x - y := by
  cases u <;> cases v <;> simp only [PyVal.sub, reduceCtorEq, Except.ok.injEq, PyVal.num.injEq] at h
  · exact ⟨_, _, rfl, rfl, h.symm⟩
  · obtain ⟨_, _, h⟩ := bind_ok h
    obtain ⟨_, _, h⟩ := bind_ok h
    obtain ⟨_, _, _, _, h⟩ := vec2_ok h
    cases h

theorem mul_num {u v : PyVal ℝ} {r : ℝ} (h : PyVal.mul u v = .ok (.num r)) : ∃ x y, u = .num x ∧ v = .num y ∧ r = x * y := by
  cases u with
  | num x => cases v <;> simp only [PyVal.mul, reduceCtorEq, Except.ok.injEq, PyVal.num.injEq] at h; exact ⟨_, _, rfl, rfl, h.symm⟩
  | angle x => cases v <;> simp [PyVal.mul] at h
  | vec x y b =>
    simp only [PyVal.mul] at h
    obtain ⟨_, _, h⟩ := bind_ok h
    obtain ⟨_, _, h⟩ := bind_ok h
    obtain ⟨_, _, _, _, h⟩ := vec2_ok h
    cases h
  | _ => simp [PyVal.mul] at h

/-- **C160** `u + v` returns exactly on the operands of `IsSum`, and what it returns is the sum. -/
theorem C160_add (u v : PyVal ℝ) : (Returns (PyVal.add u v) ↔ ∃ w, IsSum u v w) ∧ ∀ w, PyVal.add u v = .ok w → IsSum u v w := by
  have val : ∀ w, PyVal.add u v = .ok w → IsSum u v w := by
    intro w h
    cases u <;> cases v <;> simp only [PyVal.add, reduceCtorEq, Except.ok.injEq] at h
    · subst h; exact .num _ _
    · subst h; exact .turn _ _ _ (ofNum_points _)
    · subst h
      obtain ⟨p1, p2, p3⟩ := ofNum_points (_ + AngleDeg.degree _)
      exact .angle _ _ _ ⟨p1, p2, p3.trans (AngleEq.add (AngleEq.refl _) (AngleDeg.degree_angleEq _))⟩
    · obtain ⟨p, hp, h⟩ := bind_ok h
      obtain ⟨q, hq, h⟩ := bind_ok h
      obtain ⟨x, y, rfl, rfl, rfl⟩ := vec2_ok h
      obtain ⟨_, _, rfl, rfl, rfl⟩ := add_num hp
      obtain ⟨_, _, rfl, rfl, rfl⟩ := add_num hq
      exact .vec ⟨_, _, _⟩ ⟨_, _, _⟩
  refine ⟨⟨fun ⟨w, hw⟩ => ⟨w, val w hw⟩, fun ⟨w, hw⟩ => ?_⟩, val⟩
  cases hw <;> exact ⟨_, rfl⟩

/-- **C160** `u - v` returns exactly on the operands of `IsDiff`, and what it returns is the difference. -/
theorem C160_sub (u v : PyVal ℝ) : (Returns (PyVal.sub u v) ↔ ∃ w, IsDiff u v w) ∧ ∀ w, PyVal.sub u v = .ok w → IsDiff u v w := by
  have val : ∀ w, PyVal.sub u v = .ok w → IsDiff u v w := by
    intro w h
    cases u <;> cases v <;> simp only [PyVal.sub, reduceCtorEq, Except.ok.injEq] at h
    · subst h; exact .num _ _
    · subst h; exact .turn _ _ _ (ofNum_points _)
    · subst h; exact .angle _ _ _ (ofNum_points _)
    · obtain ⟨p, hp, h⟩ := bind_ok h
      obtain ⟨q, hq, h⟩ := bind_ok h
      obtain ⟨x, y, rfl, rfl, rfl⟩ := vec2_ok h
      obtain ⟨_, _, rfl, rfl, rfl⟩ := sub_num hp
      obtain ⟨_, _, rfl, rfl, rfl⟩ := sub_num hq
      exact .vec ⟨_, _, _⟩ ⟨_, _, _⟩
  refine ⟨⟨fun ⟨w, hw⟩ => ⟨w, val w hw⟩, fun ⟨w, hw⟩ => ?_⟩, val⟩
  cases hw <;> exact ⟨_, rfl⟩

/-- **C160** `u * v` returns exactly on the operands of `IsMultiple`, and what it returns is the multiple. -/
theorem C160_mul (u v : PyVal ℝ) :
    (Returns (PyVal.mul u v) ↔ ∃ w, IsMultiple u v w) ∧ ∀ w, PyVal.mul u v = .ok w → IsMultiple u v w := by
  have val : ∀ w, PyVal.mul u v = .ok w → IsMultiple u v w := by
    intro w h
    cases u with
    | num x => cases v <;> simp only [PyVal.mul, reduceCtorEq, Except.ok.injEq] at h; subst h; exact .num _ _
    | angle a =>
      cases v <;> simp only [PyVal.mul, reduceCtorEq, Except.ok.injEq] at h; subst h; exact .angle _ _ _ (ofNum_points _)
    | vec x y b =>
      simp only [PyVal.mul] at h
      obtain ⟨p, hp, h⟩ := bind_ok h
      obtain ⟨q, hq, h⟩ := bind_ok h
      obtain ⟨x, y, rfl, rfl, rfl⟩ := vec2_ok h
      obtain ⟨_, _, rfl, rfl, rfl⟩ := mul_num hp
      obtain ⟨_, _, rfl, e, rfl⟩ := mul_num hq
      obtain rfl := PyVal.num.inj e
      exact .vec ⟨_, _, _⟩ _
    | _ => simp [PyVal.mul] at h
  refine ⟨⟨fun ⟨w, hw⟩ => ⟨w, val w hw⟩, fun ⟨w, hw⟩ => ?_⟩, val⟩
  cases hw <;> exact ⟨_, rfl⟩

/-- **C160** `-u`, and `math.fabs(u)`, which takes an angle for its degrees. -/
theorem C160_neg_fabs (u : PyVal ℝ) :
    (Returns (PyVal.neg u) ↔ ∃ w, IsNegative u w) ∧ (∀ w, PyVal.neg u = .ok w → IsNegative u w) ∧
    (Returns (fabsOf u) ↔ IsDir u) ∧ (∀ x : ℝ, fabsOf (.num x) = .ok |x|) ∧ ∀ a : AngleDeg ℝ, fabsOf (.angle a) = .ok |a.degree| := by
  have val : ∀ w, PyVal.neg u = .ok w → IsNegative u w := by
    intro w h
    cases u <;> simp only [PyVal.neg, reduceCtorEq, Except.ok.injEq] at h
    · subst h; exact .num _
    · subst h; exact .angle _ _ (ofNum_points _)
  refine ⟨⟨fun ⟨w, hw⟩ => ⟨w, val w hw⟩, fun ⟨w, hw⟩ => ?_⟩, val, ?_, fun x => ?_, fun a => ?_⟩
  · cases hw <;> exact ⟨_, rfl⟩
  · cases u <;> simp [fabsOf, Returns, IsDir]
  · simp [fabsOf, fabs_real]
  · simp [fabsOf, fabs_real]

/-- `AngleDeg(170) + 20` is -170 degrees; `20 + AngleDeg(170)` raises. -/
example : (∃ w, PyVal.add (.angle ⟨170⟩) (.num (20 : ℝ)) = .ok w ∧ IsSum (.angle ⟨170⟩) (.num (20 : ℝ)) w ∧ w = .angle ⟨-170⟩) ∧
    ¬ Returns (PyVal.add (.num (20 : ℝ)) (.angle ⟨170⟩)) := by
  constructor
  · obtain ⟨c, hc⟩ : ∃ c, PyVal.add (.angle ⟨170⟩) (.num (20 : ℝ)) = .ok (.angle c) := ⟨_, rfl⟩
    refine ⟨_, hc, (C160_add _ _).2 _ hc, ?_⟩
    have := (C160_add _ _).2 _ hc
    cases this with
    | turn _ _ _ hp =>
      obtain ⟨p1, p2, p3⟩ := hp
      have e : c.deg = -170 := by
        obtain ⟨k, hk⟩ := p3
        norm_num at hk
        have h1 : (-2 : ℝ) < k := by linarith
        have h2 : (k : ℝ) < 0 := by linarith
        have : k = -1 := by
          have a1 : -2 < k := by exact_mod_cast h1
          have a2 : k < 0 := by exact_mod_cast h2
          omega
        subst this; push_cast at hk; linarith
      congr 1; ext; exact e
  · rw [(C160_add _ _).1]; rintro ⟨w, hw⟩; cases hw

end PyrusGeom
