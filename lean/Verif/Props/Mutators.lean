import Verif.Model.Mutators
import Verif.Props.Operators

/-!
# In-place methods that raise (C161)

`Leaks m s`: the method raises and does not leave the object as it was.
-/

namespace PyrusGeom
open Spec PyVal

def Raises {σ : Type} (m : Body σ Unit) (s : σ) : Prop := ∃ e, (m s).2 = .error e

def Leaks {σ : Type} (m : Body σ Unit) (s : σ) : Prop := Raises m s ∧ (m s).1 ≠ s

/-- An `int` or `float`. -/
def IsNum : PyVal ℝ → Prop
  | .num _ => True
  | _ => False

/-- A value that `math.fabs` accepts. -/
def IsFloat : PyVal ℝ → Prop
  | .num _ | .angle _ => True
  | _ => False

/-- A `Vector2D`, whatever its coordinates hold. -/
def IsVec : PyVal ℝ → Prop
  | .vec _ _ _ => True
  | _ => False

/-- A vector object whose coordinates are numbers. -/
def DVec.of (v : Vec ℝ) : DVec ℝ := ⟨.num v.x, .num v.y, v.valid⟩

namespace Body
variable {σ α β : Type}

@[simp] theorem pure_apply (a : α) (s : σ) : (pure a : Body σ α) s = (s, .ok a) := rfl
theorem bind_apply (m : Body σ α) (f : α → Body σ β) (s : σ) : (m >>= f) s =
    match m s with
    | (t, .ok a) => f a t
    | (t, .error e) => (t, .error e) := rfl
@[simp] theorem eval_ok (a : α) (f : α → Body σ β) (s : σ) : (eval (.ok a) >>= f) s = f a s := rfl
@[simp] theorem eval_error (e : PyErr) (f : α → Body σ β) (s : σ) : (eval (.error e) >>= f) s = (s, .error e) := rfl
@[simp] theorem self_bind (f : σ → Body σ β) (s : σ) : (self >>= f) s = f s s := rfl
@[simp] theorem put_bind (g : σ → σ) (f : Unit → Body σ β) (s : σ) : (put g >>= f) s = f () (g s) := rfl
@[simp] theorem self_apply (s : σ) : self s = (s, .ok s) := rfl
@[simp] theorem eval_apply (e : Except PyErr α) (s : σ) : eval e s = (s, e) := rfl
@[simp] theorem put_apply (g : σ → σ) (s : σ) : put g s = (g s, .ok ()) := rfl
@[simp] theorem throw_apply (e : PyErr) (s : σ) : (throw e : Body σ α) s = (s, .error e) := rfl
@[simp] theorem throw_bind (e : PyErr) (f : α → Body σ β) (s : σ) : (throw e >>= f) s = (s, .error e) := rfl

end Body

@[simp] theorem except_ok_bind {α β : Type} (a : α) (f : α → Except PyErr β) : (Except.ok a >>= f) = f a := rfl
@[simp] theorem except_error_bind {α β : Type} (e : PyErr) (f : α → Except PyErr β) :
    ((Except.error e : Except PyErr α) >>= f) = .error e := rfl

open Body

theorem mul_returns_num (r : PyVal ℝ) (a b : ℝ) (h : Returns (PyVal.mul r (.num a))) : Returns (PyVal.mul r (.num b)) := by
  rw [(C160_mul _ _).1] at h ⊢
  obtain ⟨w, hw⟩ := h
  cases hw
  · exact ⟨_, .num _ _⟩
  · exact ⟨_, .angle _ _ _ (ofNum_points _)⟩
  · exact ⟨_, .vec _ _⟩

/-- **C161** These methods of a vector leave it as it was if they raise, whatever the arguments. -/
theorem C161_vector (v : Vec ℝ) (a b : PyVal ℝ) :
    ¬ Leaks (DVec.assign a b) (DVec.of v) ∧ ¬ Leaks (DVec.setX a) (DVec.of v) ∧ ¬ Leaks (DVec.setY a) (DVec.of v) ∧
    ¬ Leaks (DVec.setVector a) (DVec.of v) ∧ ¬ Leaks (DVec.setPolar a b) (DVec.of v) ∧ ¬ Leaks (DVec.addX a) (DVec.of v) ∧
    ¬ Leaks (DVec.addY a) (DVec.of v) ∧ ¬ Leaks (DVec.subX a) (DVec.of v) ∧ ¬ Leaks (DVec.subY a) (DVec.of v) ∧
    ¬ Leaks (DVec.scale a) (DVec.of v) ∧ ¬ Leaks DVec.reverse (DVec.of v) ∧ ¬ Leaks (DVec.setLength a) (DVec.of v) ∧
    ¬ Leaks (DVec.rotate a) (DVec.of v) ∧ ¬ Leaks (DVec.setDir a) (DVec.of v) := by
  have scale : ∀ c, ¬ Leaks (DVec.scale c) (DVec.of v) := by
    intro c
    cases c <;> simp [Leaks, Raises, DVec.scale, DVec.of, PyVal.mul]
  refine ⟨?_, ?_, ?_, ?_, ?_, ?_, ?_, ?_, ?_, scale a, scale _, ?_, ?_, ?_⟩
  · simp [Leaks, Raises, DVec.assign]
  · simp [Leaks, Raises, DVec.setX]
  · simp [Leaks, Raises, DVec.setY]
  · cases a <;> simp [Leaks, Raises, DVec.setVector, getX, getY]
  · unfold Leaks Raises DVec.setPolar
    cases hb : toAngle b with
    | error e => simp
    | ok t =>
      cases h1 : PyVal.mul a (.num t.cos) with
      | error e => simp [h1]
      | ok x =>
        obtain ⟨y, hy⟩ := mul_returns_num a t.cos t.sin ⟨x, h1⟩
        simp [h1, hy]
  · cases a <;> simp [Leaks, Raises, DVec.addX, DVec.of, PyVal.add]
  · cases a <;> simp [Leaks, Raises, DVec.addY, DVec.of, PyVal.add]
  · cases a <;> simp [Leaks, Raises, DVec.subX, DVec.of, PyVal.sub]
  · cases a <;> simp [Leaks, Raises, DVec.subY, DVec.of, PyVal.sub]
  · have hr : (DVec.of v).r = .ok v.r := by
      simp [DVec.r, DVec.of, PyVal.mul, PyVal.add, asNum, bind, Except.bind, Vec.r, Vec.r2]
    unfold DVec.setLength
    by_cases hm : (EPSILON : ℝ) < v.r
    · cases hd : divNum a v.r with
      | error e => simp [Leaks, Raises, hr, hm, hd]
      | ok c =>
        have := scale c
        simpa [Leaks, Raises, hr, hm, hd] using this
    · simp [Leaks, Raises, hr, hm]
  · have tail : ∀ c n : ℝ, ∃ t, (do
        let s ← self
        let u ← eval (PyVal.mul s.x (.num c))
        let v ← eval (PyVal.mul s.y (.num n))
        let a ← eval (PyVal.sub u v)
        let u ← eval (PyVal.mul s.x (.num n))
        let v ← eval (PyVal.mul s.y (.num c))
        let b ← eval (PyVal.add u v)
        DVec.assign a b : Body (DVec ℝ) Unit) (DVec.of v) = (t, .ok ()) := fun c n => ⟨_, rfl⟩
    unfold Leaks Raises DVec.rotate
    cases h1 : PyVal.mul (operand a) (.num (DEG2RAD : ℝ)) with
    | error e => simp [h1]
    | ok w =>
      cases h2 : asNum w with
      | error e => simp [h1, h2]
      | ok w =>
        obtain ⟨t, ht⟩ := tail (PyMath.cos w) (PyMath.sin w)
        simp only [h1, h2, eval_ok]
        rw [ht]; simp
  · have hr : (DVec.of v).r = .ok v.r := by
      simp [DVec.r, DVec.of, PyVal.mul, PyVal.add, asNum, bind, Except.bind, Vec.r, Vec.r2]
    cases hb : toAngle a <;> simp [Leaks, Raises, DVec.setDir, hb, hr]

theorem num_add_cases (a : ℝ) (y : PyVal ℝ) : (∃ b, y = .num b ∧ PyVal.add (.num a) y = .ok (.num (a + b))) ∨
    (¬ IsNum y ∧ PyVal.add (.num a) y = .error .typeError) := by
  cases y <;> simp [PyVal.add, IsNum]

theorem num_sub_cases (a : ℝ) (y : PyVal ℝ) : (∃ b, y = .num b ∧ PyVal.sub (.num a) y = .ok (.num (a - b))) ∨
    (¬ IsNum y ∧ PyVal.sub (.num a) y = .error .typeError) := by
  cases y <;> simp [PyVal.sub, IsNum]

theorem num_mul_cases (a : ℝ) (y : PyVal ℝ) : (∃ b, y = .num b ∧ PyVal.mul (.num a) y = .ok (.num (a * b))) ∨
    (¬ IsNum y ∧ PyVal.mul (.num a) y = .error .typeError) := by
  cases y <;> simp [PyVal.mul, IsNum]

theorem not_isNum {x : PyVal ℝ} (h : ¬ IsNum x) (a : ℝ) : x ≠ .num a := by
  rintro rfl; exact h trivial

theorem isNum_num (a : ℝ) : IsNum (.num a) := trivial

theorem addXY_leaks (v : Vec ℝ) (x y : PyVal ℝ) : Leaks (do DVec.addX x; DVec.addY y) (DVec.of v) ↔
    ∃ a, x = .num a ∧ a ≠ 0 ∧ ¬ IsNum y := by
  rcases num_add_cases v.x x with ⟨a, rfl, h1⟩ | ⟨h1, h2⟩
  · rcases num_add_cases v.y y with ⟨b, rfl, h3⟩ | ⟨h3, h4⟩
    · simp [Leaks, Raises, DVec.addX, DVec.addY, DVec.of, bind_apply, h1, h3, isNum_num]
    · simp [Leaks, Raises, DVec.addX, DVec.addY, DVec.of, bind_apply, h1, h3, h4]
  · simp [Leaks, Raises, DVec.addX, DVec.of, bind_apply, h2, not_isNum h1]

theorem subXY_leaks (v : Vec ℝ) (x y : PyVal ℝ) : Leaks (do DVec.subX x; DVec.subY y) (DVec.of v) ↔
    ∃ a, x = .num a ∧ a ≠ 0 ∧ ¬ IsNum y := by
  rcases num_sub_cases v.x x with ⟨a, rfl, h1⟩ | ⟨h1, h2⟩
  · rcases num_sub_cases v.y y with ⟨b, rfl, h3⟩ | ⟨h3, h4⟩
    · simp [Leaks, Raises, DVec.subX, DVec.subY, DVec.of, bind_apply, h1, h3, isNum_num]
    · simp [Leaks, Raises, DVec.subX, DVec.subY, DVec.of, bind_apply, h1, h3, h4]
  · simp [Leaks, Raises, DVec.subX, DVec.of, bind_apply, h2, not_isNum h1]

/-- **C161** `add` and `sub`, and `+=` and `-=`, do not: exactly if the first coordinate can be added, and is not zero, but
the second cannot. -/
theorem C161_vector_add (v : Vec ℝ) (args : List (PyVal ℝ)) (o : PyVal ℝ) :
    (Leaks (DVec.add args) (DVec.of v) ↔ (∃ a y b, args = [.vec (.num a) y b] ∧ a ≠ 0 ∧ ¬ IsNum y) ∨
      ∃ a y, args = [.num a, y] ∧ a ≠ 0 ∧ ¬ IsNum y) ∧
    (Leaks (DVec.sub args) (DVec.of v) ↔ (∃ a y b, args = [.vec (.num a) y b] ∧ a ≠ 0 ∧ ¬ IsNum y) ∨
      ∃ a y, args = [.num a, y] ∧ a ≠ 0 ∧ ¬ IsNum y) ∧
    (Leaks (DVec.iadd o) (DVec.of v) ↔ ∃ a y b, o = .vec (.num a) y b ∧ a ≠ 0 ∧ ¬ IsNum y) ∧
    (Leaks (DVec.isub o) (DVec.of v) ↔ ∃ a y b, o = .vec (.num a) y b ∧ a ≠ 0 ∧ ¬ IsNum y) := by
  have hadd : ∀ o : PyVal ℝ, Leaks (DVec.iadd o) (DVec.of v) ↔ ∃ a y b, o = .vec (.num a) y b ∧ a ≠ 0 ∧ ¬ IsNum y := by
    intro o
    cases o with
    | vec x y b =>
      have e : (DVec.iadd (.vec x y b) : Body (DVec ℝ) Unit) = (do DVec.addX x; DVec.addY y) := rfl
      rw [e, addXY_leaks]
      constructor
      · rintro ⟨a, rfl, h, h'⟩; exact ⟨a, y, b, rfl, h, h'⟩
      · rintro ⟨a, y', b', h, h1, h2⟩; cases h; exact ⟨a, rfl, h1, h2⟩
    | _ => simp [Leaks, Raises, DVec.iadd, getX]
  have hsub : ∀ o : PyVal ℝ, Leaks (DVec.isub o) (DVec.of v) ↔ ∃ a y b, o = .vec (.num a) y b ∧ a ≠ 0 ∧ ¬ IsNum y := by
    intro o
    cases o with
    | vec x y b =>
      have e : (DVec.isub (.vec x y b) : Body (DVec ℝ) Unit) = (do DVec.subX x; DVec.subY y) := rfl
      rw [e, subXY_leaks]
      constructor
      · rintro ⟨a, rfl, h, h'⟩; exact ⟨a, y, b, rfl, h, h'⟩
      · rintro ⟨a, y', b', h, h1, h2⟩; cases h; exact ⟨a, rfl, h1, h2⟩
    | _ => simp [Leaks, Raises, DVec.isub, getX]
  refine ⟨?_, ?_, hadd o, hsub o⟩
  · match args with
    | [] => simp [Leaks, Raises, DVec.add]
    | [o] =>
      cases o with
      | vec x y b =>
        have e : DVec.add [PyVal.vec x y b] = DVec.iadd (.vec x y b) := rfl
        rw [e, hadd]; simp
      | _ => simp [Leaks, Raises, DVec.add]
    | [x, y] =>
      have e : (DVec.add [x, y] : Body (DVec ℝ) Unit) = (do DVec.addX x; DVec.addY y) := by cases x <;> rfl
      rw [e, addXY_leaks]; simp
    | _ :: _ :: _ :: _ => simp [Leaks, Raises, DVec.add]
  · match args with
    | [] => simp [Leaks, Raises, DVec.sub]
    | [o] =>
      have e : DVec.sub [o] = DVec.isub o := rfl
      rw [e, hsub]; simp
    | [x, y] =>
      have e : (DVec.sub [x, y] : Body (DVec ℝ) Unit) = (do DVec.subX x; DVec.subY y) := rfl
      rw [e, subXY_leaks]; simp
    | _ :: _ :: _ :: _ => simp [Leaks, Raises, DVec.sub]

/-- An angle object whose degree is a number. -/
def DAngle.of (a : AngleDeg ℝ) : DAngle ℝ := ⟨.num a.deg⟩

/-- **C161** The operators of an angle and `set_angle` leave it as it was if they raise.  `set_degree` does not: whatever is
not a number is stored before the exception, and the object is no usable angle from then on. -/
theorem C161_angle (a : AngleDeg ℝ) (v : PyVal ℝ) :
    ¬ Leaks (DAngle.setAngle v) (DAngle.of a) ∧ ¬ Leaks (DAngle.iadd v) (DAngle.of a) ∧ ¬ Leaks (DAngle.isub v) (DAngle.of a) ∧
    ¬ Leaks (DAngle.imul v) (DAngle.of a) ∧ (Leaks (DAngle.setDegree v) (DAngle.of a) ↔ ¬ IsNum v) ∧
    (¬ IsNum v → (DAngle.setDegree v (DAngle.of a)).1 = ⟨v⟩) := by
  refine ⟨?_, ?_, ?_, ?_, ?_, ?_⟩
  · cases v <;> simp [Leaks, Raises, DAngle.setAngle]
  · rcases num_add_cases a.deg (operand v) with ⟨b, _, h⟩ | ⟨_, h⟩ <;>
      simp [Leaks, Raises, DAngle.iadd, DAngle.of, DAngle.normal, h]
  · rcases num_sub_cases a.deg (operand v) with ⟨b, _, h⟩ | ⟨_, h⟩ <;>
      simp [Leaks, Raises, DAngle.isub, DAngle.of, DAngle.normal, h]
  · rcases num_mul_cases a.deg v with ⟨b, _, h⟩ | ⟨_, h⟩ <;>
      simp [Leaks, Raises, DAngle.imul, DAngle.of, DAngle.normal, h]
  · cases v <;> simp [Leaks, Raises, DAngle.setDegree, DAngle.normal, DAngle.of, IsNum]
  · cases v <;> simp [DAngle.setDegree, DAngle.normal, IsNum]

theorem fabsOf_cases (v : PyVal ℝ) : (∃ x : ℝ, (v = .num x ∨ ∃ t : AngleDeg ℝ, v = .angle t ∧ x = t.degree) ∧ fabsOf v = .ok |x|) ∨
    (¬ IsFloat v ∧ fabsOf v = .error .typeError) := by
  cases v <;> simp [fabsOf, IsFloat, fabs_real]

/-- **C161** `assign` of a size changes the length and then raises if the width is no number. -/
theorem C161_size (s : Size ℝ) (l w : PyVal ℝ) :
    ¬ Leaks (DSize.setLength l) s ∧ ¬ Leaks (DSize.setWidth w) s ∧
    (Leaks (DSize.assign l w) s ↔ (∃ x : ℝ, (l = .num x ∨ ∃ t : AngleDeg ℝ, l = .angle t ∧ x = t.degree) ∧ |x| ≠ s.length) ∧
      ¬ IsFloat w) := by
  rcases fabsOf_cases l with ⟨x, hx, h1⟩ | ⟨h1, h1'⟩ <;> rcases fabsOf_cases w with ⟨y, hy, h2⟩ | ⟨h2, h2'⟩
  · have hw : IsFloat w := by rcases hy with rfl | ⟨t, rfl, _⟩ <;> trivial
    simp [Leaks, Raises, DSize.setLength, DSize.setWidth, DSize.assign, bind_apply, h1, h2, hw]
  · have : (∃ x : ℝ, (l = .num x ∨ ∃ t : AngleDeg ℝ, l = .angle t ∧ x = t.degree) ∧ |x| ≠ s.length) ↔ |x| ≠ s.length := by
      constructor
      · rintro ⟨z, hz, h⟩
        have : x = z := by
          rcases hx with rfl | ⟨t, rfl, rfl⟩ <;> rcases hz with h' | ⟨u, h', rfl⟩ <;> cases h' <;> rfl
        rwa [this]
      · intro h; exact ⟨x, hx, h⟩
    rw [this]
    simp [Leaks, Raises, DSize.setLength, DSize.setWidth, DSize.assign, bind_apply, h1, h2, h2', Size.ext_iff]
  · have hl : ∀ x : ℝ, ¬ (l = .num x ∨ ∃ t : AngleDeg ℝ, l = .angle t ∧ x = t.degree) := by
      rintro x (rfl | ⟨t, rfl, _⟩) <;> exact h1 trivial
    simp [Leaks, Raises, DSize.setLength, DSize.setWidth, DSize.assign, bind_apply, h1', h2]
    intro x hx
    exact absurd hx (hl x)
  · have hl : ∀ x : ℝ, ¬ (l = .num x ∨ ∃ t : AngleDeg ℝ, l = .angle t ∧ x = t.degree) := by
      rintro x (rfl | ⟨t, rfl, _⟩) <;> exact h1 trivial
    simp [Leaks, Raises, DSize.setLength, DSize.setWidth, DSize.assign, bind_apply, h1', h2']
    intro x hx
    exact absurd hx (hl x)

/-- What a failed `assign` leaves of a segment: the first end if it could be built, else the origin of the plane, and the
origin of the plane as second end. -/
def segWreck : List (PyVal ℝ) → DSeg ℝ
  | [.vec x y _, _] => ⟨.vec x y true, .vec (.num 0) (.num 0) true⟩
  | [.vec x y _, _, _] => ⟨.vec x y true, .vec (.num 0) (.num 0) true⟩
  | [.num a, .num b, _, _] => ⟨.vec (.num a) (.num b) true, .vec (.num 0) (.num 0) true⟩
  | _ => ⟨.vec (.num 0) (.num 0) true, .vec (.num 0) (.num 0) true⟩

theorem newVector_one_cases (p : PyVal ℝ) : (∃ x y b, p = .vec x y b ∧ newVector [p] [] = .ok (.vec x y true)) ∨
    (¬ IsVec p ∧ newVector [p] [] = .error .exception) := by
  cases p <;> simp [newVector, IsVec]

theorem newVector_two_cases (p q : PyVal ℝ) :
    (∃ a b, p = .num a ∧ q = .num b ∧ newVector [p, q] [] = .ok (.vec (.num a) (.num b) true)) ∨
    ((∀ a b, p = .num a → q ≠ .num b) ∧ newVector [p, q] [] = .error .exception) := by
  cases p <;> cases q <;> simp [newVector, vec2]

theorem segWreck_two {p : PyVal ℝ} (q : PyVal ℝ) (h : ¬ IsVec p) :
    segWreck [p, q] = ⟨.vec (.num 0) (.num 0) true, .vec (.num 0) (.num 0) true⟩ := by
  cases p <;> first | exact absurd trivial h | simp [segWreck]

theorem segWreck_three {p : PyVal ℝ} (q r : PyVal ℝ) (h : ¬ IsVec p) :
    segWreck [p, q, r] = ⟨.vec (.num 0) (.num 0) true, .vec (.num 0) (.num 0) true⟩ := by
  cases p <;> first | exact absurd trivial h | simp [segWreck]

theorem segWreck_four {p q : PyVal ℝ} (r t : PyVal ℝ) (h : ∀ a b, p = .num a → q ≠ .num b) :
    segWreck [p, q, r, t] = ⟨.vec (.num 0) (.num 0) true, .vec (.num 0) (.num 0) true⟩ := by
  cases p <;> cases q <;> first | exact absurd rfl (h _ _ rfl) | simp [segWreck]

/-- `assign` of a segment does what the constructor does, or leaves `segWreck`. -/
theorem segAssign_eq (s : DSeg ℝ) (args : List (PyVal ℝ)) : DSeg.assign args s =
    match newSegment args with
    | .ok (.seg o t) => (⟨o, t⟩, .ok ())
    | .ok _ => (s, .ok ())
    | .error e => (segWreck args, .error e) := by
  match args with
  | [] => simp [DSeg.assign, newSegment, newVector, vec2, DSeg.zero]
  | [_] => simp [DSeg.assign, newSegment, segWreck, DSeg.zero]
  | [p, q] =>
    rcases newVector_one_cases p with ⟨x, y, b, rfl, h⟩ | ⟨h, h'⟩
    · rcases newVector_one_cases q with ⟨x', y', b', rfl, h'⟩ | ⟨h', h''⟩
      · simp [DSeg.assign, newSegment, h, h']
      · simp [DSeg.assign, newSegment, h, h'', segWreck, DSeg.zero]
    · simp [DSeg.assign, newSegment, h', segWreck_two q h, DSeg.zero]
  | [p, q, r] =>
    rcases newVector_one_cases p with ⟨x, y, b, rfl, h⟩ | ⟨h, h'⟩
    · cases h1 : fromPolar q r with
      | error e => simp [DSeg.assign, newSegment, h, h1, segWreck, DSeg.zero]
      | ok v =>
        cases h2 : PyVal.add (.vec x y b) v with
        | error e => simp [DSeg.assign, newSegment, h, h1, h2, segWreck, DSeg.zero]
        | ok w => simp [DSeg.assign, newSegment, h, h1, h2]
    · simp [DSeg.assign, newSegment, h', segWreck_three q r h, DSeg.zero]
  | [a, b, c, d] =>
    rcases newVector_two_cases a b with ⟨x, y, rfl, rfl, h⟩ | ⟨h, h'⟩
    · rcases newVector_two_cases c d with ⟨x', y', rfl, rfl, h'⟩ | ⟨h', h''⟩
      · simp [DSeg.assign, newSegment, h, h']
      · simp [DSeg.assign, newSegment, h, h'', segWreck, DSeg.zero]
    · simp [DSeg.assign, newSegment, h', segWreck_four c d h, DSeg.zero]
  | _ :: _ :: _ :: _ :: _ :: _ => simp [DSeg.assign, newSegment, segWreck, DSeg.zero]

/-- **C161** `assign` of a segment is, as documented, the same as the constructor if the constructor accepts the arguments.
If not, it raises the same exception and leaves `segWreck`: the old ends are lost in any case. -/
theorem C161_segment (s : DSeg ℝ) (args : List (PyVal ℝ)) :
    (∀ o t, newSegment args = .ok (.seg o t) → DSeg.assign args s = (⟨o, t⟩, .ok ())) ∧
    (∀ e, newSegment args = .error e → DSeg.assign args s = (segWreck args, .error e)) ∧
    (Leaks (DSeg.assign args) s ↔ ¬ Returns (newSegment args) ∧ segWreck args ≠ s) ∧ ¬ Leaks DSeg.swap s := by
  refine ⟨fun o t h => by rw [segAssign_eq, h], fun e h => by rw [segAssign_eq, h], ?_, by simp [Leaks, Raises, DSeg.swap]⟩
  unfold Leaks Raises
  rw [segAssign_eq]
  cases h : newSegment args with
  | error e => simp [Returns]
  | ok v => cases v <;> simp [Returns]

/-- **C161** `swap()` and `reverse()` exchange the end points. -/
theorem C161_swap (o t : PyVal ℝ) : DSeg.swap ⟨o, t⟩ = (⟨t, o⟩, .ok ()) := rfl

/-- **C161** `assign` of a circle stores the center, and a radius that is no number, before it raises. -/
theorem C161_circle (c : Vec ℝ) (r : ℝ) (p q : PyVal ℝ) :
    (Leaks (DCircle.assign p q) ⟨vecVal c, .num r⟩ ↔ IsVec p ∧ ¬ IsNum q) ∧
    (∀ c' r', newCircle p q = .ok (.circle c' r') → DCircle.assign p q ⟨vecVal c, .num r⟩ = (⟨c', .num r'⟩, .ok ())) := by
  rcases newVector_one_cases p with ⟨x, y, b, rfl, h⟩ | ⟨h, h'⟩
  · constructor
    · cases q <;> simp [Leaks, Raises, DCircle.assign, h, ltZero, IsVec, IsNum]
      split_ifs <;> simp
    · cases q <;> simp [DCircle.assign, newCircle, h, ltZero]
      split_ifs <;> simp
  · simp [Leaks, Raises, DCircle.assign, newCircle, h, h']

/-- What a failed `assign` leaves of a sector: the attributes up to the first argument that is refused are new. -/
noncomputable def sectorWreck (s : DSector ℝ) (c lo hi a : PyVal ℝ) : DSector ℝ :=
  match c, lo, hi, a with
  | .vec x y _, .num l, .num h, .num t => ⟨.vec x y true, min 0 l, max l h, AngleDeg.ofNum t, s.stop⟩
  | .vec x y _, .num l, .num h, .angle t => ⟨.vec x y true, min 0 l, max l h, AngleDeg.ofAngle t, s.stop⟩
  | .vec x y _, .num l, .num h, _ => ⟨.vec x y true, min 0 l, max l h, s.start, s.stop⟩
  | .vec x y _, .num l, _, _ => ⟨.vec x y true, min 0 l, s.maxR, s.start, s.stop⟩
  | .vec x y _, _, _, _ => ⟨.vec x y true, s.minR, s.maxR, s.start, s.stop⟩
  | _, _, _, _ => s

theorem newAngle_cases (v : PyVal ℝ) : (IsFloat v ∧ ∃ t, newAngle [v] [] = .ok t) ∨ (¬ IsFloat v ∧ newAngle [v] [] = .error .typeError) := by
  cases v <;> simp [newAngle, IsFloat]

theorem newAngle_arg (v : PyVal ℝ) : (∃ x, v = .num x ∧ newAngle [v] [] = .ok (AngleDeg.ofNum x)) ∨
    (∃ t, v = .angle t ∧ newAngle [v] [] = .ok (AngleDeg.ofAngle t)) ∨ (¬ IsFloat v ∧ newAngle [v] [] = .error .typeError) := by
  cases v <;> simp [newAngle, IsFloat]

theorem isVec_vec (x y : PyVal ℝ) (b : Bool) : IsVec (.vec x y b) := trivial
theorem isFloat_num (x : ℝ) : IsFloat (.num x) := trivial
theorem isFloat_angle (x : AngleDeg ℝ) : IsFloat (.angle x) := trivial

theorem isNum_cases (v : PyVal ℝ) : (∃ x, v = .num x) ∨ ¬ IsNum v := by
  cases v <;> simp [IsNum]

/-- **C161** `assign` of a sector raises exactly if an argument has the wrong type, and leaves `sectorWreck`. -/
theorem C161_sector (s : DSector ℝ) (c lo hi a b : PyVal ℝ) :
    (Raises (DSector.assign c lo hi a b) s ↔ ¬ (IsVec c ∧ IsNum lo ∧ IsNum hi ∧ IsFloat a ∧ IsFloat b)) ∧
    (Leaks (DSector.assign c lo hi a b) s ↔ ¬ (IsVec c ∧ IsNum lo ∧ IsNum hi ∧ IsFloat a ∧ IsFloat b) ∧
      sectorWreck s c lo hi a ≠ s) := by
  have key : (DSector.assign c lo hi a b s).1 = sectorWreck s c lo hi a ∧ (∃ e, (DSector.assign c lo hi a b s).2 = .error e) ∧
      ¬ (IsVec c ∧ IsNum lo ∧ IsNum hi ∧ IsFloat a ∧ IsFloat b) ∨
      (¬ (∃ e, (DSector.assign c lo hi a b s).2 = .error e) ∧ (IsVec c ∧ IsNum lo ∧ IsNum hi ∧ IsFloat a ∧ IsFloat b)) := by
    rcases newVector_one_cases c with ⟨x, y, v, rfl, hc⟩ | ⟨h, hc⟩
    · rcases isNum_cases lo with ⟨l, rfl⟩ | hl
      · have h1 : minOf (.num (0 : ℝ)) (.num l) = .ok (.num (min (0 : ℝ) l)) := by
          simp only [minOf, less, except_ok_bind, Except.ok.injEq, decide_eq_true_eq]
          split_ifs with h
          · rw [min_eq_right h.le]
          · rw [min_eq_left (not_lt.mp h)]
        rcases isNum_cases hi with ⟨u, rfl⟩ | hu
        · have h2 : maxOf (.num l) (.num u) = .ok (.num (max l u)) := by
            simp only [maxOf, less, except_ok_bind, Except.ok.injEq, decide_eq_true_eq]
            split_ifs with h
            · rw [max_eq_right h.le]
            · rw [max_eq_left (not_lt.mp h)]
          rcases newAngle_cases b with ⟨hb, t, hb'⟩ | ⟨hb, hb'⟩
          · rcases newAngle_arg a with ⟨z, rfl, ha⟩ | ⟨z, rfl, ha⟩ | ⟨ha, ha'⟩
            · right
              simp [DSector.assign, hc, h1, h2, asNum, hb, hb', ha, isVec_vec, isNum_num, isFloat_num]
            · right
              simp [DSector.assign, hc, h1, h2, asNum, hb, hb', ha, isVec_vec, isNum_num, isFloat_angle]
            · left
              have h3 : sectorWreck s (.vec x y v) (.num l) (.num u) a =
                  ⟨.vec x y true, min 0 l, max l u, s.start, s.stop⟩ := by
                cases a <;> first | exact absurd trivial ha | simp [sectorWreck]
              rw [h3]
              simp [DSector.assign, hc, h1, h2, asNum, ha, ha']
          · rcases newAngle_arg a with ⟨z, rfl, ha⟩ | ⟨z, rfl, ha⟩ | ⟨ha, ha'⟩
            · left
              simp [DSector.assign, hc, h1, h2, asNum, hb, hb', ha, sectorWreck]
            · left
              simp [DSector.assign, hc, h1, h2, asNum, hb, hb', ha, sectorWreck]
            · left
              have h3 : sectorWreck s (.vec x y v) (.num l) (.num u) a =
                  ⟨.vec x y true, min 0 l, max l u, s.start, s.stop⟩ := by
                cases a <;> first | exact absurd trivial ha | simp [sectorWreck]
              rw [h3]
              simp [DSector.assign, hc, h1, h2, asNum, ha, ha']
        · left
          have h2 : maxOf (.num l) hi = .error .typeError := by
            cases hi <;> first | exact absurd trivial hu | rfl
          have h3 : sectorWreck s (.vec x y v) (.num l) hi a = ⟨.vec x y true, min 0 l, s.maxR, s.start, s.stop⟩ := by
            cases hi <;> first | exact absurd trivial hu | simp [sectorWreck]
          rw [h3]
          simp [DSector.assign, hc, h1, h2, asNum, hu]
      · left
        have h2 : minOf (.num (0 : ℝ)) lo = .error .typeError := by
          cases lo <;> first | exact absurd trivial hl | rfl
        have h3 : sectorWreck s (.vec x y v) lo hi a = ⟨.vec x y true, s.minR, s.maxR, s.start, s.stop⟩ := by
          cases lo <;> first | exact absurd trivial hl | simp [sectorWreck]
        rw [h3]
        simp [DSector.assign, hc, h2, hl]
    · left
      have h3 : sectorWreck s c lo hi a = s := by
        cases c <;> first | exact absurd trivial h | simp [sectorWreck]
      rw [h3]
      simp [DSector.assign, hc, h]
  unfold Leaks Raises
  rcases key with ⟨h1, h2, h3⟩ | ⟨h1, h2⟩
  · rw [h1]; simp [h2, h3]
  · simp only [h1, h2]; simp

/-- What a failed `assign` leaves of a triangle: the vertices before the first argument that is refused are new. -/
def triWreck (s : DTri ℝ) : List (PyVal ℝ) → DTri ℝ
  | [.vec x y _, .vec x' y' _, _] => ⟨.vec x y true, .vec x' y' true, s.c⟩
  | [.vec x y _, _, _] => ⟨.vec x y true, s.b, s.c⟩
  | [.seg (.vec x y _) (.vec x' y' _), _] => ⟨.vec x y true, .vec x' y' true, s.c⟩
  | [.seg (.vec x y _) _, _] => ⟨.vec x y true, s.b, s.c⟩
  | [.ray (.vec x y _) _, _] => ⟨.vec x y true, s.b, s.c⟩
  | _ => s

theorem triAssign_eq (s : DTri ℝ) (args : List (PyVal ℝ)) : DTri.assign args s =
    match newTriangle args with
    | .ok (.tri a b c) => (⟨a, b, c⟩, .ok ())
    | .ok _ => (s, .ok ())
    | .error e => (triWreck s args, .error e) := by
  match args with
  | [] => simp [DTri.assign, newTriangle, triWreck]
  | [_] => simp [DTri.assign, newTriangle, triWreck]
  | [g, p] =>
    cases g with
    | seg o t =>
      rcases newVector_one_cases o with ⟨x, y, v, rfl, h1⟩ | ⟨h1, h1'⟩
      · rcases newVector_one_cases t with ⟨x', y', v', rfl, h2⟩ | ⟨h2, h2'⟩
        · rcases newVector_one_cases p with ⟨x'', y'', v'', rfl, h3⟩ | ⟨h3, h3'⟩
          · simp [DTri.assign, newTriangle, origin_, terminal_, h1, h2, h3]
          · simp [DTri.assign, newTriangle, origin_, terminal_, h1, h2, h3', triWreck]
        · have : triWreck s [.seg (.vec x y v) t, p] = ⟨.vec x y true, s.b, s.c⟩ := by
            cases t <;> first | exact absurd trivial h2 | simp [triWreck]
          simp [DTri.assign, newTriangle, origin_, terminal_, h1, h2', this]
      · have : triWreck s [.seg o t, p] = s := by
          cases o <;> first | exact absurd trivial h1 | simp [triWreck]
        simp [DTri.assign, newTriangle, origin_, terminal_, h1', this]
    | ray o t =>
      rcases newVector_one_cases o with ⟨x, y, v, rfl, h1⟩ | ⟨h1, h1'⟩
      · simp [DTri.assign, newTriangle, origin_, terminal_, h1, triWreck]
      · have : triWreck s [.ray o t, p] = s := by
          cases o <;> first | exact absurd trivial h1 | simp [triWreck]
        simp [DTri.assign, newTriangle, origin_, terminal_, h1', this]
    | _ => simp [DTri.assign, newTriangle, origin_, terminal_, triWreck]
  | [a, b, c] =>
    rcases newVector_one_cases a with ⟨x, y, v, rfl, h1⟩ | ⟨h1, h1'⟩
    · rcases newVector_one_cases b with ⟨x', y', v', rfl, h2⟩ | ⟨h2, h2'⟩
      · rcases newVector_one_cases c with ⟨x'', y'', v'', rfl, h3⟩ | ⟨h3, h3'⟩
        · simp [DTri.assign, newTriangle, h1, h2, h3]
        · simp [DTri.assign, newTriangle, h1, h2, h3', triWreck]
      · have : triWreck s [.vec x y v, b, c] = ⟨.vec x y true, s.b, s.c⟩ := by
          cases b <;> first | exact absurd trivial h2 | simp [triWreck]
        simp [DTri.assign, newTriangle, h1, h2', this]
    · have : triWreck s [a, b, c] = s := by
        cases a <;> first | exact absurd trivial h1 | simp [triWreck]
      simp [DTri.assign, newTriangle, h1', this]
  | _ :: _ :: _ :: _ :: _ => simp [DTri.assign, newTriangle, triWreck]

/-- **C161** `assign` of a triangle is the same as the constructor if the constructor accepts the arguments.  If not, it
raises the same exception and leaves `triWreck`. -/
theorem C161_triangle (s : DTri ℝ) (args : List (PyVal ℝ)) :
    (∀ a b c, newTriangle args = .ok (.tri a b c) → DTri.assign args s = (⟨a, b, c⟩, .ok ())) ∧
    (∀ e, newTriangle args = .error e → DTri.assign args s = (triWreck s args, .error e)) ∧
    (Leaks (DTri.assign args) s ↔ ¬ Returns (newTriangle args) ∧ triWreck s args ≠ s) := by
  refine ⟨fun a b c h => by rw [triAssign_eq, h], fun e h => by rw [triAssign_eq, h], ?_⟩
  unfold Leaks Raises
  rw [triAssign_eq]
  cases h : newTriangle args with
  | error e => simp [Returns]
  | ok v => cases v <;> simp [Returns]

/-- A rectangle object whose attributes are a point with numbers and a size. -/
def DRect.of (r : Rect ℝ) : DRect ℝ := ⟨DVec.of r.topLeft, .size r.size⟩

/-- **C161** All `move_...` and `set_...` methods of a rectangle, except `set_size`, leave it as it was if they raise. -/
theorem C161_rect (r : Rect ℝ) (v : PyVal ℝ) (args : List (PyVal ℝ)) :
    ¬ Leaks (DRect.moveCenter v) (DRect.of r) ∧ ¬ Leaks (DRect.moveTopLeft v) (DRect.of r) ∧
    ¬ Leaks (DRect.moveBottomRight v) (DRect.of r) ∧ ¬ Leaks (DRect.moveLeft v) (DRect.of r) ∧
    ¬ Leaks (DRect.moveRight v) (DRect.of r) ∧ ¬ Leaks (DRect.moveTop v) (DRect.of r) ∧
    ¬ Leaks (DRect.moveBottom v) (DRect.of r) ∧ ¬ Leaks (DRect.setTopLeft args) (DRect.of r) ∧
    ¬ Leaks (DRect.setBottomRight args) (DRect.of r) ∧ ¬ Leaks (DRect.setLeft v) (DRect.of r) ∧
    ¬ Leaks (DRect.setRight v) (DRect.of r) ∧ ¬ Leaks (DRect.setTop v) (DRect.of r) ∧
    ¬ Leaks (DRect.setBottom v) (DRect.of r) ∧ ¬ Leaks (DRect.setLength v) (DRect.of r) ∧
    ¬ Leaks (DRect.setWidth v) (DRect.of r) := by
  have rhs : ∀ (v : PyVal ℝ) (x : ℝ), (∃ w, PyVal.sub v (.num x) = .ok w) ∨ ∃ e, PyVal.sub v (.num x) = .error e := by
    intro v x
    cases h : PyVal.sub v (.num x) <;> simp
  have span : ∀ (x y : ℝ) (q : PyVal ℝ × PyVal ℝ), ¬ Leaks (DRect.span (.num x) (.num y) q) (DRect.of r) := by
    rintro x y ⟨a, b⟩
    rcases isNum_cases a with ⟨a, rfl⟩ | ha
    · rcases isNum_cases b with ⟨b, rfl⟩ | hb
      · simp only [DRect.span, minOf, maxOf, less, except_ok_bind, eval_ok]
        split_ifs <;>
          simp [Leaks, Raises, PyVal.sub, DRect.assign, DRect.onTL, DRect.onSize, DRect.of, bind_apply, DSize.assign,
            DSize.setLength, DSize.setWidth, DVec.assign, fabsOf]
      · have h1 : minOf (.num y) b = .error .typeError := by
          cases b <;> first | exact absurd trivial hb | rfl
        have h2 : ∃ c, minOf (.num x) (.num a) = .ok c := ⟨_, rfl⟩
        have h3 : ∃ c, maxOf (.num x) (.num a) = .ok c := ⟨_, rfl⟩
        obtain ⟨c, h2⟩ := h2
        obtain ⟨d, h3⟩ := h3
        simp [Leaks, Raises, DRect.span, h1, h2, h3]
    · have h1 : minOf (.num x) a = .error .typeError := by
        cases a <;> first | exact absurd trivial ha | rfl
      simp [Leaks, Raises, DRect.span, h1]
  have point : ∀ args : List (PyVal ℝ), (∃ q, DRect.pointArgs args = .ok q) ∨ ∃ e, DRect.pointArgs args = .error e := by
    intro args
    cases h : DRect.pointArgs args <;> simp
  have hright : (DRect.of r).right = .ok (.num r.right) := rfl
  have hbottom : (DRect.of r).bottom = .ok (.num r.bottom) := rfl
  refine ⟨?_, ?_, ?_, ?_, ?_, ?_, ?_, ?_, ?_, ?_, ?_, ?_, ?_, ?_, ?_⟩
  · cases v with
    | vec x y b =>
      rcases rhs x (r.size.length * 2⁻¹) with ⟨w, h1⟩ | ⟨e, h1⟩
      · rcases rhs y (r.size.width * 2⁻¹) with ⟨z, h2⟩ | ⟨e, h2⟩ <;>
          simp [Leaks, Raises, DRect.moveCenter, getX, getY, DRect.of, DRect.len, DRect.wid, h1, h2, DRect.onTL, DVec.assign]
      · simp [Leaks, Raises, DRect.moveCenter, getX, DRect.of, DRect.len, h1]
    | _ => simp [Leaks, Raises, DRect.moveCenter, getX]
  · rcases newVector_one_cases v with ⟨x, y, b, rfl, h⟩ | ⟨h, h'⟩ <;>
      simp [Leaks, Raises, DRect.moveTopLeft, DRect.setTL, *]
  · cases v with
    | vec x y b =>
      rcases rhs x r.size.length with ⟨w, h1⟩ | ⟨e, h1⟩
      · rcases rhs y r.size.width with ⟨z, h2⟩ | ⟨e, h2⟩ <;>
          simp [Leaks, Raises, DRect.moveBottomRight, getX, getY, DRect.of, DRect.len, DRect.wid, h1, h2, DRect.onTL, DVec.assign]
      · simp [Leaks, Raises, DRect.moveBottomRight, getX, DRect.of, DRect.len, h1]
    | _ => simp [Leaks, Raises, DRect.moveBottomRight, getX]
  · simp [Leaks, Raises, DRect.moveLeft, DRect.onTL, DVec.setX]
  · rcases rhs v r.size.length with ⟨w, h1⟩ | ⟨e, h1⟩ <;>
      simp [Leaks, Raises, DRect.moveRight, DRect.of, DRect.len, h1, DRect.onTL, DVec.setX]
  · simp [Leaks, Raises, DRect.moveTop, DRect.onTL, DVec.setY]
  · rcases rhs v r.size.width with ⟨w, h1⟩ | ⟨e, h1⟩ <;>
      simp [Leaks, Raises, DRect.moveBottom, DRect.of, DRect.wid, h1, DRect.onTL, DVec.setY]
  · rcases point args with ⟨q, h⟩ | ⟨e, h⟩
    · have := span r.right r.bottom q
      have e : DRect.setTopLeft args (DRect.of r) = DRect.span (.num r.right) (.num r.bottom) q (DRect.of r) := by
        simp only [DRect.setTopLeft, h, eval_ok, self_bind, hright, hbottom]
      unfold Leaks Raises at this ⊢
      rw [e]; exact this
    · simp [Leaks, Raises, DRect.setTopLeft, h]
  · rcases point args with ⟨q, h⟩ | ⟨e, h⟩
    · have := span r.topLeft.x r.topLeft.y q
      have e : DRect.setBottomRight args (DRect.of r) = DRect.span (.num r.topLeft.x) (.num r.topLeft.y) q (DRect.of r) := by
        simp only [DRect.setBottomRight, h, eval_ok, self_bind, DRect.of, DVec.of]
      unfold Leaks Raises at this ⊢
      rw [e]; exact this
    · simp [Leaks, Raises, DRect.setBottomRight, h]
  · rcases isNum_cases v with ⟨a, rfl⟩ | ha
    · simp only [Leaks, Raises, DRect.setLeft, self_bind, hright, minOf, maxOf, less, except_ok_bind, eval_ok]
      split_ifs <;>
        simp [PyVal.sub, DRect.onTL, DRect.onSize, DRect.of, bind_apply, DSize.setLength, DVec.setX, fabsOf]
    · have h1 : minOf (.num r.right) v = .error .typeError := by
        cases v <;> first | exact absurd trivial ha | rfl
      simp [Leaks, Raises, DRect.setLeft, hright, h1]
  · rcases isNum_cases v with ⟨a, rfl⟩ | ha
    · simp only [Leaks, Raises, DRect.setRight, self_bind, DRect.of, DVec.of, minOf, maxOf, less, except_ok_bind, eval_ok]
      split_ifs <;>
        simp [PyVal.sub, DRect.onTL, DRect.onSize, bind_apply, DSize.setLength, DVec.setX, fabsOf]
    · have h1 : minOf (.num r.topLeft.x) v = .error .typeError := by
        cases v <;> first | exact absurd trivial ha | rfl
      simp [Leaks, Raises, DRect.setRight, DRect.of, DVec.of, h1]
  · rcases isNum_cases v with ⟨a, rfl⟩ | ha
    · simp only [Leaks, Raises, DRect.setTop, self_bind, hbottom, minOf, maxOf, less, except_ok_bind, eval_ok]
      split_ifs <;>
        simp [PyVal.sub, DRect.onTL, DRect.onSize, DRect.of, bind_apply, DSize.setWidth, DVec.setY, fabsOf]
    · have h1 : minOf (.num r.bottom) v = .error .typeError := by
        cases v <;> first | exact absurd trivial ha | rfl
      simp [Leaks, Raises, DRect.setTop, hbottom, h1]
  · rcases isNum_cases v with ⟨a, rfl⟩ | ha
    · simp only [Leaks, Raises, DRect.setBottom, self_bind, DRect.of, DVec.of, minOf, maxOf, less, except_ok_bind, eval_ok]
      split_ifs <;>
        simp [PyVal.sub, DRect.onTL, DRect.onSize, bind_apply, DSize.setWidth, DVec.setY, fabsOf]
    · have h1 : minOf (.num r.topLeft.y) v = .error .typeError := by
        cases v <;> first | exact absurd trivial ha | rfl
      simp [Leaks, Raises, DRect.setBottom, DRect.of, DVec.of, h1]
  · rcases fabsOf_cases v with ⟨x, _, h⟩ | ⟨_, h⟩ <;>
      simp [Leaks, Raises, DRect.setLength, DRect.onSize, DRect.of, DSize.setLength, h]
  · rcases fabsOf_cases v with ⟨x, _, h⟩ | ⟨_, h⟩ <;>
      simp [Leaks, Raises, DRect.setWidth, DRect.onSize, DRect.of, DSize.setWidth, h]

/-- **C161** `assign` and `set_size` of a rectangle do not: `set_size` with two arguments behaves like `assign` of the size,
and `assign` has already replaced the top-left corner when it raises, unless its first argument is refused. -/
theorem C161_rect_assign (r : Rect ℝ) :
    (∀ l w, Leaks (DRect.setSize [l, w]) (DRect.of r) ↔ Leaks (DSize.assign l w) r.size) ∧
    (∀ args, args.length ≠ 2 → ¬ Leaks (DRect.setSize args) (DRect.of r)) ∧
    (∀ a b c d, Raises (DRect.assign [a, b, c, d]) (DRect.of r) →
      (DRect.assign [a, b, c, d] (DRect.of r)).1.tl = ⟨a, b, r.topLeft.valid⟩) ∧
    (∀ x y v l w, Raises (DRect.assign [.vec x y v, l, w]) (DRect.of r) →
      (DRect.assign [.vec x y v, l, w] (DRect.of r)).1.tl = ⟨x, y, true⟩) ∧
    (∀ p q t, ¬ IsVec p → ¬ Leaks (DRect.assign [p, q, t]) (DRect.of r) ∧ ¬ Leaks (DRect.assign [p, q]) (DRect.of r)) ∧
    (∀ p q, ¬ IsVec q → ¬ Leaks (DRect.assign [p, q]) (DRect.of r)) ∧
    (∀ args, args.length ≠ 1 → args.length ≠ 2 → args.length ≠ 3 → args.length ≠ 4 → ¬ Leaks (DRect.assign args) (DRect.of r)) := by
  refine ⟨?_, ?_, ?_, ?_, ?_, ?_, ?_⟩
  · intro l w
    simp [Leaks, Raises, DRect.setSize, DRect.onSize, DRect.of]
  · intro args h
    match args with
    | [] => simp [Leaks, Raises, DRect.setSize]
    | [z] => cases z <;> simp [Leaks, Raises, DRect.setSize]
    | [_, _] => simp at h
    | _ :: _ :: _ :: _ => simp [Leaks, Raises, DRect.setSize]
  · intro a b c d _
    rcases fabsOf_cases a with ⟨x, _, h1⟩ | ⟨_, h1⟩ <;> rcases fabsOf_cases d with ⟨y, _, h2⟩ | ⟨_, h2⟩ <;>
      simp [DRect.assign, DRect.onTL, DRect.onSize, DRect.of, DVec.assign, DVec.of, bind_apply, DSize.assign, DSize.setLength,
        DSize.setWidth, h1, h2]
  · intro x y v l w _
    rcases fabsOf_cases l with ⟨_, _, h1⟩ | ⟨_, h1⟩ <;> rcases fabsOf_cases w with ⟨_, _, h2⟩ | ⟨_, h2⟩ <;>
      simp [DRect.assign, DRect.setTL, newVector, DRect.onSize, DRect.of, bind_apply, DSize.assign, DSize.setLength,
        DSize.setWidth, h1, h2]
  · intro p q t hp
    rcases newVector_one_cases p with ⟨x, y, b, rfl, h⟩ | ⟨h, h'⟩
    · exact absurd trivial hp
    · constructor
      · simp [Leaks, Raises, DRect.assign, DRect.setTL, bind_apply, h']
      · cases q <;> simp [Leaks, Raises, DRect.assign, DRect.setTL, bind_apply, h']
  · intro p q hq
    rcases newVector_one_cases p with ⟨x, y, b, rfl, h⟩ | ⟨h, h'⟩
    · cases q <;> first | exact absurd trivial hq | simp [Leaks, Raises, DRect.assign, DRect.setTL, bind_apply, h]
    · cases q <;> simp [Leaks, Raises, DRect.assign, DRect.setTL, bind_apply, h']
  · intro args h1 h2 h3 h4
    match args with
    | [] => simp [Leaks, Raises, DRect.assign]
    | [_] => simp at h1
    | [_, _] => simp at h2
    | [_, _, _] => simp at h3
    | [_, _, _, _] => simp at h4
    | _ :: _ :: _ :: _ :: _ :: _ => simp [Leaks, Raises, DRect.assign]

/-- **C161** `assign` and `rotate` of a matrix leave it as it was if they raise; `translate` and `scale` have already dealt with
the first argument when they refuse the second. -/
theorem C161_matrix (m : Mat ℝ) (x y a b c d : PyVal ℝ) :
    ¬ Leaks (DMat.assign a b c d x y) (DMat.ofMat m) ∧ ¬ Leaks (DMat.rotate a) (DMat.ofMat m) ∧
    (Leaks (DMat.translate x y) (DMat.ofMat m) ↔ ∃ u, x = .num u ∧ u ≠ 0 ∧ ¬ IsNum y) ∧
    (Leaks (DMat.scale x y) (DMat.ofMat m) ↔
      ∃ u, x = .num u ∧ (m.m11 * u ≠ m.m11 ∨ m.m12 * u ≠ m.m12 ∨ m.dx * u ≠ m.dx) ∧ ¬ IsNum y) := by
  refine ⟨by simp [Leaks, Raises, DMat.assign], ?_, ?_, ?_⟩
  · cases a <;> simp [Leaks, Raises, DMat.rotate, DMat.mat, DMat.ofMat, asNum]
  · rcases num_add_cases m.dx x with ⟨u, rfl, h1⟩ | ⟨h1, h1'⟩
    · rcases num_add_cases m.dy y with ⟨w, rfl, h2⟩ | ⟨h2, h2'⟩
      · simp [Leaks, Raises, DMat.translate, DMat.ofMat, h1, h2, isNum_num]
      · simp [Leaks, Raises, DMat.translate, DMat.ofMat, h1, h2, h2']
    · simp [Leaks, Raises, DMat.translate, DMat.ofMat, h1', not_isNum h1]
  · rcases isNum_cases x with ⟨u, rfl⟩ | hx
    · rcases isNum_cases y with ⟨w, rfl⟩ | hy
      · simp [Leaks, Raises, DMat.scale, DMat.ofMat, PyVal.mul, isNum_num]
      · have h2 : ∀ t : ℝ, PyVal.mul (.num t) y = .error .typeError := by
          intro t; rcases num_mul_cases t y with ⟨w, rfl, _⟩ | ⟨_, h⟩
          · exact absurd trivial hy
          · exact h
        have h1 : ∀ t : ℝ, PyVal.mul (.num t) (.num u) = .ok (.num (t * u)) := fun _ => rfl
        simp only [Leaks, Raises, DMat.scale, DMat.ofMat, self_bind, h1, h2, eval_ok, eval_error, put_bind, hy, ne_eq,
          DMat.mk.injEq, PyVal.num.injEq, Except.error.injEq, exists_eq', true_and, not_false_eq_true, and_true,
          exists_eq_left', not_and_or]
    · have h1 : ∀ t : ℝ, PyVal.mul (.num t) x = .error .typeError := by
        intro t; rcases num_mul_cases t x with ⟨w, rfl, _⟩ | ⟨_, h⟩
        · exact absurd trivial hx
        · exact h
      simp [Leaks, Raises, DMat.scale, DMat.ofMat, h1, not_isNum hx]

/-- **C161** With arguments of the documented types the methods of a vector do not raise, and do to the object what the
model of values says. -/
theorem C161_vector_typed_partial (v w : Vec ℝ) (x y : ℝ) (t : AngleDeg ℝ) :
    DVec.assign (.num x) (.num y) (DVec.of v) = (DVec.of (v.assign x y), .ok ()) ∧
    DVec.setX (.num x) (DVec.of v) = (DVec.of (v.setX x), .ok ()) ∧
    DVec.setY (.num x) (DVec.of v) = (DVec.of (v.setY x), .ok ()) ∧
    DVec.setVector (vecVal w) (DVec.of v) = (DVec.of (v.setVector w), .ok ()) ∧
    DVec.setPolar (.num x) (.angle t) (DVec.of v) = (DVec.of (v.setPolar x t), .ok ()) ∧
    DVec.setPolar (.num x) (.num y) (DVec.of v) = (DVec.of (v.setPolar x (AngleDeg.ofNum y)), .ok ()) ∧
    DVec.addX (.num x) (DVec.of v) = (DVec.of (v.addX x), .ok ()) ∧
    DVec.addY (.num x) (DVec.of v) = (DVec.of (v.addY x), .ok ()) ∧
    DVec.subX (.num x) (DVec.of v) = (DVec.of (v.subX x), .ok ()) ∧
    DVec.subY (.num x) (DVec.of v) = (DVec.of (v.subY x), .ok ()) ∧
    DVec.add [vecVal w] (DVec.of v) = (DVec.of (v.addIn w), .ok ()) ∧
    DVec.add [.num x, .num y] (DVec.of v) = (DVec.of (v.addXY x y), .ok ()) ∧
    DVec.sub [vecVal w] (DVec.of v) = (DVec.of (v.subIn w), .ok ()) ∧
    DVec.sub [.num x, .num y] (DVec.of v) = (DVec.of (v.subXY x y), .ok ()) ∧
    DVec.iadd (vecVal w) (DVec.of v) = (DVec.of (v.iadd w), .ok ()) ∧
    DVec.isub (vecVal w) (DVec.of v) = (DVec.of (v.isub w), .ok ()) ∧
    DVec.scale (.num x) (DVec.of v) = (DVec.of (v.scale x), .ok ()) ∧
    DVec.reverse (DVec.of v) = (DVec.of v.reverse, .ok ()) ∧
    DVec.setLength (.num x) (DVec.of v) = (DVec.of (v.setLength x), .ok ()) ∧
    DVec.rotate (.num x) (DVec.of v) = (DVec.of (v.rotate x), .ok ()) ∧
    DVec.rotate (.angle t) (DVec.of v) = (DVec.of (v.rotate t.degree), .ok ()) ∧
    DVec.setDir (.angle t) (DVec.of v) = (DVec.of (v.setDir t), .ok ()) ∧
    DVec.setDir (.num x) (DVec.of v) = (DVec.of (v.setDir (AngleDeg.ofNum x)), .ok ()) := by
  refine ⟨rfl, rfl, rfl, rfl, rfl, rfl, rfl, rfl, rfl, rfl, rfl, rfl, rfl, rfl, rfl, rfl, rfl, rfl, ?_, rfl, rfl, rfl, rfl⟩
  have hr : (DVec.of v).r = .ok v.r := rfl
  by_cases h : (EPSILON : ℝ) < v.r
  · have hm : v.r ≠ 0 := by
      have := EPSILON_pos
      intro h0; rw [h0] at h; linarith
    have h1 : divNum (.num x) v.r = .ok (.num (x / v.r)) := by
      simp [divNum, pyDiv_real, hm]
    simp only [DVec.setLength, self_bind, hr, eval_ok, h, if_true, h1, Vec.setLength]
    rfl
  · simp [DVec.setLength, hr, h, Vec.setLength]

/-- **C161** The same for angles, sizes, circles and matrices. -/
theorem C161_small_typed_partial (a b : AngleDeg ℝ) (x y : ℝ) (s : Size ℝ) (m : Mat ℝ) :
    DAngle.setDegree (.num x) (DAngle.of a) = (DAngle.of (a.setDegree x), .ok ()) ∧
    DAngle.setAngle (.angle b) (DAngle.of a) = (DAngle.of (a.setAngle b), .ok ()) ∧
    DAngle.iadd (.num x) (DAngle.of a) = (DAngle.of (a.iaddNum x), .ok ()) ∧
    DAngle.iadd (.angle b) (DAngle.of a) = (DAngle.of (a.iadd b), .ok ()) ∧
    DAngle.isub (.num x) (DAngle.of a) = (DAngle.of (a.isubNum x), .ok ()) ∧
    DAngle.isub (.angle b) (DAngle.of a) = (DAngle.of (a.isub b), .ok ()) ∧
    DAngle.imul (.num x) (DAngle.of a) = (DAngle.of (a.imul x), .ok ()) ∧
    DSize.assign (.num x) (.num y) s = (Size.ofLW x y, .ok ()) ∧
    DSize.setLength (.num x) s = (s.setLength x, .ok ()) ∧ DSize.setWidth (.num x) s = (s.setWidth x, .ok ()) ∧
    DMat.translate (.num x) (.num y) (DMat.ofMat m) = (DMat.ofMat (m.translate x y), .ok ()) ∧
    DMat.scale (.num x) (.num y) (DMat.ofMat m) = (DMat.ofMat (m.scale x y), .ok ()) ∧
    DMat.rotate (.angle a) (DMat.ofMat m) = (DMat.ofMat (m.rotate a), .ok ()) :=
  ⟨rfl, rfl, rfl, rfl, rfl, rfl, rfl, rfl, rfl, rfl, rfl, rfl, rfl⟩

theorem minOf_num (x y : ℝ) : minOf (.num x) (.num y) = .ok (.num (pyMin x y)) := by
  simp only [minOf, less, except_ok_bind, pyMin, decide_eq_true_eq]
  split_ifs <;> rfl

theorem maxOf_num (x y : ℝ) : maxOf (.num x) (.num y) = .ok (.num (pyMax x y)) := by
  simp only [maxOf, less, except_ok_bind, pyMax, decide_eq_true_eq]
  split_ifs <;> rfl

/-- **C161** The same for rectangles and sectors. -/
theorem C161_rect_typed_partial (r : Rect ℝ) (p q : Vec ℝ) (x y l w : ℝ) (s : Size ℝ) (c : Sector ℝ) (a b : AngleDeg ℝ) :
    DRect.moveCenter (vecVal p) (DRect.of r) = (DRect.of (r.moveCenter p), .ok ()) ∧
    DRect.moveTopLeft (vecVal p) (DRect.of r) = (DRect.of (r.moveTopLeft p), .ok ()) ∧
    DRect.moveBottomRight (vecVal p) (DRect.of r) = (DRect.of (r.moveBottomRight p), .ok ()) ∧
    DRect.moveLeft (.num x) (DRect.of r) = (DRect.of (r.moveLeft x), .ok ()) ∧
    DRect.moveRight (.num x) (DRect.of r) = (DRect.of (r.moveRight x), .ok ()) ∧
    DRect.moveTop (.num x) (DRect.of r) = (DRect.of (r.moveTop x), .ok ()) ∧
    DRect.moveBottom (.num x) (DRect.of r) = (DRect.of (r.moveBottom x), .ok ()) ∧
    DRect.setLeft (.num x) (DRect.of r) = (DRect.of (r.setLeft x), .ok ()) ∧
    DRect.setRight (.num x) (DRect.of r) = (DRect.of (r.setRight x), .ok ()) ∧
    DRect.setTop (.num x) (DRect.of r) = (DRect.of (r.setTop x), .ok ()) ∧
    DRect.setBottom (.num x) (DRect.of r) = (DRect.of (r.setBottom x), .ok ()) ∧
    DRect.setTopLeft [.num x, .num y] (DRect.of r) = (DRect.of (r.setTopLeft x y), .ok ()) ∧
    DRect.setTopLeft [vecVal p] (DRect.of r) = (DRect.of (r.setTopLeft p.x p.y), .ok ()) ∧
    DRect.setBottomRight [.num x, .num y] (DRect.of r) = (DRect.of (r.setBottomRight x y), .ok ()) ∧
    DRect.setBottomRight [vecVal p] (DRect.of r) = (DRect.of (r.setBottomRight p.x p.y), .ok ()) ∧
    DRect.setLength (.num x) (DRect.of r) = (DRect.of (r.setLength x), .ok ()) ∧
    DRect.setWidth (.num x) (DRect.of r) = (DRect.of (r.setWidth x), .ok ()) ∧
    DRect.setSize [.num l, .num w] (DRect.of r) = (DRect.of (r.setSize l w), .ok ()) ∧
    DRect.setSize [.size s] (DRect.of r) = (DRect.of (r.setSize s.length s.width), .ok ()) ∧
    DRect.assign [.num x, .num y, .num l, .num w] (DRect.of r) = (DRect.of (r.assign4 x y l w), .ok ()) ∧
    DRect.assign [vecVal p, .num l, .num w] (DRect.of r) = (DRect.of (r.assign3 p l w), .ok ()) ∧
    DRect.assign [vecVal p, vecVal q] (DRect.of r) = (DRect.of (Rect.ofCorners p q), .ok ()) ∧
    DSector.assign (vecVal p) (.num x) (.num y) (.angle a) (.angle b)
        ⟨vecVal c.center, c.minR, c.maxR, c.start, c.stop⟩ =
      (⟨vecVal (Sector.ofArgs p x y a b).center, (Sector.ofArgs p x y a b).minR, (Sector.ofArgs p x y a b).maxR,
        (Sector.ofArgs p x y a b).start, (Sector.ofArgs p x y a b).stop⟩, .ok ()) := by
  have hright : (DRect.of r).right = .ok (.num r.right) := rfl
  have hbottom : (DRect.of r).bottom = .ok (.num r.bottom) := rfl
  refine ⟨rfl, rfl, rfl, rfl, rfl, rfl, rfl, ?_, ?_, ?_, ?_, ?_, ?_, ?_, ?_, rfl, rfl, rfl, rfl, rfl, rfl, ?_, ?_⟩
  · simp only [DRect.setLeft, self_bind, hright, minOf_num, maxOf_num, eval_ok]; rfl
  · simp only [DRect.setRight, self_bind, DRect.of, DVec.of, minOf_num, maxOf_num, eval_ok]; rfl
  · simp only [DRect.setTop, self_bind, hbottom, minOf_num, maxOf_num, eval_ok]; rfl
  · simp only [DRect.setBottom, self_bind, DRect.of, DVec.of, minOf_num, maxOf_num, eval_ok]; rfl
  · simp only [DRect.setTopLeft, DRect.span, DRect.pointArgs, self_bind, hright, hbottom, minOf_num, maxOf_num, eval_ok]; rfl
  · simp only [DRect.setTopLeft, DRect.span, DRect.pointArgs, vecVal, getX, getY, except_ok_bind, self_bind, hright, hbottom,
      minOf_num, maxOf_num, eval_ok]; rfl
  · simp only [DRect.setBottomRight, DRect.span, DRect.pointArgs, self_bind, DRect.of, DVec.of, minOf_num, maxOf_num, eval_ok]
    rfl
  · simp only [DRect.setBottomRight, DRect.span, DRect.pointArgs, vecVal, getX, getY, except_ok_bind, self_bind, DRect.of,
      DVec.of, minOf_num, maxOf_num, eval_ok]; rfl
  · have h1 : newSize (.num (q.x - p.x)) (.num (q.y - p.y)) = .ok ⟨|q.x - p.x|, |q.y - p.y|⟩ := by
      simp [newSize, fabsOf, fabs_real]
    by_cases hx : q.x - p.x < 0 <;> by_cases hy : q.y - p.y < 0 <;>
      simp [DRect.assign, vecVal, DRect.setTL, newVector, getX, getY, PyVal.sub, h1, ltZero, hx, hy, bind_apply, DRect.onTL,
        DVec.setX, DVec.setY, Rect.ofCorners, DRect.of, DVec.of, Vec.setX, Vec.setY, Vec.ofVec, Vec.zero]
  · have h0 : minOf (.num (0 : ℝ)) (.num x) = .ok (.num (pyMin (0 : ℝ) x)) := minOf_num 0 x
    simp [DSector.assign, h0, maxOf_num, asNum, newAngle, newVector, Sector.ofArgs, vecVal, Vec.ofVec]

/-- **C161** `set_top_left` and `set_bottom_right` with neither one nor two arguments do not raise: they take the point `(0, 0)`. -/
theorem C161_rect_arity (r : Rect ℝ) (args : List (PyVal ℝ)) (h1 : args.length ≠ 1) (h2 : args.length ≠ 2) :
    DRect.setTopLeft args (DRect.of r) = (DRect.of (r.setTopLeft 0 0), .ok ()) ∧
    DRect.setBottomRight args (DRect.of r) = (DRect.of (r.setBottomRight 0 0), .ok ()) := by
  have hright : (DRect.of r).right = .ok (.num r.right) := rfl
  have hbottom : (DRect.of r).bottom = .ok (.num r.bottom) := rfl
  have n0 : (num 0 : ℝ) = 0 := by simp [num]
  have hp : DRect.pointArgs args = .ok (.num (0 : ℝ), .num 0) := by
    match args, h1, h2 with
    | [], _, _ => simp [DRect.pointArgs, n0]
    | [_], h, _ => exact absurd rfl h
    | [_, _], _, h => exact absurd rfl h
    | _ :: _ :: _ :: _, _, _ => simp [DRect.pointArgs, n0]
  constructor
  · simp only [DRect.setTopLeft, DRect.span, hp, self_bind, hright, hbottom, minOf_num, maxOf_num, eval_ok]; rfl
  · simp only [DRect.setBottomRight, DRect.span, hp, self_bind, DRect.of, DVec.of, minOf_num, maxOf_num, eval_ok]
    rfl

/-- With no argument at all the top left corner of the square with corners `(1, 1)` and `(3, 3)` moves to `(0, 0)`. -/
example : DRect.setTopLeft [] (DRect.of (⟨Vec.ofXY 1 1, Size.ofLW 2 2⟩ : Rect ℝ)) =
    (DRect.of ((⟨Vec.ofXY 1 1, Size.ofLW 2 2⟩ : Rect ℝ).setTopLeft 0 0), .ok ()) := (C161_rect_arity _ [] (by simp) (by simp)).1

/-- **C161** `rotate` of a matrix raises `AttributeError` for every argument that is not an angle, and the matrix keeps its entries. -/
theorem C161_matrix_rotate (m : Mat ℝ) (a : PyVal ℝ) (h : ∀ t, a ≠ .angle t) :
    DMat.rotate a (DMat.ofMat m) = (DMat.ofMat m, .error .attributeError) := by
  cases a <;> first | rfl | exact absurd rfl (h _)

/-- A number of degrees is not accepted. -/
example (m : Mat ℝ) : DMat.rotate (.num 90) (DMat.ofMat m) = (DMat.ofMat m, .error .attributeError) :=
  C161_matrix_rotate m _ (by simp)

/-- **C161** fails as stated: `Segment2D.assign` with one argument raises and resets the segment. -/
theorem C161_refuted : ¬ (∀ (s : DSeg ℝ) (args : List (PyVal ℝ)), Raises (DSeg.assign args) s → (DSeg.assign args s).1 = s) := by
  intro h
  have := h ⟨.vec (.num 1) (.num 2) true, .vec (.num 3) (.num 4) true⟩ [.num 5] ⟨.exception, rfl⟩
  simp [DSeg.assign, DSeg.zero] at this

/-- `AngleDeg(30).set_degree(None)` raises and the degree is `None` afterwards; `Vector2D(1, 2).add(3, "4")` raises and leaves
`(4, 2)`; `Circle2D(p, 1).assign(q, None)` raises and leaves center `q` and radius `None`. -/
example (p q : Vec ℝ) :
    DAngle.setDegree (.other 0) ⟨.num (30 : ℝ)⟩ = (⟨.other 0⟩, .error .typeError) ∧
    DVec.add [.num 3, .other 1] ⟨.num (1 : ℝ), .num 2, true⟩ = (⟨.num 4, .num 2, true⟩, .error .typeError) ∧
    DCircle.assign (vecVal q) (.other 0) ⟨vecVal p, .num 1⟩ = (⟨.vec (.num q.x) (.num q.y) true, .other 0⟩, .error .typeError) := by
  refine ⟨rfl, ?_, rfl⟩
  simp [DVec.add, DVec.addX, DVec.addY, PyVal.add, bind_apply]
  norm_num

end PyrusGeom
