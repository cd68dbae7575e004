import Verif.Model.PyEq
import Verif.Props.Equality

/-!
# `==` between objects of any classes (C159)
-/

namespace PyrusGeom
open Spec

namespace EqObj

/-- The class of an operand. -/
inductive Cls where
  | num | vec | angle | line | size | seg | ray | sector | mat | circle | rect | tri | other
  deriving DecidableEq

def cls : EqObj ℝ → Cls
  | .num _ => .num | .vec _ => .vec | .angle _ => .angle | .line _ => .line | .size _ => .size | .seg _ => .seg
  | .ray _ => .ray | .sector _ => .sector | .mat _ => .mat | .circle _ _ => .circle | .rect _ _ => .rect
  | .tri _ _ => .tri | .other _ => .other

/-- The classes whose `__eq__` does not test the class of its argument. -/
def Cls.trusting : Cls → Prop
  | .angle | .line | .size | .seg | .ray | .sector | .mat => True
  | _ => False

instance : DecidablePred Cls.trusting := fun c => by cases c <;> simp only [Cls.trusting] <;> infer_instance

/-- The pairs of different classes in which a trusting operand finds, in an operand of the wrong class, all it asks for:
the method it asks for first exists there and gives a result which already decides that the two differ; or an angle is
compared with a number. -/
def Excused : EqObj ℝ → EqObj ℝ → Prop
  | .angle _, .num _ => True
  | .size s, .seg t => 1 / 10 ^ 6 ≤ |s.length - d t.origin.pt t.terminal.pt|
  | .size s, .vec v => 1 / 10 ^ 6 ≤ |s.length - len v.pt|
  | .seg s, .ray r => s.origin.pt ≠ r.origin.pt
  | .sector s, .circle _ c => 1 / 10 ^ 6 ≤ |s.center.x - c.center.x| ∨ 1 / 10 ^ 6 ≤ |s.center.y - c.center.y|
  | _, _ => False

theorem eps_eq : (EPSILON : ℝ) = 1 / 10 ^ 6 := by rw [EPSILON_real]; norm_num

/-- **C159** When does `a == b` raise?  Exactly if the classes differ, the method that is called belongs to a class which
does not test its argument, and the argument does not happen to serve (`Excused`).  The method called is that of the left
operand, unless that one has only the inherited method. -/
theorem C159_raises (a b : EqObj ℝ) : (∃ e, pyEq a b = .error e) ↔
    a.cls ≠ b.cls ∧ ((a.cls.trusting ∧ ¬ Excused a b) ∨ (¬ a.cls.trusting ∧ a.cls ≠ .vec ∧ b.cls.trusting ∧ ¬ Excused b a)) := by
  cases a <;> cases b <;>
    simp [pyEq, ownEq, cls, Cls.trusting, Excused, bind, Except.bind, fabs_real, eps_eq, Seg.length, Vec.dist_real, Vec.r_real,
      Vec.eq_pt_iff, Vec.equalsWeakly_num_iff] <;>
    (try split_ifs) <;> (try simp_all) <;> (try split_ifs) <;> (try simp_all)

/-- **C159** Objects of the same class can always be compared, and the result is that of the class (C08, C17, C25, C65, C70,
C101, C142), or identity for circles, rectangles and triangles. -/
theorem C159_same_class (a b : EqObj ℝ) (h : a.cls = b.cls) : ∃ r, pyEq a b = .ok r ∧
    match a, b with
    | .num x, .num y => (r = true ↔ x = y)
    | .vec v, .vec w => r = v.eq w
    | .angle x, .angle y => r = x.eq y
    | .line l, .line m => r = l.eq m
    | .size s, .size t => r = s.eq t
    | .seg s, .seg t => r = s.eq t
    | .ray s, .ray t => r = s.eq t
    | .sector s, .sector t => r = s.eq t
    | .mat m, .mat n => r = m.eq n
    | .circle i _, .circle j _ => (r = true ↔ i = j)
    | .rect i _, .rect j _ => (r = true ↔ i = j)
    | .tri i _, .tri j _ => (r = true ↔ i = j)
    | .other i, .other j => (r = true ↔ i = j)
    | _, _ => False := by
  have key : ∀ i j : ℕ, ∃ r, (match if i = j then some true else none with
      | some r => (Except.ok r : Except PyErr Bool)
      | none => match if j = i then some true else none with
        | some r => .ok r
        | none => .ok false) = .ok r ∧ (r = true ↔ i = j) := by
    intro i j
    by_cases hij : i = j
    · exact ⟨true, by simp [hij], by simp [hij]⟩
    · exact ⟨false, by simp [hij, Ne.symm hij], by simp [hij]⟩
  cases a <;> cases b <;> simp only [cls, reduceCtorEq] at h
  case num => exact ⟨_, rfl, by simp⟩
  case circle => exact key _ _
  case rect => exact key _ _
  case tri => exact key _ _
  case other => exact key _ _
  all_goals exact ⟨_, rfl, rfl⟩

/-- **C159** Objects of different classes are never equal, except an angle and a number within the tolerance. -/
theorem C159_different {a b : EqObj ℝ} (h : a.cls ≠ b.cls) : pyEq a b = .ok true ↔
    (∃ t x, a = .angle t ∧ b = .num x ∧ |t.deg - x| < 1 / 10 ^ 6) ∨ ∃ t x, a = .num x ∧ b = .angle t ∧ |t.deg - x| < 1 / 10 ^ 6 := by
  cases a <;> cases b <;> simp [cls] at h <;>
    simp [pyEq, ownEq, bind, Except.bind, AngleDeg.eqNum, fabs_real, eps_eq] <;> (try split_ifs) <;> simp_all

/-- **C159** A vector can be compared with anything from the left: `v == x` is true exactly for vectors `x` with the same
coordinates. -/
theorem C159_vector (v : Vec ℝ) (b : EqObj ℝ) : ∃ r, pyEq (.vec v) b = .ok r ∧ (r = true ↔ ∃ w, b = .vec w ∧ v.pt = w.pt) := by
  cases b <;> simp [pyEq, ownEq, bind, Except.bind, Vec.eq_pt_iff]

/-- **C159** Between different classes: if `a == b` and `b == a` both return, the results agree. -/
theorem C159_symm_partial {a b : EqObj ℝ} (h : a.cls ≠ b.cls) {r s : Bool} (hr : pyEq a b = .ok r) (hs : pyEq b a = .ok s) :
    r = s := by
  have h1 := C159_different h
  have h2 := C159_different (Ne.symm h)
  rw [hr] at h1; rw [hs] at h2
  simp only [Except.ok.injEq] at h1 h2
  rw [Bool.eq_iff_iff, h1, h2]
  constructor <;> rintro (⟨t, x, rfl, rfl, hx⟩ | ⟨t, x, rfl, rfl, hx⟩)
  · exact Or.inr ⟨t, x, rfl, rfl, hx⟩
  · exact Or.inl ⟨t, x, rfl, rfl, hx⟩
  · exact Or.inr ⟨t, x, rfl, rfl, hx⟩
  · exact Or.inl ⟨t, x, rfl, rfl, hx⟩

/-- **C159** fails as stated: an angle cannot be compared with a vector, nor with `None` on either side, although the vector
can be compared with the angle. -/
theorem C159_refuted : ¬ (∀ a b : EqObj ℝ, ∃ r, pyEq a b = .ok r ∧ pyEq b a = .ok r) := by
  intro h
  obtain ⟨r, _, h2⟩ := h (.vec Vec.zero) (.angle AngleDeg.default)
  simp [pyEq, ownEq, bind, Except.bind] at h2

/-- `Vector2D(0, 0) == AngleDeg(0)` is false, `AngleDeg(0) == Vector2D(0, 0)` raises, `None == AngleDeg(0)` raises, and
`Segment2D(p, q) == Ray2D(o, a)` raises if `o` is `p` and is false if not. -/
example (p q o : Vec ℝ) (a : AngleDeg ℝ) : pyEq (.vec Vec.zero) (.angle a) = .ok false ∧
    pyEq (.angle a) (.vec Vec.zero) = .error .typeError ∧ pyEq (.other 0) (.angle a) = .error .typeError ∧
    (pyEq (.seg ⟨p, q⟩) (.ray ⟨o, a⟩) = .error .attributeError ↔ p.pt = o.pt) ∧
    (pyEq (.seg ⟨p, q⟩) (.ray ⟨o, a⟩) = .ok false ↔ p.pt ≠ o.pt) := by
  refine ⟨rfl, rfl, rfl, ?_, ?_⟩ <;>
  · by_cases h : p.eq o = true
    · simp [pyEq, ownEq, bind, Except.bind, h, (Vec.eq_pt_iff p o).mp h]
    · have h' : p.pt ≠ o.pt := fun e => h ((Vec.eq_pt_iff p o).mpr e)
      simp [pyEq, ownEq, bind, Except.bind, h, h']

end EqObj
end PyrusGeom
