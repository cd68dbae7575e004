import Verif.Model.PyVal
import Verif.Model.Matrix

/-!
# Model of `==` between arbitrary objects

`a == b` of Python 3 (Language Reference 3.3.1): the method `__eq__` of `a` is called with `b`; if it returns
`NotImplemented`, the method of `b` is called with `a`; if that returns `NotImplemented` as well, the result is `a is b`.
The methods of the package are

* `/repo/src/pyrusgeom/vector_2d.py:548-549`, `/repo/src/pyrusgeom/angle_deg.py:361-371`,
  `/repo/src/pyrusgeom/line_2d.py:286-295`, `/repo/src/pyrusgeom/segment_2d.py:249-258`, `/repo/src/pyrusgeom/ray_2d.py:142-151`,
  `/repo/src/pyrusgeom/size_2d.py:89-99`, `/repo/src/pyrusgeom/sector_2d.py:182-194`, `/repo/src/pyrusgeom/matrix_2d.py:353-365`.

Of these only the one of `Vector2D` looks at the class of its argument.  The others call methods of the argument, which
another class may have too.  `Circle2D`, `Rect2D`, `Triangle2D` (and `Polygon2D`, `ConvexHull`) inherit `object.__eq__`.

Simplifications: as in `PyVal`; attributes are of the documented types.
-/

namespace PyrusGeom

variable {K : Type} [Add K] [Sub K] [Mul K] [Div K] [Neg K] [NatCast K] [LT K] [LE K]
  [DecidableLT K] [DecidableLE K] [BEq K] [PyMath K]

/-- An operand of `==`.  The classes that are compared by identity carry the identity. -/
inductive EqObj (K : Type) where
  | num (x : K)
  | vec (v : Vec K)
  | angle (a : AngleDeg K)
  | line (l : Line K)
  | size (s : Size K)
  | seg (s : Seg K)
  | ray (r : Ray K)
  | sector (s : Sector K)
  | mat (m : Mat K)
  | circle (id : ℕ) (c : Circle K)
  | rect (id : ℕ) (r : Rect K)
  | tri (id : ℕ) (t : Tri K)
  /-- any other value, such as `None`, a string, a `Polygon2D`, a `ConvexHull`; equal ones have the same number -/
  | other (id : ℕ)

namespace EqObj

/-- `a.__eq__(b)`; `none` is `NotImplemented`. -/
def ownEq : EqObj K → EqObj K → Except PyErr (Option Bool)
  | .vec v, .vec w => .ok (some (v.eq w))
  | .vec _, _ => .ok (some false)
  | .angle a, .angle b => .ok (some (a.eq b))
  | .angle a, .num d => .ok (some (a.eqNum d))
  | .angle _, _ => .error .typeError
  | .line l, .line m => .ok (some (l.eq m))
  | .line _, .tri _ _ => .error .typeError
  | .line _, _ => .error .attributeError
  | .size s, .size t => .ok (some (s.eq t))
  | .size s, .seg t => if fabs (s.length - t.length) < EPSILON then .error .attributeError else .ok (some false)
  | .size s, .vec v => if fabs (s.length - v.r) < EPSILON then .error .attributeError else .ok (some false)
  | .size _, _ => .error .attributeError
  | .seg s, .seg t => .ok (some (s.eq t))
  | .seg s, .ray r => if s.origin.eq r.origin then .error .attributeError else .ok (some false)
  | .seg _, _ => .error .attributeError
  | .ray r, .ray t => .ok (some (r.eq t))
  | .ray _, _ => .error .attributeError
  | .sector s, .sector t => .ok (some (s.eq t))
  | .sector s, .circle _ c => if s.center.equalsWeakly c.center then .error .attributeError else .ok (some false)
  | .sector _, _ => .error .attributeError
  | .mat m, .mat n => .ok (some (m.eq n))
  | .mat _, _ => .error .attributeError
  | .num x, .num y => .ok (some (x == y))
  | .circle i _, .circle j _ => .ok (if i = j then some true else none)
  | .rect i _, .rect j _ => .ok (if i = j then some true else none)
  | .tri i _, .tri j _ => .ok (if i = j then some true else none)
  | .other i, .other j => .ok (if i = j then some true else none)
  | _, _ => .ok none

/-- `a == b` for operands that are not the same object (identical objects are found by the branches of `ownEq`). -/
def pyEq (a b : EqObj K) : Except PyErr Bool := do
  match ← ownEq a b with
  | some r => .ok r
  | none =>
    match ← ownEq b a with
    | some r => .ok r
    | none => .ok false

end EqObj

end PyrusGeom
