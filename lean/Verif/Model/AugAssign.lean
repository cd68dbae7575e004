import Verif.Model.Heap

/-!
# Model of augmented assignment and the binary operators on objects

`x op= y` of Python 3 (Language Reference 3.3.8, 7.2.1): if the class of `x` has the in-place method of the operator
(`__iadd__`, `__isub__`, `__imul__`, `__itruediv__`, `__ifloordiv__`), `x` is bound to its result; otherwise `x` is bound to `x op y`.

* `/repo/src/pyrusgeom/vector_2d.py:551-581`: `__add__`, `__sub__`, `__truediv__`, `__mul__`, `__iadd__`, `__isub__`, `__imul__`;
  `__idiv__` is not an operator of Python 3.
* `/repo/src/pyrusgeom/angle_deg.py:224-334`: `__iadd__`, `__isub__`, `__imul__`, `__add__`, `__sub__`, `__mul__`, `__floordiv__`;
  `__idiv__` is not an operator of Python 3, and there is no `__truediv__`.
* `/repo/src/pyrusgeom/matrix_2d.py:311-348`: `__imul__`, `__mul__`.

No class has a reflected operator (`__radd__`, …), so that a number on the left of an object raises.

Simplifications: as in `Heap`; the left operand is an object of the package (Python lists have operators of their own).
-/

namespace PyrusGeom

variable {K : Type} [Add K] [Sub K] [Mul K] [Div K] [Neg K] [NatCast K] [LT K] [LE K]
  [DecidableLT K] [DecidableLE K] [BEq K] [PyMath K]

/-- The operators `+`, `-`, `*`, `/`, `//`. -/
inductive BinOp where
  | add | sub | mul | truediv | floordiv

/-- A value a name can be bound to. -/
inductive Rhs (K : Type) where
  | num (x : K)
  | ref (a : Addr)

namespace Heap

/-- The object an operand denotes; `none` for numbers. -/
def deref (h : Heap K) : Rhs K → Option (Obj K)
  | .num _ => none
  | .ref a => h[a]?

/-- `x op y` for `x` a vector, vector_2d.py:551-561 -/
def vecBin (h : Heap K) (op : BinOp) (v : Vec K) (y : Rhs K) : Except PyErr (Addr × Heap K) :=
  match op, y, h.deref y with
  | .add, _, some (.vec w) => .ok (h.alloc (.vec (v.add w)))
  | .add, _, _ => .error .attributeError
  | .sub, _, some (.vec w) => .ok (h.alloc (.vec (v.sub w)))
  | .sub, _, _ => .error .attributeError
  | .mul, .num c, _ => .ok (h.alloc (.vec (v.mul c)))
  | .truediv, .num c, _ => do
    let w ← v.truediv c
    .ok (h.alloc (.vec w))
  | _, _, _ => .error .typeError

/-- `x op y` for `x` an angle, angle_deg.py:280-334 -/
def angleBin (h : Heap K) (op : BinOp) (a : AngleDeg K) (y : Rhs K) : Except PyErr (Addr × Heap K) :=
  match op, y, h.deref y with
  | .add, .num d, _ => .ok (h.alloc (.angle (a.addNum d)))
  | .add, _, some (.angle b) => .ok (h.alloc (.angle (a.add b)))
  | .sub, .num d, _ => .ok (h.alloc (.angle (a.subNum d)))
  | .sub, _, some (.angle b) => .ok (h.alloc (.angle (a.sub b)))
  | .mul, .num d, _ => .ok (h.alloc (.angle (a.mul d)))
  | .floordiv, .num d, _ => do
    let b ← a.floordiv d
    .ok (h.alloc (.angle b))
  | _, _, _ => .error .typeError

/-- `x * y` for `x` a matrix, matrix_2d.py:333-348: with a matrix it is `x.__imul__(y)`, with a number `x` itself -/
def matBin (h : Heap K) (op : BinOp) (x : Addr) (m : Mat K) (y : Rhs K) : Except PyErr (Addr × Heap K) :=
  match op, h.deref y with
  | .mul, some (.vec v) => .ok (h.alloc (.vec (m.transform v)))
  | .mul, some (.mat o) => .ok (x, h.write x (.mat (m.mul o)))
  | .mul, _ => .ok (x, h)
  | _, _ => .error .typeError

/-- `x op y` -/
def binary (h : Heap K) (op : BinOp) (x : Addr) (y : Rhs K) : Except PyErr (Addr × Heap K) :=
  match h[x]? with
  | some (.vec v) => h.vecBin op v y
  | some (.angle a) => h.angleBin op a y
  | some (.mat m) => h.matBin op x m y
  | _ => .error .typeError

/-- The in-place method of the operator and its result; `none` if the class of `x` has no such method.
vector_2d.py:563-576, angle_deg.py:224-265, matrix_2d.py:311-331 -/
def inplace (h : Heap K) (op : BinOp) (x : Addr) (y : Rhs K) : Option (Except PyErr (Addr × Heap K)) :=
  match h[x]?, op with
  | some (.vec v), .add => some <|
    match h.deref y with
    | some (.vec w) => .ok (x, h.write x (.vec (v.iadd w)))
    | _ => .error .attributeError
  | some (.vec v), .sub => some <|
    match h.deref y with
    | some (.vec w) => .ok (x, h.write x (.vec (v.isub w)))
    | _ => .error .attributeError
  | some (.vec v), .mul => some <|
    match y with
    | .num c => .ok (x, h.write x (.vec (v.imul c)))
    | _ => .error .typeError
  | some (.angle a), .add => some <|
    match y, h.deref y with
    | .num d, _ => .ok (x, h.write x (.angle (a.iaddNum d)))
    | _, some (.angle b) => .ok (x, h.write x (.angle (a.iadd b)))
    | _, _ => .error .typeError
  | some (.angle a), .sub => some <|
    match y, h.deref y with
    | .num d, _ => .ok (x, h.write x (.angle (a.isubNum d)))
    | _, some (.angle b) => .ok (x, h.write x (.angle (a.isub b)))
    | _, _ => .error .typeError
  | some (.angle a), .mul => some <|
    match y with
    | .num d => .ok (x, h.write x (.angle (a.imul d)))
    | _ => .error .typeError
  | some (.mat m), .mul => some <|
    match h.deref y with
    | some (.mat o) => .ok (x, h.write x (.mat (m.mul o)))
    | _ => .error .attributeError
  | _, _ => none

/-- `x op= y`: the object that `x` is bound to afterwards -/
def aug (h : Heap K) (op : BinOp) (x : Addr) (y : Rhs K) : Except PyErr (Addr × Heap K) :=
  match h.inplace op x y with
  | some r => r
  | none => h.binary op x y

end Heap

end PyrusGeom
