import Verif.Model.PyEq

/-!
# Model of hashing, and of dictionaries and sets with vectors as keys

* `/repo/src/pyrusgeom/vector_2d.py:545-549`: `__hash__` and `__eq__` of `Vector2D`.
* A class with `__eq__` and without `__hash__` is unhashable (Language Reference 3.3.1): `AngleDeg` angle_deg.py:361,
  `Line2D` line_2d.py:286, `Segment2D` segment_2d.py:249, `Ray2D` ray_2d.py:142, `Size2D` size_2d.py:89,
  `Sector2D` sector_2d.py:182, `Matrix2D` matrix_2d.py:353 (the `__hash__` in lines 350-351 is commented out).
* The other classes inherit `object.__hash__`, the identity.

Dictionaries are those of Python: an entry holds the hash the key had when it was inserted, the key object and the value.
An entry is found by a key with the same hash that is the same object or compares equal.  If more than one entry fits, which
one is found depends on the layout of the table; the model allows any.  A set is a dictionary without values.

Simplifications: the hash of numbers and pairs is an arbitrary function; coordinates are numbers.
-/

namespace PyrusGeom

variable {K : Type} [Add K] [Sub K] [Mul K] [Div K] [Neg K] [NatCast K] [LT K] [LE K]
  [DecidableLT K] [DecidableLE K] [BEq K] [PyMath K]

/-- The hash functions of Python: of numbers, of pairs of numbers, of object identities and of other values. -/
structure PyHash (K : Type) where
  num : K → ℤ
  pair : K × K → ℤ
  ident : ℕ → ℤ
  other : ℕ → ℤ

/-- `hash(a)` -/
def EqObj.hash (H : PyHash K) : EqObj K → Except PyErr ℤ
  | .num x => .ok (H.num x)
  | .vec v => .ok (v.hash H.pair)
  | .circle i _ | .rect i _ | .tri i _ => .ok (H.ident i)
  | .other i => .ok (H.other i)
  | _ => .error .typeError

/-- An entry of a dictionary whose keys are vectors: the stored hash, the address of the key, the value. -/
structure DEntry (V : Type) where
  hash : ℤ
  key : ℕ
  val : V

/-- The vectors of a program by address, and a dictionary. -/
structure DState (K V : Type) where
  mem : List (Vec K)
  dict : List (DEntry V)

namespace DState
variable {V : Type}

/-- The entry is found by the key at address `k`, which has the value `v`. -/
def Fits (hs : K × K → ℤ) (mem : List (Vec K)) (e : DEntry V) (k : ℕ) (v : Vec K) : Prop :=
  e.hash = v.hash hs ∧ (e.key = k ∨ ∃ w, mem[e.key]? = some w ∧ w.eq v = true)

/-- The operations of a program. -/
inductive Op (K V : Type) where
  /-- a new vector object -/
  | new (v : Vec K)
  /-- any operation that changes the vector at address `a` in place: `assign`, `+=`, `rotate`, … -/
  | write (a : ℕ) (v : Vec K)
  /-- `d[a] = x` -/
  | set (a : ℕ) (x : V)
  /-- `del d[a]`, `d.pop(a)`, `s.remove(a)` -/
  | del (a : ℕ)

/-- One operation that does not raise. -/
inductive Step (hs : K × K → ℤ) : DState K V → Op K V → DState K V → Prop where
  | new (s v) : Step hs s (.new v) ⟨s.mem ++ [v], s.dict⟩
  | write (s a v) : a < s.mem.length → Step hs s (.write a v) ⟨s.mem.set a v, s.dict⟩
  /-- the key is found: the entry keeps its key object and gets the new value -/
  | update (s a x v d₁ e d₂) : s.mem[a]? = some v → s.dict = d₁ ++ e :: d₂ → Fits hs s.mem e a v →
      Step hs s (.set a x) ⟨s.mem, d₁ ++ { e with val := x } :: d₂⟩
  | insert (s a x v) : s.mem[a]? = some v → (∀ e ∈ s.dict, ¬ Fits hs s.mem e a v) →
      Step hs s (.set a x) ⟨s.mem, s.dict ++ [⟨v.hash hs, a, x⟩]⟩
  | del (s a v d₁ e d₂) : s.mem[a]? = some v → s.dict = d₁ ++ e :: d₂ → Fits hs s.mem e a v →
      Step hs s (.del a) ⟨s.mem, d₁ ++ d₂⟩

/-- A run of a program. -/
inductive Run (hs : K × K → ℤ) : DState K V → List (Op K V) → DState K V → Prop where
  | nil (s) : Run hs s [] s
  | cons {s t u o os} : Step hs s o t → Run hs t os u → Run hs s (o :: os) u

end DState

end PyrusGeom
