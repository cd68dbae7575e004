import Verif.Model.AugAssign
import Verif.Props.HeapOps
import Verif.Props.Operators

/-! # C167: augmented assignment -/

namespace PyrusGeom
open Spec

namespace Spec

/-- The combinations of an object and an operator for which `op=` changes the object. -/
def ChangesLeft {K : Type} : Obj K → BinOp → Prop
  | .vec _, .add | .vec _, .sub | .vec _, .mul => True
  | .angle _, .add | .angle _, .sub | .angle _, .mul => True
  | .mat _, .mul => True
  | _, _ => False

/-- The result is a new object, all other objects are as before. -/
def NewObject {K : Type} (h : Heap K) (res : Except PyErr (Addr × Heap K)) : Prop :=
  ∀ r h', res = .ok (r, h') → r = h.length ∧ h'.length = h.length + 1 ∧ ∀ x, x < h.length → h'[x]? = h[x]?

/-- What `x op y` is, as an object: the sum, difference, multiple or quotient. -/
inductive IsResult : BinOp → Obj ℝ → Rhs ℝ → Option (Obj ℝ) → Obj ℝ → Prop
  | vadd (v w y) : IsResult .add (.vec v) y (some (.vec w)) (.vec ⟨v.x + w.x, v.y + w.y, true⟩)
  | vsub (v w y) : IsResult .sub (.vec v) y (some (.vec w)) (.vec ⟨v.x - w.x, v.y - w.y, true⟩)
  | vmul (v c z) : IsResult .mul (.vec v) (.num c) z (.vec ⟨v.x * c, v.y * c, true⟩)
  | vdiv (v c z) : c ≠ 0 → IsResult .truediv (.vec v) (.num c) z (.vec ⟨v.x / c, v.y / c, true⟩)
  | aaddn (a c z t) : Points t (a.deg + c) → IsResult .add (.angle a) (.num c) z (.angle t)
  | aadd (a b y t) : Points t (a.deg + b.deg) → IsResult .add (.angle a) y (some (.angle b)) (.angle t)
  | asubn (a c z t) : Points t (a.deg - c) → IsResult .sub (.angle a) (.num c) z (.angle t)
  | asub (a b y t) : Points t (a.deg - b.deg) → IsResult .sub (.angle a) y (some (.angle b)) (.angle t)
  | amul (a c z t) : Points t (a.deg * c) → IsResult .mul (.angle a) (.num c) z (.angle t)
  | adiv (a c z t) : c ≠ 0 → Points t (a.deg / c) → IsResult .floordiv (.angle a) (.num c) z (.angle t)

end Spec

section
variable {K : Type} [Add K] [Sub K] [Mul K] [Div K] [Neg K] [NatCast K] [LT K] [LE K]
  [DecidableLT K] [DecidableLE K] [BEq K] [PyMath K]

omit [Add K] [Sub K] [Mul K] [Div K] [Neg K] [NatCast K] [LT K] [LE K] [DecidableLT K] [DecidableLE K] [BEq K] [PyMath K] in
theorem newObject_error {h : Heap K} {e : PyErr} : NewObject h (.error e) := by
  intro r h' he; cases he

omit [Add K] [Sub K] [Mul K] [Div K] [Neg K] [NatCast K] [LT K] [LE K] [DecidableLT K] [DecidableLE K] [BEq K] [PyMath K] in
theorem newObject_alloc (h : Heap K) (o : Obj K) : NewObject h (.ok (h.alloc o)) := by
  intro r h' he
  obtain ⟨rfl, rfl⟩ := Prod.mk.inj (Except.ok.inj he)
  exact ⟨rfl, by simp, fun x hx => List.getElem?_append_left hx⟩

omit [Add K] [Sub K] [Mul K] [Div K] [Neg K] [NatCast K] [LT K] [LE K] [DecidableLT K] [DecidableLE K] [BEq K] [PyMath K] in
theorem newObject_bind {α : Type} (h : Heap K) (e : Except PyErr α) (f : α → Obj K) :
    NewObject h (e >>= fun w => .ok (h.alloc (f w))) := by
  cases e with
  | error e => exact newObject_error
  | ok w => exact newObject_alloc _ _

theorem vecBin_new (h : Heap K) (op : BinOp) (v : Vec K) (y : Rhs K) : NewObject h (h.vecBin op v y) := by
  unfold Heap.vecBin
  split
  all_goals first | exact newObject_error | exact newObject_alloc _ _ | exact newObject_bind _ _ _

theorem angleBin_new (h : Heap K) (op : BinOp) (a : AngleDeg K) (y : Rhs K) : NewObject h (h.angleBin op a y) := by
  unfold Heap.angleBin
  split
  all_goals first | exact newObject_error | exact newObject_alloc _ _ | exact newObject_bind _ _ _

/-- **C167**, which names see the change: after `x op= y` either `x` denotes the same object, and only that object has changed
(vectors and angles with `+=`, `-=`, `*=`, matrices with `*=`), or `x` denotes a new object and every other name sees what it saw
before (everything else). `x op y` gives a new object, unless `x` is a matrix. -/
theorem C167_alias (h : Heap K) (op : BinOp) (x : Addr) (y : Rhs K) (o : Obj K) (ho : h[x]? = some o) :
    (ChangesLeft o op → InPlace h x (h.aug op x y)) ∧ (¬ ChangesLeft o op → NewObject h (h.aug op x y)) ∧
    ((∀ m, o ≠ .mat m) → NewObject h (h.binary op x y)) := by
  have hb : (∀ m, o ≠ .mat m) → NewObject h (h.binary op x y) := by
    intro hm
    unfold Heap.binary
    rw [ho]
    cases o <;> first
      | exact newObject_error
      | exact vecBin_new _ _ _ _
      | exact angleBin_new _ _ _ _
      | exact absurd rfl (hm _)
  refine ⟨fun hc => ?_, fun hc => ?_, hb⟩
  · unfold Heap.aug Heap.inplace
    rw [ho]
    cases o <;> cases op <;> first | exact hc.elim | skip
    all_goals dsimp only
    all_goals split <;> first | exact inPlace_error | exact inPlace_set _
  · have : h.inplace op x y = none := by
      unfold Heap.inplace
      rw [ho]
      cases o <;> cases op <;> first | rfl | exact absurd trivial hc
    unfold Heap.aug
    rw [this]
    by_cases hm : ∀ m, o ≠ .mat m
    · exact hb hm
    · push Not at hm
      obtain ⟨m, rfl⟩ := hm
      dsimp only
      unfold Heap.binary
      rw [ho]
      cases op <;> first | exact newObject_error | exact absurd trivial hc

end

theorem getElem?_alloc {K : Type} (h : Heap K) (o : Obj K) : (h.alloc o).2[(h.alloc o).1]? = some o := by
  unfold Heap.alloc; simp

theorem getElem?_write {K : Type} {h : Heap K} {x : Addr} {o' : Obj K} (ho : h[x]? = some o') (o : Obj K) : (h.write x o)[x]? = some o := by
  unfold Heap.write
  rw [List.getElem?_set_self (List.getElem?_eq_some_iff.mp ho).1]

theorem truediv_real (v : Vec ℝ) (c : ℝ) : v.truediv c = if c = 0 then .error .zeroDivision else .ok ⟨v.x / c, v.y / c, true⟩ := by
  unfold Vec.truediv
  by_cases hc : c = 0
  · rw [if_pos hc, hc]; simp [pyDiv]; rfl
  · rw [if_neg hc]; simp [pyDiv, hc]; rfl

theorem floordiv_real (a : AngleDeg ℝ) (c : ℝ) : a.floordiv c = if c = 0 then .error .zeroDivision else .ok (AngleDeg.ofNum (a.deg / c)) := by
  unfold AngleDeg.floordiv
  by_cases hc : c = 0
  · rw [if_pos hc, hc]; simp [pyDiv]
  · rw [if_neg hc]; simp [pyDiv, hc]

theorem add_points (a b : AngleDeg ℝ) : Points (a.add b) (a.deg + b.deg) := by
  obtain ⟨p1, p2, p3⟩ := ofNum_points (a.deg + b.degree)
  exact ⟨p1, p2, p3.trans (AngleEq.add (AngleEq.refl _) (AngleDeg.degree_angleEq _))⟩

theorem isub_points (a b : AngleDeg ℝ) : Points (a.isub b) (a.deg - b.deg) := by
  obtain ⟨p1, p2, p3⟩ := ofNum_points (a.deg - b.degree)
  exact ⟨p1, p2, p3.trans (AngleEq.sub (AngleEq.refl _) (AngleDeg.degree_angleEq _))⟩

theorem bin_value {h : Heap ℝ} {op : BinOp} {x : Addr} {y : Rhs ℝ} {o : Obj ℝ} (ho : h[x]? = some o) (hm : ∀ m, o ≠ .mat m)
    {r : Addr} {h' : Heap ℝ} (hb : h.binary op x y = .ok (r, h')) : ∃ o', h'[r]? = some o' ∧ IsResult op o y (h.deref y) o' := by
  have al : ∀ {q : Obj ℝ}, (Except.ok (h.alloc q) : Except PyErr (Addr × Heap ℝ)) = .ok (r, h') → h'[r]? = some q := by
    intro q he
    have := Except.ok.inj he
    rw [← show (h.alloc q).2 = h' by rw [this], ← show (h.alloc q).1 = r by rw [this]]
    exact getElem?_alloc h q
  unfold Heap.binary at hb
  rw [ho] at hb
  cases o <;> first | exact absurd rfl (hm _) | (cases hb; done) | skip
  · rename_i v
    change h.vecBin op v y = _ at hb
    unfold Heap.vecBin at hb
    split at hb
    all_goals first | (cases hb; done) | skip
    · rename_i hd; rw [hd]; exact ⟨_, al hb, .vadd _ _ _⟩
    · rename_i hd; rw [hd]; exact ⟨_, al hb, .vsub _ _ _⟩
    · exact ⟨_, al hb, .vmul _ _ _⟩
    · rw [truediv_real] at hb
      split at hb
      · cases hb
      · rename_i hc; exact ⟨_, al hb, .vdiv _ _ _ hc⟩
  · rename_i a
    change h.angleBin op a y = _ at hb
    unfold Heap.angleBin at hb
    split at hb
    all_goals first | (cases hb; done) | skip
    · exact ⟨_, al hb, .aaddn _ _ _ _ (ofNum_points _)⟩
    · rename_i hd; rw [hd]; exact ⟨_, al hb, .aadd _ _ _ _ (add_points _ _)⟩
    · exact ⟨_, al hb, .asubn _ _ _ _ (ofNum_points _)⟩
    · rename_i hd; rw [hd]; exact ⟨_, al hb, .asub _ _ _ _ (ofNum_points _)⟩
    · exact ⟨_, al hb, .amul _ _ _ _ (ofNum_points _)⟩
    · rw [floordiv_real] at hb
      split at hb
      · cases hb
      · rename_i hc; exact ⟨_, al hb, .adiv _ _ _ _ hc (ofNum_points _)⟩

theorem bin_returns {h : Heap ℝ} {op : BinOp} {x : Addr} {y : Rhs ℝ} {o o' : Obj ℝ} (ho : h[x]? = some o)
    (hr : IsResult op o y (h.deref y) o') : ∃ r h', h.binary op x y = .ok (r, h') := by
  unfold Heap.binary
  rw [ho]
  generalize hd : h.deref y = z at hr
  cases hr <;> dsimp only [Heap.vecBin, Heap.angleBin] <;> first
    | (rw [hd]; exact ⟨_, _, rfl⟩)
    | exact ⟨_, _, rfl⟩
    | (rename_i hc; rw [truediv_real, if_neg hc]; exact ⟨_, _, rfl⟩)
    | (rename_i hc _; rw [floordiv_real, if_neg hc]; exact ⟨_, _, rfl⟩)
    | (cases y <;> first | (cases hd; done) | (rw [hd]; exact ⟨_, _, rfl⟩))

/-- **C167**, values of `x op y` for vectors and angles: it returns exactly for the operands listed in `IsResult`, and gives the
object listed there. -/
theorem C167_binary (h : Heap ℝ) (op : BinOp) (x : Addr) (y : Rhs ℝ) (o : Obj ℝ) (ho : h[x]? = some o) (hm : ∀ m, o ≠ .mat m) :
    ((∃ r h', h.binary op x y = .ok (r, h')) ↔ ∃ o', IsResult op o y (h.deref y) o') ∧
    ∀ r h', h.binary op x y = .ok (r, h') → ∃ o', h'[r]? = some o' ∧ IsResult op o y (h.deref y) o' := by
  refine ⟨⟨?_, ?_⟩, fun r h' hb => bin_value ho hm hb⟩
  · rintro ⟨r, h', hb⟩
    obtain ⟨o', _, h2⟩ := bin_value ho hm hb
    exact ⟨o', h2⟩
  · rintro ⟨o', h2⟩
    exact bin_returns ho h2

/-- **C167**, values of `x op= y` for vectors and angles: as for `x op y`, if `x` is not a vector that was marked invalid. -/
theorem C167_value_partial (h : Heap ℝ) (op : BinOp) (x : Addr) (y : Rhs ℝ) (o : Obj ℝ) (ho : h[x]? = some o) (hm : ∀ m, o ≠ .mat m)
    (hv : ∀ v, o = .vec v → v.valid = true) :
    ((∃ r h', h.aug op x y = .ok (r, h')) ↔ ∃ o', IsResult op o y (h.deref y) o') ∧
    ∀ r h', h.aug op x y = .ok (r, h') → ∃ o', h'[r]? = some o' ∧ IsResult op o y (h.deref y) o' := by
  have hB := C167_binary h op x y o ho hm
  unfold Heap.aug
  cases hi : h.inplace op x y with
  | none => exact hB
  | some res =>
    dsimp only
    have key : ∀ r h', res = .ok (r, h') → ∃ o', h'[r]? = some o' ∧ IsResult op o y (h.deref y) o' := by
      intro r h' he
      have wr : ∀ {q : Obj ℝ}, (Except.ok (x, h.write x q) : Except PyErr (Addr × Heap ℝ)) = .ok (r, h') → h'[r]? = some q := by
        intro q e
        obtain ⟨rfl, rfl⟩ := Prod.mk.inj (Except.ok.inj e)
        exact getElem?_write ho q
      unfold Heap.inplace at hi
      rw [ho] at hi
      cases o <;> cases op <;> first | (cases hi; done) | exact absurd rfl (hm _) | skip
      all_goals (have hi := Option.some.inj hi; subst hi; split at he <;> first | (cases he; done) | skip)
      · rename_i v _ w hd
        rw [hd]
        have := IsResult.vadd v w y
        refine ⟨_, wr he, ?_⟩
        have hv := hv v rfl
        unfold Vec.iadd; rw [hv]; exact this
      · rename_i v _ w hd
        rw [hd]
        have := IsResult.vsub v w y
        refine ⟨_, wr he, ?_⟩
        have hv := hv v rfl
        unfold Vec.isub; rw [hv]; exact this
      · refine ⟨_, wr he, ?_⟩
        unfold Vec.imul; rw [hv _ rfl]; exact .vmul _ _ _
      · exact ⟨_, wr he, .aaddn _ _ _ _ (ofNum_points _)⟩
      · rename_i hd; rw [hd]; exact ⟨_, wr he, .aadd _ _ _ _ (add_points _ _)⟩
      · exact ⟨_, wr he, .asubn _ _ _ _ (ofNum_points _)⟩
      · rename_i hd; rw [hd]; refine ⟨_, wr he, .asub _ _ _ _ ?_⟩
        exact isub_points _ _
      · exact ⟨_, wr he, .amul _ _ _ _ (ofNum_points _)⟩
    refine ⟨⟨?_, ?_⟩, key⟩
    · rintro ⟨r, h', he⟩
      obtain ⟨o', _, h2⟩ := key r h' he
      exact ⟨o', h2⟩
    · rintro ⟨o', hr⟩
      unfold Heap.inplace at hi
      rw [ho] at hi
      generalize hd : h.deref y = z at hr
      cases hr <;> dsimp only at hi <;> first | (cases hi; done) | (have hi := Option.some.inj hi; subst hi)
      all_goals first
        | (rw [hd]; exact ⟨_, _, rfl⟩)
        | exact ⟨_, _, rfl⟩
        | (cases y <;> first | (cases hd; done) | (rw [hd]; exact ⟨_, _, rfl⟩))

/-- **C167**, refuted for vectors that were invalidated: after `v += w` the vector is still invalid, while `v + w` is valid. -/
theorem C167_refuted_invalid : ∃ (h : Heap ℝ) (x : Addr) (y : Rhs ℝ) (r s : Addr) (h' h'' : Heap ℝ) (p q : Vec ℝ),
    h.aug .add x y = .ok (r, h') ∧ h.binary .add x y = .ok (s, h'') ∧ h'[r]? = some (.vec p) ∧ h''[s]? = some (.vec q) ∧
    p.x = q.x ∧ p.y = q.y ∧ p.valid = false ∧ q.valid = true :=
  ⟨[.vec ⟨1, 2, false⟩, .vec ⟨3, 4, true⟩], 0, .ref 1, _, _, _, _, _, _, rfl, rfl, rfl, rfl, rfl, rfl, rfl, rfl⟩

/-- **C167**, refuted for division: `a /= y` and `a / y` raise for every angle, whatever the operand, and `x /= y` on a vector does
not change the object that `x` denotes. The `__idiv__` methods of the two classes are never called. -/
theorem C167_refuted_division (h : Heap ℝ) (x : Addr) (y : Rhs ℝ) :
    (∀ a, h[x]? = some (.angle a) → h.aug .truediv x y = .error .typeError ∧ h.binary .truediv x y = .error .typeError) ∧
    (∀ v, h[x]? = some (.vec v) → ∀ r h', h.aug .truediv x y = .ok (r, h') → r ≠ x ∧ h'[x]? = some (.vec v)) := by
  constructor
  · intro a ha
    have hb : h.binary .truediv x y = .error .typeError := by
      unfold Heap.binary; rw [ha]; rfl
    refine ⟨?_, hb⟩
    unfold Heap.aug Heap.inplace
    rw [ha]; exact hb
  · intro v hv r h' he
    obtain ⟨e1, -, e2⟩ := (C167_alias h .truediv x y _ hv).2.1 (fun c => c) r h' he
    have hx : x < h.length := (List.getElem?_eq_some_iff.mp hv).1
    exact ⟨e1 ▸ (Nat.ne_of_lt hx).symm, (e2 x hx).trans hv⟩

/-- **C167**, refuted for matrices: `A * B` overwrites `A` with the product and returns `A`, so that afterwards every name of `A` sees
the product; and `A * c` with a number is `A`, unscaled. -/
theorem C167_refuted_matrix (h : Heap ℝ) (x y : Addr) (m n : Mat ℝ) (hx : h[x]? = some (.mat m)) (hy : h[y]? = some (.mat n)) :
    h.binary .mul x (.ref y) = .ok (x, h.set x (.mat (m.mul n))) ∧ ∀ c, h.binary .mul x (.num c) = .ok (x, h) := by
  constructor
  · unfold Heap.binary Heap.matBin Heap.deref; rw [hx]; dsimp only; rw [hy]; rfl
  · intro c
    unfold Heap.binary; rw [hx]; rfl

/-- **C167**, everything that can be done with a matrix on the left: `A *= B` overwrites `A` with the matrix of "first `B`, then `A`",
also if `B` is `A`; `A * v` is a new vector, the image of `v`; `A *= v` and `A *= c` raise; so do all other operators. -/
theorem C167_matrix (h : Heap ℝ) (x : Addr) (m : Mat ℝ) (hx : h[x]? = some (.mat m)) :
    (∀ y n, h[y]? = some (.mat n) → ∃ p, h.aug .mul x (.ref y) = .ok (x, h.set x (.mat p)) ∧
      ∀ v, p.transform v = m.transform (n.transform v)) ∧
    (∀ y v, h[y]? = some (.vec v) → h.binary .mul x (.ref y) =
      .ok (h.length, h ++ [.vec ⟨m.m11 * v.x + m.m12 * v.y + m.dx, m.m21 * v.x + m.m22 * v.y + m.dy, true⟩])) ∧
    (∀ y, (∀ n, h.deref y ≠ some (.mat n)) → h.aug .mul x y = .error .attributeError) ∧
    (∀ op y, op ≠ .mul → h.aug op x y = .error .typeError ∧ h.binary op x y = .error .typeError) := by
  refine ⟨?_, ?_, ?_, ?_⟩
  · intro y n hy
    refine ⟨m.mul n, ?_, ?_⟩
    · unfold Heap.aug Heap.inplace Heap.deref; rw [hx]; dsimp only; rw [hy]; rfl
    · intro v
      ext
      · simp only [Mat.transform, Mat.mul, Vec.ofXY]; ring
      · simp only [Mat.transform, Mat.mul, Vec.ofXY]; ring
      · rfl
  · intro y v hy
    unfold Heap.binary Heap.matBin Heap.deref; rw [hx]; dsimp only; rw [hy]; rfl
  · intro y hy
    unfold Heap.aug Heap.inplace; rw [hx]; dsimp only
    split
    · rename_i n hn; exact absurd hn (hy n)
    · rfl
  · intro op y hop
    have hb : h.binary op x y = .error .typeError := by
      unfold Heap.binary Heap.matBin; rw [hx]; dsimp only
      cases op <;> first | rfl | exact absurd rfl hop
    refine ⟨?_, hb⟩
    unfold Heap.aug Heap.inplace; rw [hx]
    cases op <;> first | exact hb | exact absurd rfl hop

/-- Two names for the vector `(1, 2)` and one for `(3, 4)`: `u = v; v += w` changes what `u` sees, `u = v; v /= 2` does not. -/
example : ∃ h h' : Heap ℝ,
    Heap.aug [.vec ⟨1, 2, true⟩, .vec ⟨3, 4, true⟩] .add 0 (.ref 1) = .ok (0, h) ∧ h[(0 : Addr)]? = some (.vec ⟨1 + 3, 2 + 4, true⟩) ∧
    Heap.aug [.vec ⟨1, 2, true⟩, .vec ⟨3, 4, true⟩] .truediv 0 (.num 2) = .ok (2, h') ∧
    h'[(0 : Addr)]? = some (.vec ⟨1, 2, true⟩) ∧ h'[(2 : Addr)]? = some (.vec ⟨1 / 2, 2 / 2, true⟩) := by
  refine ⟨_, [.vec ⟨1, 2, true⟩, .vec ⟨3, 4, true⟩, .vec ⟨1 / 2, 2 / 2, true⟩], rfl, rfl, ?_, rfl, rfl⟩
  change (do
    let w ← Vec.truediv (⟨1, 2, true⟩ : Vec ℝ) 2
    .ok (Heap.alloc [.vec ⟨1, 2, true⟩, .vec ⟨3, 4, true⟩] (.vec w)) : Except PyErr (Addr × Heap ℝ)) = _
  rw [truediv_real, if_neg two_ne_zero]
  rfl

end PyrusGeom
