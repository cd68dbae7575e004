import Verif.Model.HeapProg
import Verif.Props.HeapNew

/-!
# Programs over objects (C158)

A program is a list of calls: constructors, accessors that return copies, operators, and in-place methods of all classes
with parts.  It is run twice: on objects in the heap (the model of the code), and on values, where a call changes the value
of its receiver or yields a new value and nothing else happens.
-/

open PyrusGeom PyrusGeom.Spec

namespace PyrusGeom

/-- The value of an object, without identities. -/
inductive Val where
  | vec (v : Vec ℝ) | angle (a : AngleDeg ℝ) | size (s : Size ℝ) | mat (m : Mat ℝ)
  | seg (s : Seg ℝ) | ray (r : Ray ℝ) | circle (c : Circle ℝ) | sector (s : Sector ℝ) | tri (t : Tri ℝ) | rect (r : Rect ℝ)

/-- The object `a` has the value; the parts of one object are different objects. -/
def Holds (h : Heap ℝ) (a : ℕ) : Val → Prop
  | .vec v => h[a]? = some (.vec v)
  | .angle t => h[a]? = some (.angle t)
  | .size s => h[a]? = some (.size s)
  | .mat m => h[a]? = some (.mat m)
  | .seg s => ∃ o t : ℕ, h[a]? = some (.seg o t) ∧ o ≠ t ∧ h[o]? = some (.vec s.origin) ∧ h[t]? = some (.vec s.terminal)
  | .ray r => ∃ o d : ℕ, h[a]? = some (.ray o d) ∧ h[o]? = some (.vec r.origin) ∧ h[d]? = some (.angle r.dir)
  | .circle c => ∃ o : ℕ, h[a]? = some (.circle o c.radius) ∧ h[o]? = some (.vec c.center)
  | .sector s => ∃ o b e : ℕ, h[a]? = some (.sector o s.minR s.maxR b e) ∧ b ≠ e ∧ h[o]? = some (.vec s.center) ∧
      h[b]? = some (.angle s.start) ∧ h[e]? = some (.angle s.stop)
  | .tri t => ∃ p q r : ℕ, h[a]? = some (.tri p q r) ∧ p ≠ q ∧ p ≠ r ∧ q ≠ r ∧ h[p]? = some (.vec t.a) ∧
      h[q]? = some (.vec t.b) ∧ h[r]? = some (.vec t.c)
  | .rect r => ∃ p s : ℕ, h[a]? = some (.rect p s) ∧ h[p]? = some (.vec r.topLeft) ∧ h[s]? = some (.size r.size)

/-- An object and its parts. -/
def parts (h : Heap ℝ) (a : ℕ) : List ℕ :=
  match h[a]? with
  | some o => a :: o.refs
  | none => [a]

/-- The objects of the program have these values, and no two of them have a part in common. -/
structure ValuesOf (h : Heap ℝ) (env : List ℕ) (E : List Val) : Prop where
  len : env.length = E.length
  holds : ∀ (i a : ℕ) (v : Val), env[i]? = some a → E[i]? = some v → Holds h a v
  apart : ∀ i j a b : ℕ, i ≠ j → env[i]? = some a → env[j]? = some b → ∀ x ∈ parts h a, x ∉ parts h b

/-! ## Frame rules -/

theorem Holds.lt {h : Heap ℝ} {a : ℕ} {v : Val} (hv : Holds h a v) : ∀ x ∈ parts h a, x < h.length := by
  have lt : ∀ {x : ℕ} {o : Obj ℝ}, h[x]? = some o → x < h.length := fun ho => (List.getElem?_eq_some_iff.mp ho).1
  intro x hx
  cases v <;> simp only [Holds] at hv
  case seg => obtain ⟨o, t, h1, _, h2, h3⟩ := hv; simp [parts, h1, Obj.refs] at hx; rcases hx with rfl | rfl | rfl <;> exact lt ‹_›
  case ray => obtain ⟨o, t, h1, h2, h3⟩ := hv; simp [parts, h1, Obj.refs] at hx; rcases hx with rfl | rfl | rfl <;> exact lt ‹_›
  case circle => obtain ⟨o, h1, h2⟩ := hv; simp [parts, h1, Obj.refs] at hx; rcases hx with rfl | rfl <;> exact lt ‹_›
  case sector =>
    obtain ⟨o, b, e, h1, _, h2, h3, h4⟩ := hv; simp [parts, h1, Obj.refs] at hx
    rcases hx with rfl | rfl | rfl | rfl <;> exact lt ‹_›
  case tri =>
    obtain ⟨o, b, e, h1, _, _, _, h2, h3, h4⟩ := hv; simp [parts, h1, Obj.refs] at hx
    rcases hx with rfl | rfl | rfl | rfl <;> exact lt ‹_›
  case rect => obtain ⟨o, t, h1, h2, h3⟩ := hv; simp [parts, h1, Obj.refs] at hx; rcases hx with rfl | rfl | rfl <;> exact lt ‹_›
  all_goals
    simp [parts, hv, Obj.refs] at hx; subst hx; exact lt hv

theorem mem_parts_self (h : Heap ℝ) (a : ℕ) : a ∈ parts h a := by
  unfold parts; split <;> simp

theorem parts_congr {h h' : Heap ℝ} {a : ℕ} (e : h'[a]? = h[a]?) : parts h' a = parts h a := by
  unfold parts; rw [e]

theorem Holds.congr {h h' : Heap ℝ} {a : ℕ} {v : Val} (hv : Holds h a v) (e : ∀ x ∈ parts h a, h'[x]? = h[x]?) :
    Holds h' a v := by
  have e0 := e a (mem_parts_self h a)
  cases v <;> simp only [Holds] at hv ⊢
  case seg =>
    obtain ⟨o, t, h1, n, h2, h3⟩ := hv; simp [parts, h1, Obj.refs] at e
    exact ⟨o, t, by rw [e0, h1], n, by rw [e.2.1, h2], by rw [e.2.2, h3]⟩
  case ray =>
    obtain ⟨o, t, h1, h2, h3⟩ := hv; simp [parts, h1, Obj.refs] at e
    exact ⟨o, t, by rw [e0, h1], by rw [e.2.1, h2], by rw [e.2.2, h3]⟩
  case circle =>
    obtain ⟨o, h1, h2⟩ := hv; simp [parts, h1, Obj.refs] at e
    exact ⟨o, by rw [e0, h1], by rw [e.2, h2]⟩
  case sector =>
    obtain ⟨o, b, t, h1, n, h2, h3, h4⟩ := hv; simp [parts, h1, Obj.refs] at e
    exact ⟨o, b, t, by rw [e0, h1], n, by rw [e.2.1, h2], by rw [e.2.2.1, h3], by rw [e.2.2.2, h4]⟩
  case tri =>
    obtain ⟨o, b, t, h1, n1, n2, n3, h2, h3, h4⟩ := hv; simp [parts, h1, Obj.refs] at e
    exact ⟨o, b, t, by rw [e0, h1], n1, n2, n3, by rw [e.2.1, h2], by rw [e.2.2.1, h3], by rw [e.2.2.2, h4]⟩
  case rect =>
    obtain ⟨o, t, h1, h2, h3⟩ := hv; simp [parts, h1, Obj.refs] at e
    exact ⟨o, t, by rw [e0, h1], by rw [e.2.1, h2], by rw [e.2.2, h3]⟩
  all_goals rw [e0, hv]

theorem ValuesOf.val {h : Heap ℝ} {env : List ℕ} {E : List Val} (hs : ValuesOf h env E) {i a : ℕ} (ha : env[i]? = some a) :
    ∃ v, E[i]? = some v ∧ Holds h a v := by
  have hl : i < E.length := by rw [← hs.len]; exact (List.getElem?_eq_some_iff.mp ha).1
  exact ⟨E[i], List.getElem?_eq_getElem hl, hs.holds i a _ ha (List.getElem?_eq_getElem hl)⟩

/-- A new object whose parts are all new. -/
theorem ValuesOf.new {h : Heap ℝ} {env : List ℕ} {E : List Val} (hs : ValuesOf h env E) (l : List (Obj ℝ)) (r : ℕ) (v : Val)
    (hv : Holds (h ++ l) r v) (hn : ∀ x ∈ parts (h ++ l) r, h.length ≤ x) : ValuesOf (h ++ l) (env ++ [r]) (E ++ [v]) := by
  have old : ∀ i a : ℕ, env[i]? = some a → Holds (h ++ l) a (E[i]?.getD v) ∧ parts (h ++ l) a = parts h a ∧
      ∀ x ∈ parts h a, x < h.length := by
    intro i a ha
    obtain ⟨w, e1, e2⟩ := hs.val ha
    have fr : ∀ x ∈ parts h a, (h ++ l)[x]? = h[x]? := fun x hx => List.getElem?_append_left (e2.lt x hx)
    rw [e1]
    exact ⟨e2.congr fr, parts_congr (fr a (mem_parts_self h a)), e2.lt⟩
  have cases : ∀ (i a : ℕ), (env ++ [r])[i]? = some a → env[i]? = some a ∨ (i = env.length ∧ a = r) := by
    intro i a ha
    rcases lt_trichotomy i env.length with hl | hl | hl
    · left; rwa [List.getElem?_append_left hl] at ha
    · right; subst hl; simp at ha; exact ⟨rfl, ha.symm⟩
    · rw [List.getElem?_append_right hl.le] at ha
      have : i - env.length ≠ 0 := by omega
      obtain ⟨k, hk⟩ := Nat.exists_eq_succ_of_ne_zero this
      rw [hk] at ha; simp at ha
  refine ⟨by simp [hs.len], ?_, ?_⟩
  · intro i a w ha hw
    rcases cases i a ha with hi | ⟨rfl, rfl⟩
    · have hl : i < E.length := by rw [← hs.len]; exact (List.getElem?_eq_some_iff.mp hi).1
      rw [List.getElem?_append_left hl] at hw
      have := (old i a hi).1
      rwa [hw] at this
    · rw [hs.len] at hw
      simp at hw; subst hw; exact hv
  · intro i j a b hij ha hb x hx hx'
    rcases cases i a ha with hi | ⟨hi, hia⟩ <;> rcases cases j b hb with hj | ⟨hj, hjb⟩
    · obtain ⟨_, p1, _⟩ := old i a hi
      obtain ⟨_, p2, _⟩ := old j b hj
      rw [p1] at hx; rw [p2] at hx'
      exact hs.apart i j a b hij hi hj x hx hx'
    · subst hjb
      obtain ⟨_, p1, p2⟩ := old i a hi
      rw [p1] at hx
      have := p2 x hx; have := hn x hx'; omega
    · subst hia
      obtain ⟨_, p1, p2⟩ := old j b hj
      rw [p1] at hx'
      have := p2 x hx'; have := hn x hx; omega
    · omega

/-- An object gets a new value; only its own parts and new objects are involved. -/
theorem ValuesOf.upd {h h' : Heap ℝ} {env : List ℕ} {E : List Val} (hs : ValuesOf h env E) {i a : ℕ} (ha : env[i]? = some a) (w : Val)
    (hw : Holds h' a w) (fr : ∀ x, x < h.length → x ∉ parts h a → h'[x]? = h[x]?)
    (hn : ∀ x ∈ parts h' a, x ∈ parts h a ∨ h.length ≤ x) : ValuesOf h' env (E.set i w) := by
  have old : ∀ j b : ℕ, j ≠ i → env[j]? = some b → (∀ v, E[j]? = some v → Holds h' b v) ∧ parts h' b = parts h b ∧
      (∀ x ∈ parts h b, x < h.length) ∧ ∀ x ∈ parts h b, x ∉ parts h a := by
    intro j b hj hb
    obtain ⟨v, e1, e2⟩ := hs.val hb
    have dis := hs.apart j i b a hj hb ha
    have fr' : ∀ x ∈ parts h b, h'[x]? = h[x]? := fun x hx => fr x (e2.lt x hx) (dis x hx)
    refine ⟨fun v' hv' => ?_, parts_congr (fr' b (mem_parts_self h b)), e2.lt, dis⟩
    rw [e1] at hv'; obtain rfl := Option.some.inj hv'
    exact e2.congr fr'
  have hil : i < E.length := by rw [← hs.len]; exact (List.getElem?_eq_some_iff.mp ha).1
  refine ⟨by simp [hs.len], ?_, ?_⟩
  · intro j b v hb hv
    by_cases hj : j = i
    · subst hj
      rw [ha] at hb; obtain rfl := Option.some.inj hb
      rw [List.getElem?_set_self hil] at hv; obtain rfl := Option.some.inj hv
      exact hw
    · rw [List.getElem?_set_ne (Ne.symm hj)] at hv
      exact (old j b hj hb).1 v hv
  · have aux : ∀ j b : ℕ, j ≠ i → env[j]? = some b → ∀ x ∈ parts h' a, x ∉ parts h' b := by
      intro j b hj hb x hx hx'
      obtain ⟨_, p1, p2, p3⟩ := old j b hj hb
      rw [p1] at hx'
      rcases hn x hx with hx | hx
      · exact p3 x hx' hx
      · have := p2 x hx'; omega
    intro j k b c hjk hb hc x hx hx'
    by_cases hj : j = i
    · subst hj
      rw [ha] at hb; obtain rfl := Option.some.inj hb
      exact aux k c (Ne.symm hjk) hc x hx hx'
    · by_cases hk : k = i
      · subst hk
        rw [ha] at hc; obtain rfl := Option.some.inj hc
        exact aux j b hj hb x hx' hx
      · rw [(old j b hj hb).2.1] at hx
        rw [(old k c hk hc).2.1] at hx'
        exact hs.apart j k b c hjk hb hc x hx hx'

/-! ## Programs -/

/-- A call; `i`, `j`, … are numbers of objects of the program (in the order in which they were made). -/
inductive Call where
  -- new objects from numbers
  | newVec (x y : ℝ) | newAngle (d : ℝ) | newSize (l w : ℝ) | newMat (a b c d x y : ℝ)
  | newSegXY (x0 y0 x1 y1 : ℝ) | newRectXY (l t len wid : ℝ)
  -- new objects from objects
  | vecFn (i : ℕ) (f : VecFn ℝ) | vecAdd (i j : ℕ) | vecSub (i j : ℕ) | vecTh (i : ℕ) | fromPolar (r : ℝ) (i : ℕ)
  | angFn (i : ℕ) (f : AngFn ℝ) | angAdd (i j : ℕ) | angSub (i j : ℕ)
  | newSeg (i j : ℕ) | newSegPolar (i : ℕ) (len : ℝ) (k : ℕ)
  | newRay (i k : ℕ) | newRayNum (i : ℕ) (d : ℝ) | newRayPoint (i j : ℕ)
  | newCircle (i : ℕ) (r : ℝ) | newSector (i : ℕ) (minR maxR : ℝ) (k l : ℕ)
  | newTri (i j k : ℕ) | newTriSeg (s i : ℕ)
  | newRectLW (i : ℕ) (l w : ℝ) | newRectCorners (i j : ℕ) | newRectCopy (i : ℕ)
  | segOrigin (s : ℕ) | segTerminal (s : ℕ) | segCopy (s : ℕ) | segReversed (s : ℕ)
  | rayOrigin (r : ℕ) | rayDir (r : ℕ) | rayCopy (r : ℕ) | circleCenter (c : ℕ)
  | sectorCenter (s : ℕ) | sectorStart (s : ℕ) | sectorEnd (s : ℕ) | triA (t : ℕ) | triB (t : ℕ) | triC (t : ℕ)
  | rectTopLeft (r : ℕ) | rectSize (r : ℕ) | rectCenter (r : ℕ)
  | matMulVec (m i : ℕ) | matInverted (m : ℕ)
  -- in place
  | vecOp (i : ℕ) (op : VecCall ℝ) | vecOp2 (i j : ℕ) (op : VecCall2) | vecOpA (i k : ℕ) (op : VecCallA ℝ)
  | angOp (i : ℕ) (op : AngCall ℝ) | angOp2 (i j : ℕ) (op : AngCall2) | sizeOp (i : ℕ) (op : SizeCall ℝ)
  | matOp (m : ℕ) (op : MatCall ℝ) | matRotate (m k : ℕ) | matMul (m n : ℕ) | matTransformVec (m i : ℕ)
  | segAssign (s i j : ℕ) | segAssignPolar (s i : ℕ) (len : ℝ) (k : ℕ) | segAssignXY (s : ℕ) (x0 y0 x1 y1 : ℝ) | segSwap (s : ℕ)
  | circleAssign (c i : ℕ) (r : ℝ) | sectorAssign (s i : ℕ) (minR maxR : ℝ) (k l : ℕ)
  | triAssign (t i j k : ℕ) | triAssignSeg (t s i : ℕ)
  | rect (r : ℕ) (c : RectCall)

/-- What a call does to the values: a new value, or a new value for one of the objects. -/
inductive Effect where
  | new (v : Val) | upd (i : ℕ) (v : Val)

namespace Val

def vec? (E : List Val) (i : ℕ) : Option (Vec ℝ) := match E[i]? with | some (.vec v) => some v | _ => none
def angle? (E : List Val) (i : ℕ) : Option (AngleDeg ℝ) := match E[i]? with | some (.angle v) => some v | _ => none
def size? (E : List Val) (i : ℕ) : Option (Size ℝ) := match E[i]? with | some (.size v) => some v | _ => none
def mat? (E : List Val) (i : ℕ) : Option (Mat ℝ) := match E[i]? with | some (.mat v) => some v | _ => none
def seg? (E : List Val) (i : ℕ) : Option (Seg ℝ) := match E[i]? with | some (.seg v) => some v | _ => none
def ray? (E : List Val) (i : ℕ) : Option (Ray ℝ) := match E[i]? with | some (.ray v) => some v | _ => none
def circle? (E : List Val) (i : ℕ) : Option (Circle ℝ) := match E[i]? with | some (.circle v) => some v | _ => none
def sector? (E : List Val) (i : ℕ) : Option (Sector ℝ) := match E[i]? with | some (.sector v) => some v | _ => none
def tri? (E : List Val) (i : ℕ) : Option (Tri ℝ) := match E[i]? with | some (.tri v) => some v | _ => none
def rect? (E : List Val) (i : ℕ) : Option (Rect ℝ) := match E[i]? with | some (.rect v) => some v | _ => none

end Val

open Val in
/-- The call on values, in terms of the value models of the classes. -/
noncomputable def Call.effect (E : List Val) : Call → Option Effect
  | .newVec x y => some (.new (.vec (Vec.ofXY x y)))
  | .newAngle d => some (.new (.angle (AngleDeg.ofNum d)))
  | .newSize l w => some (.new (.size (Size.ofLW l w)))
  | .newMat a b c d x y => some (.new (.mat ⟨a, b, c, d, x, y⟩))
  | .newSegXY x0 y0 x1 y1 => some (.new (.seg (Seg.ofXYXY x0 y0 x1 y1)))
  | .newRectXY l t len wid => some (.new (.rect (Rect.ofLTLW l t len wid)))
  | .vecFn i f => do let v ← vec? E i; let w ← (f.value v).toOption; some (.new (.vec w))
  | .vecAdd i j => do let v ← vec? E i; let w ← vec? E j; some (.new (.vec (v.add w)))
  | .vecSub i j => do let v ← vec? E i; let w ← vec? E j; some (.new (.vec (v.sub w)))
  | .vecTh i => do let v ← vec? E i; some (.new (.angle v.th))
  | .fromPolar r i => do let a ← angle? E i; some (.new (.vec (Vec.fromPolar r a)))
  | .angFn i f => do let a ← angle? E i; let b ← (f.value a).toOption; some (.new (.angle b))
  | .angAdd i j => do let a ← angle? E i; let b ← angle? E j; some (.new (.angle (a.add b)))
  | .angSub i j => do let a ← angle? E i; let b ← angle? E j; some (.new (.angle (a.sub b)))
  | .newSeg i j => do let v ← vec? E i; let w ← vec? E j; some (.new (.seg (Seg.ofPoints v w)))
  | .newSegPolar i len k => do let v ← vec? E i; let a ← angle? E k; some (.new (.seg (Seg.ofPolar v len a)))
  | .newRay i k => do let v ← vec? E i; let a ← angle? E k; some (.new (.ray (Ray.ofAngle v a)))
  | .newRayNum i d => do let v ← vec? E i; some (.new (.ray ⟨Vec.ofVec v, AngleDeg.ofNum d⟩))
  | .newRayPoint i j => do let v ← vec? E i; let w ← vec? E j; some (.new (.ray (Ray.ofPoint v w)))
  | .newCircle i r => do let v ← vec? E i; some (.new (.circle (Circle.ofCR v r)))
  | .newSector i minR maxR k l => do
    let v ← vec? E i; let a ← angle? E k; let b ← angle? E l; some (.new (.sector (Sector.ofArgs v minR maxR a b)))
  | .newTri i j k => do let a ← vec? E i; let b ← vec? E j; let c ← vec? E k; some (.new (.tri (Tri.ofPoints a b c)))
  | .newTriSeg s i => do let a ← seg? E s; let c ← vec? E i; some (.new (.tri (Tri.ofSeg a c)))
  | .newRectLW i l w => do let v ← vec? E i; some (.new (.rect (Rect.ofPointLW v l w)))
  | .newRectCorners i j => do let v ← vec? E i; let w ← vec? E j; some (.new (.rect (Rect.ofCorners v w)))
  | .newRectCopy i => do let r ← rect? E i; some (.new (.rect (Rect.ofRect r)))
  | .segOrigin s => do let v ← seg? E s; some (.new (.vec (Vec.ofVec v.origin)))
  | .segTerminal s => do let v ← seg? E s; some (.new (.vec (Vec.ofVec v.terminal)))
  | .segCopy s => do let v ← seg? E s; some (.new (.seg (Seg.ofPoints v.origin v.terminal)))
  | .segReversed s => do let v ← seg? E s; some (.new (.seg v.reversedSegment))
  | .rayOrigin r => do let v ← ray? E r; some (.new (.vec (Vec.ofVec v.origin)))
  | .rayDir r => do let v ← ray? E r; some (.new (.angle (AngleDeg.ofAngle v.dir)))
  | .rayCopy r => do let v ← ray? E r; some (.new (.ray v.copy))
  | .circleCenter c => do let v ← circle? E c; some (.new (.vec (Vec.ofVec v.center)))
  | .sectorCenter s => do let v ← sector? E s; some (.new (.vec (Vec.ofVec v.center)))
  | .sectorStart s => do let v ← sector? E s; some (.new (.angle (AngleDeg.ofAngle v.start)))
  | .sectorEnd s => do let v ← sector? E s; some (.new (.angle (AngleDeg.ofAngle v.stop)))
  | .triA t => do let v ← tri? E t; some (.new (.vec v.getA))
  | .triB t => do let v ← tri? E t; some (.new (.vec v.getB))
  | .triC t => do let v ← tri? E t; some (.new (.vec v.getC))
  | .rectTopLeft r => do let v ← rect? E r; some (.new (.vec v.getTopLeft))
  | .rectSize r => do let v ← rect? E r; some (.new (.size (Size.ofLW v.size.length v.size.width)))
  | .rectCenter r => do let v ← rect? E r; some (.new (.vec v.center))
  | .matMulVec m i => do let a ← mat? E m; let v ← vec? E i; some (.new (.vec (a.transform v)))
  | .matInverted m => do let a ← mat? E m; some (.new (.mat a.inverted))
  | .vecOp i op => do let v ← vec? E i; some (.upd i (.vec (op.value v)))
  | .vecOp2 i j op => do let v ← vec? E i; let w ← vec? E j; some (.upd i (.vec (op.value v w)))
  | .vecOpA i k op => do let v ← vec? E i; let a ← angle? E k; some (.upd i (.vec (op.value v a)))
  | .angOp i op => do let a ← angle? E i; some (.upd i (.angle (op.value a)))
  | .angOp2 i j op => do let a ← angle? E i; let b ← angle? E j; some (.upd i (.angle (op.value a b)))
  | .sizeOp i op => do let s ← size? E i; some (.upd i (.size (op.value s)))
  | .matOp m op => do let a ← mat? E m; some (.upd m (.mat (op.value a)))
  | .matRotate m k => do let a ← mat? E m; let t ← angle? E k; some (.upd m (.mat (a.rotate t)))
  | .matMul m n => do let a ← mat? E m; let b ← mat? E n; some (.upd m (.mat (a.mul b)))
  | .matTransformVec m i => do let a ← mat? E m; let v ← vec? E i; some (.upd i (.vec (a.transformVec v)))
  | .segAssign s i j => do let _ ← seg? E s; let v ← vec? E i; let w ← vec? E j; some (.upd s (.seg (Seg.ofPoints v w)))
  | .segAssignPolar s i len k => do
    let _ ← seg? E s; let v ← vec? E i; let a ← angle? E k; some (.upd s (.seg (Seg.ofPolar v len a)))
  | .segAssignXY s x0 y0 x1 y1 => do let _ ← seg? E s; some (.upd s (.seg (Seg.ofXYXY x0 y0 x1 y1)))
  | .segSwap s => do let v ← seg? E s; some (.upd s (.seg v.swap))
  | .circleAssign c i r => do let _ ← circle? E c; let v ← vec? E i; some (.upd c (.circle (Circle.ofCR v r)))
  | .sectorAssign s i minR maxR k l => do
    let _ ← sector? E s; let v ← vec? E i; let a ← angle? E k; let b ← angle? E l
    some (.upd s (.sector (Sector.ofArgs v minR maxR a b)))
  | .triAssign t i j k => do
    let v ← tri? E t; let a ← vec? E i; let b ← vec? E j; let c ← vec? E k; some (.upd t (.tri (v.assign3 a b c)))
  | .triAssignSeg t s i => do let v ← tri? E t; let a ← seg? E s; let c ← vec? E i; some (.upd t (.tri (v.assignSeg a c)))
  | .rect r c => do let v ← rect? E r; let w ← c.value ⟨vec? E, size? E, rect? E⟩ r v; some (.upd r (.rect w))

/-- A reference of the program. -/
def ref (env : List ℕ) (i : ℕ) : Except PyErr ℕ := match env[i]? with | some a => .ok a | none => .error .exception

/-- The objects of a call on a rectangle. -/
def RectCall.deref (env : List ℕ) : RectCall → Except PyErr RectCall
  | .moveCenter q => do let a ← ref env q; .ok (.moveCenter a)
  | .moveTopLeft q => do let a ← ref env q; .ok (.moveTopLeft a)
  | .moveBottomRight q => do let a ← ref env q; .ok (.moveBottomRight a)
  | .setSizeObj z => do let a ← ref env z; .ok (.setSizeObj a)
  | .assign3 q len wid => do let a ← ref env q; .ok (.assign3 a len wid)
  | .assignCorners q q' => do let a ← ref env q; let b ← ref env q'; .ok (.assignCorners a b)
  | .assignRect o => do let a ← ref env o; .ok (.assignRect a)
  | .intersected o => do let a ← ref env o; .ok (.intersected a)
  | .united o => do let a ← ref env o; .ok (.united a)
  | c => .ok c

/-- The call on objects: a call of the model, which yields a new object or works in place (`none`). -/
noncomputable def Call.exec (h : Heap ℝ) (env : List ℕ) : Call → Except PyErr (Option Addr × Heap ℝ)
  | .newVec x y => let (r, h) := h.alloc (.vec (Vec.ofXY x y)); .ok (some r, h)
  | .newAngle d => let (r, h) := h.alloc (.angle (AngleDeg.ofNum d)); .ok (some r, h)
  | .newSize l w => let (r, h) := h.alloc (.size (Size.ofLW l w)); .ok (some r, h)
  | .newMat a b c d x y => let (r, h) := h.alloc (.mat ⟨a, b, c, d, x, y⟩); .ok (some r, h)
  | .newSegXY x0 y0 x1 y1 => let (r, h) := h.newSegXY x0 y0 x1 y1; .ok (some r, h)
  | .newRectXY l t len wid => let (r, h) := h.newRectXY l t len wid; .ok (some r, h)
  | .vecFn i f => do let a ← ref env i; let (r, h) ← h.vecFn a f; .ok (some r, h)
  | .vecAdd i j => do let a ← ref env i; let b ← ref env j; let (r, h) ← h.vecAdd a b; .ok (some r, h)
  | .vecSub i j => do let a ← ref env i; let b ← ref env j; let (r, h) ← h.vecSub a b; .ok (some r, h)
  | .vecTh i => do let a ← ref env i; let (r, h) ← h.vecTh a; .ok (some r, h)
  | .fromPolar x i => do let a ← ref env i; let (r, h) ← h.fromPolar x a; .ok (some r, h)
  | .angFn i f => do let a ← ref env i; let (r, h) ← h.angFn a f; .ok (some r, h)
  | .angAdd i j => do let a ← ref env i; let b ← ref env j; let (r, h) ← h.angAdd a b; .ok (some r, h)
  | .angSub i j => do let a ← ref env i; let b ← ref env j; let (r, h) ← h.angSub a b; .ok (some r, h)
  | .newSeg i j => do let a ← ref env i; let b ← ref env j; let (r, h) ← h.newSeg a b; .ok (some r, h)
  | .newSegPolar i len k => do let a ← ref env i; let b ← ref env k; let (r, h) ← h.newSegPolar a len b; .ok (some r, h)
  | .newRay i k => do let a ← ref env i; let b ← ref env k; let (r, h) ← h.newRay a b; .ok (some r, h)
  | .newRayNum i d => do let a ← ref env i; let (r, h) ← h.newRayNum a d; .ok (some r, h)
  | .newRayPoint i j => do let a ← ref env i; let b ← ref env j; let (r, h) ← h.newRayPoint a b; .ok (some r, h)
  | .newCircle i x => do let a ← ref env i; let (r, h) ← h.newCircle a x; .ok (some r, h)
  | .newSector i minR maxR k l => do
    let a ← ref env i; let b ← ref env k; let c ← ref env l; let (r, h) ← h.newSector a minR maxR b c; .ok (some r, h)
  | .newTri i j k => do
    let a ← ref env i; let b ← ref env j; let c ← ref env k; let (r, h) ← h.newTri a b c; .ok (some r, h)
  | .newTriSeg s i => do let a ← ref env s; let b ← ref env i; let (r, h) ← h.newTriSeg a b; .ok (some r, h)
  | .newRectLW i l w => do let a ← ref env i; let (r, h) ← h.newRectLW a l w; .ok (some r, h)
  | .newRectCorners i j => do let a ← ref env i; let b ← ref env j; let (r, h) ← h.newRectCorners a b; .ok (some r, h)
  | .newRectCopy i => do let a ← ref env i; let (r, h) ← h.newRectCopy a; .ok (some r, h)
  | .segOrigin i => do let a ← ref env i; let (r, h) ← h.segOrigin a; .ok (some r, h)
  | .segTerminal i => do let a ← ref env i; let (r, h) ← h.segTerminal a; .ok (some r, h)
  | .segCopy i => do let a ← ref env i; let (r, h) ← h.segCopy a; .ok (some r, h)
  | .segReversed i => do let a ← ref env i; let (r, h) ← h.segReversed a; .ok (some r, h)
  | .rayOrigin i => do let a ← ref env i; let (r, h) ← h.rayOrigin a; .ok (some r, h)
  | .rayDir i => do let a ← ref env i; let (r, h) ← h.rayDir a; .ok (some r, h)
  | .rayCopy i => do let a ← ref env i; let (r, h) ← h.rayCopy a; .ok (some r, h)
  | .circleCenter i => do let a ← ref env i; let (r, h) ← h.circleCenter a; .ok (some r, h)
  | .sectorCenter i => do let a ← ref env i; let (r, h) ← h.sectorCenter a; .ok (some r, h)
  | .sectorStart i => do let a ← ref env i; let (r, h) ← h.sectorStart a; .ok (some r, h)
  | .sectorEnd i => do let a ← ref env i; let (r, h) ← h.sectorEnd a; .ok (some r, h)
  | .triA i => do let a ← ref env i; let (r, h) ← h.triA a; .ok (some r, h)
  | .triB i => do let a ← ref env i; let (r, h) ← h.triB a; .ok (some r, h)
  | .triC i => do let a ← ref env i; let (r, h) ← h.triC a; .ok (some r, h)
  | .rectTopLeft i => do let a ← ref env i; let (r, h) ← h.rectTopLeft a; .ok (some r, h)
  | .rectSize i => do let a ← ref env i; let (r, h) ← h.rectSize a; .ok (some r, h)
  | .rectCenter i => do let a ← ref env i; let (r, h) ← h.rectCenter a; .ok (some r, h)
  | .matMulVec m i => do let a ← ref env m; let b ← ref env i; let (r, h) ← h.matMulVec a b; .ok (some r, h)
  | .matInverted m => do let a ← ref env m; let (r, h) ← h.matInverted a; .ok (some r, h)
  | .vecOp i op => do let a ← ref env i; let h ← h.vecOp a op; .ok (none, h)
  | .vecOp2 i j op => do let a ← ref env i; let b ← ref env j; let h ← h.vecOp2 a b op; .ok (none, h)
  | .vecOpA i k op => do let a ← ref env i; let b ← ref env k; let h ← h.vecOpA a b op; .ok (none, h)
  | .angOp i op => do let a ← ref env i; let h ← h.angOp a op; .ok (none, h)
  | .angOp2 i j op => do let a ← ref env i; let b ← ref env j; let h ← h.angOp2 a b op; .ok (none, h)
  | .sizeOp i op => do let a ← ref env i; let h ← h.sizeOp a op; .ok (none, h)
  | .matOp m op => do let a ← ref env m; let h ← h.matOp a op; .ok (none, h)
  | .matRotate m k => do let a ← ref env m; let b ← ref env k; let h ← h.matRotate a b; .ok (none, h)
  | .matMul m n => do let a ← ref env m; let b ← ref env n; let (_, h) ← h.matMul a b; .ok (none, h)
  | .matTransformVec m i => do let a ← ref env m; let b ← ref env i; let (_, h) ← h.matTransformVec a b; .ok (none, h)
  | .segAssign s i j => do
    let a ← ref env s; let b ← ref env i; let c ← ref env j; let h ← h.segAssign a b c; .ok (none, h)
  | .segAssignPolar s i len k => do
    let a ← ref env s; let b ← ref env i; let c ← ref env k; let h ← h.segAssignPolar a b len c; .ok (none, h)
  | .segAssignXY s x0 y0 x1 y1 => do let a ← ref env s; let h ← h.segAssignXY a x0 y0 x1 y1; .ok (none, h)
  | .segSwap s => do let a ← ref env s; let (_, h) ← h.segSwap a; .ok (none, h)
  | .circleAssign c i r => do let a ← ref env c; let b ← ref env i; let h ← h.circleAssign a b r; .ok (none, h)
  | .sectorAssign s i minR maxR k l => do
    let a ← ref env s; let b ← ref env i; let c ← ref env k; let d ← ref env l
    let h ← h.sectorAssign a b minR maxR c d; .ok (none, h)
  | .triAssign t i j k => do
    let a ← ref env t; let b ← ref env i; let c ← ref env j; let d ← ref env k
    let h ← h.triAssign a b c d; .ok (none, h)
  | .triAssignSeg t s i => do
    let a ← ref env t; let b ← ref env s; let c ← ref env i; let h ← h.triAssignSeg a b c; .ok (none, h)
  | .rect r c => do let a ← ref env r; let c ← c.deref env; let h ← c.run h a; .ok (none, h)

/-- The values after a call. -/
def Effect.apply (E : List Val) : Effect → List Val
  | .new v => E ++ [v]
  | .upd i v => E.set i v

/-- The references after a call. -/
def newEnv (env : List ℕ) : Option ℕ → List ℕ
  | some r => env ++ [r]
  | none => env

/-- What a correct call on objects leaves behind, given what it does to the values. -/
def Refines (env : List ℕ) (res : Except PyErr (Option Addr × Heap ℝ)) (E : List Val) (e : Effect) : Prop :=
  ∃ r h', res = .ok (r, h') ∧ ValuesOf h' (newEnv env r) (e.apply E)

section access
variable {h : Heap ℝ} {env : List ℕ} {E : List Val} (hs : ValuesOf h env E) {i : ℕ}
include hs

theorem ValuesOf.get {v : Val} (hv : E[i]? = some v) : ∃ a, ref env i = .ok a ∧ env[i]? = some a ∧ Holds h a v := by
  have hl : i < env.length := by rw [hs.len]; exact (List.getElem?_eq_some_iff.mp hv).1
  refine ⟨env[i], ?_, List.getElem?_eq_getElem hl, hs.holds i _ v (List.getElem?_eq_getElem hl) hv⟩
  simp [ref, hl]

theorem ValuesOf.vec {v : Vec ℝ} (hv : Val.vec? E i = some v) :
    ∃ a : ℕ, ref env i = .ok a ∧ env[i]? = some a ∧ h[a]? = some (.vec v) := by
  unfold Val.vec? at hv; split at hv
  · obtain rfl := Option.some.inj hv; exact hs.get ‹_›
  · cases hv

theorem ValuesOf.angle {v : AngleDeg ℝ} (hv : Val.angle? E i = some v) :
    ∃ a : ℕ, ref env i = .ok a ∧ env[i]? = some a ∧ h[a]? = some (.angle v) := by
  unfold Val.angle? at hv; split at hv
  · obtain rfl := Option.some.inj hv; exact hs.get ‹_›
  · cases hv

theorem ValuesOf.size {v : Size ℝ} (hv : Val.size? E i = some v) :
    ∃ a : ℕ, ref env i = .ok a ∧ env[i]? = some a ∧ h[a]? = some (.size v) := by
  unfold Val.size? at hv; split at hv
  · obtain rfl := Option.some.inj hv; exact hs.get ‹_›
  · cases hv

theorem ValuesOf.mat {v : Mat ℝ} (hv : Val.mat? E i = some v) :
    ∃ a : ℕ, ref env i = .ok a ∧ env[i]? = some a ∧ h[a]? = some (.mat v) := by
  unfold Val.mat? at hv; split at hv
  · obtain rfl := Option.some.inj hv; exact hs.get ‹_›
  · cases hv

theorem ValuesOf.seg {v : Seg ℝ} (hv : Val.seg? E i = some v) :
    ∃ a : ℕ, ref env i = .ok a ∧ env[i]? = some a ∧ Holds h a (.seg v) := by
  unfold Val.seg? at hv; split at hv
  · obtain rfl := Option.some.inj hv; exact hs.get ‹_›
  · cases hv

theorem ValuesOf.ray {v : Ray ℝ} (hv : Val.ray? E i = some v) :
    ∃ a : ℕ, ref env i = .ok a ∧ env[i]? = some a ∧ Holds h a (.ray v) := by
  unfold Val.ray? at hv; split at hv
  · obtain rfl := Option.some.inj hv; exact hs.get ‹_›
  · cases hv

theorem ValuesOf.circle {v : Circle ℝ} (hv : Val.circle? E i = some v) :
    ∃ a : ℕ, ref env i = .ok a ∧ env[i]? = some a ∧ Holds h a (.circle v) := by
  unfold Val.circle? at hv; split at hv
  · obtain rfl := Option.some.inj hv; exact hs.get ‹_›
  · cases hv

theorem ValuesOf.sector {v : Sector ℝ} (hv : Val.sector? E i = some v) :
    ∃ a : ℕ, ref env i = .ok a ∧ env[i]? = some a ∧ Holds h a (.sector v) := by
  unfold Val.sector? at hv; split at hv
  · obtain rfl := Option.some.inj hv; exact hs.get ‹_›
  · cases hv

theorem ValuesOf.tri {v : Tri ℝ} (hv : Val.tri? E i = some v) :
    ∃ a : ℕ, ref env i = .ok a ∧ env[i]? = some a ∧ Holds h a (.tri v) := by
  unfold Val.tri? at hv; split at hv
  · obtain rfl := Option.some.inj hv; exact hs.get ‹_›
  · cases hv

theorem ValuesOf.rect {v : Rect ℝ} (hv : Val.rect? E i = some v) :
    ∃ a : ℕ, ref env i = .ok a ∧ env[i]? = some a ∧ Holds h a (.rect v) := by
  unfold Val.rect? at hv; split at hv
  · obtain rfl := Option.some.inj hv; exact hs.get ‹_›
  · cases hv

/-- New objects without parts. -/
theorem ValuesOf.new_leaf (o : Obj ℝ) (v : Val) (ho : Holds (h ++ [o]) h.length v) (hr : o.refs = []) :
    ValuesOf (h ++ [o]) (env ++ [h.length]) (E ++ [v]) := by
  refine hs.new [o] _ v ho ?_
  intro x hx
  simp [parts, hr] at hx
  omega

/-- An object without parts is written. -/
theorem ValuesOf.set_leaf {a : ℕ} {o o' : Obj ℝ} (ha : env[i]? = some a) (h1 : h[a]? = some o) (hr : o.refs = []) (hr' : o'.refs = [])
    (w : Val) (hw : Holds (h.set a o') a w) : ValuesOf (h.set a o') env (E.set i w) := by
  have hl : a < h.length := (List.getElem?_eq_some_iff.mp h1).1
  refine hs.upd ha w hw ?_ ?_
  · intro x _ hx
    simp [parts, h1, hr] at hx
    exact List.getElem?_set_ne (Ne.symm hx)
  · intro x hx
    simp [parts, List.getElem?_set_self hl, hr'] at hx
    subst hx; exact Or.inl (mem_parts_self h x)

/-- An object gets new parts. -/
theorem ValuesOf.set_new {a : ℕ} {o' : Obj ℝ} (ha : env[i]? = some a) (l : List (Obj ℝ)) (hr : ∀ x ∈ o'.refs, h.length ≤ x)
    (w : Val) (hw : Holds ((h ++ l).set a o') a w) : ValuesOf ((h ++ l).set a o') env (E.set i w) := by
  obtain ⟨v, _, hv⟩ := hs.val ha
  have hl : a < h.length := hv.lt a (mem_parts_self h a)
  refine hs.upd ha w hw ?_ ?_
  · intro x hxl hx
    have : a ≠ x := by rintro rfl; exact hx (mem_parts_self h a)
    rw [List.getElem?_set_ne this, List.getElem?_append_left hxl]
  · intro x hx
    have hl' : a < (h ++ l).length := by rw [List.length_append]; omega
    simp only [parts, List.getElem?_set_self hl', List.mem_cons] at hx
    rcases hx with rfl | hx
    · exact Or.inl (mem_parts_self h x)
    · exact Or.inr (hr x hx)

end access


theorem rd_vec {h : Heap ℝ} {p : ℕ} {v : Vec ℝ} (hp : h[p]? = some (.vec v)) (l : List (Obj ℝ)) : Heap.vec (h ++ l) p = .ok v :=
  Heap.vec_ok.mpr (getElem?_append_of_some hp)
theorem rd_angle {h : Heap ℝ} {p : ℕ} {v : AngleDeg ℝ} (hp : h[p]? = some (.angle v)) (l : List (Obj ℝ)) :
    Heap.angle (h ++ l) p = .ok v := Heap.angle_ok.mpr (getElem?_append_of_some hp)
theorem rd_size {h : Heap ℝ} {p : ℕ} {v : Size ℝ} (hp : h[p]? = some (.size v)) (l : List (Obj ℝ)) :
    Heap.size (h ++ l) p = .ok v := Heap.size_ok.mpr (getElem?_append_of_some hp)

theorem ValuesOf.inj {h : Heap ℝ} {env : List ℕ} {E : List Val} (hs : ValuesOf h env E) {i j a : ℕ} (hi : env[i]? = some a)
    (hj : env[j]? = some a) : i = j := by
  by_contra n
  exact hs.apart i j a a n hi hj a (mem_parts_self h a) (mem_parts_self h a)

/-- Values by object instead of by number. -/
noncomputable def byAddr {α : Type} (env : List ℕ) (f : ℕ → Option α) (a : ℕ) : Option α := by
  classical exact if h : ∃ i : ℕ, env[i]? = some a then f h.choose else none

theorem byAddr_some {α : Type} {env : List ℕ} {f : ℕ → Option α} {a : ℕ} {v : α} (hv : byAddr env f a = some v) :
    ∃ i : ℕ, env[i]? = some a ∧ f i = some v := by
  unfold byAddr at hv; split at hv
  · exact ⟨_, Exists.choose_spec ‹_›, hv⟩
  · cases hv

theorem ValuesOf.byAddr {h : Heap ℝ} {env : List ℕ} {E : List Val} (hs : ValuesOf h env E) {α : Type} (f : ℕ → Option α) {i a : ℕ}
    (hi : env[i]? = some a) : byAddr env f a = f i := by
  have hx : ∃ i : ℕ, env[i]? = some a := ⟨i, hi⟩
  unfold PyrusGeom.byAddr
  rw [dif_pos hx, hs.inj hx.choose_spec hi]

/-- The client's view of C157. -/
noncomputable def knownAt (env : List ℕ) (E : List Val) : Known :=
  ⟨byAddr env (Val.vec? E), byAddr env (Val.size? E), byAddr env (Val.rect? E)⟩

theorem ValuesOf.separate {h : Heap ℝ} {env : List ℕ} {E : List Val} (hs : ValuesOf h env E) : Separate h (knownAt env E) := by
  have some_of : ∀ {α : Type} {o : Option α}, o ≠ none → ∃ v, o = some v := fun ho => Option.ne_none_iff_exists'.mp ho
  refine ⟨?_, ?_, ?_, ?_, ?_⟩
  · intro q v hv
    obtain ⟨i, hi, hv⟩ := byAddr_some hv
    obtain ⟨a, _, ea, ha⟩ := hs.vec hv
    rw [hi] at ea; obtain rfl := Option.some.inj ea; exact ha
  · intro q v hv
    obtain ⟨i, hi, hv⟩ := byAddr_some hv
    obtain ⟨a, _, ea, ha⟩ := hs.size hv
    rw [hi] at ea; obtain rfl := Option.some.inj ea; exact ha
  · intro q v hv
    obtain ⟨i, hi, hv⟩ := byAddr_some hv
    obtain ⟨a, _, ea, ha⟩ := hs.rect hv
    rw [hi] at ea; obtain rfl := Option.some.inj ea; exact ha
  · intro r r' p s p' s' h1 h2 hn hr hr'
    obtain ⟨v, h1⟩ := some_of h1
    obtain ⟨v', h2⟩ := some_of h2
    obtain ⟨i, hi, _⟩ := byAddr_some h1
    obtain ⟨j, hj, _⟩ := byAddr_some h2
    have hij : i ≠ j := by rintro rfl; rw [hi] at hj; exact hn (Option.some.inj hj)
    have ap := hs.apart i j r r' hij hi hj
    simp only [parts, hr, hr', Obj.refs, List.mem_cons, List.not_mem_nil, or_false] at ap
    exact ⟨fun e => ap p (by tauto) (by rw [e]; tauto), fun e => ap s (by tauto) (by rw [e]; tauto)⟩
  · intro r p s h1 hr
    obtain ⟨v, h1⟩ := some_of h1
    obtain ⟨i, hi, hv⟩ := byAddr_some h1
    obtain ⟨a, _, ea, p0, s0, k0, k1, k2⟩ := hs.rect hv
    rw [hi] at ea; obtain rfl := Option.some.inj ea
    rw [hr] at k0
    obtain ⟨rfl, rfl⟩ : p = p0 ∧ s = s0 := by simpa using k0
    constructor
    · by_contra hc
      obtain ⟨u, hu⟩ := some_of hc
      obtain ⟨j, hj, _⟩ := byAddr_some hu
      have hij : i ≠ j := by
        rintro rfl; rw [hi] at hj; obtain rfl := Option.some.inj hj
        rw [hr] at k1; simp at k1
      exact hs.apart i j r p hij hi hj p (by simp [parts, hr, Obj.refs]) (mem_parts_self h p)
    · by_contra hc
      obtain ⟨u, hu⟩ := some_of hc
      obtain ⟨j, hj, _⟩ := byAddr_some hu
      have hij : i ≠ j := by
        rintro rfl; rw [hi] at hj; obtain rfl := Option.some.inj hj
        rw [hr] at k2; simp at k2
      exact hs.apart i j r s hij hi hj s (by simp [parts, hr, Obj.refs]) (mem_parts_self h s)

theorem RectCall.deref_value {h : Heap ℝ} {env : List ℕ} {E : List Val} (hs : ValuesOf h env E) {r a : ℕ} (hr : env[r]? = some a)
    (v : Rect ℝ) {w : Rect ℝ} (c : RectCall) (hw : c.value ⟨Val.vec? E, Val.size? E, Val.rect? E⟩ r v = some w) :
    ∃ c', c.deref env = .ok c' ∧ c'.value (knownAt env E) a v = some w := by
  have kv : ∀ {i b : ℕ}, env[i]? = some b → (knownAt env E).vec b = Val.vec? E i := fun hi => hs.byAddr _ hi
  have kz : ∀ {i b : ℕ}, env[i]? = some b → (knownAt env E).size b = Val.size? E i := fun hi => hs.byAddr _ hi
  have kr : ∀ {i b : ℕ}, env[i]? = some b → (knownAt env E).rect b = Val.rect? E i := fun hi => hs.byAddr _ hi
  match c with
  | moveCenter q | moveTopLeft q | moveBottomRight q | assign3 q _ _ =>
    obtain ⟨u, hu, rfl⟩ := Option.map_eq_some_iff.mp hw
    obtain ⟨b, rb, eb, _⟩ := hs.vec hu
    exact ⟨_, by simp [deref, rb, bind, Except.bind]; rfl, by simp [value, kv eb, show Val.vec? E q = some u from hu]⟩
  | setSizeObj q =>
    obtain ⟨u, hu, rfl⟩ := Option.map_eq_some_iff.mp hw
    obtain ⟨b, rb, eb, _⟩ := hs.size hu
    exact ⟨_, by simp [deref, rb, bind, Except.bind]; rfl, by simp [value, kz eb, show Val.size? E q = some u from hu]⟩
  | assignRect q =>
    obtain ⟨u, hu, rfl⟩ := Option.map_eq_some_iff.mp hw
    obtain ⟨b, rb, eb, _⟩ := hs.rect hu
    exact ⟨_, by simp [deref, rb, bind, Except.bind]; rfl, by simp [value, kr eb, show Val.rect? E q = some u from hu]⟩
  | assignCorners q q' =>
    obtain ⟨u, hu, hw⟩ := Option.bind_eq_some_iff.mp hw
    obtain ⟨u', hu', rfl⟩ := Option.map_eq_some_iff.mp hw
    obtain ⟨b, rb, eb, _⟩ := hs.vec hu
    obtain ⟨b', rb', eb', _⟩ := hs.vec hu'
    exact ⟨_, by simp [deref, rb, rb', bind, Except.bind]; rfl, by simp [value, kv eb, kv eb', show Val.vec? E q = some u from hu, show Val.vec? E q' = some u' from hu']⟩
  | intersected o | united o =>
    by_cases ho : o = r
    · subst ho
      have ra : ref env o = .ok a := by simp [ref, hr]
      simp only [value, if_pos] at hw
      exact ⟨_, by simp [deref, ra, bind, Except.bind]; rfl, by simpa [value] using hw⟩
    · simp only [value, if_neg ho] at hw
      obtain ⟨u, hu, rfl⟩ := Option.map_eq_some_iff.mp hw
      obtain ⟨b, rb, eb, _⟩ := hs.rect hu
      have hb : b ≠ a := by rintro rfl; exact ho (hs.inj eb hr)
      exact ⟨_, by simp [deref, rb, bind, Except.bind]; rfl, by simp [value, kr eb, show Val.rect? E o = some u from hu, hb]⟩
  | moveLeft _ | moveRight _ | moveTop _ | moveBottom _ | setTopLeft _ _ | setBottomRight _ _ | setLeft _ | setRight _ | setTop _
  | setBottom _ | setLength _ | setWidth _ | setSize _ _ | assign4 _ _ _ _ => exact ⟨_, rfl, hw⟩

/-- One call: if the values allow it, the call on the objects succeeds and leaves objects with the new values. -/
theorem Call.step {h : Heap ℝ} {env : List ℕ} {E : List Val} (hs : ValuesOf h env E) (c : Call) {e : Effect}
    (he : c.effect E = some e) : Refines env (c.exec h env) E e := by
  match c with
  | newVec x y =>
    obtain rfl := Option.some.inj he
    exact ⟨some h.length, h ++ [Obj.vec (Vec.ofXY x y)], by simp [Call.exec, Heap.alloc], hs.new_leaf (.vec (Vec.ofXY x y)) _ (by simp [Holds]) rfl⟩
  | newAngle d =>
    obtain rfl := Option.some.inj he
    exact ⟨some h.length, h ++ [Obj.angle (AngleDeg.ofNum d)], by simp [Call.exec, Heap.alloc], hs.new_leaf (.angle (AngleDeg.ofNum d)) _ (by simp [Holds]) rfl⟩
  | newSize l w =>
    obtain rfl := Option.some.inj he
    exact ⟨some h.length, h ++ [Obj.size (Size.ofLW l w)], by simp [Call.exec, Heap.alloc], hs.new_leaf (.size (Size.ofLW l w)) _ (by simp [Holds]) rfl⟩
  | newMat a b c d x y =>
    obtain rfl := Option.some.inj he
    exact ⟨some h.length, h ++ [Obj.mat ⟨a, b, c, d, x, y⟩], by simp [Call.exec, Heap.alloc], hs.new_leaf (.mat ⟨a, b, c, d, x, y⟩) _ (by simp [Holds]) rfl⟩
  | vecFn i f =>
    simp only [Call.effect, Option.bind_eq_bind, Option.bind_eq_some_iff, Option.some.injEq] at he
    obtain ⟨v0, hv0, w, hw, rfl⟩ := he
    obtain ⟨a0, r0, e0, m0⟩ := hs.vec hv0
    have hw' : f.value v0 = .ok w := by cases hf : f.value v0 <;> simp_all [Except.toOption]
    exact ⟨some h.length, h ++ [Obj.vec w], by simp [Call.exec, r0, Heap.vecFn, Heap.vec_ok.mpr m0, hw', Heap.alloc, Heap.write, bind, Except.bind, pure, Except.pure],
      hs.new_leaf (.vec w) _ (by simp [Holds]) rfl⟩
  | angFn i f =>
    simp only [Call.effect, Option.bind_eq_bind, Option.bind_eq_some_iff, Option.some.injEq] at he
    obtain ⟨v0, hv0, w, hw, rfl⟩ := he
    obtain ⟨a0, r0, e0, m0⟩ := hs.angle hv0
    have hw' : f.value v0 = .ok w := by cases hf : f.value v0 <;> simp_all [Except.toOption]
    exact ⟨some h.length, h ++ [Obj.angle w], by simp [Call.exec, r0, Heap.angFn, Heap.angle_ok.mpr m0, hw', Heap.alloc, Heap.write, bind, Except.bind, pure, Except.pure],
      hs.new_leaf (.angle w) _ (by simp [Holds]) rfl⟩
  | vecAdd i j =>
    simp only [Call.effect, Option.bind_eq_bind, Option.bind_eq_some_iff, Option.some.injEq] at he
    obtain ⟨v0, hv0, v1, hv1, rfl⟩ := he
    obtain ⟨a0, r0, e0, m0⟩ := hs.vec hv0
    obtain ⟨a1, r1, e1, m1⟩ := hs.vec hv1
    exact ⟨some h.length, h ++ [Obj.vec (v0.add v1)], by simp [Call.exec, r0, r1, Heap.vecAdd, Heap.vec_ok.mpr m0, Heap.vec_ok.mpr m1, Heap.alloc, Heap.write, bind, Except.bind, pure, Except.pure],
      hs.new_leaf (.vec (v0.add v1)) _ (by simp [Holds]) rfl⟩
  | vecSub i j =>
    simp only [Call.effect, Option.bind_eq_bind, Option.bind_eq_some_iff, Option.some.injEq] at he
    obtain ⟨v0, hv0, v1, hv1, rfl⟩ := he
    obtain ⟨a0, r0, e0, m0⟩ := hs.vec hv0
    obtain ⟨a1, r1, e1, m1⟩ := hs.vec hv1
    exact ⟨some h.length, h ++ [Obj.vec (v0.sub v1)], by simp [Call.exec, r0, r1, Heap.vecSub, Heap.vec_ok.mpr m0, Heap.vec_ok.mpr m1, Heap.alloc, Heap.write, bind, Except.bind, pure, Except.pure],
      hs.new_leaf (.vec (v0.sub v1)) _ (by simp [Holds]) rfl⟩
  | vecTh i =>
    simp only [Call.effect, Option.bind_eq_bind, Option.bind_eq_some_iff, Option.some.injEq] at he
    obtain ⟨v0, hv0, rfl⟩ := he
    obtain ⟨a0, r0, e0, m0⟩ := hs.vec hv0
    exact ⟨some h.length, h ++ [Obj.angle v0.th], by simp [Call.exec, r0, Heap.vecTh, Heap.vec_ok.mpr m0, Heap.alloc, Heap.write, bind, Except.bind, pure, Except.pure],
      hs.new_leaf (.angle v0.th) _ (by simp [Holds]) rfl⟩
  | fromPolar r i =>
    simp only [Call.effect, Option.bind_eq_bind, Option.bind_eq_some_iff, Option.some.injEq] at he
    obtain ⟨v0, hv0, rfl⟩ := he
    obtain ⟨a0, r0, e0, m0⟩ := hs.angle hv0
    exact ⟨some h.length, h ++ [Obj.vec (Vec.fromPolar r v0)], by simp [Call.exec, r0, Heap.fromPolar, Heap.angle_ok.mpr m0, Heap.alloc, Heap.write, bind, Except.bind, pure, Except.pure],
      hs.new_leaf (.vec (Vec.fromPolar r v0)) _ (by simp [Holds]) rfl⟩
  | angAdd i j =>
    simp only [Call.effect, Option.bind_eq_bind, Option.bind_eq_some_iff, Option.some.injEq] at he
    obtain ⟨v0, hv0, v1, hv1, rfl⟩ := he
    obtain ⟨a0, r0, e0, m0⟩ := hs.angle hv0
    obtain ⟨a1, r1, e1, m1⟩ := hs.angle hv1
    exact ⟨some h.length, h ++ [Obj.angle (v0.add v1)], by simp [Call.exec, r0, r1, Heap.angAdd, Heap.angle_ok.mpr m0, Heap.angle_ok.mpr m1, Heap.alloc, Heap.write, bind, Except.bind, pure, Except.pure],
      hs.new_leaf (.angle (v0.add v1)) _ (by simp [Holds]) rfl⟩
  | angSub i j =>
    simp only [Call.effect, Option.bind_eq_bind, Option.bind_eq_some_iff, Option.some.injEq] at he
    obtain ⟨v0, hv0, v1, hv1, rfl⟩ := he
    obtain ⟨a0, r0, e0, m0⟩ := hs.angle hv0
    obtain ⟨a1, r1, e1, m1⟩ := hs.angle hv1
    exact ⟨some h.length, h ++ [Obj.angle (v0.sub v1)], by simp [Call.exec, r0, r1, Heap.angSub, Heap.angle_ok.mpr m0, Heap.angle_ok.mpr m1, Heap.alloc, Heap.write, bind, Except.bind, pure, Except.pure],
      hs.new_leaf (.angle (v0.sub v1)) _ (by simp [Holds]) rfl⟩
  | matMulVec m i =>
    simp only [Call.effect, Option.bind_eq_bind, Option.bind_eq_some_iff, Option.some.injEq] at he
    obtain ⟨v0, hv0, v1, hv1, rfl⟩ := he
    obtain ⟨a0, r0, e0, m0⟩ := hs.mat hv0
    obtain ⟨a1, r1, e1, m1⟩ := hs.vec hv1
    exact ⟨some h.length, h ++ [Obj.vec (v0.transform v1)], by simp [Call.exec, r0, r1, Heap.matMulVec, Heap.mat_ok.mpr m0, Heap.vec_ok.mpr m1, Heap.alloc, Heap.write, bind, Except.bind, pure, Except.pure],
      hs.new_leaf (.vec (v0.transform v1)) _ (by simp [Holds]) rfl⟩
  | matInverted m =>
    simp only [Call.effect, Option.bind_eq_bind, Option.bind_eq_some_iff, Option.some.injEq] at he
    obtain ⟨v0, hv0, rfl⟩ := he
    obtain ⟨a0, r0, e0, m0⟩ := hs.mat hv0
    exact ⟨some h.length, h ++ [Obj.mat v0.inverted], by simp [Call.exec, r0, Heap.matInverted, Heap.mat_ok.mpr m0, Heap.alloc, Heap.write, bind, Except.bind, pure, Except.pure],
      hs.new_leaf (.mat v0.inverted) _ (by simp [Holds]) rfl⟩
  | segOrigin i =>
    simp only [Call.effect, Option.bind_eq_bind, Option.bind_eq_some_iff, Option.some.injEq] at he
    obtain ⟨v0, hv0, rfl⟩ := he
    obtain ⟨a0, r0, e0, m0⟩ := hs.seg hv0
    obtain ⟨p, q, k0, _, k1, k2⟩ := m0
    exact ⟨some h.length, h ++ [Obj.vec (Vec.ofVec v0.origin)], by simp [Call.exec, r0, Heap.segOrigin, Heap.seg, k0, Heap.newVecCopy, Heap.vec_ok.mpr k1, Heap.alloc, Heap.write, bind, Except.bind, pure, Except.pure],
      hs.new_leaf (.vec (Vec.ofVec v0.origin)) _ (by simp [Holds, Tri.getA, Tri.getB, Tri.getC, Rect.getTopLeft]) rfl⟩
  | segTerminal i =>
    simp only [Call.effect, Option.bind_eq_bind, Option.bind_eq_some_iff, Option.some.injEq] at he
    obtain ⟨v0, hv0, rfl⟩ := he
    obtain ⟨a0, r0, e0, m0⟩ := hs.seg hv0
    obtain ⟨p, q, k0, _, k1, k2⟩ := m0
    exact ⟨some h.length, h ++ [Obj.vec (Vec.ofVec v0.terminal)], by simp [Call.exec, r0, Heap.segTerminal, Heap.seg, k0, Heap.newVecCopy, Heap.vec_ok.mpr k2, Heap.alloc, Heap.write, bind, Except.bind, pure, Except.pure],
      hs.new_leaf (.vec (Vec.ofVec v0.terminal)) _ (by simp [Holds, Tri.getA, Tri.getB, Tri.getC, Rect.getTopLeft]) rfl⟩
  | rayOrigin i =>
    simp only [Call.effect, Option.bind_eq_bind, Option.bind_eq_some_iff, Option.some.injEq] at he
    obtain ⟨v0, hv0, rfl⟩ := he
    obtain ⟨a0, r0, e0, m0⟩ := hs.ray hv0
    obtain ⟨p, q, k0, k1, k2⟩ := m0
    exact ⟨some h.length, h ++ [Obj.vec (Vec.ofVec v0.origin)], by simp [Call.exec, r0, Heap.rayOrigin, Heap.ray, k0, Heap.newVecCopy, Heap.vec_ok.mpr k1, Heap.alloc, Heap.write, bind, Except.bind, pure, Except.pure],
      hs.new_leaf (.vec (Vec.ofVec v0.origin)) _ (by simp [Holds, Tri.getA, Tri.getB, Tri.getC, Rect.getTopLeft]) rfl⟩
  | rayDir i =>
    simp only [Call.effect, Option.bind_eq_bind, Option.bind_eq_some_iff, Option.some.injEq] at he
    obtain ⟨v0, hv0, rfl⟩ := he
    obtain ⟨a0, r0, e0, m0⟩ := hs.ray hv0
    obtain ⟨p, q, k0, k1, k2⟩ := m0
    exact ⟨some h.length, h ++ [Obj.angle (AngleDeg.ofAngle v0.dir)], by simp [Call.exec, r0, Heap.rayDir, Heap.ray, k0, Heap.newAngleCopy, Heap.angle_ok.mpr k2, Heap.alloc, Heap.write, bind, Except.bind, pure, Except.pure],
      hs.new_leaf (.angle (AngleDeg.ofAngle v0.dir)) _ (by simp [Holds, Tri.getA, Tri.getB, Tri.getC, Rect.getTopLeft]) rfl⟩
  | circleCenter i =>
    simp only [Call.effect, Option.bind_eq_bind, Option.bind_eq_some_iff, Option.some.injEq] at he
    obtain ⟨v0, hv0, rfl⟩ := he
    obtain ⟨a0, r0, e0, m0⟩ := hs.circle hv0
    obtain ⟨p, k0, k1⟩ := m0
    exact ⟨some h.length, h ++ [Obj.vec (Vec.ofVec v0.center)], by simp [Call.exec, r0, Heap.circleCenter, Heap.circle, k0, Heap.newVecCopy, Heap.vec_ok.mpr k1, Heap.alloc, Heap.write, bind, Except.bind, pure, Except.pure],
      hs.new_leaf (.vec (Vec.ofVec v0.center)) _ (by simp [Holds, Tri.getA, Tri.getB, Tri.getC, Rect.getTopLeft]) rfl⟩
  | sectorCenter i =>
    simp only [Call.effect, Option.bind_eq_bind, Option.bind_eq_some_iff, Option.some.injEq] at he
    obtain ⟨v0, hv0, rfl⟩ := he
    obtain ⟨a0, r0, e0, m0⟩ := hs.sector hv0
    obtain ⟨p, b, e, k0, _, k1, k2, k3⟩ := m0
    exact ⟨some h.length, h ++ [Obj.vec (Vec.ofVec v0.center)], by simp [Call.exec, r0, Heap.sectorCenter, Heap.sector, k0, Heap.newVecCopy, Heap.vec_ok.mpr k1, Heap.alloc, Heap.write, bind, Except.bind, pure, Except.pure],
      hs.new_leaf (.vec (Vec.ofVec v0.center)) _ (by simp [Holds, Tri.getA, Tri.getB, Tri.getC, Rect.getTopLeft]) rfl⟩
  | sectorStart i =>
    simp only [Call.effect, Option.bind_eq_bind, Option.bind_eq_some_iff, Option.some.injEq] at he
    obtain ⟨v0, hv0, rfl⟩ := he
    obtain ⟨a0, r0, e0, m0⟩ := hs.sector hv0
    obtain ⟨p, b, e, k0, _, k1, k2, k3⟩ := m0
    exact ⟨some h.length, h ++ [Obj.angle (AngleDeg.ofAngle v0.start)], by simp [Call.exec, r0, Heap.sectorStart, Heap.sector, k0, Heap.newAngleCopy, Heap.angle_ok.mpr k2, Heap.alloc, Heap.write, bind, Except.bind, pure, Except.pure],
      hs.new_leaf (.angle (AngleDeg.ofAngle v0.start)) _ (by simp [Holds, Tri.getA, Tri.getB, Tri.getC, Rect.getTopLeft]) rfl⟩
  | sectorEnd i =>
    simp only [Call.effect, Option.bind_eq_bind, Option.bind_eq_some_iff, Option.some.injEq] at he
    obtain ⟨v0, hv0, rfl⟩ := he
    obtain ⟨a0, r0, e0, m0⟩ := hs.sector hv0
    obtain ⟨p, b, e, k0, _, k1, k2, k3⟩ := m0
    exact ⟨some h.length, h ++ [Obj.angle (AngleDeg.ofAngle v0.stop)], by simp [Call.exec, r0, Heap.sectorEnd, Heap.sector, k0, Heap.newAngleCopy, Heap.angle_ok.mpr k3, Heap.alloc, Heap.write, bind, Except.bind, pure, Except.pure],
      hs.new_leaf (.angle (AngleDeg.ofAngle v0.stop)) _ (by simp [Holds, Tri.getA, Tri.getB, Tri.getC, Rect.getTopLeft]) rfl⟩
  | triA i =>
    simp only [Call.effect, Option.bind_eq_bind, Option.bind_eq_some_iff, Option.some.injEq] at he
    obtain ⟨v0, hv0, rfl⟩ := he
    obtain ⟨a0, r0, e0, m0⟩ := hs.tri hv0
    obtain ⟨p, q, r, k0, _, _, _, k1, k2, k3⟩ := m0
    exact ⟨some h.length, h ++ [Obj.vec (Vec.ofVec v0.a)], by simp [Call.exec, r0, Heap.triA, Heap.tri, k0, Heap.newVecCopy, Heap.vec_ok.mpr k1, Heap.alloc, Heap.write, bind, Except.bind, pure, Except.pure],
      hs.new_leaf (.vec (Vec.ofVec v0.a)) _ (by simp [Holds, Tri.getA, Tri.getB, Tri.getC, Rect.getTopLeft]) rfl⟩
  | triB i =>
    simp only [Call.effect, Option.bind_eq_bind, Option.bind_eq_some_iff, Option.some.injEq] at he
    obtain ⟨v0, hv0, rfl⟩ := he
    obtain ⟨a0, r0, e0, m0⟩ := hs.tri hv0
    obtain ⟨p, q, r, k0, _, _, _, k1, k2, k3⟩ := m0
    exact ⟨some h.length, h ++ [Obj.vec (Vec.ofVec v0.b)], by simp [Call.exec, r0, Heap.triB, Heap.tri, k0, Heap.newVecCopy, Heap.vec_ok.mpr k2, Heap.alloc, Heap.write, bind, Except.bind, pure, Except.pure],
      hs.new_leaf (.vec (Vec.ofVec v0.b)) _ (by simp [Holds, Tri.getA, Tri.getB, Tri.getC, Rect.getTopLeft]) rfl⟩
  | triC i =>
    simp only [Call.effect, Option.bind_eq_bind, Option.bind_eq_some_iff, Option.some.injEq] at he
    obtain ⟨v0, hv0, rfl⟩ := he
    obtain ⟨a0, r0, e0, m0⟩ := hs.tri hv0
    obtain ⟨p, q, r, k0, _, _, _, k1, k2, k3⟩ := m0
    exact ⟨some h.length, h ++ [Obj.vec (Vec.ofVec v0.c)], by simp [Call.exec, r0, Heap.triC, Heap.tri, k0, Heap.newVecCopy, Heap.vec_ok.mpr k3, Heap.alloc, Heap.write, bind, Except.bind, pure, Except.pure],
      hs.new_leaf (.vec (Vec.ofVec v0.c)) _ (by simp [Holds, Tri.getA, Tri.getB, Tri.getC, Rect.getTopLeft]) rfl⟩
  | rectTopLeft i =>
    simp only [Call.effect, Option.bind_eq_bind, Option.bind_eq_some_iff, Option.some.injEq] at he
    obtain ⟨v0, hv0, rfl⟩ := he
    obtain ⟨a0, r0, e0, m0⟩ := hs.rect hv0
    obtain ⟨p, s, k0, k1, k2⟩ := m0
    exact ⟨some h.length, h ++ [Obj.vec (Vec.ofVec v0.topLeft)], by simp [Call.exec, r0, Heap.rectTopLeft, Heap.rect, k0, Heap.newVecCopy, Heap.vec_ok.mpr k1, Heap.alloc, Heap.write, bind, Except.bind, pure, Except.pure],
      hs.new_leaf (.vec (Vec.ofVec v0.topLeft)) _ (by simp [Holds, Tri.getA, Tri.getB, Tri.getC, Rect.getTopLeft]) rfl⟩
  | rectSize i =>
    simp only [Call.effect, Option.bind_eq_bind, Option.bind_eq_some_iff, Option.some.injEq] at he
    obtain ⟨v0, hv0, rfl⟩ := he
    obtain ⟨a0, r0, e0, m0⟩ := hs.rect hv0
    obtain ⟨p, s, k0, k1, k2⟩ := m0
    exact ⟨some h.length, h ++ [Obj.size (Size.ofLW v0.size.length v0.size.width)], by simp [Call.exec, r0, Heap.rectSize, Heap.rect, k0, Heap.newSizeCopy, Heap.size_ok.mpr k2, Heap.alloc, Heap.write, bind, Except.bind, pure, Except.pure],
      hs.new_leaf (.size (Size.ofLW v0.size.length v0.size.width)) _ (by simp [Holds, Tri.getA, Tri.getB, Tri.getC, Rect.getTopLeft]) rfl⟩
  | rectCenter i =>
    simp only [Call.effect, Option.bind_eq_bind, Option.bind_eq_some_iff, Option.some.injEq] at he
    obtain ⟨v0, hv0, rfl⟩ := he
    obtain ⟨a0, r0, e0, m0⟩ := hs.rect hv0
    obtain ⟨p, s, k0, k1, k2⟩ := m0
    exact ⟨some h.length, h ++ [Obj.vec v0.center], by simp [Call.exec, r0, Heap.rectCenter, Heap.rectVal_ok k0 k1 k2, Heap.alloc, Heap.write, bind, Except.bind, pure, Except.pure],
      hs.new_leaf (.vec v0.center) _ (by simp [Holds]) rfl⟩
  | vecOp i op =>
    simp only [Call.effect, Option.bind_eq_bind, Option.bind_eq_some_iff, Option.some.injEq] at he
    obtain ⟨v0, hv0, rfl⟩ := he
    obtain ⟨a0, r0, e0, m0⟩ := hs.vec hv0
    exact ⟨none, h.set a0 (Obj.vec (op.value v0)), by simp [Call.exec, r0, Heap.vecOp, Heap.vec_ok.mpr m0, Heap.alloc, Heap.write, bind, Except.bind, pure, Except.pure],
      hs.set_leaf e0 m0 rfl rfl _ (List.getElem?_set_self (List.getElem?_eq_some_iff.mp m0).1)⟩
  | vecOp2 i j op =>
    simp only [Call.effect, Option.bind_eq_bind, Option.bind_eq_some_iff, Option.some.injEq] at he
    obtain ⟨v0, hv0, v1, hv1, rfl⟩ := he
    obtain ⟨a0, r0, e0, m0⟩ := hs.vec hv0
    obtain ⟨a1, r1, e1, m1⟩ := hs.vec hv1
    exact ⟨none, h.set a0 (Obj.vec (op.value v0 v1)), by simp [Call.exec, r0, r1, Heap.vecOp2, Heap.vec_ok.mpr m0, Heap.vec_ok.mpr m1, Heap.alloc, Heap.write, bind, Except.bind, pure, Except.pure],
      hs.set_leaf e0 m0 rfl rfl _ (List.getElem?_set_self (List.getElem?_eq_some_iff.mp m0).1)⟩
  | vecOpA i k op =>
    simp only [Call.effect, Option.bind_eq_bind, Option.bind_eq_some_iff, Option.some.injEq] at he
    obtain ⟨v0, hv0, v1, hv1, rfl⟩ := he
    obtain ⟨a0, r0, e0, m0⟩ := hs.vec hv0
    obtain ⟨a1, r1, e1, m1⟩ := hs.angle hv1
    exact ⟨none, h.set a0 (Obj.vec (op.value v0 v1)), by simp [Call.exec, r0, r1, Heap.vecOpA, Heap.vec_ok.mpr m0, Heap.angle_ok.mpr m1, Heap.alloc, Heap.write, bind, Except.bind, pure, Except.pure],
      hs.set_leaf e0 m0 rfl rfl _ (List.getElem?_set_self (List.getElem?_eq_some_iff.mp m0).1)⟩
  | angOp i op =>
    simp only [Call.effect, Option.bind_eq_bind, Option.bind_eq_some_iff, Option.some.injEq] at he
    obtain ⟨v0, hv0, rfl⟩ := he
    obtain ⟨a0, r0, e0, m0⟩ := hs.angle hv0
    exact ⟨none, h.set a0 (Obj.angle (op.value v0)), by simp [Call.exec, r0, Heap.angOp, Heap.angle_ok.mpr m0, Heap.alloc, Heap.write, bind, Except.bind, pure, Except.pure],
      hs.set_leaf e0 m0 rfl rfl _ (List.getElem?_set_self (List.getElem?_eq_some_iff.mp m0).1)⟩
  | angOp2 i j op =>
    simp only [Call.effect, Option.bind_eq_bind, Option.bind_eq_some_iff, Option.some.injEq] at he
    obtain ⟨v0, hv0, v1, hv1, rfl⟩ := he
    obtain ⟨a0, r0, e0, m0⟩ := hs.angle hv0
    obtain ⟨a1, r1, e1, m1⟩ := hs.angle hv1
    exact ⟨none, h.set a0 (Obj.angle (op.value v0 v1)), by simp [Call.exec, r0, r1, Heap.angOp2, Heap.angle_ok.mpr m0, Heap.angle_ok.mpr m1, Heap.alloc, Heap.write, bind, Except.bind, pure, Except.pure],
      hs.set_leaf e0 m0 rfl rfl _ (List.getElem?_set_self (List.getElem?_eq_some_iff.mp m0).1)⟩
  | sizeOp i op =>
    simp only [Call.effect, Option.bind_eq_bind, Option.bind_eq_some_iff, Option.some.injEq] at he
    obtain ⟨v0, hv0, rfl⟩ := he
    obtain ⟨a0, r0, e0, m0⟩ := hs.size hv0
    exact ⟨none, h.set a0 (Obj.size (op.value v0)), by simp [Call.exec, r0, Heap.sizeOp, Heap.size_ok.mpr m0, Heap.alloc, Heap.write, bind, Except.bind, pure, Except.pure],
      hs.set_leaf e0 m0 rfl rfl _ (List.getElem?_set_self (List.getElem?_eq_some_iff.mp m0).1)⟩
  | matOp m op =>
    simp only [Call.effect, Option.bind_eq_bind, Option.bind_eq_some_iff, Option.some.injEq] at he
    obtain ⟨v0, hv0, rfl⟩ := he
    obtain ⟨a0, r0, e0, m0⟩ := hs.mat hv0
    exact ⟨none, h.set a0 (Obj.mat (op.value v0)), by simp [Call.exec, r0, Heap.matOp, Heap.mat_ok.mpr m0, Heap.alloc, Heap.write, bind, Except.bind, pure, Except.pure],
      hs.set_leaf e0 m0 rfl rfl _ (List.getElem?_set_self (List.getElem?_eq_some_iff.mp m0).1)⟩
  | matRotate m k =>
    simp only [Call.effect, Option.bind_eq_bind, Option.bind_eq_some_iff, Option.some.injEq] at he
    obtain ⟨v0, hv0, v1, hv1, rfl⟩ := he
    obtain ⟨a0, r0, e0, m0⟩ := hs.mat hv0
    obtain ⟨a1, r1, e1, m1⟩ := hs.angle hv1
    exact ⟨none, h.set a0 (Obj.mat (v0.rotate v1)), by simp [Call.exec, r0, r1, Heap.matRotate, Heap.mat_ok.mpr m0, Heap.angle_ok.mpr m1, Heap.alloc, Heap.write, bind, Except.bind, pure, Except.pure],
      hs.set_leaf e0 m0 rfl rfl _ (List.getElem?_set_self (List.getElem?_eq_some_iff.mp m0).1)⟩
  | matMul m n =>
    simp only [Call.effect, Option.bind_eq_bind, Option.bind_eq_some_iff, Option.some.injEq] at he
    obtain ⟨v0, hv0, v1, hv1, rfl⟩ := he
    obtain ⟨a0, r0, e0, m0⟩ := hs.mat hv0
    obtain ⟨a1, r1, e1, m1⟩ := hs.mat hv1
    exact ⟨none, h.set a0 (Obj.mat (v0.mul v1)), by simp [Call.exec, r0, r1, Heap.matMul, Heap.matImul, Heap.mat_ok.mpr m0, Heap.mat_ok.mpr m1, Heap.alloc, Heap.write, bind, Except.bind, pure, Except.pure],
      hs.set_leaf e0 m0 rfl rfl _ (List.getElem?_set_self (List.getElem?_eq_some_iff.mp m0).1)⟩
  | matTransformVec m i =>
    simp only [Call.effect, Option.bind_eq_bind, Option.bind_eq_some_iff, Option.some.injEq] at he
    obtain ⟨v0, hv0, v1, hv1, rfl⟩ := he
    obtain ⟨a0, r0, e0, m0⟩ := hs.mat hv0
    obtain ⟨a1, r1, e1, m1⟩ := hs.vec hv1
    exact ⟨none, h.set a1 (Obj.vec (v0.transformVec v1)), by simp [Call.exec, r0, r1, Heap.matTransformVec, Heap.mat_ok.mpr m0, Heap.vec_ok.mpr m1, Heap.alloc, Heap.write, bind, Except.bind, pure, Except.pure],
      hs.set_leaf e1 m1 rfl rfl _ (List.getElem?_set_self (List.getElem?_eq_some_iff.mp m1).1)⟩
  | newSegXY x0 y0 x1 y1 =>
    obtain rfl := Option.some.inj he
    refine ⟨some (h.length + 2), h ++ [Obj.vec (Vec.ofXY x0 y0), Obj.vec (Vec.ofXY x1 y1), Obj.seg h.length (h.length + 1)], by simp [Call.exec, Heap.newSegXY, Heap.newVecCopy, Heap.newAngleCopy, Heap.newSizeCopy, Heap.alloc, Heap.write, bind, Except.bind, pure, Except.pure], hs.new _ _ _ ?_ ?_⟩
    · simp [Holds, Seg.ofXYXY]
    · intro x hx; simp [parts, Obj.refs] at hx; omega
  | newRectXY l t len wid =>
    obtain rfl := Option.some.inj he
    refine ⟨some (h.length + 2), h ++ [Obj.vec (Vec.ofXY l t), Obj.size (Size.ofLW len wid), Obj.rect h.length (h.length + 1)], by simp [Call.exec, Heap.newRectXY, Heap.newVecCopy, Heap.newAngleCopy, Heap.newSizeCopy, Heap.alloc, Heap.write, bind, Except.bind, pure, Except.pure], hs.new _ _ _ ?_ ?_⟩
    · simp [Holds, Rect.ofLTLW]
    · intro x hx; simp [parts, Obj.refs] at hx; omega
  | newSeg i j =>
    simp only [Call.effect, Option.bind_eq_bind, Option.bind_eq_some_iff, Option.some.injEq] at he
    obtain ⟨v0, hv0, v1, hv1, rfl⟩ := he
    obtain ⟨a0, r0, e0, m0⟩ := hs.vec hv0
    obtain ⟨a1, r1, e1, m1⟩ := hs.vec hv1
    refine ⟨some (h.length + 2), h ++ [Obj.vec (Vec.ofVec v0), Obj.vec (Vec.ofVec v1), Obj.seg h.length (h.length + 1)], by simp [Call.exec, r0, r1, Heap.newSeg, Heap.vec_ok.mpr m0, rd_vec m0, Heap.vec_ok.mpr m1, rd_vec m1, Heap.newVecCopy, Heap.newAngleCopy, Heap.newSizeCopy, Heap.alloc, Heap.write, bind, Except.bind, pure, Except.pure], hs.new _ _ _ ?_ ?_⟩
    · simp [Holds, Seg.ofPoints]
    · intro x hx; simp [parts, Obj.refs] at hx; omega
  | newSegPolar i len k =>
    simp only [Call.effect, Option.bind_eq_bind, Option.bind_eq_some_iff, Option.some.injEq] at he
    obtain ⟨v0, hv0, v1, hv1, rfl⟩ := he
    obtain ⟨a0, r0, e0, m0⟩ := hs.vec hv0
    obtain ⟨a1, r1, e1, m1⟩ := hs.angle hv1
    refine ⟨some (h.length + 2), h ++ [Obj.vec (Vec.ofVec v0), Obj.vec (v0.add (Vec.fromPolar len v1)), Obj.seg h.length (h.length + 1)], by simp [Call.exec, r0, r1, Heap.newSegPolar, Heap.vec_ok.mpr m0, rd_vec m0, Heap.angle_ok.mpr m1, rd_angle m1, Heap.newVecCopy, Heap.newAngleCopy, Heap.newSizeCopy, Heap.alloc, Heap.write, bind, Except.bind, pure, Except.pure], hs.new _ _ _ ?_ ?_⟩
    · simp [Holds, Seg.ofPolar]
    · intro x hx; simp [parts, Obj.refs] at hx; omega
  | newRay i k =>
    simp only [Call.effect, Option.bind_eq_bind, Option.bind_eq_some_iff, Option.some.injEq] at he
    obtain ⟨v0, hv0, v1, hv1, rfl⟩ := he
    obtain ⟨a0, r0, e0, m0⟩ := hs.vec hv0
    obtain ⟨a1, r1, e1, m1⟩ := hs.angle hv1
    refine ⟨some (h.length + 2), h ++ [Obj.vec (Vec.ofVec v0), Obj.angle (AngleDeg.ofAngle v1), Obj.ray h.length (h.length + 1)], by simp [Call.exec, r0, r1, Heap.newRay, Heap.vec_ok.mpr m0, rd_vec m0, Heap.angle_ok.mpr m1, rd_angle m1, Heap.newVecCopy, Heap.newAngleCopy, Heap.newSizeCopy, Heap.alloc, Heap.write, bind, Except.bind, pure, Except.pure], hs.new _ _ _ ?_ ?_⟩
    · simp [Holds, Ray.ofAngle]
    · intro x hx; simp [parts, Obj.refs] at hx; omega
  | newRayNum i d =>
    simp only [Call.effect, Option.bind_eq_bind, Option.bind_eq_some_iff, Option.some.injEq] at he
    obtain ⟨v0, hv0, rfl⟩ := he
    obtain ⟨a0, r0, e0, m0⟩ := hs.vec hv0
    refine ⟨some (h.length + 2), h ++ [Obj.vec (Vec.ofVec v0), Obj.angle (AngleDeg.ofNum d), Obj.ray h.length (h.length + 1)], by simp [Call.exec, r0, Heap.newRayNum, Heap.vec_ok.mpr m0, rd_vec m0, Heap.newVecCopy, Heap.newAngleCopy, Heap.newSizeCopy, Heap.alloc, Heap.write, bind, Except.bind, pure, Except.pure], hs.new _ _ _ ?_ ?_⟩
    · simp [Holds]
    · intro x hx; simp [parts, Obj.refs] at hx; omega
  | newRayPoint i j =>
    simp only [Call.effect, Option.bind_eq_bind, Option.bind_eq_some_iff, Option.some.injEq] at he
    obtain ⟨v0, hv0, v1, hv1, rfl⟩ := he
    obtain ⟨a0, r0, e0, m0⟩ := hs.vec hv0
    obtain ⟨a1, r1, e1, m1⟩ := hs.vec hv1
    refine ⟨some (h.length + 2), h ++ [Obj.vec (Vec.ofVec v0), Obj.angle (v1.sub v0).th, Obj.ray h.length (h.length + 1)], by simp [Call.exec, r0, r1, Heap.newRayPoint, Heap.vec_ok.mpr m0, rd_vec m0, Heap.vec_ok.mpr m1, rd_vec m1, Heap.newVecCopy, Heap.newAngleCopy, Heap.newSizeCopy, Heap.alloc, Heap.write, bind, Except.bind, pure, Except.pure], hs.new _ _ _ ?_ ?_⟩
    · simp [Holds, Ray.ofPoint]
    · intro x hx; simp [parts, Obj.refs] at hx; omega
  | newCircle i r =>
    simp only [Call.effect, Option.bind_eq_bind, Option.bind_eq_some_iff, Option.some.injEq] at he
    obtain ⟨v0, hv0, rfl⟩ := he
    obtain ⟨a0, r0, e0, m0⟩ := hs.vec hv0
    refine ⟨some (h.length + 1), h ++ [Obj.vec (Vec.ofVec v0), Obj.circle h.length (if r < num 0 then num 0 else r)], by simp [Call.exec, r0, Heap.newCircle, Heap.vec_ok.mpr m0, rd_vec m0, Heap.newVecCopy, Heap.newAngleCopy, Heap.newSizeCopy, Heap.alloc, Heap.write, bind, Except.bind, pure, Except.pure], hs.new _ _ _ ?_ ?_⟩
    · simp [Holds, Circle.ofCR]
    · intro x hx; simp [parts, Obj.refs] at hx; omega
  | newSector i minR maxR k l =>
    simp only [Call.effect, Option.bind_eq_bind, Option.bind_eq_some_iff, Option.some.injEq] at he
    obtain ⟨v0, hv0, v1, hv1, v2, hv2, rfl⟩ := he
    obtain ⟨a0, r0, e0, m0⟩ := hs.vec hv0
    obtain ⟨a1, r1, e1, m1⟩ := hs.angle hv1
    obtain ⟨a2, r2, e2, m2⟩ := hs.angle hv2
    refine ⟨some (h.length + 3), h ++ [Obj.vec (Vec.ofVec v0), Obj.angle (AngleDeg.ofAngle v1), Obj.angle (AngleDeg.ofAngle v2), Obj.sector h.length (pyMin (num 0) minR) (pyMax minR maxR) (h.length + 1) (h.length + 2)], by simp [Call.exec, r0, r1, r2, Heap.newSector, Heap.vec_ok.mpr m0, rd_vec m0, Heap.angle_ok.mpr m1, rd_angle m1, Heap.angle_ok.mpr m2, rd_angle m2, Heap.newVecCopy, Heap.newAngleCopy, Heap.newSizeCopy, Heap.alloc, Heap.write, bind, Except.bind, pure, Except.pure], hs.new _ _ _ ?_ ?_⟩
    · simp [Holds, Sector.ofArgs]
    · intro x hx; simp [parts, Obj.refs] at hx; omega
  | newTri i j k =>
    simp only [Call.effect, Option.bind_eq_bind, Option.bind_eq_some_iff, Option.some.injEq] at he
    obtain ⟨v0, hv0, v1, hv1, v2, hv2, rfl⟩ := he
    obtain ⟨a0, r0, e0, m0⟩ := hs.vec hv0
    obtain ⟨a1, r1, e1, m1⟩ := hs.vec hv1
    obtain ⟨a2, r2, e2, m2⟩ := hs.vec hv2
    refine ⟨some (h.length + 3), h ++ [Obj.vec (Vec.ofVec v0), Obj.vec (Vec.ofVec v1), Obj.vec (Vec.ofVec v2), Obj.tri h.length (h.length + 1) (h.length + 2)], by simp [Call.exec, r0, r1, r2, Heap.newTri, Heap.vec_ok.mpr m0, rd_vec m0, Heap.vec_ok.mpr m1, rd_vec m1, Heap.vec_ok.mpr m2, rd_vec m2, Heap.newVecCopy, Heap.newAngleCopy, Heap.newSizeCopy, Heap.alloc, Heap.write, bind, Except.bind, pure, Except.pure], hs.new _ _ _ ?_ ?_⟩
    · simp [Holds, Tri.ofPoints]
    · intro x hx; simp [parts, Obj.refs] at hx; omega
  | newTriSeg s i =>
    simp only [Call.effect, Option.bind_eq_bind, Option.bind_eq_some_iff, Option.some.injEq] at he
    obtain ⟨v0, hv0, v1, hv1, rfl⟩ := he
    obtain ⟨a0, r0, e0, m0⟩ := hs.seg hv0
    obtain ⟨a1, r1, e1, m1⟩ := hs.vec hv1
    obtain ⟨p, q, k0, _, k1, k2⟩ := m0
    refine ⟨some (h.length + 3), h ++ [Obj.vec (Vec.ofVec v0.origin), Obj.vec (Vec.ofVec v0.terminal), Obj.vec (Vec.ofVec v1), Obj.tri h.length (h.length + 1) (h.length + 2)], by simp [Call.exec, r0, r1, Heap.newTriSeg, Heap.vec_ok.mpr m1, rd_vec m1, Heap.seg, k0, Heap.vec_ok.mpr k1, Heap.vec_ok.mpr k2, rd_vec k1, rd_vec k2, Heap.newVecCopy, Heap.newAngleCopy, Heap.newSizeCopy, Heap.alloc, Heap.write, bind, Except.bind, pure, Except.pure], hs.new _ _ _ ?_ ?_⟩
    · simp [Holds, Tri.ofSeg]
    · intro x hx; simp [parts, Obj.refs] at hx; omega
  | newRectLW i l w =>
    simp only [Call.effect, Option.bind_eq_bind, Option.bind_eq_some_iff, Option.some.injEq] at he
    obtain ⟨v0, hv0, rfl⟩ := he
    obtain ⟨a0, r0, e0, m0⟩ := hs.vec hv0
    refine ⟨some (h.length + 2), h ++ [Obj.vec (Vec.ofVec v0), Obj.size (Size.ofLW l w), Obj.rect h.length (h.length + 1)], by simp [Call.exec, r0, Heap.newRectLW, Heap.vec_ok.mpr m0, rd_vec m0, Heap.newVecCopy, Heap.newAngleCopy, Heap.newSizeCopy, Heap.alloc, Heap.write, bind, Except.bind, pure, Except.pure], hs.new _ _ _ ?_ ?_⟩
    · simp [Holds, Rect.ofPointLW]
    · intro x hx; simp [parts, Obj.refs] at hx; omega
  | newRectCorners i j =>
    simp only [Call.effect, Option.bind_eq_bind, Option.bind_eq_some_iff, Option.some.injEq] at he
    obtain ⟨v0, hv0, v1, hv1, rfl⟩ := he
    obtain ⟨a0, r0, e0, m0⟩ := hs.vec hv0
    obtain ⟨a1, r1, e1, m1⟩ := hs.vec hv1
    refine ⟨some (h.length + 2), h ++ [Obj.vec (Rect.ofCorners v0 v1).topLeft, Obj.size (Rect.ofCorners v0 v1).size, Obj.rect h.length (h.length + 1)], by simp [Call.exec, r0, r1, Heap.newRectCorners, Heap.vec_ok.mpr m0, rd_vec m0, Heap.vec_ok.mpr m1, rd_vec m1, Heap.newVecCopy, Heap.newAngleCopy, Heap.newSizeCopy, Heap.alloc, Heap.write, bind, Except.bind, pure, Except.pure], hs.new _ _ _ ?_ ?_⟩
    · simp [Holds]
    · intro x hx; simp [parts, Obj.refs] at hx; omega
  | newRectCopy i =>
    simp only [Call.effect, Option.bind_eq_bind, Option.bind_eq_some_iff, Option.some.injEq] at he
    obtain ⟨v0, hv0, rfl⟩ := he
    obtain ⟨a0, r0, e0, m0⟩ := hs.rect hv0
    obtain ⟨p, s, k0, k1, k2⟩ := m0
    refine ⟨some (h.length + 2), h ++ [Obj.vec (Vec.ofVec v0.topLeft), Obj.size (Size.ofLW v0.size.length v0.size.width), Obj.rect h.length (h.length + 1)], by simp [Call.exec, r0, Heap.newRectCopy, Heap.rect, k0, Heap.vec_ok.mpr k1, Heap.size_ok.mpr k2, rd_vec k1, rd_size k2, Heap.newVecCopy, Heap.newAngleCopy, Heap.newSizeCopy, Heap.alloc, Heap.write, bind, Except.bind, pure, Except.pure], hs.new _ _ _ ?_ ?_⟩
    · simp [Holds, Rect.ofRect]
    · intro x hx; simp [parts, Obj.refs] at hx; omega
  | segCopy s =>
    simp only [Call.effect, Option.bind_eq_bind, Option.bind_eq_some_iff, Option.some.injEq] at he
    obtain ⟨v0, hv0, rfl⟩ := he
    obtain ⟨a0, r0, e0, m0⟩ := hs.seg hv0
    obtain ⟨p, q, k0, _, k1, k2⟩ := m0
    refine ⟨some (h.length + 4), h ++ [Obj.vec (Vec.ofVec v0.origin), Obj.vec (Vec.ofVec v0.terminal), Obj.vec (Vec.ofVec v0.origin), Obj.vec (Vec.ofVec v0.terminal), Obj.seg (h.length + 2) (h.length + 3)], by
      simp [Call.exec, r0, Heap.segCopy, Heap.segOrigin, Heap.segTerminal, Heap.newSeg, Heap.seg, k0, getElem?_append_of_some k0, k1, getElem?_append_of_some k2, Heap.vec, Heap.newVecCopy, Vec.ofVec, Heap.alloc, Heap.write, bind, Except.bind, pure, Except.pure], hs.new _ _ _ ?_ ?_⟩
    · simp [Holds, Seg.ofPoints]
    · intro x hx; simp [parts, Obj.refs] at hx; omega
  | segReversed s =>
    simp only [Call.effect, Option.bind_eq_bind, Option.bind_eq_some_iff, Option.some.injEq] at he
    obtain ⟨v0, hv0, rfl⟩ := he
    obtain ⟨a0, r0, e0, m0⟩ := hs.seg hv0
    obtain ⟨p, q, k0, _, k1, k2⟩ := m0
    refine ⟨some (h.length + 2), h ++ [Obj.vec (Vec.ofVec v0.origin), Obj.vec (Vec.ofVec v0.terminal), Obj.seg (h.length + 1) h.length], by
      simp [Call.exec, r0, Heap.segReversed, Heap.segSwap, Heap.newSeg, Heap.seg, k0, Heap.vec_ok.mpr k1, rd_vec k2, Heap.newVecCopy, Heap.alloc, Heap.write, bind, Except.bind, pure, Except.pure], hs.new _ _ _ ?_ ?_⟩
    · simp [Holds, Seg.reversedSegment, Seg.ofPoints, Seg.swap]
    · intro x hx; simp [parts, Obj.refs] at hx; omega
  | rayCopy r =>
    simp only [Call.effect, Option.bind_eq_bind, Option.bind_eq_some_iff, Option.some.injEq] at he
    obtain ⟨v0, hv0, rfl⟩ := he
    obtain ⟨a0, r0, e0, m0⟩ := hs.ray hv0
    obtain ⟨p, q, k0, k1, k2⟩ := m0
    refine ⟨some (h.length + 4), h ++ [Obj.vec (Vec.ofVec v0.origin), Obj.angle (AngleDeg.ofAngle v0.dir), Obj.vec (Vec.ofVec v0.origin), Obj.angle (AngleDeg.ofAngle (AngleDeg.ofAngle v0.dir)), Obj.ray (h.length + 2) (h.length + 3)], by
      simp [Call.exec, r0, Heap.rayCopy, Heap.rayOrigin, Heap.rayDir, Heap.newRay, Heap.ray, k0, getElem?_append_of_some k0, k1, getElem?_append_of_some k2, Heap.vec, Heap.angle, Heap.newVecCopy, Heap.newAngleCopy, Vec.ofVec, Heap.alloc, Heap.write, bind, Except.bind, pure, Except.pure], hs.new _ _ _ ?_ ?_⟩
    · simp [Holds, Ray.copy, Ray.ofAngle, Vec.ofVec]
    · intro x hx; simp [parts, Obj.refs] at hx; omega
  | segAssign s i j =>
    simp only [Call.effect, Option.bind_eq_bind, Option.bind_eq_some_iff, Option.some.injEq] at he
    obtain ⟨v0, hv0, v1, hv1, v2, hv2, rfl⟩ := he
    obtain ⟨a0, r0, e0, m0⟩ := hs.seg hv0
    obtain ⟨a1, r1, e1, m1⟩ := hs.vec hv1
    obtain ⟨a2, r2, e2, m2⟩ := hs.vec hv2
    obtain ⟨p, q, k0, _, _, _⟩ := id m0
    have lt : a0 < h.length := m0.lt _ (mem_parts_self h _)
    refine ⟨none, (h ++ [Obj.vec (Vec.ofVec v1), Obj.vec (Vec.ofVec v2)]).set a0 (Obj.seg h.length (h.length + 1)), by simp [Call.exec, r0, r1, r2, Heap.segAssign, Heap.vec_ok.mpr m1, rd_vec m1, Heap.vec_ok.mpr m2, rd_vec m2, Heap.seg, k0, Heap.newVecCopy, Heap.newAngleCopy, Heap.newSizeCopy, Heap.alloc, Heap.write, bind, Except.bind, pure, Except.pure],
      hs.set_new e0 [Obj.vec (Vec.ofVec v1), Obj.vec (Vec.ofVec v2)] (by simp [Obj.refs]) _ ?_⟩
    have g0 : ((h ++ [Obj.vec (Vec.ofVec v1), Obj.vec (Vec.ofVec v2)]).set a0 (Obj.seg h.length (h.length + 1)))[a0]? = some (Obj.seg h.length (h.length + 1)) :=
      List.getElem?_set_self (by rw [List.length_append]; omega)
    have g1 : ((h ++ [Obj.vec (Vec.ofVec v1), Obj.vec (Vec.ofVec v2)]).set a0 (Obj.seg h.length (h.length + 1)))[h.length + 0]? = some (Obj.vec (Vec.ofVec v1)) := by
      rw [List.getElem?_set_ne (by omega)]; simp
    have g2 : ((h ++ [Obj.vec (Vec.ofVec v1), Obj.vec (Vec.ofVec v2)]).set a0 (Obj.seg h.length (h.length + 1)))[h.length + 1]? = some (Obj.vec (Vec.ofVec v2)) := by
      rw [List.getElem?_set_ne (by omega)]; simp
    exact ⟨_, _, g0, by omega, g1, g2⟩
  | segAssignPolar s i len k =>
    simp only [Call.effect, Option.bind_eq_bind, Option.bind_eq_some_iff, Option.some.injEq] at he
    obtain ⟨v0, hv0, v1, hv1, v2, hv2, rfl⟩ := he
    obtain ⟨a0, r0, e0, m0⟩ := hs.seg hv0
    obtain ⟨a1, r1, e1, m1⟩ := hs.vec hv1
    obtain ⟨a2, r2, e2, m2⟩ := hs.angle hv2
    obtain ⟨p, q, k0, _, _, _⟩ := id m0
    have lt : a0 < h.length := m0.lt _ (mem_parts_self h _)
    refine ⟨none, (h ++ [Obj.vec (Vec.ofVec v1), Obj.vec (v1.add (Vec.fromPolar len v2))]).set a0 (Obj.seg h.length (h.length + 1)), by simp [Call.exec, r0, r1, r2, Heap.segAssignPolar, Heap.vec_ok.mpr m1, rd_vec m1, Heap.angle_ok.mpr m2, rd_angle m2, Heap.seg, k0, Heap.newVecCopy, Heap.newAngleCopy, Heap.newSizeCopy, Heap.alloc, Heap.write, bind, Except.bind, pure, Except.pure],
      hs.set_new e0 [Obj.vec (Vec.ofVec v1), Obj.vec (v1.add (Vec.fromPolar len v2))] (by simp [Obj.refs]) _ ?_⟩
    have g0 : ((h ++ [Obj.vec (Vec.ofVec v1), Obj.vec (v1.add (Vec.fromPolar len v2))]).set a0 (Obj.seg h.length (h.length + 1)))[a0]? = some (Obj.seg h.length (h.length + 1)) :=
      List.getElem?_set_self (by rw [List.length_append]; omega)
    have g1 : ((h ++ [Obj.vec (Vec.ofVec v1), Obj.vec (v1.add (Vec.fromPolar len v2))]).set a0 (Obj.seg h.length (h.length + 1)))[h.length + 0]? = some (Obj.vec (Vec.ofVec v1)) := by
      rw [List.getElem?_set_ne (by omega)]; simp
    have g2 : ((h ++ [Obj.vec (Vec.ofVec v1), Obj.vec (v1.add (Vec.fromPolar len v2))]).set a0 (Obj.seg h.length (h.length + 1)))[h.length + 1]? = some (Obj.vec (v1.add (Vec.fromPolar len v2))) := by
      rw [List.getElem?_set_ne (by omega)]; simp
    exact ⟨_, _, g0, by omega, g1, g2⟩
  | segAssignXY s x0 y0 x1 y1 =>
    simp only [Call.effect, Option.bind_eq_bind, Option.bind_eq_some_iff, Option.some.injEq] at he
    obtain ⟨v0, hv0, rfl⟩ := he
    obtain ⟨a0, r0, e0, m0⟩ := hs.seg hv0
    obtain ⟨p, q, k0, _, _, _⟩ := id m0
    have lt : a0 < h.length := m0.lt _ (mem_parts_self h _)
    refine ⟨none, (h ++ [Obj.vec (Vec.ofXY x0 y0), Obj.vec (Vec.ofXY x1 y1)]).set a0 (Obj.seg h.length (h.length + 1)), by simp [Call.exec, r0, Heap.segAssignXY, Heap.seg, k0, Heap.newVecCopy, Heap.newAngleCopy, Heap.newSizeCopy, Heap.alloc, Heap.write, bind, Except.bind, pure, Except.pure],
      hs.set_new e0 [Obj.vec (Vec.ofXY x0 y0), Obj.vec (Vec.ofXY x1 y1)] (by simp [Obj.refs]) _ ?_⟩
    have g0 : ((h ++ [Obj.vec (Vec.ofXY x0 y0), Obj.vec (Vec.ofXY x1 y1)]).set a0 (Obj.seg h.length (h.length + 1)))[a0]? = some (Obj.seg h.length (h.length + 1)) :=
      List.getElem?_set_self (by rw [List.length_append]; omega)
    have g1 : ((h ++ [Obj.vec (Vec.ofXY x0 y0), Obj.vec (Vec.ofXY x1 y1)]).set a0 (Obj.seg h.length (h.length + 1)))[h.length + 0]? = some (Obj.vec (Vec.ofXY x0 y0)) := by
      rw [List.getElem?_set_ne (by omega)]; simp
    have g2 : ((h ++ [Obj.vec (Vec.ofXY x0 y0), Obj.vec (Vec.ofXY x1 y1)]).set a0 (Obj.seg h.length (h.length + 1)))[h.length + 1]? = some (Obj.vec (Vec.ofXY x1 y1)) := by
      rw [List.getElem?_set_ne (by omega)]; simp
    exact ⟨_, _, g0, by omega, g1, g2⟩
  | circleAssign c i r =>
    simp only [Call.effect, Option.bind_eq_bind, Option.bind_eq_some_iff, Option.some.injEq] at he
    obtain ⟨v0, hv0, v1, hv1, rfl⟩ := he
    obtain ⟨a0, r0, e0, m0⟩ := hs.circle hv0
    obtain ⟨a1, r1, e1, m1⟩ := hs.vec hv1
    obtain ⟨p, k0, _⟩ := id m0
    have lt : a0 < h.length := m0.lt _ (mem_parts_self h _)
    refine ⟨none, (h ++ [Obj.vec (Vec.ofVec v1)]).set a0 (Obj.circle h.length (if r < num 0 then num 0 else r)), by simp [Call.exec, r0, r1, Heap.circleAssign, Heap.vec_ok.mpr m1, rd_vec m1, Heap.circle, k0, Heap.newVecCopy, Heap.newAngleCopy, Heap.newSizeCopy, Heap.alloc, Heap.write, bind, Except.bind, pure, Except.pure],
      hs.set_new e0 [Obj.vec (Vec.ofVec v1)] (by simp [Obj.refs]) _ ?_⟩
    have g0 : ((h ++ [Obj.vec (Vec.ofVec v1)]).set a0 (Obj.circle h.length (if r < num 0 then num 0 else r)))[a0]? = some (Obj.circle h.length (if r < num 0 then num 0 else r)) :=
      List.getElem?_set_self (by rw [List.length_append]; omega)
    have g1 : ((h ++ [Obj.vec (Vec.ofVec v1)]).set a0 (Obj.circle h.length (if r < num 0 then num 0 else r)))[h.length + 0]? = some (Obj.vec (Vec.ofVec v1)) := by
      rw [List.getElem?_set_ne (by omega)]; simp
    exact ⟨_, g0, g1⟩
  | sectorAssign s i minR maxR k l =>
    simp only [Call.effect, Option.bind_eq_bind, Option.bind_eq_some_iff, Option.some.injEq] at he
    obtain ⟨v0, hv0, v1, hv1, v2, hv2, v3, hv3, rfl⟩ := he
    obtain ⟨a0, r0, e0, m0⟩ := hs.sector hv0
    obtain ⟨a1, r1, e1, m1⟩ := hs.vec hv1
    obtain ⟨a2, r2, e2, m2⟩ := hs.angle hv2
    obtain ⟨a3, r3, e3, m3⟩ := hs.angle hv3
    obtain ⟨p, b, e, k0, _, _, _, _⟩ := id m0
    have lt : a0 < h.length := m0.lt _ (mem_parts_self h _)
    refine ⟨none, (h ++ [Obj.vec (Vec.ofVec v1), Obj.angle (AngleDeg.ofAngle v2), Obj.angle (AngleDeg.ofAngle v3)]).set a0 (Obj.sector h.length (pyMin (num 0) minR) (pyMax minR maxR) (h.length + 1) (h.length + 2)), by simp [Call.exec, r0, r1, r2, r3, Heap.sectorAssign, Heap.vec_ok.mpr m1, rd_vec m1, Heap.angle_ok.mpr m2, rd_angle m2, Heap.angle_ok.mpr m3, rd_angle m3, Heap.sector, k0, Heap.newVecCopy, Heap.newAngleCopy, Heap.newSizeCopy, Heap.alloc, Heap.write, bind, Except.bind, pure, Except.pure],
      hs.set_new e0 [Obj.vec (Vec.ofVec v1), Obj.angle (AngleDeg.ofAngle v2), Obj.angle (AngleDeg.ofAngle v3)] (by simp [Obj.refs]) _ ?_⟩
    have g0 : ((h ++ [Obj.vec (Vec.ofVec v1), Obj.angle (AngleDeg.ofAngle v2), Obj.angle (AngleDeg.ofAngle v3)]).set a0 (Obj.sector h.length (pyMin (num 0) minR) (pyMax minR maxR) (h.length + 1) (h.length + 2)))[a0]? = some (Obj.sector h.length (pyMin (num 0) minR) (pyMax minR maxR) (h.length + 1) (h.length + 2)) :=
      List.getElem?_set_self (by rw [List.length_append]; omega)
    have g1 : ((h ++ [Obj.vec (Vec.ofVec v1), Obj.angle (AngleDeg.ofAngle v2), Obj.angle (AngleDeg.ofAngle v3)]).set a0 (Obj.sector h.length (pyMin (num 0) minR) (pyMax minR maxR) (h.length + 1) (h.length + 2)))[h.length + 0]? = some (Obj.vec (Vec.ofVec v1)) := by
      rw [List.getElem?_set_ne (by omega)]; simp
    have g2 : ((h ++ [Obj.vec (Vec.ofVec v1), Obj.angle (AngleDeg.ofAngle v2), Obj.angle (AngleDeg.ofAngle v3)]).set a0 (Obj.sector h.length (pyMin (num 0) minR) (pyMax minR maxR) (h.length + 1) (h.length + 2)))[h.length + 1]? = some (Obj.angle (AngleDeg.ofAngle v2)) := by
      rw [List.getElem?_set_ne (by omega)]; simp
    have g3 : ((h ++ [Obj.vec (Vec.ofVec v1), Obj.angle (AngleDeg.ofAngle v2), Obj.angle (AngleDeg.ofAngle v3)]).set a0 (Obj.sector h.length (pyMin (num 0) minR) (pyMax minR maxR) (h.length + 1) (h.length + 2)))[h.length + 2]? = some (Obj.angle (AngleDeg.ofAngle v3)) := by
      rw [List.getElem?_set_ne (by omega)]; simp
    exact ⟨_, _, _, g0, by omega, g1, g2, g3⟩
  | triAssign t i j k =>
    simp only [Call.effect, Option.bind_eq_bind, Option.bind_eq_some_iff, Option.some.injEq] at he
    obtain ⟨v0, hv0, v1, hv1, v2, hv2, v3, hv3, rfl⟩ := he
    obtain ⟨a0, r0, e0, m0⟩ := hs.tri hv0
    obtain ⟨a1, r1, e1, m1⟩ := hs.vec hv1
    obtain ⟨a2, r2, e2, m2⟩ := hs.vec hv2
    obtain ⟨a3, r3, e3, m3⟩ := hs.vec hv3
    obtain ⟨p, q, r, k0, _, _, _, _, _, _⟩ := id m0
    have lt : a0 < h.length := m0.lt _ (mem_parts_self h _)
    refine ⟨none, (h ++ [Obj.vec (Vec.ofVec v1), Obj.vec (Vec.ofVec v2), Obj.vec (Vec.ofVec v3)]).set a0 (Obj.tri h.length (h.length + 1) (h.length + 2)), by simp [Call.exec, r0, r1, r2, r3, Heap.triAssign, Heap.vec_ok.mpr m1, rd_vec m1, Heap.vec_ok.mpr m2, rd_vec m2, Heap.vec_ok.mpr m3, rd_vec m3, Heap.tri, k0, Heap.newVecCopy, Heap.newAngleCopy, Heap.newSizeCopy, Heap.alloc, Heap.write, bind, Except.bind, pure, Except.pure],
      hs.set_new e0 [Obj.vec (Vec.ofVec v1), Obj.vec (Vec.ofVec v2), Obj.vec (Vec.ofVec v3)] (by simp [Obj.refs]) _ ?_⟩
    have g0 : ((h ++ [Obj.vec (Vec.ofVec v1), Obj.vec (Vec.ofVec v2), Obj.vec (Vec.ofVec v3)]).set a0 (Obj.tri h.length (h.length + 1) (h.length + 2)))[a0]? = some (Obj.tri h.length (h.length + 1) (h.length + 2)) :=
      List.getElem?_set_self (by rw [List.length_append]; omega)
    have g1 : ((h ++ [Obj.vec (Vec.ofVec v1), Obj.vec (Vec.ofVec v2), Obj.vec (Vec.ofVec v3)]).set a0 (Obj.tri h.length (h.length + 1) (h.length + 2)))[h.length + 0]? = some (Obj.vec (Vec.ofVec v1)) := by
      rw [List.getElem?_set_ne (by omega)]; simp
    have g2 : ((h ++ [Obj.vec (Vec.ofVec v1), Obj.vec (Vec.ofVec v2), Obj.vec (Vec.ofVec v3)]).set a0 (Obj.tri h.length (h.length + 1) (h.length + 2)))[h.length + 1]? = some (Obj.vec (Vec.ofVec v2)) := by
      rw [List.getElem?_set_ne (by omega)]; simp
    have g3 : ((h ++ [Obj.vec (Vec.ofVec v1), Obj.vec (Vec.ofVec v2), Obj.vec (Vec.ofVec v3)]).set a0 (Obj.tri h.length (h.length + 1) (h.length + 2)))[h.length + 2]? = some (Obj.vec (Vec.ofVec v3)) := by
      rw [List.getElem?_set_ne (by omega)]; simp
    exact ⟨_, _, _, g0, by omega, by omega, by omega, g1, g2, g3⟩
  | triAssignSeg t s i =>
    simp only [Call.effect, Option.bind_eq_bind, Option.bind_eq_some_iff, Option.some.injEq] at he
    obtain ⟨v0, hv0, v1, hv1, v2, hv2, rfl⟩ := he
    obtain ⟨a0, r0, e0, m0⟩ := hs.tri hv0
    obtain ⟨a1, r1, e1, m1⟩ := hs.seg hv1
    obtain ⟨a2, r2, e2, m2⟩ := hs.vec hv2
    obtain ⟨p', q', r', k3, _, _, _, _, _, _⟩ := id m0
    obtain ⟨p, q, k0, _, k1, k2⟩ := m1
    have lt : a0 < h.length := m0.lt _ (mem_parts_self h _)
    refine ⟨none, (h ++ [Obj.vec (Vec.ofVec v1.origin), Obj.vec (Vec.ofVec v1.terminal), Obj.vec (Vec.ofVec v2)]).set a0 (Obj.tri h.length (h.length + 1) (h.length + 2)), by simp [Call.exec, r0, r1, r2, Heap.triAssignSeg, Heap.vec_ok.mpr m2, rd_vec m2, Heap.tri, k3, Heap.seg, k0, Heap.vec_ok.mpr k1, Heap.vec_ok.mpr k2, rd_vec k1, rd_vec k2, Heap.newVecCopy, Heap.newAngleCopy, Heap.newSizeCopy, Heap.alloc, Heap.write, bind, Except.bind, pure, Except.pure],
      hs.set_new e0 [Obj.vec (Vec.ofVec v1.origin), Obj.vec (Vec.ofVec v1.terminal), Obj.vec (Vec.ofVec v2)] (by simp [Obj.refs]) _ ?_⟩
    have g0 : ((h ++ [Obj.vec (Vec.ofVec v1.origin), Obj.vec (Vec.ofVec v1.terminal), Obj.vec (Vec.ofVec v2)]).set a0 (Obj.tri h.length (h.length + 1) (h.length + 2)))[a0]? = some (Obj.tri h.length (h.length + 1) (h.length + 2)) :=
      List.getElem?_set_self (by rw [List.length_append]; omega)
    have g1 : ((h ++ [Obj.vec (Vec.ofVec v1.origin), Obj.vec (Vec.ofVec v1.terminal), Obj.vec (Vec.ofVec v2)]).set a0 (Obj.tri h.length (h.length + 1) (h.length + 2)))[h.length + 0]? = some (Obj.vec (Vec.ofVec v1.origin)) := by
      rw [List.getElem?_set_ne (by omega)]; simp
    have g2 : ((h ++ [Obj.vec (Vec.ofVec v1.origin), Obj.vec (Vec.ofVec v1.terminal), Obj.vec (Vec.ofVec v2)]).set a0 (Obj.tri h.length (h.length + 1) (h.length + 2)))[h.length + 1]? = some (Obj.vec (Vec.ofVec v1.terminal)) := by
      rw [List.getElem?_set_ne (by omega)]; simp
    have g3 : ((h ++ [Obj.vec (Vec.ofVec v1.origin), Obj.vec (Vec.ofVec v1.terminal), Obj.vec (Vec.ofVec v2)]).set a0 (Obj.tri h.length (h.length + 1) (h.length + 2)))[h.length + 2]? = some (Obj.vec (Vec.ofVec v2)) := by
      rw [List.getElem?_set_ne (by omega)]; simp
    exact ⟨_, _, _, g0, by omega, by omega, by omega, g1, g2, g3⟩
  | segSwap s =>
    simp only [Call.effect, Option.bind_eq_bind, Option.bind_eq_some_iff, Option.some.injEq] at he
    obtain ⟨v0, hv0, rfl⟩ := he
    obtain ⟨a0, r0, e0, m0⟩ := hs.seg hv0
    obtain ⟨p, q, k0, n, k1, k2⟩ := m0
    have lt : a0 < h.length := (List.getElem?_eq_some_iff.mp k0).1
    have n1 : a0 ≠ p := by rintro rfl; rw [k1] at k0; simp at k0
    have n2 : a0 ≠ q := by rintro rfl; rw [k2] at k0; simp at k0
    refine ⟨none, h.set a0 (Obj.seg q p), by simp [Call.exec, r0, Heap.segSwap, Heap.seg, k0, Heap.alloc, Heap.write, bind, Except.bind, pure, Except.pure], hs.upd e0 _ ?_ ?_ ?_⟩
    · exact ⟨q, p, List.getElem?_set_self lt, n.symm, by rw [List.getElem?_set_ne n2, k2]; rfl, by rw [List.getElem?_set_ne n1, k1]; rfl⟩
    · intro x _ hx
      exact List.getElem?_set_ne (by rintro rfl; exact hx (mem_parts_self h _))
    · intro x hx
      simp only [parts, List.getElem?_set_self lt, k0, Obj.refs, List.mem_cons, List.not_mem_nil, or_false] at hx ⊢; tauto
  | rect r c =>
    simp only [Call.effect, Option.bind_eq_bind, Option.bind_eq_some_iff, Option.some.injEq] at he
    obtain ⟨v, hv, w, hw, rfl⟩ := he
    obtain ⟨a, ra, ea, p, s, k0, k1, k2⟩ := hs.rect hv
    obtain ⟨c', hc', hw'⟩ := RectCall.deref_value hs ea v c hw
    have hk : (knownAt env E).rect a = some v := by rw [← hv]; exact hs.byAddr _ ea
    obtain ⟨h', hrun, p', s', hr', hp', hz', hpp, hss, fr⟩ := RectCall.step hs.separate hk k0 c' hw'
    refine ⟨none, h', by simp [Call.exec, ra, hc', hrun, bind, Except.bind], hs.upd ea _ ⟨p', s', hr', hp', hz'⟩ ?_ ?_⟩
    · intro x hx hn
      simp only [parts, k0, Obj.refs, List.mem_cons, List.not_mem_nil, or_false, not_or] at hn
      exact fr x hx hn.1 hn.2.1 hn.2.2
    · intro x hx
      simp only [parts, k0, hr', Obj.refs, List.mem_cons, List.not_mem_nil, or_false] at hx ⊢
      rcases hx with rfl | rfl | rfl
      · exact Or.inl (Or.inl rfl)
      · rcases hpp with e | e
        · exact Or.inl (Or.inr (Or.inl e))
        · exact Or.inr e
      · rcases hss with e | e
        · exact Or.inl (Or.inr (Or.inr e))
        · exact Or.inr e


/-- Run a program on objects. -/
noncomputable def runProgram (h : Heap ℝ) (env : List ℕ) : List Call → Except PyErr (Heap ℝ × List ℕ)
  | [] => .ok (h, env)
  | c :: cs => do let (r, h) ← c.exec h env; runProgram h (newEnv env r) cs

/-- Run a program on values; `none` if an argument has the wrong class or a call raises. -/
noncomputable def valueProgram (E : List Val) : List Call → Option (List Val)
  | [] => some E
  | c :: cs => do let e ← c.effect E; valueProgram (e.apply E) cs

/-- **C158** Programs over vectors, angles, sizes, matrices, segments, rays, circles, sectors, triangles and rectangles have
value semantics: whenever the program runs on values, where a call yields one new value or changes the value of its receiver
only, the same program on objects raises nothing, and afterwards every object has exactly the value computed.  No call
changes an object that it was not called on, however the objects were made from each other. -/
theorem C158_program {h : Heap ℝ} {env : List ℕ} {E E' : List Val} (hs : ValuesOf h env E) (prog : List Call)
    (hE : valueProgram E prog = some E') : ∃ h' env', runProgram h env prog = .ok (h', env') ∧ ValuesOf h' env' E' := by
  induction prog generalizing h env E with
  | nil => obtain rfl := Option.some.inj hE; exact ⟨h, env, rfl, hs⟩
  | cons c cs ih =>
    obtain ⟨e, he, hE⟩ := Option.bind_eq_some_iff.mp hE
    obtain ⟨r, h1, h2, h3⟩ := c.step hs he
    obtain ⟨h', env', h4, h5⟩ := ih h3 hE
    exact ⟨h', env', by simp only [runProgram, h2, bind, Except.bind]; exact h4, h5⟩

/-- **C158** From nothing: no hypothesis on the objects is left. -/
theorem C158_from_empty {E : List Val} (prog : List Call) (hE : valueProgram [] prog = some E) :
    ∃ h env, runProgram [] [] prog = .ok (h, env) ∧ ValuesOf h env E :=
  C158_program ⟨rfl, fun _ _ _ h => by simp at h, fun _ _ _ _ _ h => by simp at h⟩ prog hE

/-- **C158** A call in place leaves the value of every other object. -/
theorem C158_frame {E : List Val} {c : Call} {i j : ℕ} {v : Val} (hc : c.effect E = some (.upd i v)) (hij : j ≠ i) :
    ∀ E', valueProgram E [c] = some E' → E'[j]? = E[j]? := by
  intro E' hE
  simp only [valueProgram, hc, Option.bind_eq_bind, Option.bind_some, Option.some.injEq, Effect.apply] at hE
  rw [← hE, List.getElem?_set_ne hij.symm]

/-- `p = Vector2D(1, 2); q = Vector2D(4, 6); s = Segment2D(p, q); p.assign(7, 7); o = s.origin(); o += q; s.swap()`:
`p` is (7, 7), the segment still runs between (4, 6) and (1, 2), `o` is (5, 8). -/
example : ∃ h env, runProgram [] [] [.newVec 1 2, .newVec 4 6, .newSeg 0 1, .vecOp 0 (.assign 7 7), .segOrigin 2,
      .vecOp2 3 1 .iadd, .segSwap 2] = .ok (h, env) ∧
    ValuesOf h env [.vec ⟨7, 7, true⟩, .vec ⟨4, 6, true⟩, .seg ⟨⟨4, 6, true⟩, ⟨1, 2, true⟩⟩, .vec ⟨5, 8, true⟩] := by
  refine C158_from_empty _ ?_
  simp [valueProgram, Call.effect, Effect.apply, Val.vec?, Val.seg?, Vec.ofXY, Vec.ofVec, Seg.ofPoints, Seg.swap, VecCall.value,
    VecCall2.value, Vec.assign, Vec.iadd]
  norm_num

end PyrusGeom
